import Verif.Props.Construct
import Verif.Props.Tx
/-
C23, C26: texts that differ from hexadecimal text by their case or by a newline at the end.
-/
namespace Bit
open Concrete

theorem fromHex_odd_newline (n : Nat) : ∀ s : Str, s.length = 2 * n + 1 → (∀ c ∈ s, (hexVal c).isSome) →
    fromHex (s ++ ['\n']) = .error .valueError := by
  have nsp : ∀ c : Char, (hexVal c).isSome → isHexSpace c = false := by
    intro c hc
    by_contra h
    simp only [Bool.not_eq_false] at h
    unfold isHexSpace at h
    simp only [Bool.or_eq_true, decide_eq_true_eq] at h
    have : hexVal c = none := by
      have hx : ∀ d : Char, d.toNat < 48 → hexVal d = none := by
        intro d hd
        unfold hexVal
        have a1 : ¬ '0' ≤ d := by rw [Char.le_def, UInt32.le_iff_toNat_le]; show ¬ 48 ≤ d.toNat; omega
        have a2 : ¬ 'a' ≤ d := by rw [Char.le_def, UInt32.le_iff_toNat_le]; show ¬ 97 ≤ d.toNat; omega
        have a3 : ¬ 'A' ≤ d := by rw [Char.le_def, UInt32.le_iff_toNat_le]; show ¬ 65 ≤ d.toNat; omega
        simp [a1, a2, a3]
      apply hx
      rcases h with ((((rfl | rfl) | rfl) | rfl) | h) | h
      · decide
      · decide
      · decide
      · decide
      · omega
      · omega
    rw [this] at hc
    cases hc
  induction n with
  | zero =>
    intro s hs hd
    match s, hs with
    | [c], _ =>
      have hc := hd c (by simp)
      have h1 : hexVal '\n' = none := by decide
      show fromHex [c, '\n'] = _
      unfold fromHex
      simp [nsp c hc, h1]
  | succ n ih =>
    intro s hs hd
    match s, hs with
    | c :: d :: s, hs =>
      have hc := hd c (by simp)
      have hdd := hd d (by simp)
      have := ih s (by simp at hs; omega) (fun x hx => hd x (by simp [hx]))
      obtain ⟨a, ha⟩ := Option.isSome_iff_exists.mp hc
      obtain ⟨b, hb⟩ := Option.isSome_iff_exists.mp hdd
      show fromHex (c :: d :: (s ++ ['\n'])) = _
      unfold fromHex
      simp [nsp c hc, ha, hb, this]

/-- C26. The pattern that recognises hexadecimal text also lets a newline at the end through. Such a text is refused all the
same, with ValueError: either the newline is taken for the second digit of a byte or, as the length decides about a zero in
front, the digits no longer come in pairs. -/
theorem C26_newline_refused (digits : Str) (h : ∀ c ∈ digits, (hexVal c).isSome) :
    deserializeHex (digits ++ ['\n']) = .error .valueError := by
  have key : hexToBytes (digits ++ ['\n']) = .error .valueError := by
    unfold hexToBytes
    by_cases hl : digits.length % 2 = 1
    · rw [if_neg (by simp; omega)]
      exact fromHex_odd_newline (digits.length / 2) digits (by omega) h
    · rw [if_pos (by simp; omega)]
      refine fromHex_odd_newline (digits.length / 2) ('0' :: digits) (by simp; omega) ?_
      intro c hc
      rcases List.mem_cons.mp hc with rfl | hc
      · decide
      · exact h c hc
  unfold deserializeHex
  rw [key]
  simp

/-- The same text is accepted without the newline. -/
example : (deserializeHex (str "0100000000000000000000")).toOption.isSome = true ∧
    deserializeHex (str "0100000000000000000000\n") = .error .valueError := by decide +kernel

private theorem space_not_digit {c : Char} (h : c ∈ " \t\n\r".toList) : isHexSpace c = true ∧ hexVal c = none := by
  have : ∀ c ∈ " \t\n\r".toList, isHexSpace c = true ∧ hexVal c = none := by decide +kernel
  exact this c h

private theorem fromHex_spaces {ws : Str} (h : ∀ c ∈ ws, c ∈ " \t\n\r".toList) (s : Str) : fromHex (ws ++ s) = fromHex s := by
  induction ws with
  | nil => rfl
  | cons c ws ih =>
    rw [List.cons_append, fromHex.eq_def]
    dsimp only
    rw [if_pos (space_not_digit (h c (by simp))).1]
    exact ih fun x hx => h x (by simp [hx])

private theorem fromHex_first {a b : Bytes} {s : Str} (h : fromHex s = .ok b) : fromHex (bytesToHex a ++ s) = .ok (a ++ b) := by
  induction a with
  | nil => exact h
  | cons x a ih =>
    have hx := u8_lt x
    have h1 : x.toNat / 16 < 16 := by omega
    have h2 : x.toNat % 16 < 16 := Nat.mod_lt _ (by norm_num)
    simp only [bytesToHex, List.cons_append, fromHex, hexDigit_space h1, Bool.false_eq_true, if_false,
      hexDigit_val h1, hexDigit_val h2, ih]
    rw [show 16 * (x.toNat / 16) + x.toNat % 16 = x.toNat by omega, u8_toNat_ofNat]

private theorem fromHex_shifted {c : Char} (hc : c ∈ " \t\n\r".toList) (s : Str) : ∀ (a : Bytes) (n : Nat), n < 16 →
    fromHex (hexDigit n :: (bytesToHex a ++ c :: s)) = .error .valueError
  | [], n, hn => by
    simp only [bytesToHex, List.nil_append, fromHex, hexDigit_space hn, Bool.false_eq_true, if_false, hexDigit_val hn,
      (space_not_digit hc).2]
  | x :: a, n, hn => by
    have hx := u8_lt x
    have h1 : x.toNat / 16 < 16 := by omega
    have h2 : x.toNat % 16 < 16 := Nat.mod_lt _ (by norm_num)
    simp only [bytesToHex, List.cons_append, fromHex, hexDigit_space hn, Bool.false_eq_true, if_false, hexDigit_val hn,
      hexDigit_val h1]
    rw [fromHex_shifted hc s a _ h2]

/-- C26. A hexadecimal text with blanks, tabs or line ends between two of its bytes is refused: with TypeError if there is an even
number of them, with ValueError otherwise. -/
theorem C26_white_space (a b : Bytes) (c : Char) (ws : Str) (h : ∀ x ∈ c :: ws, x ∈ " \t\n\r".toList) :
    deserializeHex (bytesToHex a ++ (c :: ws) ++ bytesToHex b) =
      .error (if (c :: ws).length % 2 = 0 then .typeError else .valueError) := by
  have hc := space_not_digit (h c (by simp))
  have hbad : (bytesToHex a ++ (c :: ws) ++ bytesToHex b).all (fun c => (hexVal c).isSome) = false := by
    rw [List.all_eq_false]
    exact ⟨c, by simp, by rw [hc.2]; simp⟩
  have hlen : (bytesToHex a ++ (c :: ws) ++ bytesToHex b).length = 2 * a.length + (c :: ws).length + 2 * b.length := by
    rw [List.length_append, List.length_append, bytesToHex_length, bytesToHex_length]
  have key : hexToBytes (bytesToHex a ++ (c :: ws) ++ bytesToHex b) =
      if (c :: ws).length % 2 = 0 then .ok (a ++ b) else .error .valueError := by
    unfold hexToBytes
    rw [hlen]
    split
    · rw [if_neg (by omega), List.append_assoc, List.cons_append]
      exact fromHex_shifted (h c (by simp)) _ a 0 (by norm_num)
    · rw [if_pos (by omega), List.append_assoc]
      exact fromHex_first ((fromHex_spaces h _).trans (fromHex_bytesToHex b))
  unfold deserializeHex
  rw [hbad, key]
  by_cases hp : (c :: ws).length % 2 = 0
  · simp only [hp, if_true, Bool.false_eq_true, if_false]
  · simp only [hp, if_false, Bool.false_eq_true]

example : deserializeHex (str "01000000  00000000000000") = .error .typeError ∧
    deserializeHex (str "01000000 00000000000000") = .error .valueError := by
  have h := C26_white_space [1, 0, 0, 0] [0, 0, 0, 0, 0, 0, 0] ' ' [' '] (by decide +kernel)
  have h' := C26_white_space [1, 0, 0, 0] [0, 0, 0, 0, 0, 0, 0] ' ' [] (by decide +kernel)
  exact ⟨by simpa [bytesToHex, hexDigit, str] using h, by simpa [bytesToHex, hexDigit, str] using h'⟩

/-- A hexadecimal digit in upper case. -/
def upperDigit (c : Char) : Char := if 97 ≤ c.toNat ∧ c.toNat ≤ 102 then Char.ofNat (c.toNat - 32) else c

/-- C23. The public keys are compared as texts: if they are all given in upper case, the contract is refused with ValueError,
unless the own key has no letter among its digits. -/
theorem C23_upper_case_refused (C : Crypto) (net : Net) (key : PrivKey) (hn : key.net = net) (keys : List Bytes) (m : Int)
    (c : Char) (hc : c ∈ bytesToHex (key.publicKey C)) (hl : 97 ≤ c.toNat ∧ c.toNat ≤ 102) :
    mkMultiSig C net key (.list (keys.map fun k => .hex ((bytesToHex k).map upperDigit))) m = .error .valueError ∧
    mkMultiSig C net key (.set (keys.map fun k => .hex ((bytesToHex k).map upperDigit))) m = .error .valueError := by
  have hno : .hex (bytesToHex (key.publicKey C)) ∉ keys.map fun k => PubArg.hex ((bytesToHex k).map upperDigit) := by
    intro hx
    obtain ⟨k, _, hk⟩ := List.mem_map.mp hx
    have hk := PubArg.hex.inj hk
    rw [← hk] at hc
    obtain ⟨d, _, hd⟩ := List.mem_map.mp hc
    unfold upperDigit at hd
    split at hd
    · next h =>
      subst hd
      have : (Char.ofNat (d.toNat - 32)).toNat = d.toNat - 32 := by
        generalize d.toNat = n at h
        obtain ⟨h1, h2⟩ := h
        interval_cases n <;> decide
      omega
    · next h => subst hd; exact h hl
  have hnb : .bytes (key.publicKey C) ∉ keys.map fun k => PubArg.hex ((bytesToHex k).map upperDigit) := by
    intro hx
    obtain ⟨k, _, hk⟩ := List.mem_map.mp hx
    cases hk
  exact ⟨(C23_refusals C net key _ m).2 hn hnb hno, (C23_refusals C net key _ m).2 hn hnb hno⟩

/-- A key with a letter among its digits. -/
example : 'f' ∈ bytesToHex ((⟨.main, List.replicate 32 0xf7, true⟩ : PrivKey).publicKey crypto) := by decide +kernel

end Bit
