import Verif.Lemmas.Bytes
import Verif.Spec.Script
/-
Helper lemmas for `Model/Utils`.
-/
namespace Bit

theorem hexDigit_val {n : Nat} (h : n < 16) : hexVal (hexDigit n) = some n := by
  have : ∀ n : Fin 16, hexVal (hexDigit n.val) = some n.val := by decide
  exact this ⟨n, h⟩

theorem hexDigit_space {n : Nat} (h : n < 16) : isHexSpace (hexDigit n) = false := by
  have : ∀ n : Fin 16, isHexSpace (hexDigit n.val) = false := by decide
  exact this ⟨n, h⟩

theorem bytesToHex_length (b : Bytes) : (bytesToHex b).length = 2 * b.length := by
  induction b with
  | nil => rfl
  | cons x b ih => simp [bytesToHex, ih]; omega

theorem fromHex_bytesToHex (b : Bytes) : fromHex (bytesToHex b) = .ok b := by
  induction b with
  | nil => rfl
  | cons x b ih =>
    have hx := u8_lt x
    have h1 : x.toNat / 16 < 16 := by omega
    have h2 : x.toNat % 16 < 16 := Nat.mod_lt _ (by norm_num)
    simp only [bytesToHex, fromHex, hexDigit_space h1, Bool.false_eq_true, if_false,
      hexDigit_val h1, hexDigit_val h2, ih]
    rw [show 16 * (x.toNat / 16) + x.toNat % 16 = x.toNat by omega, u8_toNat_ofNat]

theorem hexToBytes_bytesToHex (b : Bytes) : hexToBytes (bytesToHex b) = .ok b := by
  unfold hexToBytes
  have : ¬ ((bytesToHex b).length % 2 = 1) := by rw [bytesToHex_length]; omega
  simp only [this, if_false, fromHex_bytesToHex]

theorem hexTextLoop_bytesToHex (b : Bytes) : ∀ acc,
    hexTextLoop acc (bytesToHex b) = .ok (acc * 256 ^ b.length + beNat b) := by
  induction b with
  | nil => intro acc; simp [bytesToHex, hexTextLoop, beNat, leNat]
  | cons x b ih =>
    intro acc
    have hx := u8_lt x
    have h1 : x.toNat / 16 < 16 := by omega
    have h2 : x.toNat % 16 < 16 := Nat.mod_lt _ (by norm_num)
    simp only [bytesToHex, hexTextLoop, hexDigit_val h1, hexDigit_val h2, ih, beNat_cons,
      List.length_cons]
    congr 1
    have : (acc * 16 + x.toNat / 16) * 16 + x.toNat % 16 = acc * 256 + x.toNat := by omega
    rw [this, pow_succ]; ring

theorem hexInt_eq (b : Bytes) : hexInt b = if b = [] then .error .valueError else .ok (beNat b) := by
  cases b with
  | nil => rfl
  | cons x b =>
    have h := hexTextLoop_bytesToHex (x :: b) 0
    unfold hexInt hexToInt
    rw [h]
    simp [bytesToHex]

theorem readAsInt_append (b rest : Bytes) (hb : b ≠ []) :
    readAsInt (b ++ rest) b.length = .ok (leNat b, rest) := by
  unfold readAsInt
  rw [hexInt_eq]
  simp [hb, beNat_reverse]

theorem toBytesBE_ok {n len : Nat} (h : n < 256 ^ len) :
    toBytesBE (n : Int) len = .ok (leBytes len n).reverse := by
  have : ((n : Int) < ((256 ^ len : Nat) : Int)) := by exact_mod_cast h
  simp only [toBytesBE, this, and_true, Int.natCast_nonneg, if_true, Int.toNat_natCast]

theorem leBytes_one {n : Nat} (h : n < 256) : leBytes 1 n = [UInt8.ofNat n] := by
  simp [leBytes, Nat.mod_eq_of_lt h]

theorem leValue_eq (b : Bytes) : Spec.leValue b = leNat b := by
  induction b with
  | nil => rfl
  | cons x b ih => simp [Spec.leValue, leNat, ih]

theorem splitOff_append (a b : Bytes) : Spec.splitOff a.length (a ++ b) = some (a, b) := by
  simp [Spec.splitOff]

/-- varint encodings by size class -/
theorem intToVarint_cases (n : Nat) :
    (n < 253 ∧ intToVarint n = .ok [UInt8.ofNat n]) ∨
    (253 ≤ n ∧ n < 2 ^ 16 ∧ intToVarint n = .ok (0xfd :: leBytes 2 n)) ∨
    (2 ^ 16 ≤ n ∧ n < 2 ^ 32 ∧ intToVarint n = .ok (0xfe :: leBytes 4 n)) ∨
    (2 ^ 32 ≤ n ∧ n < 2 ^ 64 ∧ intToVarint n = .ok (0xff :: leBytes 8 n)) ∨
    (2 ^ 64 ≤ n ∧ intToVarint n = .error .overflowError) := by
  unfold intToVarint
  by_cases h1 : n < 253
  · left
    refine ⟨h1, ?_⟩
    rw [if_pos h1, toBytesLE_ok (by simp; omega), leBytes_one (by omega)]
  · rw [if_neg h1]
    by_cases h2 : n ≤ 65535
    · right; left
      refine ⟨by omega, by omega, ?_⟩
      rw [if_pos h2, toBytesLE_ok (by norm_num; omega)]; rfl
    · rw [if_neg h2]
      by_cases h3 : n ≤ 4294967295
      · right; right; left
        refine ⟨by omega, by omega, ?_⟩
        rw [if_pos h3, toBytesLE_ok (by norm_num; omega)]; rfl
      · rw [if_neg h3]
        by_cases h4 : n < 2 ^ 64
        · right; right; right; left
          refine ⟨by omega, h4, ?_⟩
          rw [toBytesLE_ok (by norm_num at h4 ⊢; omega)]; rfl
        · right; right; right; right
          refine ⟨by omega, ?_⟩
          rw [toBytesLE_overflow (Or.inr (by norm_num at h4 ⊢; omega))]; rfl

theorem readVarInt_small {b : UInt8} (h : b.toNat < 253) (rest : Bytes) :
    readVarInt (b :: rest) = .ok (b.toNat, rest) := by
  unfold readVarInt
  rw [hexInt_eq]
  simp [beNat, leNat, h]

theorem readVarInt_wide {b : UInt8} {k : Nat} (h : b.toNat = 252 + k) (hk : 1 ≤ k) (l rest : Bytes)
    (hl : l.length = 2 ^ k) : readVarInt (b :: (l ++ rest)) = .ok (leNat l, rest) := by
  unfold readVarInt
  rw [hexInt_eq]
  have h1 : beNat [b] = 252 + k := by simp [beNat, leNat, h]
  have hlt : ¬ (252 + k < 253) := by omega
  have hne : l ≠ [] := by
    intro he; rw [he] at hl
    have := Nat.two_pow_pos k
    simp at hl; omega
  simp only [List.take_succ_cons, List.take_zero, List.cons_ne_nil, if_false, h1, hlt,
    List.drop_succ_cons, List.drop_zero, Nat.add_sub_cancel_left]
  rw [← hl]
  exact readAsInt_append l rest hne

theorem readVarInt_varint {n : Nat} {v : Bytes} (h : intToVarint n = .ok v) (rest : Bytes) :
    readVarInt (v ++ rest) = .ok (n, rest) := by
  rcases intToVarint_cases n with ⟨h1, e⟩ | ⟨h1, h2, e⟩ | ⟨h1, h2, e⟩ | ⟨h1, h2, e⟩ | ⟨h1, e⟩
  · rw [e] at h; injection h with h; subst h
    have := readVarInt_small (b := UInt8.ofNat n) (by rw [u8_ofNat_toNat n (by omega)]; exact h1) rest
    rwa [u8_ofNat_toNat n (by omega)] at this
  · rw [e] at h; injection h with h; subst h
    have := readVarInt_wide (b := 0xfd) (k := 1) rfl (by norm_num) (leBytes 2 n) rest (by simp)
    rwa [leNat_leBytes_of_lt (by norm_num; omega)] at this
  · rw [e] at h; injection h with h; subst h
    have := readVarInt_wide (b := 0xfe) (k := 2) rfl (by norm_num) (leBytes 4 n) rest (by simp)
    rwa [leNat_leBytes_of_lt (by norm_num; omega)] at this
  · rw [e] at h; injection h with h; subst h
    have := readVarInt_wide (b := 0xff) (k := 3) rfl (by norm_num) (leBytes 8 n) rest (by simp)
    rwa [leNat_leBytes_of_lt (by norm_num at h2 ⊢; omega)] at this
  · rw [e] at h; cases h

/-! ### fuel of the loops -/

theorem chunkAux_fuel {α : Type} {size : Nat} (hs : 0 < size) :
    ∀ (f g : Nat) (l : List α), l.length ≤ f → l.length ≤ g → chunkAux size f l = chunkAux size g l := by
  intro f
  induction f with
  | zero =>
    intro g l hf _
    have : l = [] := List.length_eq_zero_iff.mp (by omega)
    subst this
    cases g <;> simp [chunkAux]
  | succ f ih =>
    intro g l hf hg
    cases g with
    | zero =>
      have : l = [] := List.length_eq_zero_iff.mp (by omega)
      subst this
      simp [chunkAux]
    | succ g =>
      unfold chunkAux
      split
      · rfl
      · rename_i hne
        have hlen : (l.drop size).length < l.length := by
          have : 0 < l.length := List.length_pos_iff.mpr (by simpa using hne)
          rw [List.length_drop]; omega
        rw [ih g (l.drop size) (by omega) (by omega)]

theorem readVarInt_shorter {s rest : Bytes} {n : Nat} (h : readVarInt s = .ok (n, rest)) :
    rest.length < s.length := by
  cases s with
  | nil => simp [readVarInt, hexInt_eq] at h
  | cons b s =>
    unfold readVarInt at h
    rw [hexInt_eq] at h
    simp only [List.take_succ_cons, List.take_zero, List.cons_ne_nil, if_false,
      List.drop_succ_cons, List.drop_zero] at h
    split at h
    · injection h with h; injection h with _ h; rw [← h]; simp
    · unfold readAsInt at h
      split at h
      · injection h with h; injection h with _ h; rw [← h, List.length_drop, List.length_cons]; exact Nat.lt_succ_of_le (Nat.sub_le _ _)
      · cases h

/-- the fuel of the signature loop never runs out -/
theorem getSigsLoop_fuel (isDer : Bytes → Bool) : ∀ (f g : Nat) (s : Bytes), s.length ≤ f →
    s.length ≤ g → getSigsLoop isDer f s = getSigsLoop isDer g s := by
  intro f
  induction f with
  | zero =>
    intro g s hf _
    have : s = [] := List.length_eq_zero_iff.mp (by omega)
    subst this
    cases g <;> simp [getSigsLoop]
  | succ f ih =>
    intro g s hf hg
    cases g with
    | zero =>
      have : s = [] := List.length_eq_zero_iff.mp (by omega)
      subst this
      simp [getSigsLoop]
    | succ g =>
      unfold getSigsLoop
      split
      · rfl
      · cases hr : readVarInt s with
        | error e => rfl
        | ok p =>
          obtain ⟨val, s'⟩ := p
          have hlt := readVarInt_shorter hr
          simp only [readBytes]
          rw [ih g (s'.drop val) (by simp; omega) (by simp; omega)]

end Bit
