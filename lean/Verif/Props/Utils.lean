import Verif.Lemmas.Utils
import Verif.Concrete.Crypto
/-
Properties C12, C13, C14: hex helpers, compact-size integers, script pushes.
-/
namespace Bit
open Concrete

/-! ## C12 -/

/-- C12. Hexadecimal text of bytes reads back as the bytes, and has two lower-case hexadecimal
digits per byte. -/
theorem C12_hex_roundtrip (b : Bytes) :
    hexToBytes (bytesToHex b) = .ok b ∧ (bytesToHex b).length = 2 * b.length ∧
    (∀ c ∈ bytesToHex b, c ∈ "0123456789abcdef".toList) := by
  refine ⟨hexToBytes_bytesToHex b, bytesToHex_length b, ?_⟩
  have tab : ∀ n : Fin 16, hexDigit n.val ∈ "0123456789abcdef".toList := by decide
  induction b with
  | nil => intro c hc; cases hc
  | cons x b ih =>
    have hx := u8_lt x
    intro c hc
    simp only [bytesToHex, List.mem_cons] at hc
    rcases hc with rfl | rfl | hc
    · exact tab ⟨x.toNat / 16, by omega⟩
    · exact tab ⟨x.toNat % 16, Nat.mod_lt _ (by norm_num)⟩
    · exact ih c hc

private theorem hexdigit_facts (c : Char) (h : c ∈ "0123456789abcdefABCDEF".toList) :
    isHexSpace c = false ∧ ∃ v, v < 16 ∧ hexVal c = some v ∧ hexDigit v = c.toLower := by
  have : ∀ c ∈ "0123456789abcdefABCDEF".toList, isHexSpace c = false ∧
      ∃ v ∈ List.range 16, hexVal c = some v ∧ hexDigit v = c.toLower := by decide +kernel
  obtain ⟨h1, v, hv, h2, h3⟩ := this c h
  exact ⟨h1, v, List.mem_range.mp hv, h2, h3⟩

private theorem fromHex_digits : ∀ (n : Nat) (s : Str), s.length = 2 * n →
    (∀ c ∈ s, c ∈ "0123456789abcdefABCDEF".toList) →
    ∃ b : Bytes, b.length = n ∧ fromHex s = .ok b ∧ bytesToHex b = s.map Char.toLower := by
  intro n
  induction n with
  | zero =>
    intro s hl _
    have : s = [] := List.length_eq_zero_iff.mp (by omega)
    subst this
    exact ⟨[], rfl, rfl, rfl⟩
  | succ n ih =>
    intro s hl hs
    match s, hl with
    | c :: d :: s, hl =>
      obtain ⟨b, b1, b2, b3⟩ := ih s (by simp at hl; omega) fun x hx => hs x (by simp [hx])
      obtain ⟨c1, v, v1, v2, v3⟩ := hexdigit_facts c (hs c (by simp))
      obtain ⟨_, w, w1, w2, w3⟩ := hexdigit_facts d (hs d (by simp))
      refine ⟨UInt8.ofNat (16 * v + w) :: b, by simp [b1], ?_, ?_⟩
      · simp only [fromHex, c1, Bool.false_eq_true, if_false, v2, w2, b2]
      · simp only [bytesToHex, u8_ofNat_toNat (16 * v + w) (by omega), List.map_cons, b3]
        rw [show (16 * v + w) / 16 = v by omega, show (16 * v + w) % 16 = w by omega, v3, w3]

/-- C12. Hexadecimal text of even length and any case reads as bytes whose text is its lower-case
form. -/
theorem C12_hex_canonical (s : Str) (heven : s.length % 2 = 0)
    (hs : ∀ c ∈ s, c ∈ "0123456789abcdefABCDEF".toList) :
    ∃ b, hexToBytes s = .ok b ∧ bytesToHex b = s.map Char.toLower := by
  obtain ⟨b, _, b2, b3⟩ := fromHex_digits (s.length / 2) s (by omega) hs
  refine ⟨b, ?_, b3⟩
  unfold hexToBytes
  rw [if_neg (by omega), b2]

example : ∃ b, hexToBytes (str "0aFf") = .ok b ∧ bytesToHex b = str "0aff" :=
  C12_hex_canonical _ (by decide) (by decide)

/-- C12. Odd-length hexadecimal text is read as if preceded by `0`. -/
theorem C12_hex_odd (s : Str) (hodd : s.length % 2 = 1) :
    hexToBytes s = hexToBytes ('0' :: s) := by
  unfold hexToBytes
  rw [if_pos hodd, if_neg (by simp; omega)]

/-- C12. Flipping the byte order reverses the bytes; doing it twice is the identity on lower-case
text of even length. -/
theorem C12_flip_involutive (s : Str) (heven : s.length % 2 = 0)
    (hs : ∀ c ∈ s, c ∈ "0123456789abcdef".toList) :
    ∃ t, flipHexByteOrder s = .ok t ∧ flipHexByteOrder t = .ok s ∧
      (∀ b, hexToBytes s = .ok b → hexToBytes t = .ok b.reverse) := by
  have hsub : ∀ c ∈ "0123456789abcdef".toList, c ∈ "0123456789abcdefABCDEF".toList ∧ c.toLower = c := by
    decide +kernel
  obtain ⟨b, b1, b2⟩ := C12_hex_canonical s heven fun c hc => (hsub c (hs c hc)).1
  have hlow : s.map Char.toLower = s := by
    conv_rhs => rw [← List.map_id s]
    exact List.map_congr_left fun c hc => (hsub c (hs c hc)).2
  refine ⟨bytesToHex b.reverse, ?_, ?_, ?_⟩
  · unfold flipHexByteOrder; rw [b1]
  · unfold flipHexByteOrder
    rw [hexToBytes_bytesToHex]
    simp [b2, hlow]
  · intro b' hb'
    rw [b1] at hb'; injection hb' with hb'; subst hb'
    exact hexToBytes_bytesToHex _

example : flipHexByteOrder (str "00ff12") = .ok (str "12ff00") := by decide +kernel

/-- Hexadecimal text of a number (`int_to_hex`) reads back as the number. -/
theorem C12_int_hex_roundtrip (n : Nat) : hexToInt (intToHex n) = .ok n := by
  have loop : ∀ (f n : Nat) (acc : Str), n ≤ f →
      ∀ k, hexTextLoop k (intToHexLoop f n acc) = hexTextLoop (k * 16 ^ ((intToHexLoop f n []).length) + n) acc := by
    intro f
    induction f with
    | zero => intro n acc h k; have : n = 0 := by omega
              subst this; simp [intToHexLoop]
    | succ f ih =>
      intro n acc h k
      by_cases hn : n = 0
      · subst hn; simp [intToHexLoop]
      · have hd : n / 16 ≤ f := by omega
        have hacc : ∀ (f n : Nat) (a : Str), intToHexLoop f n a = intToHexLoop f n [] ++ a := by
          intro f
          induction f with
          | zero => intro n a; simp [intToHexLoop]
          | succ f ih2 =>
            intro n a
            by_cases hn : n = 0
            · simp [intToHexLoop, hn]
            · simp only [intToHexLoop, hn, if_false]
              rw [ih2 _ (_ :: a), ih2 _ [_]]; simp
        simp only [intToHexLoop, hn, if_false]
        rw [ih (n / 16) _ hd k, hacc f (n / 16) [hexDigit (n % 16)]]
        simp only [hexTextLoop, hexDigit_val (Nat.mod_lt n (by norm_num : 16 > 0)),
          List.length_append, List.length_singleton, pow_succ]
        congr 1
        have := Nat.div_add_mod n 16
        ring_nf
        ring_nf at this
        omega
  by_cases hn : n = 0
  · subst hn; decide
  · unfold intToHex hexToInt
    simp only [hn, if_false]
    have h := loop n n [] (Nat.le_refl n) 0
    simp only [Nat.zero_mul, Nat.zero_add, hexTextLoop] at h
    rw [h]
    have hne : intToHexLoop n n [] ≠ [] := by
      intro he
      rw [he] at h
      simp [hexTextLoop] at h
      exact hn h.symm
    simp [hne]

/-! ## C13 -/

/-- C13. Reading back an encoded compact-size integer from the front of any stream gives the value
and the untouched rest. -/
theorem C13_varint_roundtrip (n : Nat) (v rest : Bytes) (h : intToVarint n = .ok v) :
    readVarInt (v ++ rest) = .ok (n, rest) := readVarInt_varint h rest

/-- C13. Encoding succeeds exactly below 2^64 and otherwise raises `OverflowError`; the encoding has
1, 3, 5 or 9 bytes according to the size of the value, and is what the protocol's parser reads. -/
theorem C13_varint_size (n : Nat) :
    (n < 2 ^ 64 → ∃ v, intToVarint n = .ok v ∧
      v.length = (if n < 253 then 1 else if n < 2 ^ 16 then 3 else if n < 2 ^ 32 then 5 else 9) ∧
      ∀ rest, Spec.parseCompact (v ++ rest) = some (n, rest)) ∧
    (2 ^ 64 ≤ n → intToVarint n = .error .overflowError) := by
  rcases intToVarint_cases n with ⟨h1, e⟩ | ⟨h1, h2, e⟩ | ⟨h1, h2, e⟩ | ⟨h1, h2, e⟩ | ⟨h1, e⟩
  · refine ⟨fun _ => ⟨_, e, by simp [h1], fun rest => ?_⟩, fun h => by omega⟩
    simp [Spec.parseCompact, u8_ofNat_toNat n (by omega), h1]
  · refine ⟨fun _ => ⟨_, e, by simp; split_ifs <;> omega, fun rest => ?_⟩, fun h => by omega⟩
    have := splitOff_append (leBytes 2 n) rest
    simp only [leBytes_length] at this
    simp [Spec.parseCompact, this, leValue_eq, leNat_leBytes_of_lt (n := n) (len := 2) (by norm_num; omega)]
  · refine ⟨fun _ => ⟨_, e, by simp; split_ifs <;> omega, fun rest => ?_⟩, fun h => by omega⟩
    have := splitOff_append (leBytes 4 n) rest
    simp only [leBytes_length] at this
    simp [Spec.parseCompact, this, leValue_eq, leNat_leBytes_of_lt (n := n) (len := 4) (by norm_num; omega)]
  · refine ⟨fun _ => ⟨_, e, by simp; split_ifs <;> omega, fun rest => ?_⟩, fun h => by omega⟩
    have := splitOff_append (leBytes 8 n) rest
    simp only [leBytes_length] at this
    simp [Spec.parseCompact, this, leValue_eq,
      leNat_leBytes_of_lt (n := n) (len := 8) (by norm_num at h2 ⊢; omega)]
  · exact ⟨fun h => by omega, fun _ => e⟩

/-- C13. No shorter byte string is read as the same value. -/
theorem C13_varint_minimal (n : Nat) (v w : Bytes) (h : intToVarint n = .ok v)
    (hw : Spec.parseCompact w = some (n, [])) : v.length ≤ w.length := by
  cases w with
  | nil => simp [Spec.parseCompact] at hw
  | cons b w =>
    unfold Spec.parseCompact at hw
    by_cases hb : b.toNat < 253
    · simp only [hb, if_true, Option.some.injEq, Prod.mk.injEq] at hw
      obtain ⟨rfl, rfl⟩ := hw
      rcases intToVarint_cases b.toNat with ⟨h1, e⟩ | ⟨h1, h2, e⟩ | ⟨h1, h2, e⟩ | ⟨h1, h2, e⟩ | ⟨h1, e⟩
      · rw [e] at h; injection h with h; subst h; simp
      all_goals omega
    · simp only [hb, if_false] at hw
      set k := (if b = 0xfd then 2 else if b = 0xfe then 4 else 8) with hk
      rw [Spec.splitOff] at hw
      split at hw
      · rename_i hle
        simp only [Option.map_some, Option.some.injEq, Prod.mk.injEq] at hw
        obtain ⟨hn, hd⟩ := hw
        have hwl : w.length = k := by
          have := congrArg List.length hd
          simp at this; omega
        rw [leValue_eq] at hn
        have hlt : n < 256 ^ k := by
          have := leNat_lt (w.take k)
          rw [hn] at this
          simpa [hwl] using this
        have hk3 : k = 2 ∨ k = 4 ∨ k = 8 := by
          rw [hk]; split
          · simp
          · split <;> simp
        rcases intToVarint_cases n with ⟨h1, e⟩ | ⟨h1, h2, e⟩ | ⟨h1, h2, e⟩ | ⟨h1, h2, e⟩ | ⟨h1, e⟩
        · rw [e] at h; injection h with h; subst h; simp
        · rw [e] at h; injection h with h; subst h; simp; omega
        · rw [e] at h; injection h with h; subst h; simp
          rcases hk3 with h3 | h3 | h3 <;> rw [h3] at hlt <;> omega
        · rw [e] at h; injection h with h; subst h; simp
          rcases hk3 with h3 | h3 | h3 <;> rw [h3] at hlt <;> omega
        · rw [e] at h; cases h
      · simp at hw

example : intToVarint 70000 = .ok [0xfe, 0x70, 0x11, 0x01, 0x00] := by decide +kernel
example : readVarInt [0xfe, 0x70, 0x11, 0x01, 0x00, 0xaa] = .ok (70000, [0xaa]) := by decide +kernel

/-! ## C14 -/

/-- C14. A push prefix for `n` followed by `n` bytes is parsed by the script rules as pushing
exactly these bytes, for every `n` below 2^32. -/
theorem C14_script_push_parses (data rest : Bytes) (h : data.length < 2 ^ 32) :
    ∃ p, scriptPush data.length = .ok p ∧
      Spec.parsePush (p ++ (data ++ rest)) = some (data, rest) := by
  set n := data.length with hn
  unfold scriptPush
  have hsplit : Spec.splitOff n (data ++ rest) = some (data, rest) := splitOff_append data rest
  by_cases h1 : n ≤ 75
  · refine ⟨_, by rw [if_pos h1], ?_⟩
    rw [intToUnknownBytes_lt256 (by omega)]
    have : (UInt8.ofNat n).toNat = n := u8_ofNat_toNat n (by omega)
    simp [Spec.parsePush, this, h1, hsplit]
  · rw [if_neg h1]
    by_cases h2 : n < 256
    · refine ⟨_, by rw [if_pos h2], ?_⟩
      rw [intToUnknownBytes_lt256 h2]
      have hb : (UInt8.ofNat n).toNat = n := u8_ofNat_toNat n h2
      have := splitOff_append [UInt8.ofNat n] (data ++ rest)
      simp only [List.length_singleton, List.singleton_append] at this
      simp [Spec.parsePush, this, leValue_eq, leNat, hb, hsplit]
    · rw [if_neg h2]
      by_cases h3 : n < 65536
      · refine ⟨_, by rw [if_pos h3, toBytesLE_ok (by norm_num; omega)]; rfl, ?_⟩
        have := splitOff_append (leBytes 2 n) (data ++ rest)
        simp only [leBytes_length] at this
        simp [Spec.parsePush, this, leValue_eq,
          leNat_leBytes_of_lt (n := n) (len := 2) (by norm_num; omega), hsplit]
      · refine ⟨_, by rw [if_neg h3, toBytesLE_ok (by norm_num; omega)]; rfl, ?_⟩
        have := splitOff_append (leBytes 4 n) (data ++ rest)
        simp only [leBytes_length] at this
        simp [Spec.parsePush, this, leValue_eq,
          leNat_leBytes_of_lt (n := n) (len := 4) (by norm_num; omega), hsplit]

/-- C14. Larger lengths raise `OverflowError`. -/
theorem C14_script_push_overflow (n : Nat) (h : 2 ^ 32 ≤ n) :
    scriptPush n = .error .overflowError := by
  unfold scriptPush
  rw [if_neg (by omega), if_neg (by omega), if_neg (by omega),
    toBytesLE_overflow (Or.inr (by norm_num at h ⊢; omega))]
  rfl

example : scriptPush 75 = .ok [0x4b] ∧ scriptPush 76 = .ok [0x4c, 0x4c] ∧
    scriptPush 255 = .ok [0x4c, 0xff] ∧ scriptPush 256 = .ok [0x4d, 0x00, 0x01] ∧
    scriptPush 65536 = .ok [0x4e, 0x00, 0x00, 0x01, 0x00] := by decide +kernel

end Bit
