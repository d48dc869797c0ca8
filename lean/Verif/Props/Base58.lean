import Verif.Lemmas.Base58
import Verif.Concrete.Crypto
/-
Properties C01, C02, C03: Base58 and Base58Check.
-/
namespace Bit
open Concrete

/-! ## C01 -/

/-- C01. Decoding the Base58 text of a byte string with a nonzero byte gives it back. -/
theorem C01_b58_roundtrip (b : Bytes) (h : ∃ x ∈ b, x ≠ 0) :
    b58decode (b58encode b) = .ok b := by
  obtain ⟨x, xs, hx, he⟩ := exists_ne_of_split h
  rw [he]
  exact b58decode_encode_ne _ x xs hx

example : b58decode (b58encode [0, 0, 1, 255]) = .ok [0, 0, 1, 255] :=
  C01_b58_roundtrip _ ⟨1, by decide, by decide⟩

/-- C01, exact domain: the round trip holds *only* for byte strings with a nonzero byte; an
all-zero byte string of length `n` comes back with `n + 1` zeros. -/
theorem C01_b58_roundtrip_iff (b : Bytes) :
    (b58decode (b58encode b) = .ok b ↔ ∃ x ∈ b, x ≠ 0) ∧
    ((∀ x ∈ b, x = 0) → b58decode (b58encode b) = .ok (List.replicate (b.length + 1) 0)) := by
  have hz : (∀ x ∈ b, x = 0) →
      b58decode (b58encode b) = .ok (List.replicate (b.length + 1) 0) := by
    intro h
    have : b = List.replicate b.length 0 := List.eq_replicate_iff.mpr ⟨rfl, h⟩
    conv_lhs => rw [this]
    rw [b58encode_zeros, b58decode_ones]
  refine ⟨⟨fun h => ?_, C01_b58_roundtrip b⟩, hz⟩
  by_contra hc
  have hc' : ∀ x ∈ b, x = 0 := by
    intro x hx
    by_contra hne
    exact hc ⟨x, hx, hne⟩
  have := hz hc'
  rw [h] at this
  have hl := congrArg (fun r => match r with | Except.ok b => b.length | .error _ => 0) this
  simp at hl

example : b58decode (b58encode [0]) = .ok [0, 0] := (C01_b58_roundtrip_iff [0]).2 (by simp)

/-- C01, meaning of the text: it writes the big-endian value of the bytes in base 58 with the
Bitcoin alphabet, preceded by one `1` per leading zero byte. -/
theorem C01_b58_value (k : Nat) (x : UInt8) (b : Bytes) (hx : x ≠ 0) :
    ∃ c t, b58encode (List.replicate k 0 ++ x :: b) = List.replicate k '1' ++ c :: t ∧
      c ≠ '1' ∧ Spec.base58Value (c :: t) = some (Spec.bytesValue (x :: b)) := by
  obtain ⟨c, t, he, hc⟩ := b58Digits_head (beNat_cons_ne_zero b hx)
  refine ⟨c, t, ?_, hc, ?_⟩
  · rw [b58encode_eq k x b hx, he]
  · rw [base58Value_eq, ← he, b58Num_digits, bytesValue_eq]; rfl

example : ∃ c t, b58encode [0, 0, 1, 255] = ['1', '1'] ++ c :: t ∧ c ≠ '1' ∧
    Spec.base58Value (c :: t) = some 511 :=
  C01_b58_value 2 1 [255] (by decide)

/-! ## C02 -/

/-- C02. A string decodes iff all its characters are Base58 digits; otherwise the outcome is
`ValueError`. -/
theorem C02_b58decode_domain (s : Str) :
    ((∃ b, b58decode s = .ok b) ↔ ∀ c ∈ s, (Spec.base58Digit c).isSome) ∧
    ((∃ c ∈ s, Spec.base58Digit c = none) → b58decode s = .error .valueError) := by
  have hiff : (∃ b, b58decode s = .ok b) ↔ ∀ c ∈ s, (Spec.base58Digit c).isSome := by
    simp only [base58Digit_eq]
    rw [← b58Num_ok_iff s 0]
    unfold b58decode
    cases b58Num 0 s <;> simp
  refine ⟨hiff, ?_⟩
  rintro ⟨c, hc, hn⟩
  unfold b58decode
  cases h : b58Num 0 s with
  | error e => rw [b58Num_err h]
  | ok v =>
    exfalso
    have := (b58Num_ok_iff s 0).mp ⟨v, h⟩ c hc
    rw [← base58Digit_eq, hn] at this
    cases this

example : b58decode (str "1BoatSL0") = .error .valueError :=
  (C02_b58decode_domain _).2 ⟨'0', by decide, by decide⟩

/-- C02. Decoding preserves the number that is written. -/
theorem C02_b58decode_value {s : Str} {b : Bytes} (h : b58decode s = .ok b) :
    Spec.base58Value s = some (Spec.bytesValue b) := by
  rw [base58Value_eq, bytesValue_eq]
  unfold b58decode at h
  cases hn : b58Num 0 s with
  | error e => rw [hn] at h; cases h
  | ok v =>
    rw [hn] at h; injection h with h
    rw [← h, beNat_zeros_append, beNat_intToUnknownBytes]; rfl

/-- C02. Re-encoding a decoded string that is not made of `1`s only gives the same string. -/
theorem C02_b58_canonical {s : Str} {b : Bytes} (h : b58decode s = .ok b)
    (hs : ∃ c ∈ s, c ≠ '1') : b58encode b = s := b58encode_decode_ne h hs

example : b58encode [0, 0, 1, 255] = str "119p" := by
  refine C02_b58_canonical (s := str "119p") ?_ ⟨'p', by decide, by decide⟩
  decide +kernel

/-- C02. No two strings denote the same bytes. -/
theorem C02_b58decode_injective {s t : Str} {b : Bytes} (hs : b58decode s = .ok b)
    (ht : b58decode t = .ok b) : s = t := by
  have key : ∀ {s : Str} {b : Bytes}, b58decode s = .ok b → ¬ (∃ c ∈ s, c ≠ '1') →
      s = List.replicate s.length '1' ∧ b = List.replicate (s.length + 1) 0 := by
    intro s b h hs
    have : s = List.replicate s.length '1' := by
      apply List.eq_replicate_iff.mpr ⟨rfl, ?_⟩
      intro c hc
      by_contra hne
      exact hs ⟨c, hc, hne⟩
    refine ⟨this, ?_⟩
    rw [this, b58decode_ones] at h
    injection h with h
    rw [← h]
  have mixed : ∀ {s t : Str} {b : Bytes}, b58decode s = .ok b → b58decode t = .ok b →
      (∃ c ∈ s, c ≠ '1') → ¬ (∃ c ∈ t, c ≠ '1') → False := by
    intro s t b hs ht h1 h2
    have ⟨_, hb⟩ := key ht h2
    have he := b58encode_decode_ne hs h1
    rw [hb, b58encode_zeros] at he
    obtain ⟨c, hc, hne⟩ := h1
    rw [← he] at hc
    exact hne (List.eq_of_mem_replicate hc)
  by_cases h1 : ∃ c ∈ s, c ≠ '1' <;> by_cases h2 : ∃ c ∈ t, c ≠ '1'
  · rw [← b58encode_decode_ne hs h1, b58encode_decode_ne ht h2]
  · exact (mixed hs ht h1 h2).elim
  · exact (mixed ht hs h2 h1).elim
  · have ⟨a1, b1⟩ := key hs h1
    have ⟨a2, b2⟩ := key ht h2
    have : s.length = t.length := by
      have := congrArg List.length (b1.symm.trans b2)
      simpa using this
    rw [a1, a2, this]

/-! ## C03 -/

private theorem takeLast_append {a c : Bytes} (hc : c.length = 4) :
    takeLast (a ++ c) 4 = c ∧ dropLast' (a ++ c) 4 = a := by
  simp [takeLast, dropLast', hc]

private theorem checksum_length {C : Crypto} (hC : C.HashLengths) (p : Bytes) :
    ((C.sha256 (C.sha256 p)).take 4).length = 4 := by
  simp [hC.sha256_length]

/-- C03. The payloads accepted by checked decoding, for any hash with 32-byte output: a string is
accepted with payload `p` iff its Base58 decoding is `p` followed by the first four bytes of the
double SHA-256 of `p`. -/
theorem C03_b58check_accepts_iff (C : Crypto) (hC : C.HashLengths) (s : Str) (p : Bytes) :
    b58decodeCheck C s = .ok p ↔
      b58decode s = .ok (p ++ (C.sha256 (C.sha256 p)).take 4) := by
  unfold b58decodeCheck
  cases hd : b58decode s with
  | error e => simp
  | ok d =>
    simp only []
    constructor
    · intro h
      split at h
      · rename_i hc
        injection h with h
        have hl := checksum_length hC (dropLast' d 4)
        have hdl : 4 ≤ d.length := by
          have := congrArg List.length hc
          simp only [Crypto.checksum, Crypto.doubleSha256] at this
          rw [hl] at this
          simp [takeLast] at this; omega
        rw [← h]
        simp only [Crypto.checksum, Crypto.doubleSha256] at hc
        rw [← hc, dropLast', takeLast, List.take_append_drop]
      · cases h
    · intro h
      injection h with h
      subst h
      have ⟨h1, h2⟩ := takeLast_append (a := p) (checksum_length hC p)
      rw [h1, h2]
      simp [Crypto.checksum, Crypto.doubleSha256]

/-- C03. Every other string is refused with `ValueError`. -/
theorem C03_b58check_refuses (C : Crypto) (s : Str) (h : ∀ p, b58decodeCheck C s ≠ .ok p) :
    b58decodeCheck C s = .error .valueError := by
  unfold b58decodeCheck at *
  cases hd : b58decode s with
  | error e =>
    unfold b58decode at hd
    cases hn : b58Num 0 s with
    | error e' =>
      rw [hn] at hd
      have := b58Num_err hn
      subst this
      injection hd with hd
      rw [← hd]
    | ok v => rw [hn] at hd; cases hd
  | ok d =>
    rw [hd] at h
    simp only [] at h ⊢
    split
    · rename_i hc
      exact absurd (if_pos hc) (h _)
    · rfl

/-- C03. Round trip: checked decoding of the checked encoding gives the payload back, if the
payload or its checksum contains a nonzero byte. -/
theorem C03_b58check_roundtrip (C : Crypto) (hC : C.HashLengths) (p : Bytes)
    (h : ∃ x ∈ p ++ (C.sha256 (C.sha256 p)).take 4, x ≠ 0) :
    b58decodeCheck C (b58encodeCheck C p) = .ok p := by
  rw [C03_b58check_accepts_iff C hC]
  exact C01_b58_roundtrip _ h

/-- the genesis-style P2PKH payload of hash `00…01` -/
example : b58decodeCheck crypto (b58encodeCheck crypto (0 :: List.replicate 19 0 ++ [1]))
    = .ok (0 :: List.replicate 19 0 ++ [1]) :=
  C03_b58check_roundtrip crypto crypto_lengths _ ⟨1, by simp, by decide⟩

/-- C03. Canonicity: an accepted string (not all `1`) is the checked encoding of its payload. -/
theorem C03_b58check_canonical (C : Crypto) (hC : C.HashLengths) {s : Str} {p : Bytes}
    (h : b58decodeCheck C s = .ok p) (hs : ∃ c ∈ s, c ≠ '1') : b58encodeCheck C p = s := by
  rw [C03_b58check_accepts_iff C hC] at h
  exact C02_b58_canonical h hs

/-- A real address of the repository's test-suite (tests/samples.py, `BITCOIN_ADDRESS`). -/
example : b58encodeCheck crypto (hex "0092461bde6283b461ece7ddf4dbf1e0a48bd113d8")
    = str "1ELReFsTCUY2mfaDTy32qxYiT49z786eFg" := by decide +kernel

example : b58decodeCheck crypto (str "1ELReFsTCUY2mfaDTy32qxYiT49z786eFh") = .error .valueError := by
  decide +kernel

end Bit
