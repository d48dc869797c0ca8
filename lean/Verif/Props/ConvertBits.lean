import Verif.Lemmas.ConvertBits
/-
Property C11: bit regrouping.
-/
namespace Bit
open Spec

/-- C11. Regrouping bytes into 5-bit values with padding always succeeds; the result has
`⌈8n/5⌉` values below 32, and its bits are those of the bytes followed by zero bits. -/
theorem C11_regroup_pad (data : List Nat) (h : ∀ x ∈ data, x < 256) :
    ∃ r, convertbits data 8 5 true = some r ∧ (∀ x ∈ r, x < 32) ∧
      r.length = (8 * data.length + 4) / 5 ∧
      bitString 5 r = bitString 8 data ++ List.replicate (5 * r.length - 8 * data.length) false := by
  obtain ⟨r, k, h1, h2, h3, h4⟩ := convertbits_pad 8 5 (by norm_num) data (by simpa using h)
  have hl := congrArg List.length h4
  simp only [List.length_append, bitString_length, List.length_replicate] at hl
  refine ⟨r, h1, by simpa using h2, by omega, ?_⟩
  rw [h4, show 5 * r.length - 8 * data.length = k by omega]

example : convertbits [0xff, 0x01] 8 5 true = some [31, 28, 0, 16] := by decide +kernel

/-- C11. Values that do not fit are refused, with and without padding, whatever the group sizes. -/
theorem C11_refuses_wide (data : List Nat) (f t : Nat) (pad : Bool) (h : ∃ x ∈ data, 2 ^ f ≤ x) :
    convertbits data f t pad = none := by
  unfold convertbits; rw [cbLoop_none f t data 0 0 [] h]

/-- C11. Strict regrouping from 5-bit values to bytes: it returns `r` exactly if the input values
are below 32 and their bits are the bits of the bytes `r` followed by fewer than five zero bits.
In particular it refuses (returns `None`) when the leftover bits are not fewer than five zeros. -/
theorem C11_regroup_strict_iff (data r : List Nat) :
    convertbits data 5 8 false = some r ↔
      (∀ x ∈ data, x < 32) ∧ (∀ x ∈ r, x < 256) ∧
      ∃ k < 5, bitString 5 data = bitString 8 r ++ List.replicate k false := by
  rw [convertbits_strict_iff 5 8 (by norm_num)]
  constructor
  · rintro ⟨h1, h2, k, hk, _, h3⟩; exact ⟨by simpa using h1, by simpa using h2, k, hk, h3⟩
  · rintro ⟨h1, h2, k, hk, h3⟩
    exact ⟨by simpa using h1, by simpa using h2, k, hk, by omega, h3⟩

/-- nonzero padding and overlong padding are refused -/
example : convertbits [31, 28, 0, 17] 5 8 false = none ∧ convertbits [0, 0, 0] 5 8 false = none ∧
    convertbits [31, 28, 0, 16] 5 8 false = some [0xff, 0x01] := by decide +kernel

/-- C11. Round trip: bytes to 5-bit values and back. -/
theorem C11_regroup_roundtrip (data : List Nat) (h : ∀ x ∈ data, x < 256) :
    ∃ r, convertbits data 8 5 true = some r ∧ convertbits r 5 8 false = some data := by
  obtain ⟨r, h1, h2, h3, h4⟩ := C11_regroup_pad data h
  refine ⟨r, h1, (C11_regroup_strict_iff r data).mpr ⟨h2, h, _, ?_, h4⟩⟩
  omega

/-- C11. The other way round: whatever strict regrouping accepts is what padding produces. -/
theorem C11_strict_then_pad (data r : List Nat) (h : convertbits data 5 8 false = some r) :
    convertbits r 8 5 true = some data := by
  obtain ⟨h1, h2, k, hk, h3⟩ := (C11_regroup_strict_iff data r).mp h
  obtain ⟨q, g1, g2, g3, g4⟩ := C11_regroup_pad r h2
  have hl := congrArg List.length h3
  simp only [List.length_append, bitString_length, List.length_replicate] at hl
  have : q = data := by
    apply bitString_inj (w := 5) (by norm_num) (by simpa using g2) (by simpa using h1)
    rw [g4, h3, show 5 * q.length - 8 * r.length = k by omega]
  rw [g1, this]

/-- C11. Generalisation to arbitrary group sizes `0 < t ≤ f`: regrouping `f`-bit values into
`t`-bit values with padding and back strictly is the identity. -/
theorem C11_regroup_roundtrip_any (f t : Nat) (ht : 0 < t) (htf : t ≤ f) (data : List Nat)
    (h : ∀ x ∈ data, x < 2 ^ f) :
    ∃ r, convertbits data f t true = some r ∧ convertbits r t f false = some data := by
  obtain ⟨r, k, h1, h2, h3, h4⟩ := convertbits_pad f t ht data h
  exact ⟨r, h1, (convertbits_strict_iff t f (by omega) r data).mpr
    ⟨h2, h, k, h3, by omega, h4⟩⟩

example : ∃ r, convertbits [5, 1000, 77] 10 3 true = some r ∧
    convertbits r 3 10 false = some [5, 1000, 77] :=
  C11_regroup_roundtrip_any 10 3 (by norm_num) (by norm_num) _ (by decide)

end Bit
