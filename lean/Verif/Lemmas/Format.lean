import Verif.Model.Format
import Verif.Lemmas.Base58
/-
Helper lemmas about Base58Check texts.
-/
namespace Bit

theorem checksum_len {C : Crypto} (hC : C.HashLengths) (p : Bytes) : (C.checksum p).length = 4 := by
  simp [Crypto.checksum, Crypto.doubleSha256, hC.sha256_length]

/-- length of a Base58Check text whose payload starts with a nonzero byte -/
theorem b58encodeCheck_length {C : Crypto} (hC : C.HashLengths) (x : UInt8) (b : Bytes) (hx : x ≠ 0)
    {k : Nat} (h1 : 58 ^ k ≤ x.toNat * 256 ^ (b.length + 4))
    (h2 : (x.toNat + 1) * 256 ^ (b.length + 4) ≤ 58 ^ (k + 1)) :
    (b58encodeCheck C (x :: b)).length = k + 1 := by
  unfold b58encodeCheck
  rw [List.cons_append]
  have := b58encode_eq 0 x (b ++ C.checksum (x :: b)) hx
  simp only [List.replicate_zero, List.nil_append] at this
  rw [this]
  have hb : beNat (x :: (b ++ C.checksum (x :: b))) =
      x.toNat * 256 ^ (b.length + 4) + beNat (b ++ C.checksum (x :: b)) := by
    rw [beNat_cons]; simp [checksum_len hC]
  have hlt : beNat (b ++ C.checksum (x :: b)) < 256 ^ (b.length + 4) := by
    have := beNat_lt (b ++ C.checksum (x :: b))
    simpa [checksum_len hC] using this
  apply b58Digits_length
  · rw [hb]; exact le_trans h1 (Nat.le_add_right _ _)
  · rw [hb]
    refine lt_of_lt_of_le ?_ h2
    rw [Nat.add_mul, Nat.one_mul]
    omega

end Bit
