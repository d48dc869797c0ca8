import Verif.Lemmas.CurvePrime
import Verif.Spec.Tx
import Mathlib.AlgebraicGeometry.EllipticCurve.Affine.Point
/-
Specification of the keys and signatures of Bitcoin: the group of the curve secp256k1 (SEC 2, 2.4.1; the
group law is Mathlib's), public keys as bytes (SEC 1, 2.3.3), ECDSA (SEC 1, 4.1) and signatures as bytes (DER).
The two primality facts it needs come from `Lemmas/CurvePrime`.
-/
namespace Spec

/-- The field of the curve. -/
abbrev Field := ZMod fieldPrime

/-- y² = x³ + 7. -/
def secp256k1 : WeierstrassCurve.Affine Field := { a₁ := 0, a₂ := 0, a₃ := 0, a₄ := 0, a₆ := 7 }

/-- The points of the curve: the point at infinity `0` and the affine points. -/
abbrev Pt := secp256k1.Point

def baseX : Nat := 0x79BE667EF9DCBBAC55A06295CE870B07029BFCDB2DCE28D959F2815B16F81798
def baseY : Nat := 0x483ADA7726A3C4655DA4FBFC0E1108A8FD17B448A68554199C47D08FFB10D4B8

theorem base_nonsingular : secp256k1.Nonsingular (baseX : Field) (baseY : Field) := by
  rw [WeierstrassCurve.Affine.nonsingular_iff, WeierstrassCurve.Affine.equation_iff]
  simp only [secp256k1, zero_mul, add_zero, sub_zero, mul_zero]
  constructor
  · have h : baseY ^ 2 % fieldPrime = (baseX ^ 3 + 7) % fieldPrime := by decide +kernel
    have := (ZMod.natCast_eq_natCast_iff _ _ _).mpr h
    push_cast at this
    exact this
  · right
    intro h
    have h2 : ((baseY + baseY : Nat) : Field) = 0 := by
      push_cast
      nth_rw 1 [h]
      exact neg_add_cancel _
    rw [ZMod.natCast_eq_zero_iff] at h2
    revert h2
    decide +kernel

/-- The base point. -/
def base : Pt := .some (baseX : Field) (baseY : Field) base_nonsingular

/-- `P` is the affine point with coordinates `x`, `y`. -/
def HasCoords (P : Pt) (x y : Nat) : Prop :=
  x < fieldPrime ∧ y < fieldPrime ∧ ∃ h, P = .some (x : Field) (y : Field) h

/-- Big-endian bytes. -/
def beEncode (n v : Nat) : List UInt8 := (leEncode n v).reverse

/-- `b` is the encoding of the point `P` (other than the point at infinity) as a public key. -/
def Encodes (compressed : Bool) (P : Pt) (b : List UInt8) : Prop :=
  ∃ x y, HasCoords P x y ∧
    b = if compressed then (if y % 2 = 1 then 0x03 else 0x02) :: beEncode 32 x
        else 0x04 :: (beEncode 32 x ++ beEncode 32 y)

/-- ECDSA: `(r, s)` is a signature of the key `d` on the number `z`, made with the secret number `k`. Of `s`
and `-s` the smaller one is taken (BIP 62). -/
def Signed (d z k r s : Nat) : Prop :=
  0 < k ∧ k < groupOrder ∧ (∃ x y, HasCoords (k • base) x y ∧ r = x % groupOrder) ∧ r ≠ 0 ∧
  0 < s ∧ s ≤ groupOrder / 2 ∧
  ((s * k : ZMod groupOrder) = z + r * d ∨ (s * k : ZMod groupOrder) = -(z + r * d))

/-- ECDSA: `(r, s)` is accepted for the public point `Q` and the number `z`. -/
def Verifies (Q : Pt) (z r s : Nat) : Prop :=
  0 < r ∧ r < groupOrder ∧ 0 < s ∧ s < groupOrder ∧
  ∃ x y, HasCoords ((z / s : ZMod groupOrder).val • base + (r / s : ZMod groupOrder).val • Q) x y ∧
    x % groupOrder = r

/-- DER of a nonnegative integer: as few bytes as possible, the first bit being zero. -/
def derInt (v : Nat) : List UInt8 :=
  let n := Nat.size v / 8 + 1
  0x02 :: UInt8.ofNat n :: beEncode n v

/-- DER of a signature. -/
def derSignature (r s : Nat) : List UInt8 :=
  let body := derInt r ++ derInt s
  0x30 :: UInt8.ofNat body.length :: body

end Spec
