/-
Specification of the curve secp256k1 over the integers modulo 2^256 - 2^32 - 977.
-/
namespace Spec

def fieldPrime : Nat := 2 ^ 256 - 2 ^ 32 - 977

/-- The number of points of the curve (SEC 2, 2.4.1). -/
def groupOrder : Nat := 2 ^ 256 - 432420386565659656852420866394968145599

/-- `(x, y)` is an affine point of y² = x³ + 7. -/
def OnCurve (x y : Nat) : Prop :=
  x < fieldPrime ∧ y < fieldPrime ∧ y ^ 2 % fieldPrime = (x ^ 3 + 7) % fieldPrime

instance (x y : Nat) : Decidable (OnCurve x y) := by unfold OnCurve; infer_instance

/-- Big-endian value of a byte string. -/
def beValue (b : List UInt8) : Nat := b.foldl (fun acc x => acc * 256 + x.toNat) 0

end Spec
