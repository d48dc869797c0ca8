import Mathlib.Data.List.Forall2
import Verif.Model.Basic
/-
Specification of Bech32 texts (BIP-173): alphabet and checksum. The checksum is the remainder of a polynomial
over the field with 32 elements.
-/
namespace Bit.Spec

/-- The letters for the values 0 to 31. -/
def bech32Alphabet : List Char := "qpzry9x8gf2tvdw0s3jn54khce6mua7l".toList

/-- The product with `a` in the field of 32 elements: polynomials in `a` over the field of two elements (the
bits of a number are the coefficients), with `a⁵ = a³ + 1`. -/
def gfTimesA (x : Nat) : Nat := if x < 16 then 2 * x else (2 * x) ^^^ 0b101001

/-- The product in that field. -/
def gfMul (x y : Nat) : Nat :=
  (if y.testBit 0 then x else 0) ^^^ (if y.testBit 1 then gfTimesA x else 0) ^^^
  (if y.testBit 2 then gfTimesA (gfTimesA x) else 0) ^^^
  (if y.testBit 3 then gfTimesA (gfTimesA (gfTimesA x)) else 0) ^^^
  (if y.testBit 4 then gfTimesA (gfTimesA (gfTimesA (gfTimesA x))) else 0)

/-- The coefficients, after the leading 1, of the generator
`x⁶ + 29 x⁵ + 22 x⁴ + 20 x³ + 21 x² + 29 x + 18`. -/
def bech32Poly : List Nat := [29, 22, 20, 21, 29, 18]

/-- The remainder modulo the generator of the polynomial with the given coefficients, the highest first (long
division). -/
def bech32Remainder : List Nat → List Nat
  | [] => []
  | c :: rest =>
    if rest.length < 6 then c :: rest
    else bech32Remainder (List.zipWith (· ^^^ ·) (rest.take 6) (bech32Poly.map (gfMul c)) ++ rest.drop 6)
termination_by l => l.length
decreasing_by simp [bech32Poly]; omega

/-- `s` is the Bech32 text of the human-readable part `hrp` and the five-bit values `data`: `hrp`, the separator,
and the letters of the data and of six check values, such that the polynomial of 1, the high bits of `hrp`, zero, the low
five bits of `hrp`, data and check values leaves the remainder 1. -/
def Bech32Text (s hrp : Str) (data : List Nat) : Prop :=
  ∃ (letters : Str) (check : List Nat), s = hrp ++ '1' :: letters ∧ check.length = 6 ∧
    List.Forall₂ (fun c d => bech32Alphabet[d]? = some c) letters (data ++ check) ∧
    bech32Remainder (1 :: (hrp.map (fun c => c.toNat / 32) ++ [0] ++ hrp.map (fun c => c.toNat % 32) ++
      data ++ check)) = [0, 0, 0, 0, 0, 1]

end Bit.Spec
