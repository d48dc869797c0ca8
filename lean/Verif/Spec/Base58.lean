/-
Specification of Base58, independent of the model.
-/
namespace Spec

/-- Value of a Base58 digit: digits without `0`, upper case without `I` and `O`, lower case
without `l`, in this order. -/
def base58Digit (c : Char) : Option Nat :=
  if '1' ≤ c ∧ c ≤ '9' then some (c.toNat - '1'.toNat)
  else if 'A' ≤ c ∧ c ≤ 'H' then some (c.toNat - 'A'.toNat + 9)
  else if 'J' ≤ c ∧ c ≤ 'N' then some (c.toNat - 'J'.toNat + 17)
  else if 'P' ≤ c ∧ c ≤ 'Z' then some (c.toNat - 'P'.toNat + 22)
  else if 'a' ≤ c ∧ c ≤ 'k' then some (c.toNat - 'a'.toNat + 33)
  else if 'm' ≤ c ∧ c ≤ 'z' then some (c.toNat - 'm'.toNat + 44)
  else none

/-- The number written by a Base58 string, most significant digit first. -/
def base58Value : List Char → Option Nat
  | [] => some 0
  | c :: cs => do
    let d ← base58Digit c
    let v ← base58Value cs
    pure (d * 58 ^ cs.length + v)

/-- The number written by bytes, most significant byte first. -/
def bytesValue : List UInt8 → Nat
  | [] => 0
  | b :: bs => b.toNat * 256 ^ bs.length + bytesValue bs

end Spec
