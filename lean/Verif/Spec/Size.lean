import Verif.Spec.Tx
/-
Sizes of transactions (BIP-141) and the number of bytes of an integer.
-/
namespace Spec

/-- Number of base-256 digits of `n`, at least one: the least `k ≥ 1` with `n < 256 ^ k`
(see `Bit.byteWidth_spec`). -/
def byteWidth (n : Nat) : Nat := if h : n < 256 then 1 else 1 + byteWidth (n / 256)
termination_by n
decreasing_by omega

/-- BIP-141 weight: three times the size without witnesses plus the total size. -/
def Tx.weight (t : Tx) : Nat := 3 * t.encodeLegacy.length + t.encode.length

/-- BIP-141 virtual size: a quarter of the weight, rounded up. -/
def Tx.vsize (t : Tx) : Nat := (t.weight + 3) / 4

end Spec
