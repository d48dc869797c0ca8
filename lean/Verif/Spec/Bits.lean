/-
Specification vocabulary: words as bit strings.
-/
namespace Spec

/-- The `w` low-order bits of `v`, most significant first. -/
def bitsOf (w v : Nat) : List Bool := (List.range w).map fun i => v.testBit (w - 1 - i)

/-- The bit string of a list of `w`-bit words. -/
def bitString (w : Nat) (l : List Nat) : List Bool := l.flatMap (bitsOf w)

end Spec
