/-
Specification vocabulary for strings.
-/
namespace Spec

/-- The 32 data characters of Bech32 (BIP-173). -/
def bech32Chars : List Char := "qpzry9x8gf2tvdw0s3jn54khce6mua7l".toList

/-- Number of positions in which two strings of equal length differ. -/
def hamming (s t : List Char) : Nat := ((s.zip t).filter fun p => p.1 != p.2).length

end Spec
