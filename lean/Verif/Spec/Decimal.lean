import Verif.Model.Decimal
import Mathlib.Data.Rat.Floor
import Mathlib.Algebra.Order.Field.Basic
/-
Specification of decimal numbers: their value, the texts that denote them, and rounding.
-/
namespace Bit.Spec

/-- The rational number of a `Decimal`. -/
def value (d : Dec) : ℚ := (if d.neg then -1 else 1) * (d.coeff * (10 : ℚ) ^ d.exp)

/-- The number written in decimal digits. -/
def digitsValue (s : Str) : Nat := s.foldl (fun acc c => acc * 10 + (c.toNat - 48)) 0

/-- `s` is the text: an optional minus sign, digits `int`, and, if there are any, a point and the
digits `frac`. -/
structure Plain (s : Str) (neg : Bool) (int frac : Str) : Prop where
  digits : ∀ c ∈ int ++ frac, '0' ≤ c ∧ c ≤ '9'
  nonempty : int ≠ []
  text : s = (if neg then ['-'] else []) ++ int ++ (if frac = [] then [] else '.' :: frac)

/-- The number denoted by such a text. -/
def plainValue (neg : Bool) (int frac : Str) : ℚ :=
  (if neg then -1 else 1) * ((digitsValue (int ++ frac) : ℚ) / 10 ^ frac.length)

/-- The text denotes the number. -/
def Denotes (s : Str) (q : ℚ) : Prop := ∃ neg int frac, Plain s neg int frac ∧ plainValue neg int frac = q

/-- The exponent part of a text: `e` or `E`, a sign or none, and digits. -/
structure Exponent (s : Str) (e : Int) : Prop where
  text : ∃ (letter : Char) (sign ds : Str), s = letter :: (sign ++ ds) ∧ (letter = 'e' ∨ letter = 'E') ∧ ds ≠ [] ∧
    (∀ c ∈ ds, '0' ≤ c ∧ c ≤ '9') ∧
    (sign = ['-'] ∧ e = -(digitsValue ds : Int) ∨ (sign = ['+'] ∨ sign = []) ∧ e = digitsValue ds)

/-- The text, perhaps with an exponent, stands for the number. Python writes small and large floats so. -/
def Number (s : Str) (q : ℚ) : Prop :=
  Denotes s q ∨ ∃ m t r e, s = m ++ t ∧ Denotes m r ∧ Exponent t e ∧ q = r * (10 : ℚ) ^ e

/-- The number has at most `prec` significant decimal digits. -/
def Fits (prec : Nat) (q : ℚ) : Prop := ∃ (m : Int) (e : Int), m.natAbs < 10 ^ prec ∧ q = m * (10 : ℚ) ^ e

/-- The places behind the point that an amount of a currency is shown with: those of ISO 4217 (with two for the
Icelandic krona), and as many as a satoshi takes for the bitcoin units. Other names are no currencies. -/
def places (currency : Str) : Option Nat :=
  if currency ∈ ["satoshi".toList, "jpy".toList, "krw".toList, "clp".toList] then some 0
  else if currency ∈ ["ubtc".toList, "usd".toList, "eur".toList, "gbp".toList, "cny".toList, "cad".toList,
      "aud".toList, "nzd".toList, "rub".toList, "brl".toList, "chf".toList, "sek".toList, "dkk".toList,
      "isk".toList, "pln".toList, "hkd".toList, "sgd".toList, "thb".toList, "twd".toList] then some 2
  else if currency = "mbtc".toList then some 5
  else if currency = "btc".toList then some 8
  else none

/-- Rounding towards zero. -/
def trunc (q : ℚ) : Int := if 0 ≤ q then ⌊q⌋ else ⌈q⌉

end Bit.Spec
