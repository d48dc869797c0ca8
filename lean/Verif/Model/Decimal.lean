import Verif.Model.Basic
/-
Finite numbers of Python's `decimal` module and the operations that bit/network/rates.py uses. The code
only calls them; the definitions follow CPython's Lib/_pydecimal.py. The context is reduced to its
precision: rounding is half-even, the limits on exponents (999999) are not modelled, nor are infinities
and NaN.
-/
namespace Bit

/-- A finite `Decimal`: `(-1)^neg * coeff * 10^exp`. -/
structure Dec where
  neg : Bool
  coeff : Nat
  exp : Int
  deriving DecidableEq, Repr

/-- The number of decimal digits; zero has one. -/
def digits (n : Nat) : Nat := if n < 10 then 1 else digits (n / 10) + 1
  termination_by n
  decreasing_by omega

/-- `n / 10^k` rounded half-even. -/
def roundHalfEven (n k : Nat) : Nat :=
  let q := n / 10 ^ k
  let r := n % 10 ^ k
  if 2 * r < 10 ^ k then q
  else if 2 * r = 10 ^ k then (if q % 2 = 0 then q else q + 1)
  else q + 1

namespace Dec

/-- `Decimal(n)` for an int. -/
def ofInt (n : Int) : Dec := { neg := n < 0, coeff := n.natAbs, exp := 0 }

/-- `_fix`: rounding to the precision. A carry to one digit more is divided by ten. -/
def fix (prec : Nat) (d : Dec) : Dec :=
  if digits d.coeff ≤ prec then d
  else
    let k := digits d.coeff - prec
    let q := roundHalfEven d.coeff k
    if digits q ≤ prec then { d with coeff := q, exp := d.exp + k }
    else { d with coeff := q / 10, exp := d.exp + k + 1 }

/-- `a * b`. -/
def mul (prec : Nat) (a b : Dec) : Dec :=
  fix prec { neg := a.neg != b.neg, coeff := a.coeff * b.coeff, exp := a.exp + b.exp }

/-- Removes at most `n` zeros from the end of the coefficient. -/
def strip : Nat → Dec → Dec
  | 0, d => d
  | n + 1, d => if d.coeff % 10 = 0 then strip n { d with coeff := d.coeff / 10, exp := d.exp + 1 } else d

/-- `a / b`. Division by zero is an exception of the class `decimal.InvalidOperation` or
`decimal.DivisionByZero`; both are rendered as `invalidOperation`. -/
def div (prec : Nat) (a b : Dec) : Py Dec :=
  if b.coeff = 0 then .error .invalidOperation
  else if a.coeff = 0 then .ok { neg := a.neg != b.neg, coeff := 0, exp := a.exp - b.exp }
  else
    let shift : Int := (digits b.coeff : Int) - digits a.coeff + prec + 1
    let exp := a.exp - b.exp - shift
    let n := a.coeff * 10 ^ shift.toNat
    let m := b.coeff * 10 ^ (-shift).toNat
    if n % m ≠ 0 then
      let q := n / m
      .ok (fix prec { neg := a.neg != b.neg, coeff := if q % 5 = 0 then q + 1 else q, exp := exp })
    else
      .ok (fix prec (strip (a.exp - b.exp - exp).toNat
        { neg := a.neg != b.neg, coeff := n / m, exp := exp }))

/-- `int(d)`: towards zero. -/
def toInt (d : Dec) : Int :=
  let n : Nat := if 0 ≤ d.exp then d.coeff * 10 ^ d.exp.toNat else d.coeff / 10 ^ (-d.exp).toNat
  if d.neg then - (n : Int) else n

/-- `d.quantize(Decimal('0.' + '0' * places), rounding=ROUND_DOWN)`. -/
def quantizeDown (prec : Nat) (d : Dec) (places : Nat) : Py Dec :=
  let k : Int := d.exp + places
  let c := if 0 ≤ k then d.coeff * 10 ^ k.toNat else d.coeff / 10 ^ (-k).toNat
  if digits c > prec then .error .invalidOperation
  else .ok { d with coeff := c, exp := -(places : Int) }

/-- `d.normalize()`. -/
def normalize (prec : Nat) (d : Dec) : Dec :=
  let d := fix prec d
  if d.coeff = 0 then { d with exp := 0 } else strip (digits d.coeff) d

/-- The decimal digits of a number, as text. -/
def digitsText (n : Nat) : Str :=
  if n < 10 then [Char.ofNat (48 + n)] else digitsText (n / 10) ++ [Char.ofNat (48 + n % 10)]
  termination_by n
  decreasing_by omega

/-- `'{:f}'.format(d)`. -/
def format (d : Dec) : Str :=
  let d := if d.coeff = 0 ∧ 0 < d.exp then { d with exp := 0 } else d
  let s := digitsText d.coeff
  let place : Int := d.exp + s.length
  let text :=
    if place < 0 then '0' :: '.' :: (List.replicate (-place).toNat '0' ++ s)
    else if s.length < place then s ++ List.replicate (place - s.length).toNat '0'
    else
      let int := s.take place.toNat
      let frac := s.drop place.toNat
      (if int.isEmpty then ['0'] else int) ++ (if frac.isEmpty then [] else '.' :: frac)
  if d.neg then '-' :: text else text

/-- The number written in digits. -/
def readDigits (acc : Nat) : Str → Option Nat
  | [] => some acc
  | c :: cs =>
    if 48 ≤ c.toNat ∧ c.toNat ≤ 57 then readDigits (acc * 10 + (c.toNat - 48)) cs else none

/-- The exponent part of a text: empty, or `e` or `E`, a sign and digits. -/
def readExp : Str → Option Int
  | [] => some 0
  | c :: cs =>
    if c = 'e' ∨ c = 'E' then
      match cs with
      | '-' :: ds => if ds.isEmpty then none else (readDigits 0 ds).map fun n => -(n : Int)
      | '+' :: ds => if ds.isEmpty then none else (readDigits 0 ds).map fun n => (n : Int)
      | ds => if ds.isEmpty then none else (readDigits 0 ds).map fun n => (n : Int)
    else none

/-- Splits after the digits at the front. -/
def spanDigits : Str → Str × Str
  | [] => ([], [])
  | c :: cs =>
    if 48 ≤ c.toNat ∧ c.toNat ≤ 57 then let (a, b) := spanDigits cs; (c :: a, b) else ([], c :: cs)

/-- The digits after a point, if there is one. -/
def pointDigits : Str → Str × Str
  | '.' :: rest => spanDigits rest
  | rest => ([], rest)

/-- A text without sign. -/
def parseUnsigned (neg : Bool) (s : Str) : Option Dec :=
  let (int, rest) := spanDigits s
  let (frac, rest) := pointDigits rest
  if int.isEmpty ∧ frac.isEmpty then none
  else
    match readDigits 0 (int ++ frac), readExp rest with
    | some n, some e => some { neg := neg, coeff := n, exp := e - frac.length }
    | _, _ => none

/-- A text with an optional sign. -/
def parseSigned : Str → Option Dec
  | '-' :: s => parseUnsigned true s
  | '+' :: s => parseUnsigned false s
  | s => parseUnsigned false s

/-- `Decimal(s)` of bit/utils.py:6-8 for `str(value) = s`: sign, digits, point, digits, exponent.
Not modelled: white space around, underscores, digits outside ASCII, infinities and NaN; in the model
they are an `InvalidOperation`, as every other text is in Python. -/
def parse (s : Str) : Py Dec :=
  match parseSigned s with
  | some d => .ok d
  | none => .error .invalidOperation

end Dec
end Bit
