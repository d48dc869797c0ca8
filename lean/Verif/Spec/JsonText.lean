import Verif.Model.Wallet
import Verif.Spec.Decimal
/-
Which JSON values can be written and read back.
-/
namespace Bit.Spec

/-- A text that Python's `repr` gives for a float: digits without superfluous zeros, and a point with digits or an
exponent or both; or one of the three names. -/
inductive FloatText : Str → Prop
  | number (neg : Bool) (int frac exp : Str) (hint : ∀ c ∈ int, '0' ≤ c ∧ c ≤ '9') (hne : int ≠ [])
      (hzero : int.head? = some '0' → int = ['0'])
      (hfrac : frac = [] ∨ ∃ ds, frac = '.' :: ds ∧ ds ≠ [] ∧ ∀ c ∈ ds, '0' ≤ c ∧ c ≤ '9')
      (hexp : exp = [] ∨ ∃ sign ds, exp = 'e' :: (sign ++ ds) ∧ (sign = ['+'] ∨ sign = ['-']) ∧ ds ≠ [] ∧
        ∀ c ∈ ds, '0' ≤ c ∧ c ≤ '9')
      (hsome : frac ≠ [] ∨ exp ≠ []) :
      FloatText ((if neg then ['-'] else []) ++ int ++ frac ++ exp)
  | nan : FloatText "NaN".toList
  | inf : FloatText "Infinity".toList
  | negInf : FloatText "-Infinity".toList

mutual

/-- A value that Python can have: the keys of a dict differ, and a float has the text of a float, which `float` reads
as the same float (that Python prints floats so is not proved here). -/
def Readable (readFloat : Str → PyFloat) : Json → Prop
  | .float f => FloatText f.repr ∧ readFloat f.repr = f
  | .arr l => ReadableList readFloat l
  | .obj l => (l.map Prod.fst).Nodup ∧ ReadableItems readFloat l
  | _ => True

/-- Every element is readable. -/
def ReadableList (readFloat : Str → PyFloat) : List Json → Prop
  | [] => True
  | j :: l => Readable readFloat j ∧ ReadableList readFloat l

/-- Every value of a dict is readable. -/
def ReadableItems (readFloat : Str → PyFloat) : List (Str × Json) → Prop
  | [] => True
  | (_, j) :: l => Readable readFloat j ∧ ReadableItems readFloat l

end

/-- White space of JSON. -/
def Blank (s : Str) : Prop := ∀ c ∈ s, c = ' ' ∨ c = '\t' ∨ c = '\n' ∨ c = '\r'

/-- What is assumed of Python's floats: for a number of quarters below 2 ^ 50, `float` reads the text with at most two
places exactly, and `repr` writes it so. (A float holds 53 binary digits.) -/
structure ReadsQuarters (readFloat : Str → PyFloat) : Prop where
  exact : ∀ v < 2 ^ 50, value (readFloat (quarterText v)).exact = (v : ℚ) / 4
  repr : ∀ v < 2 ^ 50, (readFloat (quarterText v)).repr = quarterText v

end Bit.Spec
