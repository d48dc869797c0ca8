import Verif.Model.Decimal
/-
Values of Python's `json` module and what the code does with them: look-ups, iteration, truth and text.
-/
namespace Bit

/-- A float: its exact value and the text `repr` gives. Floating point arithmetic does not occur in the modelled
code, so nothing ties the two together. -/
structure PyFloat where
  exact : Dec
  repr : Str

/-- What `json.loads` gives: `None`, bool, int, float, str, list and dict. A dict is the list of its items. -/
inductive Json
  | null
  | bool (b : Bool)
  | int (n : Int)
  | float (f : PyFloat)
  | str (s : Str)
  | arr (l : List Json)
  | obj (l : List (Str × Json))

/-- `str(n)` of an int. -/
def intText (n : Int) : Str := if n < 0 then '-' :: Dec.digitsText n.natAbs else Dec.digitsText n.natAbs

/-- `int(s)` of a text: an optional sign and digits, `ValueError` otherwise. White space, underscores and digits
outside ASCII are not modelled: they are a `ValueError` here. -/
def parseInt (s : Str) : Py Int :=
  let (neg, ds) := match s with
    | '-' :: ds => (true, ds)
    | '+' :: ds => (false, ds)
    | ds => (false, ds)
  if ds.isEmpty then .error .valueError
  else
    match Dec.readDigits 0 ds with
    | none => .error .valueError
    | some n => .ok (if neg then -(n : Int) else n)

namespace Json

/-- `j[key]` for a text `key`. -/
def get (j : Json) (key : Str) : Py Json :=
  match j with
  | .obj l =>
    match l.lookup key with
    | some v => .ok v
    | none => .error .keyError
  | _ => .error .typeError

/-- `j[key₁][key₂]…`. -/
def path (j : Json) : List Str → Py Json
  | [] => .ok j
  | k :: ks =>
    match j.get k with
    | .error e => .error e
    | .ok v => v.path ks

/-- `key in j` for a dict. In the model it is a `TypeError` for everything else (so it is in Python for numbers and
`None`; for lists and texts Python looks for an element or a part). -/
def has (j : Json) (key : Str) : Py Bool :=
  match j with
  | .obj l => .ok (l.lookup key).isSome
  | _ => .error .typeError

/-- The elements of `j` in a `for` loop, for a list. In the model it is a `TypeError` for everything else (so it is in
Python for numbers and `None`; for dicts and texts Python goes through the keys or characters). -/
def items (j : Json) : Py (List Json) :=
  match j with
  | .arr l => .ok l
  | _ => .error .typeError

/-- An int where the code expects one. In the model every other value is a `TypeError`; Python passes it on. -/
def asInt (j : Json) : Py Int :=
  match j with
  | .int n => .ok n
  | _ => .error .typeError

/-- A text where the code expects one, likewise. -/
def asStr (j : Json) : Py Str :=
  match j with
  | .str s => .ok s
  | _ => .error .typeError

/-- `bool(j)`. -/
def truthy : Json → Bool
  | .null => false
  | .bool b => b
  | .int n => n ≠ 0
  | .float f => f.exact.coeff ≠ 0
  | .str s => s ≠ []
  | .arr l => !l.isEmpty
  | .obj l => !l.isEmpty

/-- `str(j)` where the text goes into `Decimal`. The texts of `None`, bools, lists and dicts are no numbers, so the
`InvalidOperation` that `Decimal` raises for them is raised here already. -/
def numberText (j : Json) : Py Str :=
  match j with
  | .str s => .ok s
  | .int n => .ok (intText n)
  | .float f => .ok f.repr
  | _ => .error .invalidOperation

end Json

/-- A list comprehension whose element expression may raise. -/
def pyMap {α β : Type} (f : α → Py β) : List α → Py (List β)
  | [] => .ok []
  | x :: xs =>
    match f x with
    | .error e => .error e
    | .ok y =>
      match pyMap f xs with
      | .error e => .error e
      | .ok ys => .ok (y :: ys)

end Bit
