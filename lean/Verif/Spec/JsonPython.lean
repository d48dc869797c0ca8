import Verif.Spec.JsonGrammar
/-
What Python's `json` takes for JSON: the grammar of `Spec/JsonGrammar`, the words `NaN`, `Infinity` and `-Infinity` as numbers,
and escapes of surrogates that are not part of a pair (the character such an escape stands for is left open).
-/
namespace Bit.Spec

/-- What may stand between the quotation marks, and the characters it stands for. -/
inductive PyStringText : Str → Str → Prop
  | nil : PyStringText [] []
  | plain {c : Char} {t s : Str} (h : 0x20 ≤ c.toNat) (hq : c ≠ '"') (hb : c ≠ '\\') (hs : PyStringText t s) :
      PyStringText (c :: t) (c :: s)
  | short {e c : Char} {t s : Str} (h : (e, c) ∈ shortEscapes) (hs : PyStringText t s) :
      PyStringText ('\\' :: e :: t) (c :: s)
  | unicode {ds t s : Str} {n : Nat} (h : FourHex ds n) (hn : n < 0xd800 ∨ 0xe000 ≤ n) (hs : PyStringText t s) :
      PyStringText ('\\' :: 'u' :: ds ++ t) (Char.ofNat n :: s)
  | pair {ds es t s : Str} {n m : Nat} (h : FourHex ds n) (h' : FourHex es m) (hn : 0xd800 ≤ n ∧ n < 0xdc00)
      (hm : 0xdc00 ≤ m ∧ m < 0xe000) (hs : PyStringText t s) :
      PyStringText ('\\' :: 'u' :: ds ++ '\\' :: 'u' :: es ++ t)
        (Char.ofNat (0x10000 + (n - 0xd800) * 0x400 + (m - 0xdc00)) :: s)
  | lone {ds t s : Str} {n : Nat} {c : Char} (h : FourHex ds n) (hn : 0xd800 ≤ n ∧ n < 0xe000) (hs : PyStringText t s) :
      PyStringText ('\\' :: 'u' :: ds ++ t) (c :: s)

mutual

/-- The text stands for the value. -/
inductive PyValueText (readFloat : Str → PyFloat) : Str → Json → Prop
  | null : PyValueText readFloat "null".toList .null
  | true : PyValueText readFloat "true".toList (.bool true)
  | false : PyValueText readFloat "false".toList (.bool false)
  | constant {t : Str} (h : t ∈ ["NaN".toList, "Infinity".toList, "-Infinity".toList]) :
      PyValueText readFloat t (.float (readFloat t))
  | int (neg : Bool) {ds : Str} (h : IntPart ds) :
      PyValueText readFloat (minus neg ++ ds) (.int ((if neg then -1 else 1) * digitsValue ds))
  | float (neg : Bool) {ds frac exp : Str} (h : IntPart ds) (hf : frac = [] ∨ FracPart frac)
      (he : exp = [] ∨ ExpPart exp) (hsome : FracPart frac ∨ ExpPart exp) :
      PyValueText readFloat (minus neg ++ ds ++ frac ++ exp) (.float (readFloat (minus neg ++ ds ++ frac ++ exp)))
  | string {t s : Str} (h : PyStringText t s) : PyValueText readFloat ('"' :: t ++ ['"']) (.str s)
  | noElements {w : Str} (h : Blank w) : PyValueText readFloat ('[' :: w ++ [']']) (.arr [])
  | array {t : Str} {l : List Json} (h : PyElementsText readFloat t l) :
      PyValueText readFloat ('[' :: t ++ [']']) (.arr l)
  | noMembers {w : Str} (h : Blank w) : PyValueText readFloat ('{' :: w ++ ['}']) (.obj [])
  | object {t : Str} {l : List (Str × Json)} (h : PyMembersText readFloat t l) :
      PyValueText readFloat ('{' :: t ++ ['}']) (.obj (lastValues l))

/-- The elements of an array, with the commas and the white space. -/
inductive PyElementsText (readFloat : Str → PyFloat) : Str → List Json → Prop
  | last {w t w' : Str} {j : Json} (h : Blank w) (hv : PyValueText readFloat t j) (h' : Blank w') :
      PyElementsText readFloat (w ++ t ++ w') [j]
  | more {w t w' ts : Str} {j : Json} {l : List Json} (h : Blank w) (hv : PyValueText readFloat t j) (h' : Blank w')
      (hs : PyElementsText readFloat ts l) : PyElementsText readFloat (w ++ t ++ w' ++ ',' :: ts) (j :: l)

/-- The members of an object. -/
inductive PyMembersText (readFloat : Str → PyFloat) : Str → List (Str × Json) → Prop
  | last {w k w' w'' t w''' key : Str} {j : Json} (h : Blank w) (hk : PyStringText k key) (h' : Blank w') (h'' : Blank w'')
      (hv : PyValueText readFloat t j) (h''' : Blank w''') :
      PyMembersText readFloat (w ++ '"' :: k ++ '"' :: w' ++ ':' :: w'' ++ t ++ w''') [(key, j)]
  | more {w k w' w'' t w''' ts key : Str} {j : Json} {l : List (Str × Json)} (h : Blank w) (hk : PyStringText k key)
      (h' : Blank w') (h'' : Blank w'') (hv : PyValueText readFloat t j) (h''' : Blank w''')
      (hs : PyMembersText readFloat ts l) :
      PyMembersText readFloat (w ++ '"' :: k ++ '"' :: w' ++ ':' :: w'' ++ t ++ w''' ++ ',' :: ts) ((key, j) :: l)

end

/-- A text that Python reads: a value, perhaps with white space around it. -/
def PyJsonText (readFloat : Str → PyFloat) (text : Str) (j : Json) : Prop :=
  ∃ w t w', text = w ++ t ++ w' ∧ Blank w ∧ PyValueText readFloat t j ∧ Blank w'

end Bit.Spec
