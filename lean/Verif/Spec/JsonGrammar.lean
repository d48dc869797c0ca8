import Verif.Spec.JsonText
import Verif.Spec.Web
/-
The grammar of JSON texts (RFC 8259), with the values that the texts stand for.
-/
namespace Bit.Spec

/-- A hexadecimal digit, small or capital. -/
def HexDigit (c : Char) (n : Nat) : Prop :=
  "0123456789abcdef".toList[n]? = some c ∨ "0123456789ABCDEF".toList[n]? = some c

/-- Four hexadecimal digits. -/
def FourHex (s : Str) (n : Nat) : Prop :=
  ∃ a b c d w x y z, s = [a, b, c, d] ∧ HexDigit a w ∧ HexDigit b x ∧ HexDigit c y ∧ HexDigit d z ∧
    n = ((w * 16 + x) * 16 + y) * 16 + z

/-- The escapes of two characters. -/
def shortEscapes : List (Char × Char) :=
  [('"', '"'), ('\\', '\\'), ('/', '/'), ('b', Char.ofNat 8), ('f', Char.ofNat 12), ('n', '\n'), ('r', '\r'),
   ('t', '\t')]

/-- What may stand between the quotation marks, and the characters it stands for. -/
inductive StringText : Str → Str → Prop
  | nil : StringText [] []
  | plain {c : Char} {t s : Str} (h : 0x20 ≤ c.toNat) (hq : c ≠ '"') (hb : c ≠ '\\') (hs : StringText t s) :
      StringText (c :: t) (c :: s)
  | short {e c : Char} {t s : Str} (h : (e, c) ∈ shortEscapes) (hs : StringText t s) :
      StringText ('\\' :: e :: t) (c :: s)
  | unicode {ds t s : Str} {n : Nat} (h : FourHex ds n) (hn : n < 0xd800 ∨ 0xe000 ≤ n) (hs : StringText t s) :
      StringText ('\\' :: 'u' :: ds ++ t) (Char.ofNat n :: s)
  | pair {ds es t s : Str} {n m : Nat} (h : FourHex ds n) (h' : FourHex es m) (hn : 0xd800 ≤ n ∧ n < 0xdc00)
      (hm : 0xdc00 ≤ m ∧ m < 0xe000) (hs : StringText t s) :
      StringText ('\\' :: 'u' :: ds ++ '\\' :: 'u' :: es ++ t)
        (Char.ofNat (0x10000 + (n - 0xd800) * 0x400 + (m - 0xdc00)) :: s)

/-- The sign. -/
def minus (neg : Bool) : Str := if neg then ['-'] else []

/-- Digits, at least one. -/
def Digits (s : Str) : Prop := s ≠ [] ∧ ∀ c ∈ s, '0' ≤ c ∧ c ≤ '9'

/-- The integer part of a number: no superfluous zeros. -/
def IntPart (s : Str) : Prop := Digits s ∧ (s.head? = some '0' → s = ['0'])

/-- The fraction of a number. -/
def FracPart (s : Str) : Prop := ∃ ds, s = '.' :: ds ∧ Digits ds

/-- The exponent of a number. -/
def ExpPart (s : Str) : Prop :=
  ∃ e sign ds, s = e :: (sign ++ ds) ∧ (e = 'e' ∨ e = 'E') ∧ (sign = [] ∨ sign = ['+'] ∨ sign = ['-']) ∧ Digits ds

/-- The items of a dictionary made from the members of an object: the keys in the order of their first occurrence, each
with the value of its last occurrence. -/
def lastValues (l : List (Str × Json)) : List (Str × Json) :=
  (l.map Prod.fst).eraseDups.filterMap fun k => (l.reverse.lookup k).map fun j => (k, j)

mutual

/-- The text stands for the value. A number with a fraction or an exponent becomes a float, any other an int. If a key of
an object is repeated, its last value counts. -/
inductive ValueText (readFloat : Str → PyFloat) : Str → Json → Prop
  | null : ValueText readFloat "null".toList .null
  | true : ValueText readFloat "true".toList (.bool true)
  | false : ValueText readFloat "false".toList (.bool false)
  | int (neg : Bool) {ds : Str} (h : IntPart ds) :
      ValueText readFloat (minus neg ++ ds) (.int ((if neg then -1 else 1) * digitsValue ds))
  | float (neg : Bool) {ds frac exp : Str} (h : IntPart ds) (hf : frac = [] ∨ FracPart frac)
      (he : exp = [] ∨ ExpPart exp) (hsome : FracPart frac ∨ ExpPart exp) :
      ValueText readFloat (minus neg ++ ds ++ frac ++ exp) (.float (readFloat (minus neg ++ ds ++ frac ++ exp)))
  | string {t s : Str} (h : StringText t s) : ValueText readFloat ('"' :: t ++ ['"']) (.str s)
  | noElements {w : Str} (h : Blank w) : ValueText readFloat ('[' :: w ++ [']']) (.arr [])
  | array {t : Str} {l : List Json} (h : ElementsText readFloat t l) : ValueText readFloat ('[' :: t ++ [']']) (.arr l)
  | noMembers {w : Str} (h : Blank w) : ValueText readFloat ('{' :: w ++ ['}']) (.obj [])
  | object {t : Str} {l : List (Str × Json)} (h : MembersText readFloat t l) :
      ValueText readFloat ('{' :: t ++ ['}']) (.obj (lastValues l))

/-- The elements of an array, with the commas and the white space. -/
inductive ElementsText (readFloat : Str → PyFloat) : Str → List Json → Prop
  | last {w t w' : Str} {j : Json} (h : Blank w) (hv : ValueText readFloat t j) (h' : Blank w') :
      ElementsText readFloat (w ++ t ++ w') [j]
  | more {w t w' ts : Str} {j : Json} {l : List Json} (h : Blank w) (hv : ValueText readFloat t j) (h' : Blank w')
      (hs : ElementsText readFloat ts l) : ElementsText readFloat (w ++ t ++ w' ++ ',' :: ts) (j :: l)

/-- The members of an object. -/
inductive MembersText (readFloat : Str → PyFloat) : Str → List (Str × Json) → Prop
  | last {w k w' w'' t w''' key : Str} {j : Json} (h : Blank w) (hk : StringText k key) (h' : Blank w') (h'' : Blank w'')
      (hv : ValueText readFloat t j) (h''' : Blank w''') :
      MembersText readFloat (w ++ '"' :: k ++ '"' :: w' ++ ':' :: w'' ++ t ++ w''') [(key, j)]
  | more {w k w' w'' t w''' ts key : Str} {j : Json} {l : List (Str × Json)} (h : Blank w) (hk : StringText k key)
      (h' : Blank w') (h'' : Blank w'') (hv : ValueText readFloat t j) (h''' : Blank w''')
      (hs : MembersText readFloat ts l) :
      MembersText readFloat (w ++ '"' :: k ++ '"' :: w' ++ ':' :: w'' ++ t ++ w''' ++ ',' :: ts) ((key, j) :: l)

end

/-- A JSON text: a value, perhaps with white space around it. -/
def JsonText (readFloat : Str → PyFloat) (text : Str) (j : Json) : Prop :=
  ∃ w t w', text = w ++ t ++ w' ∧ Blank w ∧ ValueText readFloat t j ∧ Blank w'

/-- The size of an unspent as a JSON number: an int, or a float with the same value. -/
def SizeEntry (v : Json) (vsize4 : Nat) : Prop :=
  (∃ n : Nat, v = .int n ∧ 4 * n = vsize4) ∨ ∃ f, v = .float f ∧ value f.exact = (vsize4 : ℚ) / 4

/-- The entries of an unspent in a JSON object. The flag is not used: the kind determines it. -/
def UnspentEntry (x : Json) (u : Unspent) : Prop :=
  At x [name "amount"] (.int u.amount) ∧ At x [name "confirmations"] (.int u.confirmations) ∧
  At x [name "script"] (.str u.script) ∧ At x [name "txid"] (.str u.txid) ∧ At x [name "txindex"] (.int u.txindex) ∧
  At x [name "type"] (.str u.type) ∧ At x [name "sequence"] (.int u.sequence) ∧
  (∃ v, At x [name "vsize"] v ∧ SizeEntry v u.vsize4) ∧
  ∃ v, At x [name "segwit"] v ∧ (v = .null ∨ ∃ b, v = .bool b)

/-- A JSON value with the coins and the payments of a prepared transaction; the entries may be in any order and there
may be further ones. -/
def PreparedValue (j : Json) (coins : List Unspent) (pays : List (Str × Int)) : Prop :=
  (∃ l, At j [name "unspents"] (.arr l) ∧ List.Forall₂ UnspentEntry l coins) ∧
  At j [name "outputs"] (.arr (pays.map fun o => .arr [.str o.1, .int o.2]))

end Bit.Spec
