import Verif.Model.Basic
/-
Model of /repo/bit/network/meta.py.
-/
namespace Bit

/-- bit/network/meta.py:7-22 `UNSPENT_TYPES`: segwit flag (`None` for 'unknown') and four times the
virtual size. `none` if the name is not a key of the dictionary. -/
def unspentTypes (type : Str) : Option (Option Bool × Nat) :=
  if type = "unknown".toList then some (none, 4 * 180)
  else if type = "p2pkh-uncompressed".toList then some (some false, 4 * 180)
  else if type = "p2pkh".toList then some (some false, 4 * 148)
  else if type = "p2sh".toList then some (some false, 4 * 298)
  else if type = "np2wkh".toList then some (some true, 4 * 91)
  else if type = "np2wsh".toList then some (some true, 4 * 140)
  else if type = "p2wkh".toList then some (some true, 4 * 68)
  else if type = "p2wsh".toList then some (some true, 4 * 105)
  else none

/-- bit/network/meta.py:25-40 class `Unspent`. `vsize4` is four times the attribute `vsize`, which is
an integer or a multiple of 1/4 (bit/wallet.py:1066-1070); `script` is a hexadecimal text. -/
structure Unspent where
  amount : Int
  confirmations : Int
  script : Str
  txid : Str
  txindex : Int
  type : Str
  vsize4 : Nat
  segwit : Option Bool
  sequence : Int
  deriving DecidableEq, Repr

/-- The part of `__init__` and `set_type` (bit/network/meta.py:37-39, 71-73) that fills type, size and
segwit flag. An unknown name becomes 'unknown'; a `vsize` of `None` or 0 (here 0) selects the size of
the type. -/
def Unspent.withType (u : Unspent) (type : Str) (vsize4 : Nat) : Unspent :=
  let (type, segwit, size) := match unspentTypes type with
    | some (s, v) => (type, s, v)
    | none => ("unknown".toList, none, 4 * 180)
  { u with type := type, vsize4 := if vsize4 ≠ 0 then vsize4 else size, segwit := segwit }

/-- bit/network/meta.py:30-40 `Unspent.__init__`; the argument `segwit` is disregarded, as in the
code. -/
def mkUnspent (amount confirmations : Int) (script txid : Str) (txindex : Int) (type : Str)
    (vsize4 : Nat) (_segwit : Option Bool) (sequence : Int) : Unspent :=
  Unspent.withType { amount := amount, confirmations := confirmations, script := script, txid := txid,
                     txindex := txindex, type := [], vsize4 := 0, segwit := none,
                     sequence := sequence } type vsize4

/-- bit/network/meta.py:70-74 `set_type`. -/
def Unspent.setType (u : Unspent) (type : Str) (vsize4 : Nat) : Unspent := u.withType type vsize4

/-- bit/network/meta.py:76-78 `opt_in_for_RBF`. -/
def Unspent.optInForRBF (u : Unspent) : Unspent :=
  if u.sequence > 4294967293 then { u with sequence := 4294967293 } else u

/-- A value in the dictionary of `to_dict`. -/
inductive DictVal
  | int (n : Int)
  | str (s : Str)
  | size (vsize4 : Nat)
  | flag (b : Option Bool)
  deriving DecidableEq, Repr

/-- bit/network/meta.py:42-43 `to_dict`: the attributes by name, in the order of `__slots__`. -/
def Unspent.toDict (u : Unspent) : List (String × DictVal) :=
  [("amount", .int u.amount), ("confirmations", .int u.confirmations), ("script", .str u.script),
   ("txid", .str u.txid), ("txindex", .int u.txindex), ("type", .str u.type), ("vsize", .size u.vsize4),
   ("segwit", .flag u.segwit), ("sequence", .int u.sequence)]

/-- bit/network/meta.py:45-47 `from_dict`: `KeyError` if an attribute is missing. (A value of the
wrong kind is `TypeError` in the model; Python would store it.) -/
def Unspent.fromDict (d : List (String × DictVal)) : Py Unspent :=
  match d.lookup "amount", d.lookup "confirmations", d.lookup "script", d.lookup "txid",
    d.lookup "txindex", d.lookup "type", d.lookup "vsize", d.lookup "segwit", d.lookup "sequence" with
  | some (.int a), some (.int c), some (.str s), some (.str t), some (.int i), some (.str y),
    some (.size v), some (.flag f), some (.int q) => .ok (mkUnspent a c s t i y v f q)
  | some _, some _, some _, some _, some _, some _, some _, some _, some _ => .error .typeError
  | _, _, _, _, _, _, _, _, _ => .error .keyError

/-- bit/network/meta.py:49-57 `__eq__`. -/
def Unspent.eq (u v : Unspent) : Bool :=
  u.amount = v.amount ∧ u.script = v.script ∧ u.txid = v.txid ∧ u.txindex = v.txindex ∧
  u.segwit = v.segwit ∧ u.sequence = v.sequence

end Bit
