import Verif.Model.Sign
import Verif.Model.JsonText
/-
Model of the stateful part of the key and multi-signature classes of /repo/bit/wallet.py: the fields
`unspents` and `balance`, `get_unspents`, `create_transaction`, `prepare_transaction`,
`sign_transaction`. The classes for the two networks differ only in the network asked.
-/
namespace Bit

/-- The attributes of a key object that calls change, with the key. -/
structure Wallet where
  signer : Signer
  unspents : List Unspent
  balance : Int
  deriving DecidableEq, Repr

/-- bit/wallet.py:167-168, 990-991: a new object. -/
def newWallet (s : Signer) : Wallet := { signer := s, unspents := [], balance := 0 }

/-- The network of a signer: `self.version` (bit/wallet.py:159, 556, 973, 1296). -/
def Signer.net : Signer → Net
  | .single k => k.net
  | .multi s => s.net

/-- What `NetworkAPI.get_unspent(address)` gives: a list, `None` (from BlockchairAPI,
bit/network/services.py:236) or an exception. -/
abbrev Ask := Str → Py (Option (List Unspent))

/-- The types and sizes (four times) given to the unspents of the two addresses:
bit/wallet.py:236, 241 for a key, 1065-1070, 1072, 1075 for a contract. A size of 0 means that no size
is given. -/
def Signer.kinds (C : Crypto) : Signer → Py ((Str × Nat) × (Str × Nat))
  | .single k =>
    .ok (((if k.isCompressed C then "p2pkh".toList else "p2pkh-uncompressed".toList), 0),
      ("np2wkh".toList, 0))
  | .multi s =>
    match intToVarint s.redeemscript.length with
    | .error e => .error e
    | .ok l =>
      let p2shSize : Int := 1 + s.m * 74 + l.length + s.redeemscript.length
      match intToVarintInt p2shSize with
      | .error e => .error e
      | .ok l2 =>
        .ok (("p2sh".toList, (4 * (36 + l2.length + p2shSize + 4)).toNat),
          ("np2wsh".toList, (4 * (36 + 40) + (1 + p2shSize)).toNat))

/-- `list(map(lambda u: u.set_type(...), answer))`; mapping over `None` is a `TypeError`. -/
def retype (kind : Str × Nat) : Py (Option (List Unspent)) → Py (List Unspent)
  | .error e => .error e
  | .ok none => .error .typeError
  | .ok (some us) => .ok (us.map fun u => u.setType kind.1 kind.2)

/-- bit/wallet.py:229-243, 626-642, 1060-1078, 1383-1406 `get_unspents`: the object afterwards and the
result. The list is assigned before the second question is asked, the balance at the end. -/
def Wallet.getUnspents (C : Crypto) (ask : Ask) (w : Wallet) : Wallet × Py (List Unspent) :=
  match w.signer.kinds C with
  | .error e => (w, .error e)
  | .ok (legacy, segwit) =>
    match w.signer.address C with
    | .error e => (w, .error e)
    | .ok address =>
      match retype legacy (ask address) with
      | .error e => (w, .error e)
      | .ok us =>
        let w := { w with unspents := us }
        match w.signer.segwitAddress C with
        | .error e => (w, .error e)
        | .ok none => ({ w with balance := (us.map Unspent.amount).sum }, .ok us)
        | .ok (some address) =>
          match retype segwit (ask address) with
          | .error e => (w, .error e)
          | .ok us' =>
            ({ w with unspents := us ++ us', balance := ((us ++ us').map Unspent.amount).sum },
              .ok (us ++ us'))

/-- The options of `create_transaction` and `prepare_transaction`. A `fee` of `None` or 0 and a
`leftover` of `None` or '' select the default. -/
structure TxArgs (Amount : Type) where
  outputs : List (Str × Amount)
  fee : Option Int
  absoluteFee : Bool
  leftover : Option Str
  combine : Bool
  message : Option Dest
  messageIsHex : Bool
  replaceByFee : Bool

/-- What a call draws from its surroundings: conversion of amounts (`currency_to_satoshi_cached`), the
answer of `get_fee_cached`, coin tosses and shuffle. -/
structure Env (Amount : Type) where
  conv : Amount → Py Int
  feeCached : Int
  flips : Nat → Bool
  shuffle : List Unspent → List Unspent

section
variable {Amount : Type} (C : Crypto) (env : Env Amount) (args : TxArgs Amount)

/-- `fee or get_fee_cached()` (bit/wallet.py:312, 446). -/
def feeOf : Int :=
  match args.fee with
  | some fee => if fee ≠ 0 then fee else env.feeCached
  | none => env.feeCached

/-- `leftover or default` (bit/wallet.py:313, 447). -/
def leftoverOf (default : Option Str) : Option Str :=
  match args.leftover with
  | some l => if l.isEmpty then default else some l
  | none => default

/-- The call of `sanitize_tx_data` in bit/wallet.py:309-320 and 443-454. -/
def sanitizeArgs (us : List Unspent) (default : Option Str) (version : Net) :
    Py (List Unspent × List (Dest × Int)) :=
  sanitizeTxData C env.conv env.flips env.shuffle us args.outputs (feeOf env args)
    (leftoverOf args default) args.combine args.message args.absoluteFee 0 version args.messageIsHex
    args.replaceByFee

/-- What `sanitize_tx_data` leaves in the list given to it, also when it raises
(bit/transaction.py:427-439): the selection if the selection succeeds, otherwise the list is as before. -/
def listAfter (us : List Unspent) (default : Option Str) : List Unspent :=
  match convertOutputs env.conv args.outputs with
  | .error _ => us
  | .ok outputs =>
    if us.isEmpty then us
    else
      match messageChunks args.message args.messageIsHex with
      | .error _ => us
      | .ok chunks =>
        match outputSizes C outputs with
        | .error _ => us
        | .ok sizes =>
          match leftoverOf args default with
          | none => us
          | some leftover =>
            match outputSizeOf C leftover with
            | .error _ => us
            | .ok leftoverSize =>
              match selectCoins env.flips env.shuffle (outputs.map Prod.snd).sum (feeOf env args)
                  (sizes ++ [chunks.length * (80 + 9)] ++ [leftoverSize]) 0 args.absoluteFee
                  args.combine us with
              | .error _ => us
              | .ok (sel, _) => if args.replaceByFee then sel.map Unspent.optInForRBF else sel

/-- bit/wallet.py:307: `segwit_address` if any unspent is segwit, else `address`. -/
def returnAddress (s : Signer) (us : List Unspent) : Py (Option Str) :=
  if us.any fun u => u.segwit = some true then s.segwitAddress C
  else
    match s.address C with
    | .error e => .error e
    | .ok a => .ok (some a)

/-- The `unspents` argument of `create_transaction`: the object's own list, or another one (`None` is
the empty one). -/
inductive Source
  | stored
  | given (us : List Unspent)

/-- bit/wallet.py:301-304: the unspents to use, and whether they are the object's own list. (The
`ConnectionError` raised again is a `ConnectionError`.) -/
def Wallet.source (ask : Ask) (w : Wallet) (src : Source) : Wallet × Py (List Unspent) × Bool :=
  match src with
  | .stored =>
    if w.unspents.isEmpty then ((w.getUnspents C ask).1, (w.getUnspents C ask).2, true)
    else (w, .ok w.unspents, true)
  | .given us =>
    if us.isEmpty then ((w.getUnspents C ask).1, (w.getUnspents C ask).2, true)
    else (w, .ok us, false)

/-- bit/wallet.py:255-322, 654-721, 1090-1157, 1418-1485 `create_transaction`: the object afterwards and
the result. (With `replace_by_fee` the sequence numbers of unspents in a given list are changed too;
entries that it shares with the stored list are not tracked here but in `Model/Sharing`.) -/
def Wallet.createTransaction (ask : Ask) (w : Wallet) (src : Source) : Wallet × Py Str :=
  let (w, got, own) := w.source C ask src
  match got with
  | .error e => (w, .error e)
  | .ok us =>
    match returnAddress C w.signer us with
    | .error e => (w, .error e)
    | .ok default =>
      let after := if own then { w with unspents := listAfter C env args us default } else w
      match sanitizeArgs C env args us default w.signer.net with
      | .error e => (after, .error e)
      | .ok (us, outs) => (after, createNewTransaction C w.signer us outs)

end

/-- `repr(v / 4)` of a float with `v` below 2 ^ 50. -/
def quarterText (v : Nat) : Str :=
  Dec.digitsText (v / 4) ++ '.' ::
    (if v % 4 = 0 then ['0'] else if v % 4 = 1 then ['2', '5'] else if v % 4 = 2 then ['5'] else ['7', '5'])

/-- A size in quarters as a number of Python: an int, or a float where the code divides (bit/wallet.py:1070). -/
def sizeJson (readFloat : Str → PyFloat) (isFloat : Bool) (v : Nat) : Json :=
  if isFloat = true ∨ v % 4 ≠ 0 then .float (readFloat (quarterText v)) else .int (v / 4 : Nat)

/-- A value of `to_dict` as JSON. -/
def DictVal.toJson (readFloat : Str → PyFloat) (isFloat : Bool) : DictVal → Json
  | .int n => .int n
  | .str s => .str s
  | .size v => sizeJson readFloat isFloat v
  | .flag none => .null
  | .flag (some b) => .bool b

/-- The dict of an unspent as JSON. `isFloat` tells whether its size is a float. -/
def Unspent.toJson (readFloat : Str → PyFloat) (isFloat : Bool) (u : Unspent) : Json :=
  .obj (u.toDict.map fun a => (a.1.toList, a.2.toJson readFloat isFloat))

/-- The outputs as JSON: `bytes` cannot be serialised (`TypeError`). -/
def jsonOutputs : List (Dest × Int) → Py (List Json)
  | [] => .ok []
  | (.bytes _, _) :: _ => .error .typeError
  | (.str s, n) :: outs =>
    match jsonOutputs outs with
    | .error e => .error e
    | .ok os => .ok (.arr [.str s, .int n] :: os)

/-- The data of `prepare_transaction`, bit/wallet.py:456. -/
def preparedData (readFloat : Str → PyFloat) (floats : Unspent → Bool) (us : List Unspent) (outs : List Json) : Json :=
  .obj [("unspents".toList, .arr (us.map fun u => u.toJson readFloat (floats u))), ("outputs".toList, .arr outs)]

/-- bit/wallet.py:390-458, 789-857, 1160-1228, 1488-1556 `prepare_transaction` of the class for network
`net`. An empty `unspents` stands for `None`; the network is then asked and the unspents keep the type
they come with. `floats` tells which sizes are floats. -/
def prepareTransaction {Amount : Type} (C : Crypto) (readFloat : Str → PyFloat) (floats : Unspent → Bool)
    (env : Env Amount) (args : TxArgs Amount) (ask : Ask)
    (net : Net) (address : Str) (unspents : List Unspent) : Py Str :=
  let got : Py (List Unspent) :=
    if unspents.isEmpty then
      match ask address with
      | .error e => .error e
      | .ok none => .ok []
      | .ok (some us) => .ok us
    else .ok unspents
  match got with
  | .error e => .error e
  | .ok us =>
    match sanitizeArgs C env args us (some address) net with
    | .error e => .error e
    | .ok (us, outs) =>
      match jsonOutputs outs with
      | .error e => .error e
      | .ok outs => .ok (preparedData readFloat floats us outs).dumps

/-- Four times a decimal number, if that is a natural number. -/
def quarters (d : Dec) : Option Nat :=
  if d.neg = true ∧ d.coeff ≠ 0 then none
  else if 0 ≤ d.exp then some (4 * (d.coeff * 10 ^ d.exp.toNat))
  else if 4 * d.coeff % 10 ^ (-d.exp).toNat = 0 then some (4 * d.coeff / 10 ^ (-d.exp).toNat)
  else none

/-- A JSON value as an attribute of an unspent. A value of a kind that no unspent of the library has is a `TypeError` in
the model; Python would store it. -/
def attrOfJson (attr : String) (j : Json) : Py DictVal :=
  if attr = "vsize" then
    match j with
    | .int n => if 0 ≤ n then .ok (.size (4 * n.toNat)) else .error .typeError
    | .float f =>
      match quarters f.exact with
      | some v => .ok (.size v)
      | none => .error .typeError
    | _ => .error .typeError
  else
    match j with
    | .int n => .ok (.int n)
    | .str s => .ok (.str s)
    | .null => .ok (.flag none)
    | .bool b => .ok (.flag (some b))
    | _ => .error .typeError

/-- `Unspent.__slots__`, bit/network/meta.py:28. -/
def unspentSlots : List String :=
  ["amount", "confirmations", "script", "txid", "txindex", "type", "vsize", "segwit", "sequence"]

/-- bit/network/meta.py:45-47 `from_dict` on a JSON value: the nine attributes are looked up. -/
def Unspent.fromJson (j : Json) : Py Unspent :=
  match pyMap (fun attr => (j.get attr.toList).bind fun v => (attrOfJson attr v).map fun a => (attr, a))
      unspentSlots with
  | .error e => .error e
  | .ok d => Unspent.fromDict d

/-- One element of `outputs` in a JSON text, as `construct_outputs` takes it apart (bit/transaction.py:474-475). Other
kinds of values are a `TypeError` in the model. -/
def outputOfJson : Json → Py (Dest × Int)
  | .arr [.str s, .int n] => .ok (.str s, n)
  | _ => .error .typeError

/-- bit/wallet.py:480-490: the part of `sign_transaction` under `except`. -/
def Wallet.signFallback (C : Crypto) (ask : Ask) (w : Wallet) (data : Str) (unspents : List Unspent) :
    Wallet × Py Str :=
  let (w, got) := if unspents.isEmpty then w.getUnspents C ask else (w, .ok unspents)
  match got with
  | .error e => (w, .error e)
  | .ok us => (w, signTransactionHex C w.signer data us)

/-- bit/wallet.py:460-490, 859-889, 1230-1260, 1558-1588 `sign_transaction`: every exception of the first
attempt is swallowed; the variable `unspents` keeps what the attempt assigned to it. -/
def Wallet.signTransaction (C : Crypto) (readFloat : Str → PyFloat) (ask : Ask) (w : Wallet) (data : Str)
    (unspents : Option (List Unspent)) : Wallet × Py Str :=
  match jsonLoads readFloat data, unspents with
  | .ok j, none =>
    match (j.get "unspents".toList).bind fun l => l.items.bind fun l => pyMap Unspent.fromJson l with
    | .error _ => w.signFallback C ask data []
    | .ok us =>
      match (j.get "outputs".toList).bind fun l => l.items.bind fun l => (pyMap outputOfJson l).bind fun outs =>
          createNewTransaction C w.signer us outs with
      | .ok tx => (w, .ok tx)
      | .error _ => w.signFallback C ask data us
  | _, us => w.signFallback C ask data (us.getD [])

end Bit
