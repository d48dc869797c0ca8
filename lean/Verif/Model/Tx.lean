import Verif.Model.Utils
import Verif.Model.Crypto
/-
Model of the transaction classes and the (de)serialisation of /repo/bit/transaction.py.
-/
namespace Bit

/-- bit/transaction.py:53-98 class `TxIn`. `script_sig_len` is a separate field, as in the code. -/
structure TxIn where
  scriptSig : Bytes
  scriptSigLen : Bytes
  txid : Bytes
  txindex : Bytes
  witness : Bytes
  amount : Option Bytes
  sequence : Bytes
  segwitInput : Bool
  deriving DecidableEq, Repr

/-- bit/transaction.py:56-65 `TxIn.__init__`. (`segwit_input` may also be `None` in Python, for an
unspent of type 'unknown'; it is only used as a truth value, so it is `false` here.) -/
def mkTxIn (scriptSig txid txindex witness : Bytes) (amount : Option Bytes) (sequence : Bytes)
    (segwitInput : Bool) : Py TxIn :=
  match intToVarint scriptSig.length with
  | .error e => .error e
  | .ok l => .ok { scriptSig := scriptSig, scriptSigLen := l, txid := txid, txindex := txindex,
                   witness := witness, amount := amount, sequence := sequence,
                   segwitInput := segwitInput }

/-- bit/transaction.py:94-95 `TxIn.__bytes__`. -/
def TxIn.bytes (i : TxIn) : Bytes := i.txid ++ i.txindex ++ i.scriptSigLen ++ i.scriptSig ++ i.sequence

/-- bit/transaction.py:97-98 `TxIn.is_segwit` (as a truth value). -/
def TxIn.isSegwit (i : TxIn) : Bool := i.segwitInput || !i.witness.isEmpty

/-- bit/transaction.py:104-123 class `TxOut`. -/
structure TxOut where
  amount : Bytes
  scriptPubkeyLen : Bytes
  scriptPubkey : Bytes
  deriving DecidableEq, Repr

/-- bit/transaction.py:107-110 `TxOut.__init__`. -/
def mkTxOut (amount scriptPubkey : Bytes) : Py TxOut :=
  match intToVarint scriptPubkey.length with
  | .error e => .error e
  | .ok l => .ok { amount := amount, scriptPubkeyLen := l, scriptPubkey := scriptPubkey }

/-- bit/transaction.py:122-123 `TxOut.__bytes__`. -/
def TxOut.bytes (o : TxOut) : Bytes := o.amount ++ o.scriptPubkeyLen ++ o.scriptPubkey

/-- bit/transaction.py:126-172 class `TxObj`. -/
structure TxObj where
  version : Bytes
  ins : List TxIn
  outs : List TxOut
  locktime : Bytes
  deriving DecidableEq, Repr

/-- bit/transaction.py:129-137 `TxObj.__init__`: in a transaction with a segwit input every empty
witness becomes `00`. -/
def mkTxObj (version : Bytes) (ins : List TxIn) (outs : List TxOut) (locktime : Bytes) : TxObj :=
  { version := version
    ins := if ins.any TxIn.isSegwit then
        ins.map fun i => if i.witness.isEmpty then { i with witness := [0x00] } else i
      else ins
    outs := outs
    locktime := locktime }

/-- The counted inputs and outputs: bit/transaction.py:153-154 and 159-160. -/
def TxObj.body (t : TxObj) : Py Bytes :=
  match intToVarint t.ins.length with
  | .error e => .error e
  | .ok nIn =>
    match intToVarint t.outs.length with
    | .error e => .error e
    | .ok nOut => .ok ((nIn ++ t.ins.flatMap TxIn.bytes) ++ (nOut ++ t.outs.flatMap TxOut.bytes))

/-- bit/transaction.py:152-156 `TxObj.__bytes__`. -/
def TxObj.bytes (t : TxObj) : Py Bytes :=
  match t.body with
  | .error e => .error e
  | .ok body =>
    let wit := t.ins.flatMap TxIn.witness
    .ok (t.version ++ (if wit.isEmpty then [] else [0x00]) ++ (if wit.isEmpty then [] else [0x01])
      ++ body ++ wit ++ t.locktime)

/-- bit/transaction.py:158-161 `TxObj.legacy_repr`. -/
def TxObj.legacyRepr (t : TxObj) : Py Bytes :=
  match t.body with
  | .error e => .error e
  | .ok body => .ok (t.version ++ body ++ t.locktime)

/-- bit/transaction.py:163-164 `TxObj.to_hex`. -/
def TxObj.toHex (t : TxObj) : Py Str :=
  match t.bytes with
  | .error e => .error e
  | .ok b => .ok (bytesToHex b)

/-- bit/transaction.py:166-172 `TxObj.is_segwit` of `bytes`. -/
def bytesIsSegwit (tx : Bytes) : Bool := (tx.drop 4).take 2 = [0x00, 0x01]

/-- bit/transaction.py:166-172 `TxObj.is_segwit` of a `TxObj`. -/
def TxObj.isSegwit (t : TxObj) : Py Bool :=
  match t.bytes with
  | .error e => .error e
  | .ok b => .ok (bytesIsSegwit b)

/-- bit/transaction.py:348-353, the input loop of `deserialize`. -/
def readIns : Nat → Bytes → Py (List TxIn × Bytes)
  | 0, tx => .ok ([], tx)
  | n + 1, tx =>
    let (txid, tx) := readBytes tx 32
    let (txindex, tx) := readBytes tx 4
    match readVarString tx with
    | .error e => .error e
    | .ok (scriptSig, tx) =>
      let (sequence, tx) := readBytes tx 4
      match mkTxIn scriptSig txid txindex [] none sequence false with
      | .error e => .error e
      | .ok i =>
        match readIns n tx with
        | .error e => .error e
        | .ok (is, tx) => .ok (i :: is, tx)

/-- bit/transaction.py:357-360, the output loop of `deserialize`. -/
def readOuts : Nat → Bytes → Py (List TxOut × Bytes)
  | 0, tx => .ok ([], tx)
  | n + 1, tx =>
    let (amount, tx) := readBytes tx 8
    match readVarString tx with
    | .error e => .error e
    | .ok (scriptPubkey, tx) =>
      match mkTxOut amount scriptPubkey with
      | .error e => .error e
      | .ok o =>
        match readOuts n tx with
        | .error e => .error e
        | .ok (os, tx) => .ok (o :: os, tx)

/-- bit/transaction.py:366-368, the loop over the items of one witness; the items are concatenated
with their lengths. -/
def readItems : Nat → Bytes → Py (Bytes × Bytes)
  | 0, tx => .ok ([], tx)
  | n + 1, tx =>
    match readSegwitString tx with
    | .error e => .error e
    | .ok (w, tx) =>
      match readItems n tx with
      | .error e => .error e
      | .ok (ws, tx) => .ok (w ++ ws, tx)

/-- bit/transaction.py:363-369, the loop over the witnesses: one for every input. -/
def readWitnesses : List TxIn → Bytes → Py (List TxIn × Bytes)
  | [], tx => .ok ([], tx)
  | i :: is, tx =>
    match readVarInt tx with
    | .error e => .error e
    | .ok (wnum, tx) =>
      match intToVarint wnum with
      | .error e => .error e
      | .ok count =>
        match readItems wnum tx with
        | .error e => .error e
        | .ok (items, tx) =>
          match readWitnesses is tx with
          | .error e => .error e
          | .ok (is, tx) => .ok ({ i with witness := count ++ items } :: is, tx)

/-- bit/transaction.py:334-375 `deserialize` of `bytes`. -/
def deserialize (tx : Bytes) : Py TxObj :=
  let segwitTx := bytesIsSegwit tx
  let (version, tx) := readBytes tx 4
  let tx := if segwitTx then (readBytes (readBytes tx 1).2 1).2 else tx
  match readVarInt tx with
  | .error e => .error e
  | .ok (ins, tx) =>
    match readIns ins tx with
    | .error e => .error e
    | .ok (inputs, tx) =>
      match readVarInt tx with
      | .error e => .error e
      | .ok (outs, tx) =>
        match readOuts outs tx with
        | .error e => .error e
        | .ok (outputs, tx) =>
          match (if segwitTx then readWitnesses inputs tx else .ok (inputs, tx)) with
          | .error e => .error e
          | .ok (inputs, tx) => .ok (mkTxObj version inputs outputs (readBytes tx 4).1)

/-- bit/transaction.py:335-336: `deserialize` of a `str` that consists of hexadecimal digits.
For any other `str` Python raises: `ValueError` from `hex_to_bytes` in `TxObj.is_segwit`, or, if the
text has white space between pairs of digits, `TypeError` from `hexlify` of a `str`. -/
def deserializeHex (tx : Str) : Py TxObj :=
  if tx.all (fun c => (hexVal c).isSome) then
    match hexToBytes tx with
    | .error e => .error e
    | .ok b => deserialize b
  else
    match hexToBytes tx with
    | .error e => .error e
    | .ok _ => .error .typeError

/-- bit/transaction.py:175-177 `calc_txid`. -/
def calcTxid (C : Crypto) (txHex : Str) : Py Str :=
  match deserializeHex txHex with
  | .error e => .error e
  | .ok t =>
    match t.legacyRepr with
    | .error e => .error e
    | .ok b => .ok (bytesToHex (C.doubleSha256 b).reverse)

/-- bit/transaction.py:180-199 `estimate_tx_fee`. Sizes: `in_size` is a sum of virtual sizes, which
are integers or multiples of 1/4 in Python floats (`MultiSig.get_unspents`); the model takes four
times the size, a natural number (`math.ceil` of a float below 2^51 is then exact). `out_size` is an
integer. -/
def estimateTxFee (inSize4 nIn outSize nOut : Nat) (satoshis : Int) (segwit : Bool) : Int :=
  if satoshis = 0 then 0
  else
    let size4 := inSize4 + 4 * (intToUnknownBytes nIn).length + 4 * outSize
      + 4 * (intToUnknownBytes nOut).length + 4 * 8 + (if segwit then 2 else 0)
    ((size4 + 3) / 4 : Nat) * satoshis

end Bit
