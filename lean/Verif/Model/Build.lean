import Verif.Model.CoinSelect
import Verif.Model.Format
/-
Model of `sanitize_tx_data` and `construct_outputs` of /repo/bit/transaction.py.
-/
namespace Bit

/-- A destination: an address (`str`) or a message chunk (`bytes`). Messages given as `str` together
with `message_is_hex=True` also give `str` chunks. -/
inductive Dest
  | str (s : Str)
  | bytes (b : Bytes)
  deriving DecidableEq, Repr

/-- `str.encode('utf-8')`. -/
def utf8 (s : Str) : Bytes := s.flatMap String.utf8EncodeChar

/-- bit/transaction.py:407-417: the message chunks. A falsy message (`None` or empty) gives none.
`bytes` have no `encode`, hence `AttributeError` unless `message_is_hex`. -/
def messageChunks (message : Option Dest) (messageIsHex : Bool) : Py (List Dest) :=
  match message with
  | none => .ok []
  | some (.str m) =>
    if m.isEmpty then .ok []
    else if messageIsHex then .ok ((chunkData m 80).map .str)
    else .ok ((chunkData (utf8 m) 80).map .bytes)
  | some (.bytes m) =>
    if m.isEmpty then .ok []
    else if messageIsHex then .ok ((chunkData m 80).map .bytes)
    else .error .attributeError

/-- bit/transaction.py:398-402: the loop that converts every amount; `conv` is
`currency_to_satoshi_cached`. -/
def convertOutputs {Amount : Type} (conv : Amount → Py Int) :
    List (Str × Amount) → Py (List (Str × Int))
  | [] => .ok []
  | (dest, amount) :: outputs =>
    match conv amount with
    | .error e => .error e
    | .ok n =>
      match convertOutputs conv outputs with
      | .error e => .error e
      | .ok os => .ok ((dest, n) :: os)

/-- `len(address_to_scriptpubkey(dest)) + 9` (bit/transaction.py:421, 423); `len(None)` is a
`TypeError`. -/
def outputSizeOf (C : Crypto) (dest : Str) : Py Nat :=
  match addressToScriptpubkey C dest with
  | .error e => .error e
  | .ok none => .error .typeError
  | .ok (some script) => .ok (script.length + 9)

/-- bit/transaction.py:421. -/
def outputSizes (C : Crypto) : List (Str × Int) → Py (List Nat)
  | [] => .ok []
  | (dest, _) :: outputs =>
    match outputSizeOf C dest with
    | .error e => .error e
    | .ok n =>
      match outputSizes C outputs with
      | .error e => .error e
      | .ok ns => .ok (n :: ns)

/-- bit/transaction.py:444-449: every destination must belong to the network `version`. -/
def checkVersions (C : Crypto) (version : Net) : List (Str × Int) → Py Unit
  | [] => .ok ()
  | (dest, _) :: outputs =>
    match getVersion C dest with
    | .error e => .error e
    | .ok vs => if vs ≠ version then .error .valueError else checkVersions C version outputs

/-- bit/transaction.py:378-453 `sanitize_tx_data`. The returned unspents are also the new content of
the caller's list (`unspents[:] = ...`). `leftover` is `none` for `None`, which raises `TypeError` in
`bech32_decode`. The unused argument `compressed` is left out. -/
def sanitizeTxData {Amount : Type} (C : Crypto) (conv : Amount → Py Int) (flips : Nat → Bool)
    (shuffle : List Unspent → List Unspent) (unspents : List Unspent) (outputs : List (Str × Amount))
    (fee : Int) (leftover : Option Str) (combine : Bool) (message : Option Dest) (absoluteFee : Bool)
    (minChange : Int) (version : Net) (messageIsHex replaceByFee : Bool) :
    Py (List Unspent × List (Dest × Int)) :=
  match convertOutputs conv outputs with
  | .error e => .error e
  | .ok outputs =>
    if unspents.isEmpty then .error .valueError
    else
      match messageChunks message messageIsHex with
      | .error e => .error e
      | .ok chunks =>
        match outputSizes C outputs with
        | .error e => .error e
        | .ok sizes =>
          match leftover with
          | none => .error .typeError
          | some leftover =>
            match outputSizeOf C leftover with
            | .error e => .error e
            | .ok leftoverSize =>
              let outputSize := sizes ++ [chunks.length * (80 + 9)] ++ [leftoverSize]
              let sumOutputs := (outputs.map Prod.snd).sum
              match selectCoins flips shuffle sumOutputs fee outputSize minChange absoluteFee combine
                  unspents with
              | .error e => .error e
              | .ok (unspents, remaining) =>
                let unspents := if replaceByFee then unspents.map Unspent.optInForRBF else unspents
                let outputs := if remaining > 0 then outputs ++ [(leftover, remaining)] else outputs
                match checkVersions C version outputs with
                | .error e => .error e
                | .ok () =>
                  .ok (unspents, outputs.map (fun o => (.str o.1, o.2)) ++ chunks.map (fun c => (c, 0)))

/-- bit/transaction.py:474-489, the body of the loop of `construct_outputs`. With a nonzero amount the
destination is an address; with amount zero it must be `bytes` (`bytes + str` is a `TypeError`, after
`len(dest).to_bytes(1)` had the chance to overflow). -/
def constructOutput (C : Crypto) (dest : Dest) (amount : Int) : Py TxOut :=
  if amount ≠ 0 then
    match dest with
    | .bytes _ => .error .typeError
    | .str address =>
      match addressToScriptpubkey C address with
      | .error e => .error e
      | .ok script =>
        match toBytesLE amount 8 with
        | .error e => .error e
        | .ok amount =>
          match script with
          | none => .error .typeError
          | some script => mkTxOut amount script
  else
    match dest with
    | .str s =>
      match toBytesLE s.length 1 with
      | .error e => .error e
      | .ok _ => .error .typeError
    | .bytes b =>
      match toBytesLE b.length 1 with
      | .error e => .error e
      | .ok l => mkTxOut [0, 0, 0, 0, 0, 0, 0, 0] ([0x6a] ++ l ++ b)

/-- bit/transaction.py:471-491 `construct_outputs`. -/
def constructOutputs (C : Crypto) : List (Dest × Int) → Py (List TxOut)
  | [] => .ok []
  | (dest, amount) :: outputs =>
    match constructOutput C dest amount with
    | .error e => .error e
    | .ok o =>
      match constructOutputs C outputs with
      | .error e => .error e
      | .ok os => .ok (o :: os)

end Bit
