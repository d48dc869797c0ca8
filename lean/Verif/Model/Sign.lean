import Verif.Model.Keys
import Verif.Model.Tx
import Verif.Model.Unspent
import Verif.Model.Build
/-
Model of `calculate_preimages`, `sign_tx`, `create_new_transaction` of /repo/bit/transaction.py and of
`can_sign_unspent`, `sign_transaction` of /repo/bit/wallet.py.
-/
namespace Bit

/-- The `private_key` argument of `sign_tx`: a `PrivateKey(Testnet)` or a `MultiSig(Testnet)`. -/
inductive Signer
  | single (k : PrivKey)
  | multi (s : MultiSig)
  deriving DecidableEq, Repr

namespace Signer

/-- `public_key`: bit/wallet.py:76-79 and 977. -/
def publicKey (C : Crypto) : Signer → Bytes
  | .single k => k.publicKey C
  | .multi s => s.key.publicKey C

/-- `address`: bit/wallet.py:171-176 and 994-999. -/
def address (C : Crypto) : Signer → Py Str
  | .single k => k.address C
  | .multi s => s.address C

/-- `segwit_address`: bit/wallet.py:178-185 and 1001-1008. -/
def segwitAddress (C : Crypto) : Signer → Py (Option Str)
  | .single k => k.segwitAddress C
  | .multi s => s.segwitAddress C

/-- `scriptcode`: bit/wallet.py:187-190 and 1010-1013. -/
def scriptcode (C : Crypto) : Signer → Py (Option Bytes)
  | .single k => k.scriptcode C
  | .multi s => .ok (some s.scriptcode)

/-- `sign`: bit/wallet.py:87-96, 1028-1037 and 1351-1360. -/
def sign (C : Crypto) (data : Bytes) : Signer → Bytes
  | .single k => C.sign k.secret data
  | .multi s => C.sign s.key.secret data

/-- `bytes_to_hex(address_to_scriptpubkey(address))`; `hexlify(None)` is a `TypeError`. -/
def scriptHex (C : Crypto) (address : Str) : Py Str :=
  match addressToScriptpubkey C address with
  | .error e => .error e
  | .ok none => .error .typeError
  | .ok (some script) => .ok (bytesToHex script)

/-- `can_sign_unspent`: bit/wallet.py:197-203, 594-600, 1020-1026, 1343-1349. -/
def canSignUnspent (C : Crypto) (s : Signer) (unspent : Unspent) : Py Bool :=
  match s.address C with
  | .error e => .error e
  | .ok address =>
    match scriptHex C address with
    | .error e => .error e
    | .ok script =>
      match s.segwitAddress C with
      | .error e => .error e
      | .ok none => .ok (unspent.script = script)
      | .ok (some segwit) =>
        match scriptHex C segwit with
        | .error e => .error e
        | .ok segwitScript => .ok (unspent.script = script || unspent.script = segwitScript)

end Signer

/-- bit/constants.py:8 `HASH_TYPE`. -/
def hashTypeAll : Bytes := [0x01, 0x00, 0x00, 0x00]

/-- bit/transaction.py:584: the outpoint of an unspent as in the wire format. -/
def outpointOf (u : Unspent) : Py Bytes :=
  match hexToBytes u.txid with
  | .error e => .error e
  | .ok txid =>
    match toBytesLE u.txindex 4 with
    | .error e => .error e
    | .ok index => .ok (txid.reverse ++ index)

/-- bit/transaction.py:579-589: the dictionary from outpoints to the unspents that can be signed, as
a list in which the first entry with a key counts. `d` is the dictionary so far. (A `TypeError` is
raised again as a `TypeError`.) -/
def inputDict (C : Crypto) (s : Signer) : List Unspent → List (Bytes × Unspent) →
    Py (List (Bytes × Unspent))
  | [], d => .ok d
  | u :: us, d =>
    match s.canSignUnspent C u with
    | .error e => .error e
    | .ok false => inputDict C s us d
    | .ok true =>
      match outpointOf u with
      | .error e => .error e
      | .ok key => inputDict C s us ((key, u) :: d)

/-- bit/transaction.py:544 and 551: an input in the preimage of another legacy input. -/
def TxIn.stripped (i : TxIn) : Bytes := i.txid ++ i.txindex ++ [0x00] ++ i.sequence

/-- bit/transaction.py:520-558, the body of the loop of `calculate_preimages`. -/
def preimage (C : Crypto) (tx : TxObj) (inputIndex : Nat) (hashType : Bytes) (segwitInput : Bool) :
    Py Bytes :=
  match intToVarint tx.ins.length, intToVarint tx.outs.length with
  | .error e, _ => .error e
  | .ok _, .error e => .error e
  | .ok inputCount, .ok outputCount =>
    if hashType ≠ hashTypeAll then .error .valueError
    else
      match tx.ins[inputIndex]? with
      | none => .error .indexError
      | some i =>
        let outputBlock := tx.outs.flatMap TxOut.bytes
        if segwitInput then
          .ok (C.sha256 (tx.version
            ++ C.doubleSha256 (tx.ins.flatMap fun i => i.txid ++ i.txindex)
            ++ C.doubleSha256 (tx.ins.flatMap fun i => i.sequence)
            ++ i.txid ++ i.txindex ++ i.scriptSigLen ++ i.scriptSig ++ i.sequence
            ++ C.doubleSha256 outputBlock ++ tx.locktime ++ hashType))
        else
          .ok (C.sha256 (tx.version ++ inputCount
            ++ (tx.ins.take inputIndex).flatMap TxIn.stripped
            ++ i.txid ++ i.txindex ++ i.scriptSigLen ++ i.scriptSig ++ i.sequence
            ++ (tx.ins.drop (inputIndex + 1)).flatMap TxIn.stripped
            ++ outputCount ++ outputBlock ++ tx.locktime ++ hashType))

/-- bit/transaction.py:494-559 `calculate_preimages`. (With an empty list of parameters Python still
computes the two counts; they cannot fail for fewer than 2^64 inputs or outputs.) -/
def calculatePreimages (C : Crypto) (tx : TxObj) : List (Nat × Bytes × Bool) → Py (List Bytes)
  | [] => .ok []
  | (i, hashType, segwit) :: ps =>
    match preimage C tx i hashType segwit with
    | .error e => .error e
    | .ok h =>
      match calculatePreimages C tx ps with
      | .error e => .error e
      | .ok hs => .ok (h :: hs)

/-- What the first loop of `sign_tx` leaves for one input. -/
structure Prepared where
  /-- the input with the script code in place of the script -/
  input : TxIn
  /-- `input_script_field[i]`: the previous script, or the previous witness of a segwit input -/
  field : Bytes
  /-- `some segwit_input` if the input is to be signed -/
  sign : Option Bool
  deriving DecidableEq, Repr

/-- bit/transaction.py:607-637, for one input. The Python loop runs over the indices of the inputs to
sign in increasing order and touches only the input at that index; the model goes through the list of
inputs. -/
def prepareInput (C : Crypto) (s : Signer) (d : List (Bytes × Unspent)) (i : TxIn) : Py Prepared :=
  match d.lookup (i.txid ++ i.txindex) with
  | none => .ok { input := i, field := i.scriptSig, sign := none }
  | some u =>
    let segwitInput := u.segwit.getD false
    match s.scriptcode C with
    | .error e => .error e
    | .ok none => .error .typeError
    | .ok (some scriptCode) =>
      match intToVarint scriptCode.length with
      | .error e => .error e
      | .ok scriptCodeLen =>
        if segwitInput then
          match toBytesLE u.amount 8 with
          | .error e => .error e
          | .ok amount => .ok { input := { i with segwitInput := segwitInput
                                                  scriptSig := scriptCode ++ amount
                                                  scriptSigLen := scriptCodeLen }
                                field := i.witness, sign := some segwitInput }
        else
          .ok { input := { i with segwitInput := segwitInput
                                  scriptSig := scriptCode
                                  scriptSigLen := scriptCodeLen }
                field := i.scriptSig, sign := some segwitInput }

/-- bit/transaction.py:609-637. -/
def prepareInputs (C : Crypto) (s : Signer) (d : List (Bytes × Unspent)) :
    List TxIn → Py (List Prepared)
  | [] => .ok []
  | i :: is =>
    match prepareInput C s d i with
    | .error e => .error e
    | .ok p =>
      match prepareInputs C s d is with
      | .error e => .error e
      | .ok ps => .ok (p :: ps)

/-- bit/transaction.py:637 `inputs_parameters`, for the inputs from index `k` on. -/
def inputsParameters : Nat → List Prepared → List (Nat × Bytes × Bool)
  | _, [] => []
  | k, p :: ps =>
    match p.sign with
    | none => inputsParameters (k + 1) ps
    | some segwit => (k, hashTypeAll, segwit) :: inputsParameters (k + 1) ps

/-- `int_to_varint` of any integer. -/
def intToVarintInt (val : Int) : Py Bytes :=
  if val < 0 then .error .overflowError else intToVarint val.toNat

/-- Assignment to a key of a dictionary. -/
def dictSet (d : List (Bytes × Bytes)) (k v : Bytes) : List (Bytes × Bytes) :=
  (k, v) :: d.filter (fun e => e.1 ≠ k)

/-- bit/transaction.py:661-666: every signature in the script, tried with every key. -/
def matchSigs (C : Crypto) (hash : Bytes) (pubs : List Bytes) : List Bytes →
    List (Bytes × Bytes) → List (Bytes × Bytes)
  | [], d => d
  | sig :: sigs, d =>
    matchSigs C hash pubs sigs
      (pubs.foldl (fun d pub => if C.verify (dropLast' sig 1) hash pub then dictSet d pub sig else d) d)

/-- Whether bit/transaction.py:661-663 verifies a signature with a key that is not a point of the curve, which raises. -/
def badPoint (C : Crypto) (pubs sigList : List Bytes) : Bool := !sigList.isEmpty && pubs.any fun p => !C.isPoint p

/-- bit/transaction.py:672-678: the signatures in the order of the keys. -/
def sortedSigs (segwitInput : Bool) (sigs : List (Bytes × Bytes)) : List Bytes → Py Bytes
  | [] => .ok []
  | pub :: pubs =>
    match sigs.lookup pub with
    | none => sortedSigs segwitInput sigs pubs
    | some sig =>
      match (if segwitInput then intToVarint sig.length else scriptPush sig.length) with
      | .error e => .error e
      | .ok length =>
        match sortedSigs segwitInput sigs pubs with
        | .error e => .error e
        | .ok rest => .ok (length ++ sig ++ rest)

/-- bit/transaction.py:645-690: script and witness of a P2(W)SH input. -/
def signMulti (C : Crypto) (s : MultiSig) (segwitTx segwitInput : Bool) (hash field : Bytes) :
    Py (Bytes × Bytes) :=
  let signature := C.sign s.key.secret hash ++ [0x01]
  let partially : Py (Bytes × List (Bytes × Bytes) × Int) :=
    if field.isEmpty then .ok ([], [], 3)
    else
      match getSignaturesFromScript C.isDer field with
      | .error e => .error e
      | .ok sigList =>
        let sigs := matchSigs C hash s.publicKeys sigList []
        if badPoint C s.publicKeys sigList then .error .valueError
        else if (sigs.length : Int) ≥ s.m then .error .valueError
        else .ok (List.replicate (s.m - sigList.length - 1).toNat 0x00, sigs, s.m + 2)
  match partially with
  | .error e => .error e
  | .ok (scriptBlob, sigs, witnessCount) =>
    let sigs := dictSet sigs (s.key.publicKey C) signature
    match sortedSigs segwitInput sigs s.publicKeys with
    | .error e => .error e
    | .ok sorted =>
      match (if segwitInput then intToVarintInt witnessCount else .ok []) with
      | .error e => .error e
      | .ok count =>
        match (if segwitInput then intToVarint s.redeemscript.length
            else scriptPush s.redeemscript.length) with
        | .error e => .error e
        | .ok redeemLen =>
          let witness := count ++ [0x00] ++ sorted ++ scriptBlob ++ redeemLen ++ s.redeemscript
          if segwitInput then .ok ([0x22] ++ s.segwitScriptcode C, witness)
          else .ok (witness, if segwitTx then [0x00] else [])

/-- bit/transaction.py:693-707: script and witness of a P2(W)PKH input. -/
def signSingle (C : Crypto) (k : PrivKey) (segwitTx segwitInput : Bool) (hash : Bytes) :
    Py (Bytes × Bytes) :=
  let signature := C.sign k.secret hash ++ [0x01]
  match scriptPush (k.publicKey C).length with
  | .error e => .error e
  | .ok publicKeyPush =>
    match toBytesLE signature.length 1 with
    | .error e => .error e
    | .ok sigLen =>
      let witness := (if segwitInput then [0x02] else []) ++ sigLen ++ signature ++ publicKeyPush
        ++ k.publicKey C
      if segwitInput then .ok ([0x16] ++ k.segwitScriptcode C, witness)
      else .ok (witness, if segwitTx then [0x00] else [])

/-- bit/transaction.py:645-707: script and witness of an input. -/
def signBytes (C : Crypto) (s : Signer) (segwitTx segwitInput : Bool) (hash field : Bytes) :
    Py (Bytes × Bytes) :=
  match s with
  | .single k => signSingle C k segwitTx segwitInput hash
  | .multi ms => signMulti C ms segwitTx segwitInput hash field

/-- bit/transaction.py:641-712, the body of the second loop. -/
def signInput (C : Crypto) (s : Signer) (segwitTx segwitInput : Bool) (hash field : Bytes) (i : TxIn) :
    Py TxIn :=
  match signBytes C s segwitTx segwitInput hash field with
  | .error e => .error e
  | .ok (scriptSig, witness) =>
    match intToVarint scriptSig.length with
    | .error e => .error e
    | .ok l => .ok { i with scriptSig := scriptSig, scriptSigLen := l, witness := witness }

/-- bit/transaction.py:641-712: the second loop, again over all inputs; the preimages belong to the
inputs to sign in order. -/
def signInputs (C : Crypto) (s : Signer) (segwitTx : Bool) : List Prepared → List Bytes →
    Py (List TxIn)
  | [], _ => .ok []
  | p :: ps, hashes =>
    match p.sign with
    | none =>
      match signInputs C s segwitTx ps hashes with
      | .error e => .error e
      | .ok is => .ok (p.input :: is)
    | some segwitInput =>
      match hashes with
      | [] => .error .indexError
      | hash :: hashes =>
        match signInput C s segwitTx segwitInput hash p.field p.input with
        | .error e => .error e
        | .ok i =>
          match signInputs C s segwitTx ps hashes with
          | .error e => .error e
          | .ok is => .ok (i :: is)

/-- bit/transaction.py:562-712 `sign_tx` up to the last line: the signed transaction object. (The
length of the public key push, line 596, is computed where it is used; it cannot fail for keys of less
than 2^32 bytes.) -/
def signTxObj (C : Crypto) (s : Signer) (tx : TxObj) (unspents : List Unspent) : Py TxObj :=
  match inputDict C s unspents [] with
  | .error e => .error e
  | .ok d =>
    match tx.isSegwit with
    | .error e => .error e
    | .ok segwitTx =>
      match prepareInputs C s d tx.ins with
      | .error e => .error e
      | .ok ps =>
        match calculatePreimages C { tx with ins := ps.map Prepared.input } (inputsParameters 0 ps) with
        | .error e => .error e
        | .ok hashes =>
          match signInputs C s segwitTx ps hashes with
          | .error e => .error e
          | .ok ins => .ok { tx with ins := ins }

/-- bit/transaction.py:562-714 `sign_tx`. -/
def signTx (C : Crypto) (s : Signer) (tx : TxObj) (unspents : List Unspent) : Py Str :=
  match signTxObj C s tx unspents with
  | .error e => .error e
  | .ok tx => tx.toHex

/-- bit/transaction.py:725-732: the unsigned input for an unspent. -/
def unsignedInput (u : Unspent) : Py TxIn :=
  match hexToBytes u.txid with
  | .error e => .error e
  | .ok txid =>
    match toBytesLE u.txindex 4 with
    | .error e => .error e
    | .ok txindex =>
      match toBytesLE u.amount 8 with
      | .error e => .error e
      | .ok amount =>
        match toBytesLE u.sequence 4 with
        | .error e => .error e
        | .ok sequence =>
          mkTxIn [] txid.reverse txindex [] (some amount) sequence (u.segwit.getD false)

/-- bit/transaction.py:724-732. -/
def unsignedInputs : List Unspent → Py (List TxIn)
  | [] => .ok []
  | u :: us =>
    match unsignedInput u with
    | .error e => .error e
    | .ok i =>
      match unsignedInputs us with
      | .error e => .error e
      | .ok is => .ok (i :: is)

/-- bit/transaction.py:717-737 `create_new_transaction`. -/
def createNewTransaction (C : Crypto) (s : Signer) (unspents : List Unspent)
    (outputs : List (Dest × Int)) : Py Str :=
  match constructOutputs C outputs with
  | .error e => .error e
  | .ok outs =>
    match unsignedInputs unspents with
    | .error e => .error e
    | .ok ins =>
      signTx C s (mkTxObj [0x01, 0x00, 0x00, 0x00] ins outs [0x00, 0x00, 0x00, 0x00]) unspents

/-- bit/wallet.py:460-490, 859-889, 1230-1260, 1558-1588 `sign_transaction` of a hexadecimal
transaction with a nonempty list of unspents (the JSON attempt fails, in whatever way, and every
exception is caught by the bare `except`). -/
def signTransactionHex (C : Crypto) (s : Signer) (tx : Str) (unspents : List Unspent) : Py Str :=
  match deserializeHex tx with
  | .error e => .error e
  | .ok tx => signTx C s tx unspents

end Bit
