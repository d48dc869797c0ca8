import Verif.Spec.Script
/-
Specification of the Bitcoin transaction wire format (protocol documentation and BIP-144), written
independently of the model.
-/
namespace Spec

/-- The `len` low-order bytes of `n`, least significant first. -/
def leEncode : Nat → Nat → List UInt8
  | 0, _ => []
  | len + 1, n => UInt8.ofNat (n % 256) :: leEncode len (n / 256)

/-- Compact-size encoding of a number below 2^64. -/
def compact (n : Nat) : List UInt8 :=
  if n < 253 then [UInt8.ofNat n]
  else if n < 2 ^ 16 then 0xfd :: leEncode 2 n
  else if n < 2 ^ 32 then 0xfe :: leEncode 4 n
  else 0xff :: leEncode 8 n

/-- A byte string preceded by its length. -/
def varBytes (b : List UInt8) : List UInt8 := compact b.length ++ b

structure TxInput where
  /-- id of the spent transaction, in wire byte order -/
  prevTxid : List UInt8
  prevIndex : Nat
  script : List UInt8
  sequence : Nat
  /-- the witness stack -/
  witness : List (List UInt8)
  deriving DecidableEq, Repr

structure TxOutput where
  value : Nat
  script : List UInt8
  deriving DecidableEq, Repr

structure Tx where
  version : Nat
  inputs : List TxInput
  outputs : List TxOutput
  lockTime : Nat
  deriving DecidableEq, Repr

def TxInput.encode (i : TxInput) : List UInt8 :=
  i.prevTxid ++ leEncode 4 i.prevIndex ++ varBytes i.script ++ leEncode 4 i.sequence

def TxOutput.encode (o : TxOutput) : List UInt8 := leEncode 8 o.value ++ varBytes o.script

/-- A witness stack: number of items, then every item with its length. -/
def encodeStack (items : List (List UInt8)) : List UInt8 :=
  compact items.length ++ items.flatMap varBytes

/-- The counted lists of inputs and outputs. -/
def Tx.encodeBody (t : Tx) : List UInt8 :=
  compact t.inputs.length ++ t.inputs.flatMap TxInput.encode ++
  (compact t.outputs.length ++ t.outputs.flatMap TxOutput.encode)

/-- The original serialisation, without witnesses. -/
def Tx.encodeLegacy (t : Tx) : List UInt8 :=
  leEncode 4 t.version ++ t.encodeBody ++ leEncode 4 t.lockTime

/-- The extended serialisation of BIP-144: marker 00, flag 01, witnesses before the lock time. -/
def Tx.encodeExtended (t : Tx) : List UInt8 :=
  leEncode 4 t.version ++ [0x00, 0x01] ++ t.encodeBody ++
  t.inputs.flatMap (fun i => encodeStack i.witness) ++ leEncode 4 t.lockTime

/-- BIP-144: the original serialisation must be used if all witnesses are empty. -/
def Tx.encode (t : Tx) : List UInt8 :=
  if t.inputs.all (fun i => i.witness.isEmpty) then t.encodeLegacy else t.encodeExtended

/-- Field widths of the wire format. -/
structure TxInput.WF (i : TxInput) : Prop where
  txid : i.prevTxid.length = 32
  index : i.prevIndex < 2 ^ 32
  script : i.script.length < 2 ^ 64
  sequence : i.sequence < 2 ^ 32
  items : i.witness.length < 2 ^ 64
  item : ∀ w ∈ i.witness, w.length < 2 ^ 64

structure TxOutput.WF (o : TxOutput) : Prop where
  value : o.value < 2 ^ 64
  script : o.script.length < 2 ^ 64

/-- Field widths of the wire format, and at least one input. -/
structure Tx.WF (t : Tx) : Prop where
  version : t.version < 2 ^ 32
  nonempty : t.inputs ≠ []
  inputs : t.inputs.length < 2 ^ 64
  input : ∀ i ∈ t.inputs, i.WF
  outputs : t.outputs.length < 2 ^ 64
  output : ∀ o ∈ t.outputs, o.WF
  lockTime : t.lockTime < 2 ^ 32

/-- The transaction id in wire order: `dsha` applied to the original serialisation. -/
def Tx.txidWith (dsha : List UInt8 → List UInt8) (t : Tx) : List UInt8 := dsha t.encodeLegacy

end Spec
