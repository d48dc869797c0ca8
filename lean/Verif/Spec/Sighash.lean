import Verif.Spec.Tx
/-
Specification of the messages that Bitcoin signatures with hash type SIGHASH_ALL commit to, and of
the transactions' parts that signing must not change; written from the protocol documentation and
BIP-143, independent of the model.
-/
namespace Spec

/-- The original scheme: all input scripts are emptied, except that the signed input carries the
script code; the transaction is serialised without witnesses; the hash type follows as four bytes. -/
def legacyMessage (t : Tx) (index : Nat) (scriptCode : List UInt8) : List UInt8 :=
  Tx.encodeLegacy { t with inputs := t.inputs.mapIdx fun j i =>
      { i with script := if j = index then scriptCode else [] } } ++ leEncode 4 1

/-- BIP-143: version, hash of all outpoints, hash of all sequence numbers, the outpoint, script code,
value and sequence number of the signed input, hash of all outputs, lock time, hash type. `dsha` is
the double SHA-256. -/
def segwitMessage (dsha : List UInt8 → List UInt8) (t : Tx) (input : TxInput)
    (scriptCode : List UInt8) (value : Nat) : List UInt8 :=
  leEncode 4 t.version
  ++ dsha (t.inputs.flatMap fun i => i.prevTxid ++ leEncode 4 i.prevIndex)
  ++ dsha (t.inputs.flatMap fun i => leEncode 4 i.sequence)
  ++ (input.prevTxid ++ leEncode 4 input.prevIndex)
  ++ varBytes scriptCode
  ++ leEncode 8 value
  ++ leEncode 4 input.sequence
  ++ dsha (t.outputs.flatMap TxOutput.encode)
  ++ leEncode 4 t.lockTime
  ++ leEncode 4 1

/-- Two transactions that differ at most in scripts and witnesses of their inputs. -/
structure SameSkeleton (t t' : Tx) : Prop where
  version : t'.version = t.version
  lockTime : t'.lockTime = t.lockTime
  outputs : t'.outputs = t.outputs
  inputs : t'.inputs.map (fun i => (i.prevTxid, i.prevIndex, i.sequence)) =
    t.inputs.map (fun i => (i.prevTxid, i.prevIndex, i.sequence))

end Spec
