import Verif.Spec.Interp
/-
What it takes for a signed input to be valid in another transaction: a signature that is valid for two messages, or
a collision of the double SHA-256. Only the strings that occur in the two transactions are concerned. Written
independently of the model.
-/
namespace Spec

/-- The bytes occur in the script of the input or in an item of its witness. -/
def Carries (i : TxInput) (b : List UInt8) : Prop := b <:+: i.script ∨ ∃ item ∈ i.witness, b <:+: item

/-- The script codes that may stand in the message for an input: the script of the output that it spends, a script
that it carries, or the P2PKH script of a hash that it carries. -/
def CodeOf (i : TxInput) (script code : List UInt8) : Prop :=
  code = script ∨ Carries i code ∨ ∃ hash, Carries i hash ∧ code = p2pkhScript hash

/-- No signature that the input carries is valid for both messages, each under a key that the input carries, unless
the messages are the same. -/
def SignsOne (H : Hashing) (i : TxInput) (message message' : List UInt8) : Prop :=
  ∀ der key key', Carries i (der ++ [0x01]) → Carries i key → Carries i key' →
    H.verify der (H.sha256 message) key = true → H.verify der (H.sha256 message') key' = true → message' = message

/-- The double SHA-256 does not map the two strings to the same hash, unless they are the same. -/
def Differ (H : Hashing) (a b : List UInt8) : Prop := H.sha256 (H.sha256 a) = H.sha256 (H.sha256 b) → a = b

/-- The cryptography is not broken on the input `i` of `t` (at `j`, spending `v`) and the input `i'` of `t'` (at `j'`,
spending `v'`), which spend an output with the same script. -/
structure Unforged (H : Hashing) (script : List UInt8) (t : Tx) (j : Nat) (i : TxInput) (v : Nat) (t' : Tx) (j' : Nat)
    (i' : TxInput) (v' : Nat) : Prop where
  legacy : ∀ code, CodeOf i script code → SignsOne H i (legacyMessage t j code) (legacyMessage t' j' code)
  segwit : ∀ code, CodeOf i script code → SignsOne H i
    (segwitMessage (fun b => H.sha256 (H.sha256 b)) t i code v)
    (segwitMessage (fun b => H.sha256 (H.sha256 b)) t' i' code v')
  outpoints : Differ H (t.inputs.flatMap fun i => i.prevTxid ++ leEncode 4 i.prevIndex)
    (t'.inputs.flatMap fun i => i.prevTxid ++ leEncode 4 i.prevIndex)
  sequences : Differ H (t.inputs.flatMap fun i => leEncode 4 i.sequence)
    (t'.inputs.flatMap fun i => leEncode 4 i.sequence)
  outputs : Differ H (t.outputs.flatMap TxOutput.encode) (t'.outputs.flatMap TxOutput.encode)

/-- The input `i` of `t` (at `j`, spending an output with this script and the value `v`) is tied to `t`: another
transaction that has an input with the same script and witness is accepted there only if it has the same version, lock
time, outputs, outpoints and sequence numbers, and the input spends the same outpoint. Moreover an input without a
witness is at the same place, and an input with one spends an output of the same value. -/
def Tied (H : Hashing) (t : Tx) (j : Nat) (i : TxInput) (script : List UInt8) (v : Nat) : Prop :=
  ∀ (t' : Tx) (j' : Nat) (i' : TxInput) (v' : Nat), t'.WF → t'.inputs[j']? = some i' → v' < 2 ^ 64 →
    i'.script = i.script → i'.witness = i.witness → Unforged H script t j i v t' j' i' v' →
    accepts H t' j' i' script v' = true →
    SameSkeleton t t' ∧ i'.prevTxid = i.prevTxid ∧ i'.prevIndex = i.prevIndex ∧
      (i.witness = [] → j' = j) ∧ (i.witness ≠ [] → v' = v)

end Spec
