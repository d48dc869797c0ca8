import Verif.Spec.Interp
/-
Specification of the chain as the set of unspent outputs: when a node takes a transaction, and what the set is
afterwards. Written independently of the model.
-/
namespace Spec

/-- An unspent output; `txid` is in wire byte order. -/
structure Utxo where
  txid : List UInt8
  index : Nat
  value : Nat
  script : List UInt8
  deriving DecidableEq, Repr

def Utxo.outpoint (c : Utxo) : List UInt8 × Nat := (c.txid, c.index)

def TxInput.prevout (i : TxInput) : List UInt8 × Nat := (i.prevTxid, i.prevIndex)

/-- All unspent outputs. -/
abbrev Ledger := List Utxo

namespace Ledger

/-- No outpoint twice, and transaction ids of 32 bytes. -/
structure WF (L : Ledger) : Prop where
  nodup : (L.map Utxo.outpoint).Nodup
  txid : ∀ c ∈ L, c.txid.length = 32

/-- The unspent outputs with a script. -/
def coinsOf (L : Ledger) (script : List UInt8) : List Utxo := L.filter fun c => c.script = script

/-- What the unspent outputs are worth. -/
def worth (L : List Utxo) : Nat := (L.map Utxo.value).sum

/-- What belongs to a script. -/
def balance (L : Ledger) (script : List UInt8) : Nat := worth (L.coinsOf script)

/-- The unspent outputs that a transaction spends, and the others. -/
def spentBy (L : Ledger) (t : Tx) : Ledger := L.filter fun c => c.outpoint ∈ t.inputs.map TxInput.prevout

def keptBy (L : Ledger) (t : Tx) : Ledger := L.filter fun c => ¬ c.outpoint ∈ t.inputs.map TxInput.prevout

/-- The outputs of a transaction as unspent outputs, numbered from `n` on. -/
def made (id : List UInt8) : Nat → List TxOutput → Ledger
  | _, [] => []
  | n, o :: os => ⟨id, n, o.value, o.script⟩ :: made id (n + 1) os

/-- What a node checks: there are outputs, no outpoint is spent twice, every input spends an unspent output and
satisfies its script, and the outputs are not worth more than what is spent. -/
structure Valid (H : Hashing) (L : Ledger) (t : Tx) : Prop where
  wf : t.WF
  outputs : t.outputs ≠ []
  distinct : (t.inputs.map TxInput.prevout).Nodup
  spends : ∀ j i, t.inputs[j]? = some i → ∃ c ∈ L, c.outpoint = i.prevout ∧ accepts H t j i c.script c.value = true
  value : (t.outputs.map TxOutput.value).sum ≤ worth (L.spentBy t)

/-- No unspent output has the id of the transaction (BIP-30). -/
def Fresh (dsha : List UInt8 → List UInt8) (L : Ledger) (t : Tx) : Prop := ∀ c ∈ L, c.txid ≠ t.txidWith dsha

/-- The unspent outputs afterwards. -/
def apply (dsha : List UInt8 → List UInt8) (L : Ledger) (t : Tx) : Ledger :=
  L.keptBy t ++ made (t.txidWith dsha) 0 t.outputs

end Ledger
end Spec
