import Verif.Spec.Ledger
import Verif.Spec.Size
/-
Specification of the replacement of a transaction by one with a higher fee (BIP-125, opt-in replace-by-fee).
Written independently of the model.
-/
namespace Spec

/-- The transaction signals that it may be replaced. -/
def Tx.Replaceable (t : Tx) : Prop := ∃ i ∈ t.inputs, i.sequence < 0xfffffffe

/-- A node that has `old`, which pays `oldFee`, takes `new`, which pays `newFee`, in its place: the old one
signals replaceability, the new one spends an output that the old one spends (a conflict) and none beside those, pays no
smaller fee and one satoshi more for every byte of its own virtual size. (That nothing depends on the old
one is left aside.) -/
structure Replaces (old new : Tx) (oldFee newFee : Int) : Prop where
  signals : old.Replaceable
  conflict : ∃ p ∈ old.inputs.map TxInput.prevout, p ∈ new.inputs.map TxInput.prevout
  noNew : ∀ p ∈ new.inputs.map TxInput.prevout, p ∈ old.inputs.map TxInput.prevout
  fee : oldFee ≤ newFee
  bandwidth : (new.vsize : Int) ≤ newFee - oldFee

/-- No output, or one of the value `c`. -/
def changeOutput (c : Nat) (script : List UInt8) : List TxOutput := if c = 0 then [] else [⟨c, script⟩]

/-- The two transactions spend the same outputs in the same order and pay the same, but for one output with
what is left: if the new one pays more to the miners, this is what it leaves less. -/
def SameButChange (old new : Tx) (oldFee newFee : Int) : Prop :=
  old.inputs.map TxInput.prevout = new.inputs.map TxInput.prevout ∧
  ∃ (before after : List TxOutput) (script : List UInt8) (c c' : Nat),
    old.outputs = before ++ changeOutput c script ++ after ∧
    new.outputs = before ++ changeOutput c' script ++ after ∧
    (c : Int) + oldFee = c' + newFee

end Spec
