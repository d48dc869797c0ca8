import Verif.Model.Utils
import Verif.Model.Unspent
import Verif.Spec.Tx
/-
Words for the statements of C85: what may happen to an unspent while transactions are made, and which input spends it.
-/
namespace Bit.Spec

/-- `new` is the unspent `old`, except that its sequence number may have been lowered to the largest one that signals
replaceability (BIP 125). -/
structure Kept (old new : Unspent) : Prop where
  amount : new.amount = old.amount
  confirmations : new.confirmations = old.confirmations
  script : new.script = old.script
  txid : new.txid = old.txid
  txindex : new.txindex = old.txindex
  type : new.type = old.type
  size : new.vsize4 = old.vsize4
  segwit : new.segwit = old.segwit
  sequence : new.sequence = old.sequence ∨ new.sequence = min old.sequence 0xfffffffd

/-- The input spends the unspent and carries its sequence number. -/
structure InputOf (u : Unspent) (i : _root_.Spec.TxInput) : Prop where
  txid : u.txid = bytesToHex i.prevTxid.reverse
  index : (i.prevIndex : Int) = u.txindex
  sequence : (i.sequence : Int) = u.sequence

end Bit.Spec
