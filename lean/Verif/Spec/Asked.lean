import Verif.Spec.Device
import Verif.Spec.Sighash
/-
What the device of a key or contract object has to sign for a transaction.
-/
namespace Bit

/-- `d` is to be signed for an input of `t` that spends one of the coins `us` which pays to the object: it is SHA-256 of the
message that the network computes for this input of this transaction (the device hashes once more). -/
def Asked (C : Crypto) (s : Signer) (us : List Unspent) (t : _root_.Spec.Tx) (d : Bytes) : Prop :=
  ∃ (j : Nat) (i : _root_.Spec.TxInput) (u : Unspent) (scriptCode : Bytes),
    t.inputs[j]? = some i ∧ u ∈ us ∧ s.canSignUnspent C u = .ok true ∧
    outpointOf u = .ok (i.prevTxid ++ _root_.Spec.leEncode 4 i.prevIndex) ∧
    s.scriptcode C = .ok (some scriptCode) ∧
    d = C.sha256 (if u.segwit = some true
      then _root_.Spec.segwitMessage (fun b => C.sha256 (C.sha256 b)) t i scriptCode u.amount.toNat
      else _root_.Spec.legacyMessage t j scriptCode)

end Bit
