import Verif.Spec.Sighash
import Mathlib.Data.List.Forall2
/-
Specification of when an input of a transaction spends an output: the four kinds of output the
library signs for, each as the script interpreter sees it (BIP-16, BIP-141, BIP-143), with every
signature of hash type SIGHASH_ALL. Written independently of the model.

`verify sig data key` is ECDSA verification of the DER signature `sig` against SHA-256 of `data`; a
signature commits to the double SHA-256 of a message, so `data` is the single SHA-256 of it.
-/
namespace Spec

/-- The functions the script interpreter uses. -/
structure Hashing where
  sha256 : List UInt8 → List UInt8
  ripemd160 : List UInt8 → List UInt8
  verify : List UInt8 → List UInt8 → List UInt8 → Bool

def Hashing.hash160 (H : Hashing) (b : List UInt8) : List UInt8 := H.ripemd160 (H.sha256 b)

/-- A signature (at most 72 bytes, BIP-66) with the hash type byte `01` appended that is valid for the
message and the key. -/
def SigOk (H : Hashing) (message sig key : List UInt8) : Prop :=
  ∃ der, sig = der ++ [0x01] ∧ der.length ≤ 72 ∧ H.verify der (H.sha256 message) key = true

/-- The check of `OP_CHECKMULTISIG` with the script `m <keys> n OP_CHECKMULTISIG`: exactly `m`
signatures, each valid for one of the keys, in the order of the keys, no key used twice. The script must
fit a stack item. -/
def MultisigOk (H : Hashing) (message redeem : List UInt8) (sigs : List (List UInt8)) : Prop :=
  ∃ m keys n used, parseMultisig redeem = some (m, keys, n) ∧ n = keys.length ∧ sigs.length = m ∧
    redeem.length ≤ 520 ∧ used.Sublist keys ∧ List.Forall₂ (fun sig key => SigOk H message sig key) sigs used

/-- Pay-to-public-key-hash: the script pushes a signature and the key, nothing else. -/
def SpendsP2PKH (H : Hashing) (t : Tx) (index : Nat) (i : TxInput) (script : List UInt8) : Prop :=
  ∃ sig key, parsePushes 2 i.script = ([sig, key], []) ∧ script = p2pkhScript (H.hash160 key) ∧
    (key.length = 33 ∨ key.length = 65) ∧ SigOk H (legacyMessage t index script) sig key ∧ i.witness = []

/-- Pay-to-witness-public-key-hash nested in pay-to-script-hash: the script pushes the version 0
program with the hash of a compressed key and nothing else, the witness is signature and key. -/
def SpendsNestedP2WPKH (H : Hashing) (t : Tx) (i : TxInput) (script : List UInt8) (value : Nat) : Prop :=
  ∃ sig key program, i.script = UInt8.ofNat program.length :: program ∧
    program = witnessScript 0 (H.hash160 key) ∧ script = p2shScript (H.hash160 program) ∧
    i.witness = [sig, key] ∧ key.length = 33 ∧
    SigOk H (segwitMessage (fun b => H.sha256 (H.sha256 b)) t i (p2pkhScript (H.hash160 key)) value) sig key

/-- Multi-signature behind pay-to-script-hash: the script pushes an empty item, the signatures and the
redeem script, and nothing else. -/
def SpendsP2SHMultisig (H : Hashing) (t : Tx) (index : Nat) (i : TxInput) (script : List UInt8) : Prop :=
  ∃ sigs redeem, parsePushes (sigs.length + 2) i.script = ([] :: sigs ++ [redeem], []) ∧
    script = p2shScript (H.hash160 redeem) ∧
    MultisigOk H (legacyMessage t index redeem) redeem sigs ∧ i.witness = []

/-- Multi-signature behind pay-to-witness-script-hash nested in pay-to-script-hash. -/
def SpendsNestedP2WSHMultisig (H : Hashing) (t : Tx) (i : TxInput) (script : List UInt8) (value : Nat) :
    Prop :=
  ∃ sigs redeem program, i.script = UInt8.ofNat program.length :: program ∧
    program = witnessScript 0 (H.sha256 redeem) ∧ script = p2shScript (H.hash160 program) ∧
    i.witness = [] :: sigs ++ [redeem] ∧
    MultisigOk H (segwitMessage (fun b => H.sha256 (H.sha256 b)) t i redeem value) redeem sigs

/-- The input `i` of `t`, at position `index`, spends an output with this script and value. -/
def Spends (H : Hashing) (t : Tx) (index : Nat) (i : TxInput) (script : List UInt8) (value : Nat) : Prop :=
  SpendsP2PKH H t index i script ∨ SpendsNestedP2WPKH H t i script value ∨
  SpendsP2SHMultisig H t index i script ∨ SpendsNestedP2WSHMultisig H t i script value

end Spec
