import Verif.Spec.Asked
import Verif.Lemmas.Secret
import Verif.Props.Create
/-
What a key or contract object asks its device to sign, for `Props/Asked`.
-/
namespace Bit

/-- The functions with other signatures. -/
def Crypto.resign (C : Crypto) (g : Bytes → Bytes) : Crypto := { C with sign := fun _ => g }

section
variable (C : Crypto) (g : Bytes → Bytes) (s : Signer)

theorem resign_device : ((s.deviceWith C g).crypto C) = ((s.device (C.resign g)).crypto (C.resign g)) := by cases s <;> rfl

theorem resign_canSign (u : Unspent) : s.canSignUnspent (C.resign g) u = s.canSignUnspent C u := by cases s <;> rfl

theorem resign_scriptcode : s.scriptcode (C.resign g) = s.scriptcode C := by cases s <;> rfl

theorem resign_returnAddress (us : List Unspent) : returnAddress (C.resign g) s us = returnAddress C s us := by
  cases s <;> rfl

theorem resign_inputDict (us : List Unspent) (l : List (Bytes × Unspent)) :
    inputDict (C.resign g) s us l = inputDict C s us l := by
  induction us generalizing l with
  | nil => rfl
  | cons u us ih => simp only [inputDict, resign_canSign, ih]

theorem resign_constructOutputs (l : List (Dest × Int)) : constructOutputs (C.resign g) l = constructOutputs C l :=
  (device_constructOutputs (C.resign g) ⟨fun _ => [], g⟩ l).symm.trans (device_constructOutputs C ⟨fun _ => [], g⟩ l)

theorem resign_sanitizeArgs {Amount : Type} (env : Env Amount) (args : TxArgs Amount) (us : List Unspent)
    (default : Option Str) (version : Net) :
    sanitizeArgs (C.resign g) env args us default version = sanitizeArgs C env args us default version :=
  (device_sanitizeArgs (C.resign g) ⟨fun _ => [], g⟩ env args us default version).symm.trans
    (device_sanitizeArgs C ⟨fun _ => [], g⟩ env args us default version)

theorem resign_listAfter {Amount : Type} (env : Env Amount) (args : TxArgs Amount) (us : List Unspent)
    (default : Option Str) : listAfter (C.resign g) env args us default = listAfter C env args us default :=
  (device_listAfter (C.resign g) ⟨fun _ => [], g⟩ env args us default).symm.trans
    (device_listAfter C ⟨fun _ => [], g⟩ env args us default)

theorem resign_matchSigs (hash : Bytes) (pubs sigs : List Bytes) (l : List (Bytes × Bytes)) :
    matchSigs (C.resign g) hash pubs sigs l = matchSigs C hash pubs sigs l := by
  induction sigs generalizing l with
  | nil => rfl
  | cons a sigs ih => exact ih _

theorem resign_signBytes (a b : Bool) (hash field : Bytes) (h : g hash = s.sign C hash) :
    signBytes (C.resign g) s a b hash field = signBytes C s a b hash field := by
  cases s with
  | single k =>
    have hp : k.publicKey (C.resign g) = k.publicKey C := rfl
    have hc : k.segwitScriptcode (C.resign g) = k.segwitScriptcode C := rfl
    have hg : (C.resign g).sign k.secret hash = C.sign k.secret hash := h
    simp only [signBytes, signSingle, hp, hc, hg]
  | multi s =>
    have hp : s.key.publicKey (C.resign g) = s.key.publicKey C := rfl
    have hc : s.segwitScriptcode (C.resign g) = s.segwitScriptcode C := rfl
    have hb : ∀ l, badPoint (C.resign g) s.publicKeys l = badPoint C s.publicKeys l := fun _ => rfl
    have hi : (C.resign g).isDer = C.isDer := rfl
    have hg : (C.resign g).sign s.key.secret hash = C.sign s.key.secret hash := h
    simp only [signBytes, signMulti, resign_matchSigs, hp, hc, hg, hb, hi]

theorem resign_getUnspents (w : Wallet) (ask : Ask) : w.getUnspents (C.resign g) ask = w.getUnspents C ask := by
  obtain ⟨s, us, b⟩ := w
  cases s <;> rfl

end

/-- The digest as in the specification. -/
theorem asked_digest {C : Crypto} {s : Signer} {us : List Unspent} {d : List (Bytes × Unspent)} {t : Spec.Tx} {j : Nat}
    {i : Spec.TxInput} {u : Unspent} {sc : Bytes} (hd : inputDict C s us [] = .ok d)
    (hu : d.lookup (Spec.TxInput.outpoint i) = some u) (hi : t.inputs[j]? = some i)
    (hs : s.scriptcode C = .ok (some sc)) : Asked C s us t (digest C t j i sc u.isSegwit u.amount.toNat) := by
  obtain ⟨h1, h2, h3⟩ := dict_some hd hu
  refine ⟨j, i, u, sc, hi, h1, h2, h3, hs, ?_⟩
  unfold digest Unspent.isSegwit
  cases u.segwit with
  | none => rfl
  | some b => cases b <;> rfl

theorem asked_signTxObj {C : Crypto} {s : Signer} {w : Bool} {x x' : TxObj} {t : Spec.Tx} {us : List Unspent}
    (hx : Represents w x t) (hwf : t.WF) {g : Bytes → Bytes} (hg : ∀ d, Asked C s us t d → g d = s.sign C d)
    (h : signTxObj C s x us = .ok x') : signTxObj (C.resign g) s x us = .ok x' := by
  obtain ⟨d, sg, h1, h2, h3, h4, h5⟩ := (signTxObj_iff hx.skel hwf.inputs hwf.outputs).mp h
  refine (signTxObj_iff hx.skel hwf.inputs hwf.outputs).mpr ⟨d, sg, ?_, h2, h3, h4, ?_⟩
  · rw [resign_inputDict]
    exact h1
  · intro k xk x'k ti hk hk' hti
    have hs := h5 k xk x'k ti hk hk' hti
    unfold StepAt at hs ⊢
    cases hl : d.lookup (xk.txid ++ xk.txindex) with
    | none =>
      rw [hl] at hs
      exact hs
    | some u =>
      rw [hl] at hs
      obtain ⟨sc, script, witness, len, s1, s2, s3, s4, s5, s6⟩ := hs
      refine ⟨sc, script, witness, len, by rw [resign_scriptcode]; exact s1, s2, s3, ?_, s5, s6⟩
      have hr := (forall₂_iff_get.mp hx.inputs).2 k xk ti hk hti
      rw [hr.outpoint] at hl
      have hd : digest (C.resign g) t k ti sc u.isSegwit u.amount.toNat
          = digest C t k ti sc u.isSegwit u.amount.toNat := rfl
      rw [hd, resign_signBytes _ _ _ _ _ _ _ (hg _ (asked_digest h1 hl hti s1))]
      exact s4

theorem asked_hex {C : Crypto} {s : Signer} {t : Spec.Tx} (hwf : t.WF) (w : Bool) {us : List Unspent} {r : Str}
    {g : Bytes → Bytes} (hg : ∀ d, Asked C s us t d → g d = s.sign C d)
    (h : signTransactionHex C s (bytesToHex (enc w t)) us = .ok r) :
    signTransactionHex (C.resign g) s (bytesToHex (enc w t)) us = .ok r := by
  obtain ⟨x, hx, hrep⟩ := deserialize_enc hwf w
  unfold signTransactionHex signTx at h ⊢
  rw [deserializeHex_bytesToHex, hx] at h ⊢
  dsimp only at h ⊢
  cases ho : signTxObj C s x us with
  | error e => rw [ho] at h; cases h
  | ok x' =>
    rw [asked_signTxObj hrep hwf hg ho]
    rw [ho] at h
    exact h

/-- Raising the sequence numbers does not change what is asked. -/
theorem asked_signedCoins {C : Crypto} {s : Signer} {rbf : Bool} {sel : List Unspent} {t : Spec.Tx} {d : Bytes}
    (h : Asked C s (signedCoins rbf sel) t d) : Asked C s sel t d := by
  obtain ⟨j, i, v, sc, h1, h2, h3, h4, h5, h6⟩ := h
  obtain ⟨u, hu, e⟩ := signedCoins_mem h2
  rcases e with rfl | rfl
  · exact ⟨j, i, _, sc, h1, hu, h3, h4, h5, h6⟩
  · rw [canSign_optIn] at h3
    rw [outpointOf_optIn] at h4
    obtain ⟨f1, -, f2, -, -, -, -, -, -⟩ := optIn_fields u
    rw [f1, f2] at h6
    exact ⟨j, i, u, sc, h1, hu, h3, h4, h5, h6⟩

end Bit
