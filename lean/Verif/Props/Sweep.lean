import Verif.Spec.Replace
import Verif.Props.LedgerContract
import Verif.Props.FeeRate
/-
C96: sending everything.
-/
namespace Bit
open Bit.Concrete
open _root_.Spec.Ledger

variable {Amount : Type}

/-- What is built without payments and messages: one output with all that the fee leaves. -/
theorem swept_outputs {C : Crypto} {env : Env Amount} {args : TxArgs Amount} {s : Signer} {us sel : List Unspent}
    {change : Str} {fee : Int} {t : Spec.Tx} (h : Built C env args s us sel change fee t) (hout : args.outputs = [])
    (hmsg : args.message = none) {a : Str} (ha : args.leftover = some a) (hne : a ≠ []) {script : Bytes}
    (hs : addressToScriptpubkey C a = .ok (some script)) :
    ∃ c : Nat, (sel.map Unspent.amount).sum = c + fee ∧ t.outputs = Spec.changeOutput c script := by
  obtain ⟨pays, changes, pieces, scripts, changeScript, g1, g2, g3, g4, -, g6, -⟩ := h.outputs
  rw [hout] at g1
  cases g1
  rw [g3.none hmsg] at g4
  have hl := h.leftover
  rw [ha] at hl
  obtain ⟨x, l, rfl⟩ := List.exists_cons_of_ne_nil hne
  have hl : change = x :: l := hl
  subst hl
  have hb := h.balanced
  rw [pays_sum g4] at hb
  rcases g2 with rfl | ⟨c, hc, rfl⟩
  · have : t.outputs = [] := List.forall₂_nil_left_iff.mp g4
    refine ⟨0, ?_, this⟩
    rw [hb]
    simp
  · obtain ⟨o, os, hp, hnil, e⟩ := List.forall₂_cons_left_iff.mp g4
    have hos := List.forall₂_nil_left_iff.mp hnil
    subst hos
    have hv := hp.value
    simp only at hv
    obtain ⟨b, eb, es⟩ := hp.payment (by simp only; omega)
    simp only at eb
    injection eb with eb
    subst eb
    rw [hs] at es
    injection es with es
    injection es with es
    refine ⟨o.value, ?_, ?_⟩
    · rw [hb, hv]; simp
    · rw [e, es]
      unfold Spec.changeOutput
      rw [if_neg (by omega)]

theorem sum_elsewhere {ss : List Bytes} {script : Bytes} (h : script ∉ ss) (c : Int) :
    (ss.map fun s => if s = script then c else 0).sum = 0 := by
  induction ss with
  | nil => rfl
  | cons s ss ih =>
    rw [List.map_cons, List.sum_cons, ih fun hm => h (List.mem_cons_of_mem _ hm),
      if_neg fun e => h (by rw [e]; exact List.mem_cons_self), add_zero]

/-- C96. A key calls `create_transaction` without payments and messages and with an address of somebody else for what
is left (`leftover`), using all coins (`combine`, the default). If the network reports the chain truthfully and the call succeeds, then the
transaction has one output to that address with all the key has but for the fee (none if nothing is left), and is valid
if something is left. When it is confirmed the key has nothing, the address has that much more, and all other scripts have what they had. -/
theorem C96_sweep (C : Crypto) (k : PrivKey) (hk : KeyLaws C k) (L : Spec.Ledger) (hL : L.WF) (env : Env Amount)
    (hshuffle : ∀ l, (env.shuffle l).Perm l) (args : TxArgs Amount) (hout : args.outputs = []) (hmsg : args.message = none)
    (hall : args.combine = true) (a : Str) (ha : args.leftover = some a) (hne : a ≠ []) (script : Bytes)
    (hs : addressToScriptpubkey C a = .ok (some script)) (hother : script ∉ keyScripts C k)
    (hfee : 0 ≤ askedFee env args) (ask : Ask) (ht : Honest C k L ask) (w : Wallet) (hw : w.signer = .single k) (r : Str)
    (h : (w.createTransaction C env args ask (.given [])).2 = .ok r) :
    ∃ (t : Spec.Tx) (fee c : Nat), t.WF ∧ r = bytesToHex t.encode ∧ (args.absoluteFee = true → fee = askedFee env args) ∧
      held C k L = c + fee ∧ t.outputs = Spec.changeOutput c script ∧ (0 < c → Valid C.hashing L t) ∧
      let L' := L.apply C.doubleSha256 t
      held C k L' = 0 ∧ L'.balance script = L.balance script + c ∧
      ∀ s, s ∉ script :: keyScripts C k → L'.balance s = L.balance s := by
  obtain ⟨t, pays, fee, c, changeScript, h1, h2, h3, ⟨us, sel, change, hb⟩, h5, h6, h7, h8, h9, h10⟩ :=
    C87_moves C k hk L hL env hshuffle args ask ht w hw r h
  obtain ⟨t', v1, v2, -, -, v5⟩ := C87_valid C k hk L hL env hshuffle args hfee ask ht w hw r h
  obtain rfl : t = t' := encode_inj' h1 v1 (bytesToHex_injective (h2.symm.trans v2))
  rw [hout] at h3
  cases h3
  have hf := fee_nonneg hb hfee
  have h6 := h6 hall
  obtain ⟨c', e1, e2⟩ := swept_outputs hb hout hmsg ha hne hs
  have e3 := hb.balanced
  rw [ha] at h7
  have h7 : changeScript = script := by
    obtain ⟨x, l, rfl⟩ := List.exists_cons_of_ne_nil hne
    have h7 : addressToScriptpubkey C (x :: l) = .ok (some changeScript) := h7
    rw [hs] at h7
    injection h7 with h7
    injection h7 with h7
    exact h7.symm
  subst h7
  have hpaid : ∀ s, paidTo C s [] = 0 := fun s => by simp [paidTo]
  simp only [hpaid, List.map_nil, List.sum_nil, zero_add, sub_zero, add_zero] at h6 h9 h10
  rw [sum_elsewhere hother] at h10
  have hc : c = c' := by
    have z1 := h9 changeScript hother
    rw [if_pos rfl] at z1
    have z2 := apply_balance C.doubleSha256 L t changeScript
    have z4 : (L.spentBy t).balance changeScript = 0 := by
      refine balance_zero fun x hx hxs => hother ?_
      obtain ⟨us', sel', change', fee', t', ds, y1, y2, y3, y4, y5, y6, -⟩ := spend_core hk hL hshuffle ht hw h
      obtain rfl : t = t' := encode_inj' h1 y1 (bytesToHex_injective (h2.symm.trans y3))
      exact hxs ▸ (y5 x (y6.symm.subset hx)).2
    have z3 : outTo changeScript t.outputs = c' := by
      rw [e2]
      unfold Spec.changeOutput
      split
      · rename_i e; rw [e]; rfl
      · simp [outTo]
    omega
  refine ⟨t, fee.toNat, c', h1, h2, ?_, ?_, e2, ?_, ?_, ?_, ?_⟩
  · intro habs
    have := hb.absolute habs
    omega
  · omega
  · intro hpos
    refine v5 ?_
    rw [e2]
    unfold Spec.changeOutput
    rw [if_neg (by omega)]
    simp
  · omega
  · have := h9 changeScript hother
    rw [if_pos rfl] at this
    omega
  · intro s hns
    have := h9 s fun hm => hns (List.mem_cons_of_mem _ hm)
    rw [if_neg fun e => hns (by rw [e]; exact List.mem_cons_self)] at this
    omega

/-- C96 for contracts: the holder of one key creates the transaction and the other co-signers needed complete it. -/
theorem C96_sweep_contract (C : Crypto) (s : MultiSig) (hs : ContractLaws C s) (htwo : TwoScripts C s) (L : Spec.Ledger)
    (hL : L.WF) (hidx : ∀ c ∈ L, c.index < 2 ^ 32) (env : Env Amount) (args : TxArgs Amount) (hout : args.outputs = [])
    (hmsg : args.message = none) (hall : args.combine = true) (a : Str) (ha : args.leftover = some a) (hne : a ≠ [])
    (script : Bytes) (hsc : addressToScriptpubkey C a = .ok (some script)) (hother : script ∉ contractScripts C s)
    (hfee : 0 ≤ askedFee env args) (ask : Ask) (w : Wallet) (others : List Cosigner)
    (hp : Party C s L env args ask w others) (readFloat : Str → PyFloat) (r r' : Str)
    (h : (w.createTransaction C env args ask (.given [])).2 = .ok r) (h' : cosignOnline C readFloat others r = .ok r') :
    ∃ (t : Spec.Tx) (fee c : Nat), t.WF ∧ r' = bytesToHex t.encode ∧ (args.absoluteFee = true → fee = askedFee env args) ∧
      heldBy (contractScripts C s) L = c + fee ∧ t.outputs = Spec.changeOutput c script ∧ (0 < c → Valid C.hashing L t) ∧
      let L' := L.apply C.doubleSha256 t
      heldBy (contractScripts C s) L' = 0 ∧ L'.balance script = L.balance script + c ∧
      ∀ x, x ∉ script :: contractScripts C s → L'.balance x = L.balance x := by
  obtain ⟨t, pays, fee, c, changeScript, h1, h2, h3, ⟨us, sel, change, hb⟩, h5, h6, h7, h8, h9, h10⟩ :=
    C90_moves C s hs htwo L hL hidx env args ask w others hp readFloat r r' h h'
  obtain ⟨t', v1, v2, -, -, v5⟩ := C90_valid C s hs htwo L hL hidx env args hfee ask w others hp readFloat r r' h h'
  obtain rfl : t = t' := encode_inj' h1 v1 (bytesToHex_injective (h2.symm.trans v2))
  rw [hout] at h3
  cases h3
  have hf := fee_nonneg hb hfee
  have h6 := h6 hall
  obtain ⟨c', e1, e2⟩ := swept_outputs hb hout hmsg ha hne hsc
  have e3 := hb.balanced
  rw [ha] at h7
  have h7 : changeScript = script := by
    obtain ⟨x, l, rfl⟩ := List.exists_cons_of_ne_nil hne
    have h7 : addressToScriptpubkey C (x :: l) = .ok (some changeScript) := h7
    rw [hsc] at h7
    injection h7 with h7
    injection h7 with h7
    exact h7.symm
  subst h7
  have hpaid : ∀ x, paidTo C x [] = 0 := fun x => by simp [paidTo]
  simp only [hpaid, List.map_nil, List.sum_nil, zero_add, sub_zero, add_zero] at h6 h9 h10
  rw [sum_elsewhere hother] at h10
  have hc : c = c' := by
    have z1 := h9 changeScript hother
    rw [if_pos rfl] at z1
    have z2 := apply_balance C.doubleSha256 L t changeScript
    have z4 : (L.spentBy t).balance changeScript = 0 := by
      refine balance_zero fun x hx hxs => hother ?_
      obtain ⟨us', sel', change', fee', t', ds, y, -⟩ := contract_core hs htwo hL hidx hp h h'
      obtain rfl : t = t' := encode_inj' h1 y.wf (bytesToHex_injective (h2.symm.trans y.text))
      exact hxs ▸ (y.mem x (y.perm.symm.subset hx)).2
    have z3 : outTo changeScript t.outputs = c' := by
      rw [e2]
      unfold Spec.changeOutput
      split
      · rename_i e; rw [e]; rfl
      · simp [outTo]
    omega
  refine ⟨t, fee.toNat, c', h1, h2, ?_, ?_, e2, ?_, ?_, ?_, ?_⟩
  · intro habs
    have := hb.absolute habs
    omega
  · omega
  · intro hpos
    refine v5 ?_
    rw [e2]
    unfold Spec.changeOutput
    rw [if_neg (by omega)]
    simp
  · omega
  · have := h9 changeScript hother
    rw [if_pos rfl] at this
    omega
  · intro x hns
    have := h9 x fun hm => hns (List.mem_cons_of_mem _ hm)
    rw [if_neg fun e => hns (by rw [e]; exact List.mem_cons_self)] at this
    omega

/-! Samples: key B of the samples of C87 sends the 150000 satoshi it has to `addrA`. -/

/-- Everything to `addrA`, for a fee in all. -/
def argsSweep (fee : Int) : TxArgs Int :=
  { argsB true with outputs := [], leftover := some addrA, fee := some fee, absoluteFee := true }

def scriptOfA : Bytes := unhex "76a91477bff20c60e522dfaa3350c39b030a5d004e839a88ac"

example : ∃ (t : Spec.Tx),
    ((newWallet (.single keyB)).createTransaction crypto envB (argsSweep 400) askL (.given [])).2 =
      .ok (bytesToHex t.encode) ∧
    t.outputs = [⟨149600, scriptOfA⟩] ∧ Valid crypto.hashing ledgerB t ∧
    held crypto keyB (ledgerB.apply crypto.doubleSha256 t) = 0 := by
  obtain ⟨r, hr⟩ : ∃ r, ((newWallet (.single keyB)).createTransaction crypto envB (argsSweep 400) askL (.given [])).2 = .ok r :=
    isSome_ok (by decide +kernel)
  obtain ⟨t, fee, c, -, h2, h3, h4, h5, h6, h7, -⟩ := C96_sweep crypto keyB (toy_laws keyB (by decide)) ledgerB ledgerB_wf envB
    (fun _ => List.Perm.refl _) (argsSweep 400) rfl rfl rfl addrA rfl (by decide) scriptOfA (by decide +kernel)
    (by decide +kernel) (by decide) askL askL_honest (newWallet (.single keyB)) rfl r hr
  have e : held crypto keyB ledgerB = 150000 := by decide +kernel
  have e2 : askedFee envB (argsSweep 400) = 400 := by decide
  have h3 := h3 rfl
  have hc : c = 149600 := by omega
  subst hc
  exact ⟨t, by rw [hr, h2], h5, h6 (by decide), h7⟩

/-- C96 (nothing left). If the coins are worth exactly the fee, `create_transaction` does not refuse: it returns a signed
transaction without outputs, which no node takes. -/
theorem C96_no_outputs : ∃ (r : Str) (t : Spec.Tx),
    ((newWallet (.single keyB)).createTransaction crypto envB (argsSweep 150000) askL (.given [])).2 = .ok r ∧
    r = bytesToHex t.encode ∧ t.outputs = [] ∧ ∀ L : Spec.Ledger, ¬ Valid crypto.hashing L t := by
  obtain ⟨r, hr⟩ : ∃ r, ((newWallet (.single keyB)).createTransaction crypto envB (argsSweep 150000) askL (.given [])).2 = .ok r :=
    isSome_ok (by decide +kernel)
  obtain ⟨t, fee, c, -, h2, h3, h4, h5, -⟩ := C96_sweep crypto keyB (toy_laws keyB (by decide)) ledgerB ledgerB_wf envB
    (fun _ => List.Perm.refl _) (argsSweep 150000) rfl rfl rfl addrA rfl (by decide) scriptOfA (by decide +kernel)
    (by decide +kernel) (by decide) askL askL_honest (newWallet (.single keyB)) rfl r hr
  have e : held crypto keyB ledgerB = 150000 := by decide +kernel
  have e2 : askedFee envB (argsSweep 150000) = 150000 := by decide
  have h3 := h3 rfl
  have hc : c = 0 := by omega
  subst hc
  exact ⟨r, t, hr, h2, h5, fun L hv => hv.outputs h5⟩

/-- C96 (dust). Change of one satoshi is paid out as an output, though nodes do not relay transactions with outputs of so
little (less than 546 satoshi to a P2PKH address). -/
theorem C96_dust_change : ∃ (r : Str) (t : Spec.Tx),
    ((newWallet (.single keyB)).createTransaction crypto71 envB { argsB true with fee := some 999, absoluteFee := true }
      noNetwork (.given [plain71 21000 1])).2 = .ok r ∧
    r = bytesToHex t.encode ∧ t.outputs.map Spec.TxOutput.value = [20000, 1] := by
  have h : (match ((newWallet (.single keyB)).createTransaction crypto71 envB
        { argsB true with fee := some 999, absoluteFee := true } noNetwork (.given [plain71 21000 1])).2 with
      | .error _ => false
      | .ok r => match readTx r with
        | none => false
        | some t => decide (r = bytesToHex t.encode) && decide (t.outputs.map Spec.TxOutput.value = [20000, 1])) = true := by
    decide +kernel
  split at h
  · cases h
  · rename_i r hr
    split at h
    · cases h
    · rename_i t _
      simp only [Bool.and_eq_true, decide_eq_true_eq] at h
      exact ⟨r, t, hr, h.1, h.2⟩

end Bit
