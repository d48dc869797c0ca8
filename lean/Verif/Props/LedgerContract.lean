import Verif.Props.Ledger
import Verif.Props.Relevant
import Verif.Props.JsonText
/-
C90: a contract and the chain.
-/
namespace Bit
open Concrete
open Spec.Ledger
variable {Amount : Type}

/-! ## C90 -/

/-- The output scripts of the addresses of a contract. -/
def contractScripts (C : Crypto) (s : MultiSig) : List Bytes :=
  Spec.p2shScript (C.ripemd160 (C.sha256 s.redeemscript)) ::
    if s.isCompressed then [Spec.p2shScript
      (C.ripemd160 (C.sha256 (Spec.witnessScript 0 (C.sha256 s.redeemscript))))] else []

/-- What belongs to the scripts. -/
def heldBy (ss : List Bytes) (L : Spec.Ledger) : Nat := (ss.map L.balance).sum

/-- The network answers questions on the addresses of the contract with the unspent outputs there are, in any order, or
it fails. -/
structure HonestFor (C : Crypto) (s : MultiSig) (L : Spec.Ledger) (ask : Ask) : Prop where
  legacy : ∀ a l, (Signer.multi s).address C = .ok a → ask a = .ok (some l) → ∃ cs,
    cs.Perm (L.coinsOf (Spec.p2shScript (C.ripemd160 (C.sha256 s.redeemscript)))) ∧ List.Forall₂ Tells cs l
  segwit : ∀ a l, (Signer.multi s).segwitAddress C = .ok (some a) → ask a = .ok (some l) → ∃ cs,
    cs.Perm (L.coinsOf (Spec.p2shScript
      (C.ripemd160 (C.sha256 (Spec.witnessScript 0 (C.sha256 s.redeemscript)))))) ∧ List.Forall₂ Tells cs l

/-- The two addresses of the contract belong to different scripts. (Otherwise there would be a collision of the hash
function for the redeem script and the witness program.) -/
def TwoScripts (C : Crypto) (s : MultiSig) : Prop :=
  C.ripemd160 (C.sha256 s.redeemscript) ≠ C.ripemd160 (C.sha256 (Spec.witnessScript 0 (C.sha256 s.redeemscript)))

theorem p2sh_inj {a b : Bytes} (h : Spec.p2shScript a = Spec.p2shScript b) : a = b := by
  unfold Spec.p2shScript at h
  simp at h
  exact h.2

theorem contractScripts_nodup {C : Crypto} {s : MultiSig} (h : TwoScripts C s) : (contractScripts C s).Nodup := by
  unfold contractScripts
  split
  · rw [List.nodup_cons, List.mem_singleton]
    exact ⟨fun e => h (p2sh_inj e), List.nodup_singleton _⟩
  · simp

theorem contract_both {C : Crypto} {s : MultiSig} (hs : ContractShape C s) :
    (Signer.multi s).address C = .ok (b58encodeCheck C (scriptHashByte s.net :: C.hash160 s.redeemscript)) ∧
    (Signer.multi s).segwitAddress C = if s.isCompressed then .ok (some (b58encodeCheck C
      (scriptHashByte s.net :: C.hash160 (Spec.witnessScript 0 (C.sha256 s.redeemscript))))) else .ok none := by
  have ew : Spec.witnessScript 0 (C.sha256 s.redeemscript) = 0x00 :: 0x20 :: C.sha256 s.redeemscript := by
    unfold Spec.witnessScript
    rw [hs.hash.sha256_length]; rfl
  constructor
  · show multisigToAddress C s.publicKeys s.m s.net = _
    unfold multisigToAddress
    rw [hs.redeem]
  · show MultiSig.segwitAddress C s = _
    unfold MultiSig.segwitAddress multisigToSegwitAddress
    rw [hs.redeem, ew]

/-- A refresh lists the unspent outputs of the contract. -/
theorem fetched_contract {C : Crypto} {s : MultiSig} (hs : ContractShape C s) {L : Spec.Ledger} {ask : Ask}
    (h : HonestFor C s L ask) {w w' : Wallet} (hw : w.signer = .multi s) {us : List Unspent}
    (hg : w.getUnspents C ask = (w', .ok us)) :
    ∃ cs, cs.Perm ((contractScripts C s).flatMap L.coinsOf) ∧ List.Forall₂ Tells cs us ∧
      w'.balance = (us.map Unspent.amount).sum ∧ ∀ u ∈ us, ContractFits C s u ∧ PaysContract C s u := by
  obtain ⟨a, seg, l₁, l₂, us₁, us₂, v₁, v₂, h1, h2, h3, h4, h5, -, rfl, h7, h8, -, h9, -, h10⟩ :=
    C52_refresh C ask w w' us hg
  rw [hw] at h1 h2 h7 h8
  rw [h9] at h10
  obtain ⟨cs₁, p1, f1⟩ := h.legacy a l₁ h1 h3
  have f1' := tells_retyped f1 h7
  have k1 : ∀ u ∈ us₁, ContractFits C s u ∧ PaysContract C s u := by
    intro u hu
    obtain ⟨v, hv, hr⟩ := forall₂_right h7 hu
    obtain ⟨c, hc, ht⟩ := forall₂_right f1' hu
    have e := of_decide_eq_true (List.mem_filter.mp (p1.subset hc)).2
    have e' : u.script = _ := ht.script.trans (congrArg bytesToHex e)
    exact ⟨Or.inl ⟨by unfold Unspent.isSegwit; rw [hr.segwit]; rfl, e'⟩, Or.inl e'⟩
  rw [(contract_both hs).2] at h2
  cases hc : s.isCompressed with
  | false =>
    rw [hc] at h2
    have hsn : seg = none := (Except.ok.inj h2).symm
    rw [h4 hsn] at h8
    cases h8
    refine ⟨cs₁, ?_, by rw [List.append_nil]; exact f1', h10, by rw [List.append_nil]; exact k1⟩
    unfold contractScripts
    rw [hc]
    simpa using p1
  | true =>
    have hseg := (contract_both hs).2
    rw [hc] at h2 hseg
    have hsn : seg = some _ := (Except.ok.inj h2).symm
    obtain ⟨cs₂, p2, f2⟩ := h.segwit _ l₂ hseg (h5 _ hsn)
    have f2' := tells_retyped f2 h8
    refine ⟨cs₁ ++ cs₂, ?_, List.rel_append f1' f2', h10, ?_⟩
    · unfold contractScripts
      rw [hc]
      simpa using p1.append p2
    · intro u hu
      rcases List.mem_append.mp hu with hu | hu
      · exact k1 u hu
      · obtain ⟨v, hv, hr⟩ := forall₂_right h8 hu
        obtain ⟨c, hc', ht⟩ := forall₂_right f2' hu
        have e := of_decide_eq_true (List.mem_filter.mp (p2.subset hc')).2
        have e' : u.script = _ := ht.script.trans (congrArg bytesToHex e)
        exact ⟨Or.inr ⟨by unfold Unspent.isSegwit; rw [hr.segwit]; rfl, e'⟩, Or.inr ⟨hc, e'⟩⟩

theorem scripts_worth (ss : List Bytes) (L : Spec.Ledger) : worth (ss.flatMap L.coinsOf) = heldBy ss L := by
  unfold heldBy
  induction ss with
  | nil => rfl
  | cons s ss ih =>
    rw [List.flatMap_cons, worth_append, List.map_cons, List.sum_cons, ih]
    rfl

theorem scripts_nodup {ss : List Bytes} (hss : ss.Nodup) {L : Spec.Ledger} (hL : L.WF) :
    ((ss.flatMap L.coinsOf).map Spec.Utxo.outpoint).Nodup := by
  have hn : (ss.flatMap L.coinsOf).Nodup := by
    rw [List.nodup_flatMap]
    refine ⟨fun s _ => (List.Nodup.of_map _ hL.nodup).filter _, ?_⟩
    refine hss.imp ?_
    intro s s' hne c h1 h2
    have e1 := of_decide_eq_true (List.mem_filter.mp h1).2
    have e2 := of_decide_eq_true (List.mem_filter.mp h2).2
    exact hne (e1.symm.trans e2)
  refine hn.map_on ?_
  intro c hc d hd e
  obtain ⟨_, _, h1⟩ := List.mem_flatMap.mp hc
  obtain ⟨_, _, h2⟩ := List.mem_flatMap.mp hd
  exact List.inj_on_of_nodup_map hL.nodup (List.mem_of_mem_filter h1) (List.mem_of_mem_filter h2) e

/-- Lists that co-signers fetch from honest networks tell of the same coins. -/
theorem fetched_same {C : Crypto} {s : MultiSig} (h2 : TwoScripts C s) {O : List Spec.Utxo} {cs cs' : List Spec.Utxo}
    {us us' : List Unspent} (hp : cs.Perm O) (hp' : cs'.Perm O) (hf : List.Forall₂ Tells cs us)
    (hf' : List.Forall₂ Tells cs' us') (hk : ∀ u ∈ us, ContractFits C s u) (hk' : ∀ u ∈ us', ContractFits C s u) :
    SameCoins us us' := by
  have alike : ∀ u ∈ us, ∀ v ∈ us', ∀ c, Tells c u → Tells c v → v.txid = u.txid ∧ v.txindex = u.txindex ∧
      v.script = u.script ∧ SignedAlike u v := by
    intro u hu v hv c t1 t2
    refine ⟨t2.txid.trans t1.txid.symm, t2.index.trans t1.index.symm, t2.script.trans t1.script.symm, ?_,
      fun _ => t1.amount.trans t2.amount.symm⟩
    have es := t1.script.trans t2.script.symm
    rcases hk u hu with ⟨a1, a2⟩ | ⟨a1, a2⟩ <;> rcases hk' v hv with ⟨b1, b2⟩ | ⟨b1, b2⟩
    · rw [a1, b1]
    · exact absurd (p2sh_inj (bytesToHex_injective (a2.symm.trans (es.trans b2)))) h2
    · exact absurd (p2sh_inj (bytesToHex_injective (b2.symm.trans (es.symm.trans a2)))) h2
    · rw [a1, b1]
  constructor
  · intro u hu
    obtain ⟨c, hc, t1⟩ := forall₂_right hf hu
    obtain ⟨v, hv, t2⟩ := forall₂_right hf'.flip ((hp.trans hp'.symm).subset hc)
    exact ⟨v, hv, alike u hu v hv c t1 t2⟩
  · intro v hv
    obtain ⟨c, hc, t2⟩ := forall₂_right hf' hv
    obtain ⟨u, hu, t1⟩ := forall₂_right hf.flip ((hp'.trans hp.symm).subset hc)
    exact ⟨u, hu, alike u hu v hv c t1 t2⟩

/-- Somebody who signs: the key, the contract object with it, and the network that they ask. -/
structure Cosigner where
  key : PrivKey
  wallet : Wallet
  ask : Ask

/-- The co-signers call `sign_transaction` one after the other, without a list of unspents. -/
def cosignOnline (C : Crypto) (readFloat : Str → PyFloat) : List Cosigner → Str → Py Str
  | [], tx => .ok tx
  | c :: cs, tx =>
    match (c.wallet.signTransaction C readFloat c.ask tx none).2 with
    | .error e => .error e
    | .ok tx => cosignOnline C readFloat cs tx

theorem signTx_hex {C : Crypto} {s : Signer} {x : TxObj} {us : List Unspent} {r : Str} (h : signTx C s x us = .ok r) :
    ∃ b, r = bytesToHex b := by
  unfold signTx at h
  cases h1 : signTxObj C s x us with
  | error e => rw [h1] at h; cases h
  | ok y =>
    rw [h1] at h
    dsimp only at h
    unfold TxObj.toHex at h
    split at h
    · cases h
    · exact ⟨_, (Except.ok.inj h).symm⟩

/-- Signing online is signing with the lists fetched. -/
theorem cosignOnline_lists {C : Crypto} {readFloat : Str → PyFloat} {s : MultiSig} :
    ∀ {cs : List Cosigner} {b : Bytes} {r : Str}, (∀ c ∈ cs, c.wallet.signer = .multi { s with key := c.key }) →
    cosignOnline C readFloat cs (bytesToHex b) = .ok r →
    ∃ ls : List (PrivKey × List Unspent), ls.map Prod.fst = cs.map Cosigner.key ∧
      (∀ p ∈ ls, ∃ c ∈ cs, ∃ w', p.1 = c.key ∧ c.wallet.getUnspents C c.ask = (w', .ok p.2)) ∧
      cosignWith C s ls (bytesToHex b) = .ok r
  | [], b, r, _, h => ⟨[], rfl, by simp, h⟩
  | c :: cs, b, r, hc, h => by
    have e := (C78_hex C readFloat c.ask c.wallet _ b (hexToBytes_bytesToHex b)).2
    rw [cosignOnline, e] at h
    rcases hg : c.wallet.getUnspents C c.ask with ⟨w', got⟩
    rw [hg] at h
    cases got with
    | error e => cases h
    | ok us =>
      have hsig : w'.signer = .multi { s with key := c.key } := by
        have := getUnspents_signer C c.ask c.wallet
        rw [hg] at this
        rw [this]
        exact hc c List.mem_cons_self
      simp only [Except.bind, hsig] at h
      cases h1 : signTransactionHex C (.multi { s with key := c.key }) (bytesToHex b) us with
      | error e => rw [h1] at h; cases h
      | ok r1 =>
        rw [h1] at h
        dsimp only at h
        obtain ⟨b', rfl⟩ : ∃ b', r1 = bytesToHex b' := by
          unfold signTransactionHex at h1
          split at h1
          · cases h1
          · exact signTx_hex h1
        obtain ⟨ls, g1, g2, g3⟩ := cosignOnline_lists (fun c' h' => hc c' (List.mem_cons_of_mem _ h')) h
        refine ⟨(c.key, us) :: ls, by rw [List.map_cons, List.map_cons, g1], ?_, ?_⟩
        · intro p hp
          rcases List.mem_cons.mp hp with rfl | hp
          · exact ⟨c, List.mem_cons_self, w', rfl, hg⟩
          · obtain ⟨c', h1, h2⟩ := g2 p hp
            exact ⟨c', List.mem_cons_of_mem _ h1, h2⟩
        · rw [cosignWith, h1]
          exact g3

/-- The text of a finished transaction of a contract is its wire format. -/
theorem contract_text {C : Crypto} {s : MultiSig} {ks : List PrivKey} (hks : ks ≠ []) {sel : List Unspent} {t : Spec.Tx}
    (hlen : sel.length = t.inputs.length)
    (h : ∀ (j : Nat) (u : Unspent) (i : Spec.TxInput), sel[j]? = some u → t.inputs[j]? = some i →
      ∃ t₀ j₀ v i₀, i = multiInput C s ks t₀ j₀ v i₀ ∧ v.isSegwit = u.isSegwit) :
    (if sel.any Unspent.isSegwit then t.encodeExtended else t.encodeLegacy) = t.encode := by
  have hwit : ∀ (j : Nat) (u : Unspent) (i : Spec.TxInput), sel[j]? = some u → t.inputs[j]? = some i →
      (i.witness = [] ↔ u.isSegwit = false) := by
    intro j u i hu hi
    obtain ⟨t₀, j₀, v, i₀, rfl, e⟩ := h j u i hu hi
    unfold multiInput
    dsimp only
    rw [if_neg hks, e]
    cases u.isSegwit <;> simp
  have : t.inputs.all (fun i => i.witness.isEmpty) = !(sel.any Unspent.isSegwit) := by
    rw [Bool.eq_iff_iff, Bool.not_eq_true', List.all_eq_true, List.any_eq_false]
    constructor
    · intro ha u hu
      obtain ⟨j, hj⟩ := List.mem_iff_getElem?.mp hu
      obtain ⟨i, hi⟩ := get_of_length hlen hj
      have := (hwit j u i hj hi).mp (by simpa using ha i (List.mem_of_getElem? hi))
      simp [this]
    · intro ha i hi
      obtain ⟨j, hj⟩ := List.mem_iff_getElem?.mp hi
      obtain ⟨u, hu⟩ := get_of_length hlen.symm hj
      have := (hwit j u i hu hj).mpr (by simpa using ha u (List.mem_of_getElem? hu))
      simp [this]
  unfold Spec.Tx.encode
  rw [this]
  cases sel.any Unspent.isSegwit <;> rfl

/-- A finished transaction from the coins of the scripts `ss` of a chain. -/
structure Finished (C : Crypto) (env : Env Amount) (args : TxArgs Amount) (S : Signer) (ss : List Bytes) (L : Spec.Ledger)
    (r : Str) (us sel : List Unspent) (change : Str) (fee : Int) (t : Spec.Tx) (ds : List Spec.Utxo) : Prop where
  wf : t.WF
  built : Built C env args S us sel change fee t
  text : r = bytesToHex t.encode
  tells : List.Forall₂ Tells ds sel
  mem : ∀ c ∈ ds, c ∈ L ∧ c.script ∈ ss
  perm : ds.Perm (L.spentBy t)
  nodup : (t.inputs.map Spec.TxInput.prevout).Nodup
  outs : ds.map Spec.Utxo.outpoint = t.inputs.map Spec.TxInput.prevout
  accepts : ∀ j i c, t.inputs[j]? = some i → ds[j]? = some c → Spec.accepts C.hashing t j i c.script c.value = true

theorem tells_prevouts : ∀ {ds : List Spec.Utxo} {sel : List Unspent}, List.Forall₂ Tells ds sel →
    ∀ {is : List Spec.TxInput}, List.Forall₂ (fun (u : Unspent) (i : Spec.TxInput) =>
      u.txid = bytesToHex i.prevTxid.reverse ∧ (i.prevIndex : Int) = u.txindex) sel is →
    ds.map Spec.Utxo.outpoint = is.map Spec.TxInput.prevout := by
  intro ds sel d2
  induction d2 with
  | nil => intro is hin; cases hin; rfl
  | cons hu _ ih =>
    intro is hin
    cases hin with
    | cons hi hin =>
      rw [List.map_cons, List.map_cons, ih hin]
      congr 1
      unfold Spec.Utxo.outpoint Spec.TxInput.prevout
      rw [List.reverse_injective (bytesToHex_injective (hu.txid.symm.trans hi.1))]
      congr 1
      have := hi.2.trans hu.index
      exact_mod_cast this.symm

/-- The parties that spend the coins of a contract: one of them creates the transaction, the others, as many as
needed, sign; all of them ask honest networks; and a signature of one of them cannot be taken for that of another. -/
structure Party (C : Crypto) (s : MultiSig) (L : Spec.Ledger) (env : Env Amount) (args : TxArgs Amount) (ask : Ask) (w : Wallet)
    (others : List Cosigner) : Prop where
  shuffle : ∀ l, (env.shuffle l).Perm l
  honest : HonestFor C s L ask
  signer : w.signer = .multi s
  cosigner : ∀ c ∈ others, c.wallet.signer = .multi { s with key := c.key } ∧ HonestFor C s L c.ask
  laws : ∀ k ∈ s.key :: others.map Cosigner.key, SignerLaws C s k
  distinct : ((s.key :: others.map Cosigner.key).map fun k => k.publicKey C).Nodup
  enough : (others.length : Int) + 1 = s.m
  apart : ∀ us sel change fee t, (∀ u ∈ us, ∃ c ∈ L, Tells c u) → Built C env args (.multi s) us sel change fee t →
    NoMixup C s (s.key :: others.map Cosigner.key) us t

/-- What the co-signers of a contract make of the coins that honest networks list. -/
theorem contract_core {C : Crypto} {s : MultiSig} (hs : ContractLaws C s) (htwo : TwoScripts C s) {L : Spec.Ledger} (hL : L.WF)
    (hidx : ∀ c ∈ L, c.index < 2 ^ 32) {env : Env Amount} {args : TxArgs Amount} {ask : Ask} {w : Wallet}
    {others : List Cosigner} (hp : Party C s L env args ask w others) {readFloat : Str → PyFloat} {r r' : Str}
    (h : (w.createTransaction C env args ask (.given [])).2 = .ok r) (h' : cosignOnline C readFloat others r = .ok r') :
    ∃ us sel change fee t ds, Finished C env args (.multi s) (contractScripts C s) L r' us sel change fee t ds ∧
      (us.map Unspent.amount).sum = heldBy (contractScripts C s) L := by
  obtain ⟨w', us, hg, hne, h⟩ := create_asks h
  obtain ⟨cs, hperm, hf, -, hfit⟩ := fetched_contract hs.toContractShape hp.honest hp.signer hg
  have hn := (hperm.map Spec.Utxo.outpoint).nodup_iff.mpr (scripts_nodup (contractScripts_nodup htwo) hL)
  have hmem : ∀ c ∈ cs, c ∈ L ∧ c.script ∈ contractScripts C s := by
    intro c hc
    obtain ⟨s, hs, h1⟩ := List.mem_flatMap.mp (hperm.subset hc)
    exact ⟨List.mem_of_mem_filter h1, by rw [of_decide_eq_true (List.mem_filter.mp h1).2]; exact hs⟩
  have hok : ∀ u ∈ us, TxidOk u ∧ 0 ≤ u.txindex ∧ u.txindex < 2 ^ 32 := by
    intro u hu
    obtain ⟨c, hc, hu⟩ := forall₂_right hf hu
    have := hidx c (hmem c hc).1
    refine ⟨⟨c.txid.reverse, by rw [List.length_reverse]; exact hL.txid c (hmem c hc).1, hu.txid⟩, ?_, ?_⟩
    · rw [hu.index]; exact Int.natCast_nonneg _
    · rw [hu.index]; exact_mod_cast this
  have htx : ∀ u ∈ us, TxidOk u := fun u hu => (hok u hu).1
  have hd : Distinct us := tells_distinct hf hn
  have htell : ∀ u ∈ us, ∃ c ∈ L, Tells c u := by
    intro u hu
    obtain ⟨c, hc, ht⟩ := forall₂_right hf hu
    exact ⟨c, (hmem c hc).1, ht⟩
  obtain ⟨b, rfl⟩ : ∃ b, r = bytesToHex b := by
    obtain ⟨sel, change, fee, t, -, -, -, -, h4⟩ := C63_unsigned C env hp.shuffle args ask w us hne htx r h
    unfold signTransactionHex at h4
    split at h4
    · cases h4
    · exact signTx_hex h4
  obtain ⟨ls, g1, g2, g3⟩ := cosignOnline_lists (s := s) (fun c hc => (hp.cosigner c hc).1) h'
  have hlen : ls.length = others.length := by simpa using congrArg List.length g1
  have hsame : ∀ p ∈ ls, SameCoins us p.2 := by
    intro p hp'
    obtain ⟨c, hc, w'', e1, e2⟩ := g2 p hp'
    obtain ⟨k1, k2⟩ := hp.cosigner c hc
    obtain ⟨cs', p', f', -, fit'⟩ := fetched_contract (s := { s with key := c.key }) ⟨hs.hash, hs.redeem⟩ ⟨k2.legacy, k2.segwit⟩ k1 e2
    exact fetched_same htwo hperm p' hf f' (fun u hu => (hfit u hu).1) (fun u hu => (fit' u hu).1)
  have hap : ∀ sel change fee t, Built C env args (.multi s) us sel change fee t →
      NoMixup C s (s.key :: ls.map Prod.fst) us t := by
    rw [g1]
    exact fun sel change fee t hb => hp.apart us sel change fee t htell hb
  have hks := hp.laws
  have hdiff := hp.distinct
  rw [← g1] at hks hdiff
  have hm : (ls.length : Int) + 1 = s.m := by rw [hlen]; exact hp.enough
  rw [C89_own_lists C s hs env hp.shuffle args ask w hp.signer us hne hok hd ls hsame hks hap hdiff hm.le _ h] at g3
  obtain ⟨sel, change, fee, t, h1, h2, h3, -, h5⟩ := create_contract_spends C s hs env hp.shuffle args ask w hp.signer us hne htx
    hd (fun u hu _ => (hfit u hu).1) (ls.map Prod.fst) hks hap hdiff (by simpa using hm) _ r' h g3
  obtain ⟨v, bb, hv⟩ := created_can hp.shuffle hne htx h
  rw [hp.signer] at hv
  have hcan : ∀ u ∈ us, (Signer.multi s).canSignUnspent C u = .ok true := fun u hu =>
    (can_iff_pays_contract hs.toContractShape hv u).mpr (hfit u hu).2
  have h5' : ∀ (j : Nat) (u : Unspent) (i : Spec.TxInput), sel[j]? = some u → t.inputs[j]? = some i →
      (∃ script, u.script = bytesToHex script ∧ Spec.Spends C.hashing t j i script u.amount.toNat) ∧
      ∃ t₀ j₀ v i₀, i = multiInput C s (s.key :: ls.map Prod.fst).reverse t₀ j₀ v i₀ ∧ v.isSegwit = u.isSegwit := by
    intro j u i hu hi
    have := h5 j u i hu hi
    rwa [if_pos (hcan u (h2.selected.subset (List.mem_of_getElem? hu)))] at this
  have eseg : ∀ u : Unspent, decide (u.segwit = some true) = u.isSegwit := by
    intro u
    unfold Unspent.isSegwit
    cases u.segwit with
    | none => rfl
    | some b => cases b <;> rfl
  simp only [eseg] at h3
  rw [contract_text (by simp) h2.inputs.length_eq fun j u i hu hi => (h5' j u i hu hi).2] at h3
  obtain ⟨ds, d1, d2⟩ := tells_subperm hf h2.selected
  have hnd : (ds.map Spec.Utxo.outpoint).Nodup := by
    obtain ⟨l, e1, e2⟩ := d1
    exact (e1.map _).nodup_iff.mp ((e2.map _).nodup hn)
  have hout := tells_prevouts d2 (h2.inputs.imp fun _ _ h => ⟨h.1, h.2.1⟩)
  have hsub : ∀ c ∈ ds, c ∈ L ∧ c.script ∈ contractScripts C s := fun c hc => hmem c (d1.subset hc)
  refine ⟨us, sel, change, fee, t, ds, ⟨h1, h2, h3, d2, hsub,
    spent_perm hL (fun c hc => (hsub c hc).1) hout hnd, hout ▸ hnd, hout, ?_⟩, ?_⟩
  swap
  · rw [tells_sum hf, worth_perm hperm, scripts_worth]
  intro j i c hi hc
  obtain ⟨u, hu⟩ := get_of_length d2.length_eq hc
  have ht : Tells c u := (forall₂_iff_get.mp d2).2 j _ _ hc hu
  obtain ⟨⟨script, e1, e2⟩, -⟩ := h5' j u i hu hi
  have e3 : script = c.script := bytesToHex_injective (e1.symm.trans ht.script)
  have e4 : u.amount.toNat = c.value := by rw [ht.amount]; rfl
  rw [e3, e4] at e2
  exact accepted hs.hash e2

theorem finished_valid {C : Crypto} {env : Env Amount} {args : TxArgs Amount} {S : Signer} {ss : List Bytes}
    {L : Spec.Ledger} {r : Str} {us sel : List Unspent} {change : Str} {fee : Int} {t : Spec.Tx} {ds : List Spec.Utxo}
    (h : Finished C env args S ss L r us sel change fee t ds) (hfee : 0 ≤ askedFee env args) :
    (args.outputs ≠ [] → t.outputs ≠ []) ∧ (t.outputs ≠ [] → Valid C.hashing L t) := by
  refine ⟨?_, ?_⟩
  · intro hne hnil
    obtain ⟨pays, changes, pieces, scripts, changeScript, g1, -, -, g4, -⟩ := h.built.outputs
    rw [hnil] at g4
    have : pays = [] := by
      have := g4.length_eq
      simp at this
      exact this.1
    rw [this] at g1
    exact hne (List.forall₂_nil_right_iff.mp g1)
  · intro hne
    refine ⟨h.wf, hne, h.nodup, ?_, ?_⟩
    · intro j i hi
      obtain ⟨c, hc⟩ := get_of_length (by simpa using (congrArg List.length h.outs).symm : t.inputs.length = ds.length) hi
      refine ⟨c, (h.mem c (List.mem_of_getElem? hc)).1, ?_, h.accepts j i c hi hc⟩
      have e1 : (ds.map Spec.Utxo.outpoint)[j]? = some c.outpoint := by rw [List.getElem?_map, hc]; rfl
      rw [h.outs, List.getElem?_map, hi] at e1
      exact (Option.some.inj e1).symm
    · have e1 := tells_sum h.tells
      rw [worth_perm h.perm] at e1
      have e2 := h.built.balanced
      have e3 := fee_nonneg h.built hfee
      have e4 := outputs_sum t.outputs
      omega

theorem finished_moves {C : Crypto} {env : Env Amount} {args : TxArgs Amount} {S : Signer} {ss : List Bytes} (hss : ss.Nodup)
    {L : Spec.Ledger} {r : Str} {us sel : List Unspent} {change : Str} {fee : Int} {t : Spec.Tx} {ds : List Spec.Utxo}
    (h : Finished C env args S ss L r us sel change fee t ds) {Own : Bytes → Prop}
    (own : ∀ a script, S.address C = .ok a ∨ S.segwitAddress C = .ok (some a) →
      addressToScriptpubkey C a = .ok (some script) → Own script) :
    ∃ (pays : List (Str × Int)) (c : Int) (changeScript : Bytes),
      List.Forall₂ (fun o p => p.1 = o.1 ∧ env.conv o.2 = .ok p.2) args.outputs pays ∧ 0 ≤ c ∧
      (args.combine = true → (us.map Unspent.amount).sum = fee + (pays.map Prod.snd).sum + c) ∧
      (match args.leftover with
        | some (a :: l) => addressToScriptpubkey C (a :: l) = .ok (some changeScript)
        | _ => Own changeScript) ∧
      let L' := L.apply C.doubleSha256 t
      (worth L' : Int) = worth L - fee ∧
      (∀ s, s ∉ ss → (L'.balance s : Int) = L.balance s + paidTo C s pays + if s = changeScript then c else 0) ∧
      (heldBy ss L' : Int) = heldBy ss L - fee - (pays.map Prod.snd).sum - c +
        (ss.map fun s => paidTo C s pays + if s = changeScript then c else 0).sum := by
  obtain ⟨pays, changes, pieces, scripts, changeScript, g1, g2, -, g4, -, g6, -⟩ := h.built.outputs
  obtain ⟨c, hc0, hcp, hcs⟩ : ∃ c : Int, 0 ≤ c ∧ (∀ s, paidTo C s changes = if s = changeScript then c else 0) ∧
      (changes.map Prod.snd).sum = c := by
    rcases g2 with rfl | ⟨c, hc, rfl⟩
    · exact ⟨0, le_refl _, fun s => by simp [paidTo], rfl⟩
    · refine ⟨c, hc.le, fun s => ?_, by simp⟩
      unfold paidTo
      by_cases hs : s = changeScript
      · subst hs; simp [g6]
      · have : ¬ changeScript = s := fun e => hs e.symm
        simp [g6, hs, this]
  have hspent : ∀ c ∈ L.spentBy t, c.script ∈ ss := fun c hc => (h.mem c (h.perm.symm.subset hc)).2
  have e1 := tells_sum h.tells
  rw [worth_perm h.perm] at e1
  have e2 := h.built.balanced
  have e3 := outputs_sum t.outputs
  have e4 := pays_sum g4
  have e5 : (((pays ++ changes).map (fun p : Str × Int => (Dest.str p.1, p.2)) ++
      pieces.map fun c => (Dest.bytes c, (0 : Int))).map Prod.snd).sum = (pays.map Prod.snd).sum + c := by
    rw [← hcs]
    simp [List.map_append, List.sum_append, Function.comp_def]
  rw [e5] at e4
  have hout : ∀ s, (outTo s t.outputs : Int) = paidTo C s pays + if s = changeScript then c else 0 := by
    intro s
    rw [outTo_paid s g4, paidTo_append, hcp]
  refine ⟨pays, c, changeScript, g1, hc0, ?_, ?_, ?_, ?_, ?_⟩
  · intro hcomb
    rw [h.built.combined hcomb] at e2
    omega
  · have hl := h.built.leftover
    have own : (if us.any (fun u => u.segwit = some true) then S.segwitAddress C = .ok (some change)
        else S.address C = .ok change) → Own changeScript := by
      intro hx
      split at hx
      · exact own _ _ (.inr hx) g6
      · exact own _ _ (.inl hx) g6
    cases hlo : args.leftover with
    | none => rw [hlo] at hl; exact own hl
    | some x =>
      rw [hlo] at hl
      cases x with
      | nil => exact own hl
      | cons a l =>
        have hl : change = a :: l := hl
        subst hl; exact g6
  · have := apply_worth C.doubleSha256 L t
    omega
  · intro s hs
    have := apply_balance C.doubleSha256 L t s
    rw [balance_zero (L := L.spentBy t) fun c hc (e : c.script = s) => hs (e ▸ hspent c hc)] at this
    have := hout s
    omega
  · have a1 : (ss.map fun s => ((L.apply C.doubleSha256 t).balance s : Int) + ((L.spentBy t).balance s : Nat)) =
        ss.map fun s => (L.balance s : Int) + (paidTo C s pays + if s = changeScript then c else 0) := by
      refine List.map_congr_left fun s _ => ?_
      rw [← hout s]
      exact_mod_cast apply_balance C.doubleSha256 L t s
    have a2 := congrArg List.sum a1
    rw [sum_add, sum_add, ← sum_cast, ← sum_cast, ← sum_cast, worth_scripts hss hspent] at a2
    have a3 : (heldBy ss (L.apply C.doubleSha256 t) : Int) + (worth (L.spentBy t) : Nat) = heldBy ss L +
        (ss.map fun s => paidTo C s pays + if s = changeScript then c else 0).sum := a2
    omega

/-- The default address for change is one of the contract's own. -/
theorem contract_change {C : Crypto} {s : MultiSig} (hs : ContractShape C s) {a : Str} {script : Bytes}
    (h : (Signer.multi s).address C = .ok a ∨ (Signer.multi s).segwitAddress C = .ok (some a))
    (ha : addressToScriptpubkey C a = .ok (some script)) : script ∈ contractScripts C s := by
  obtain ⟨e1, e2⟩ := contract_both hs
  have key : ∀ hash : Bytes, hash.length = 20 → a = b58encodeCheck C (scriptHashByte s.net :: hash) →
      script = Spec.p2shScript hash := by
    intro hash hl e
    obtain ⟨-, k1, k2⟩ := p2sh_address hs.hash s.net hash hl
    rw [← e] at k1 k2
    by_cases hb : bech32Decode a = none
    · have := (k1 hb).2
      rw [ha] at this
      exact Option.some.inj (Except.ok.inj this)
    · have := (k2 hb).2
      rw [ha] at this
      cases this
  rcases h with h | h
  · rw [e1] at h
    rw [key _ (hs.hash.ripemd160_length _) (Except.ok.inj h).symm]
    exact List.mem_cons_self
  · rw [e2] at h
    cases hc : s.isCompressed with
    | false => rw [hc] at h; cases h
    | true =>
      rw [hc] at h
      rw [key _ (hs.hash.ripemd160_length _) (Option.some.inj (Except.ok.inj h)).symm]
      unfold contractScripts
      rw [hc]
      exact List.mem_cons_of_mem _ (List.mem_singleton.mpr rfl)

/-- C90. If networks report the chain truthfully, one holder of a key creates a transaction from the coins reported and
the other co-signers needed sign it, each with the coins that their own network reports, then a node takes the
result: it spends unspent outputs of the contract, each once, satisfies their scripts, and does not pay more than it
spends. -/
theorem C90_valid (C : Crypto) (s : MultiSig) (hs : ContractLaws C s) (htwo : TwoScripts C s) (L : Spec.Ledger) (hL : L.WF)
    (hidx : ∀ c ∈ L, c.index < 2 ^ 32) (env : Env Amount) (args : TxArgs Amount) (hfee : 0 ≤ askedFee env args) (ask : Ask)
    (w : Wallet) (others : List Cosigner) (hp : Party C s L env args ask w others) (readFloat : Str → PyFloat) (r r' : Str)
    (h : (w.createTransaction C env args ask (.given [])).2 = .ok r) (h' : cosignOnline C readFloat others r = .ok r') :
    ∃ t : Spec.Tx, t.WF ∧ r' = bytesToHex t.encode ∧ (∀ c ∈ L.spentBy t, c.script ∈ contractScripts C s) ∧
      (args.outputs ≠ [] → t.outputs ≠ []) ∧ (t.outputs ≠ [] → Valid C.hashing L t) := by
  obtain ⟨us, sel, change, fee, t, ds, hf, hall⟩ := contract_core hs htwo hL hidx hp h h'
  exact ⟨t, hf.wf, hf.text, fun c hc => (hf.mem c (hf.perm.symm.subset hc)).2, finished_valid hf hfee⟩

/-- C90. What the transaction does to the chain when it is confirmed, `pays` being the payments in satoshi: all together
the chain loses the fee. Every script of others gets what the payments say, and nothing is taken from it. The
contract loses the fee and the payments, except for payments to itself. Change (`c`) goes to the contract, or to the
address given for it; if all coins are used (`combine`, the default) it is all the contract has but for the fee and the payments. -/
theorem C90_moves (C : Crypto) (s : MultiSig) (hs : ContractLaws C s) (htwo : TwoScripts C s) (L : Spec.Ledger) (hL : L.WF)
    (hidx : ∀ c ∈ L, c.index < 2 ^ 32) (env : Env Amount) (args : TxArgs Amount) (ask : Ask)
    (w : Wallet) (others : List Cosigner) (hp : Party C s L env args ask w others) (readFloat : Str → PyFloat) (r r' : Str)
    (h : (w.createTransaction C env args ask (.given [])).2 = .ok r) (h' : cosignOnline C readFloat others r = .ok r') :
    ∃ (t : Spec.Tx) (pays : List (Str × Int)) (fee c : Int) (changeScript : Bytes), t.WF ∧ r' = bytesToHex t.encode ∧
      List.Forall₂ (fun o p => p.1 = o.1 ∧ env.conv o.2 = .ok p.2) args.outputs pays ∧
      (∃ us sel change, Built C env args (.multi s) us sel change fee t) ∧ 0 ≤ c ∧
      (args.combine = true → c = heldBy (contractScripts C s) L - fee - (pays.map Prod.snd).sum) ∧
      (match args.leftover with
        | some (a :: l) => addressToScriptpubkey C (a :: l) = .ok (some changeScript)
        | _ => changeScript ∈ contractScripts C s) ∧
      let L' := L.apply C.doubleSha256 t
      (worth L' : Int) = worth L - fee ∧
      (∀ script, script ∉ contractScripts C s →
        (L'.balance script : Int) = L.balance script + paidTo C script pays + if script = changeScript then c else 0) ∧
      (heldBy (contractScripts C s) L' : Int) = heldBy (contractScripts C s) L - fee - (pays.map Prod.snd).sum - c +
        ((contractScripts C s).map fun script => paidTo C script pays + if script = changeScript then c else 0).sum := by
  obtain ⟨us, sel, change, fee, t, ds, hf, hall⟩ := contract_core hs htwo hL hidx hp h h'
  obtain ⟨pays, c, changeScript, h1, h2, hc, h3, h4⟩ := finished_moves (contractScripts_nodup htwo) hf
    fun a script ha hs' => contract_change hs.toContractShape ha hs'
  refine ⟨t, pays, fee, c, changeScript, hf.wf, hf.text, h1, ⟨us, sel, change, hf.built⟩, h2, fun hcomb => ?_, h3, h4⟩
  have := hc hcomb
  omega

/-- Signing with the whole list is signing with the coins selected. -/
theorem sign_whole_same {C : Crypto} {env : Env Amount} {args : TxArgs Amount} {s S : Signer} {us sel : List Unspent}
    {change : Str} {fee : Int} {t t' : Spec.Tx} (hb : Built C env args s us sel change fee t)
    (hwf : t'.WF) (hsk : Spec.SameSkeleton t t') (htx : ∀ u ∈ us, TxidOk u) (hd : Distinct us)
    {d d' : List (Bytes × Unspent)} (hdict : inputDict C S (signedCoins args.replaceByFee sel) [] = .ok d)
    (hdict' : inputDict C S us [] = .ok d') {w : Bool} :
    signTransactionHex C S (bytesToHex (enc w t')) us =
      signTransactionHex C S (bytesToHex (enc w t')) (signedCoins args.replaceByFee sel) := by
  obtain ⟨x, hx, hrep⟩ := deserialize_enc hwf w
  unfold signTransactionHex
  rw [deserializeHex_bytesToHex, hx]
  dsimp only
  apply signTx_dict hdict' hdict
  intro i hi
  have hb' := hb.skeleton hsk
  obtain ⟨ti, hti, hir⟩ := forall₂_mem_left hrep.inputs i hi
  obtain ⟨j, hj⟩ := List.mem_iff_getElem?.mp hti
  have hlt : j < sel.length := by
    rw [hb'.inputs.length_eq]
    exact (List.getElem?_eq_some_iff.mp hj).1
  have hu := List.getElem?_eq_getElem hlt
  obtain ⟨g1, g2, -⟩ := (forall₂_iff_get.mp hb'.inputs).2 j _ _ hu hj
  have hop := outpointOf_takes g1 g2 (hwf.input ti hti)
  obtain ⟨v, v1, v2, v3, v4, v5, v6, v7, v8⟩ := signedCoins_get (rbf := args.replaceByFee) hu
  rw [hir.outpoint, chosen_distinct hd htx hdict' (hb.selected.subset (List.getElem_mem hlt)) hop,
    chosen_distinct (distinct_signedCoins hb.selected hd) (txidOk_signedCoins hb.selected htx) hdict
      (List.mem_of_getElem? v1) (v6.trans hop), v5]
  split
  · rw [Option.map_some, Option.map_some, v2, v3]
  · rfl

/-- Co-signers with lists of their own all succeed. -/
theorem cosignWith_succeeds {C : Crypto} {env : Env Amount} {args : TxArgs Amount} {s : MultiSig} (hs : ContractLaws C s)
    {us sel : List Unspent} {change : Str} {fee : Int} {t : Spec.Tx}
    (hb : Built C env args (.multi s) us sel change fee t) (hwf : t.WF)
    (hfr : Fresh C s (signedCoins args.replaceByFee sel) t)
    (hok : ∀ u ∈ us, TxidOk u ∧ 0 ≤ u.txindex ∧ u.txindex < 2 ^ 32) (hd : Distinct us)
    (hcan : ∀ u ∈ us, ∃ b, (Signer.multi s).canSignUnspent C u = .ok b)
    {d d' : List (Bytes × Unspent)} (hdict : inputDict C (.multi s) (signedCoins args.replaceByFee sel) [] = .ok d)
    (hdict' : inputDict C (.multi s) us [] = .ok d')
    (hms : MultiSignable C s (signedCoins args.replaceByFee sel) t)
    {w : Bool} (hw : w = true ∨ ∀ u ∈ signedCoins args.replaceByFee sel, u.isSegwit = false) :
    ∀ (ks : List (PrivKey × List Unspent)) (done : List PrivKey), (∀ p ∈ ks, SignerLaws C s p.1) →
      (∀ a ∈ done, SignerLaws C s a) → (∀ p ∈ ks, SameCoins us p.2) →
      AllApart C s (ks.map Prod.fst ++ done) (signedCoins args.replaceByFee sel) t →
      ((ks.map Prod.fst ++ done).map fun k => k.publicKey C).Nodup → ((ks.length + done.length : Nat) : Int) ≤ s.m →
      ∃ b, cosignWith C s ks (bytesToHex (enc w (multiTx C s done (signedCoins args.replaceByFee sel) t))) =
        .ok (bytesToHex b)
  | [], _, _, _, _, _, _, _ => ⟨_, rfl⟩
  | (k, l) :: ks, done, h1, h2, hl, hap, h3, h4 => by
    rw [List.length_cons] at h4
    have hk : SignerLaws C s k := h1 _ List.mem_cons_self
    rw [List.map_cons] at hap h3
    dsimp only at hap h3
    have hperm : (ks.map Prod.fst ++ (k :: done)).Perm (k :: ks.map Prod.fst ++ done) := by
      simp
    have h3' : ((ks.map Prod.fst ++ (k :: done)).map fun k => k.publicKey C).Nodup := (hperm.map _).nodup_iff.mpr h3
    have hn : ((k :: done).map fun k => k.publicKey C).Nodup := by
      rw [List.map_append] at h3'
      exact (List.nodup_append.mp h3').2.1
    have hlt : (done.length : Int) < s.m := by push_cast at h4; omega
    have hwf' := multiTx_wf hs h2 (us := signedCoins args.replaceByFee sel) hwf
    have hsame := C89_same_coins C (.multi { s with key := k }) us l w _ hwf' hok hcan hd (hl _ List.mem_cons_self)
    have hdk : inputDict C (.multi { s with key := k }) (signedCoins args.replaceByFee sel) [] = .ok d := by
      rw [inputDict_key]; exact hdict
    have hdk' : inputDict C (.multi { s with key := k }) us [] = .ok d' := by
      rw [inputDict_key]; exact hdict'
    have hsame' := sign_whole_same (w := w) hb hwf' (multiTx_skeleton C s done _ t) (fun u hu => (hok u hu).1) hd hdk hdk'
    have he : ∀ t : Spec.Tx, enc w t = if w then t.encodeExtended else t.encodeLegacy := fun _ => rfl
    rw [cosignWith, he, ← hsame, ← he, hsame',
      (multi_sign_hex hs h2 hk hn hlt hw hwf hfr fun _ => hap.mono (by intro a ha; simp; tauto)).mpr ⟨hms, rfl⟩]
    dsimp only
    refine cosignWith_succeeds hs hb hwf hfr hok hd hcan hdict hdict' hms hw ks (k :: done)
      (fun p hp => h1 p (List.mem_cons_of_mem _ hp)) ?_ (fun p hp => hl p (List.mem_cons_of_mem _ hp))
      (hap.mono (by intro a ha; simp at ha ⊢; tauto)) h3' ?_
    · intro a ha
      rcases List.mem_cons.mp ha with rfl | ha
      · exact hk
      · exact h2 a ha
    · rw [List.length_cons]; push_cast at h4 ⊢; omega

/-- After creation, co-signers with lists of their own all succeed. -/
theorem created_cosignable {C : Crypto} {s : MultiSig} (hs : ContractLaws C s)
    {env : Env Amount} (hshuffle : ∀ l, (env.shuffle l).Perm l) {args : TxArgs Amount} {ask : Ask} {w : Wallet}
    (hw : w.signer = .multi s) {us : List Unspent} (hne : us ≠ [])
    (hok : ∀ u ∈ us, TxidOk u ∧ 0 ≤ u.txindex ∧ u.txindex < 2 ^ 32) (hd : Distinct us)
    {others : List (PrivKey × List Unspent)} (hlists : ∀ p ∈ others, SameCoins us p.2)
    (hks : ∀ k ∈ s.key :: others.map Prod.fst, SignerLaws C s k)
    (hap : ∀ sel change fee t, Built C env args (.multi s) us sel change fee t →
      NoMixup C s (s.key :: others.map Prod.fst) us t)
    (hdiff : ((s.key :: others.map Prod.fst).map fun k => k.publicKey C).Nodup) (hm : (others.length : Int) + 1 ≤ s.m)
    {r : Str} (h : (w.createTransaction C env args ask (.given us)).2 = .ok r) :
    ∃ b, cosignWith C s others r = .ok (bytesToHex b) := by
  have htx : ∀ u ∈ us, TxidOk u := fun u hu => (hok u hu).1
  obtain ⟨v, b, hv⟩ := created_can hshuffle hne htx h
  rw [hw] at hv
  have hcan : ∀ u ∈ us, ∃ b, (Signer.multi s).canSignUnspent C u = .ok b := by
    intro u _
    by_cases ho : OrdinaryAddresses C (.multi s)
    · obtain ⟨c, hc, -⟩ := (C74_can_sign_contract C s hs.toContractShape).1 ho u
      exact ⟨c, hc⟩
    · rw [(C74_can_sign_contract C s hs.toContractShape).2 ho v] at hv; cases hv
  obtain ⟨sel, change, fee, t, h1, h2, h3, -, h4⟩ := C63_unsigned C env hshuffle args ask w us hne htx r h
  rw [hw] at h2 h4
  have eseg : ∀ u : Unspent, decide (u.segwit = some true) = u.isSegwit := by
    intro u
    unfold Unspent.isSegwit
    cases u.segwit with
    | none => rfl
    | some b => cases b <;> rfl
  simp only [eseg] at h4
  have hsub := h2.selected
  have hw' : sel.any Unspent.isSegwit = true ∨ ∀ u ∈ signedCoins args.replaceByFee sel, u.isSegwit = false := by
    cases hb : sel.any Unspent.isSegwit with
    | true => exact Or.inl rfl
    | false =>
      right
      rw [← signedCoins_any args.replaceByFee] at hb
      intro u hu
      have := List.any_eq_false.mp hb u hu
      simpa using this
  have hun : Unsigned C s (signedCoins args.replaceByFee sel) t := fun i hi _ _ _ => h3 i hi
  obtain ⟨d, hdict⟩ := signTransactionHex_dict h4
  obtain ⟨d', hdict'⟩ := inputDict_ok (C := C) (s := .multi s) (us := us) [] fun u hu => ⟨hcan u hu, by
    obtain ⟨⟨b, -, hb⟩, h1⟩ := hok u hu
    exact Locates.outpoint ⟨⟨b, by rw [hb]; exact hexToBytes_bytesToHex b⟩, h1⟩⟩
  have hap' : NoMixup C s (s.key :: others.map Prod.fst) (signedCoins args.replaceByFee sel) t := by
    intro j i v hi hv hown
    obtain ⟨j', hj'⟩ := List.mem_iff_getElem?.mp hv
    have hlt : j' < sel.length := by
      rw [← signedCoins_length args.replaceByFee]; exact (List.getElem?_eq_some_iff.mp hj').1
    obtain ⟨v', v1, v2, v3, v4, v5, v6, v7, v8⟩ :=
      signedCoins_get (rbf := args.replaceByFee) (List.getElem?_eq_getElem hlt)
    rw [hj'] at v1
    injection v1 with v1
    subst v1
    have := hap sel change fee t h2 j i _ hi (hsub.subset (List.getElem_mem hlt)) ?_
    · rw [v2, v3]; exact this
    · unfold OwnsContract PaysContract Names at hown ⊢
      rw [← v4, ← v7, ← v8]
      exact hown
  have hapart := hap'.apart hs h1
  have hkey := hks s.key List.mem_cons_self
  have hpos : 0 < s.m := hs.pos
  have hnil : multiTx C s [] (signedCoins args.replaceByFee sel) t = t := multiTx_nil C s _ t
  have hstep : signTransactionHex C (.multi { s with key := s.key })
      (bytesToHex (enc (sel.any Unspent.isSegwit) (multiTx C s [] (signedCoins args.replaceByFee sel) t)))
      (signedCoins args.replaceByFee sel) = .ok r := by
    rw [hnil]; exact h4
  obtain ⟨hms, hr⟩ := (multi_sign_hex hs (by simp) hkey (by simp) (by simpa using hpos) hw' h1 (hun.fresh hs h1)
    fun h => absurd rfl h).mp hstep
  rw [hr]
  refine cosignWith_succeeds hs h2 h1 (hun.fresh hs h1) hok hd hcan hdict hdict' hms hw' others [s.key]
    (fun p hp => hks _ (List.mem_cons_of_mem _ (List.mem_map_of_mem hp))) (by simpa using hkey) hlists
    (hapart.mono (by intro a ha; simp at ha ⊢; tauto)) ?_ ?_
  · have hp : (others.map Prod.fst ++ [s.key]).Perm (s.key :: others.map Prod.fst) := List.perm_append_singleton _ _
    exact (hp.map _).nodup_iff.mpr hdiff
  · rw [List.length_singleton]; push_cast; exact hm

theorem cosignWith_online {C : Crypto} {readFloat : Str → PyFloat} {s : MultiSig} :
    ∀ {cs : List Cosigner} {b : Bytes} {r : Str} (lists : Cosigner → List Unspent),
    (∀ c ∈ cs, c.wallet.signer = .multi { s with key := c.key } ∧ ∃ w', c.wallet.getUnspents C c.ask = (w', .ok (lists c))) →
    cosignWith C s (cs.map fun c => (c.key, lists c)) (bytesToHex b) = .ok r →
    cosignOnline C readFloat cs (bytesToHex b) = .ok r
  | [], b, r, _, _, h => h
  | c :: cs, b, r, lists, hc, h => by
    obtain ⟨hsig, w', hg⟩ := hc c List.mem_cons_self
    have hsig' : w'.signer = .multi { s with key := c.key } := by
      have := getUnspents_signer C c.ask c.wallet
      rw [hg] at this
      rw [this]
      exact hsig
    rw [List.map_cons, cosignWith] at h
    rw [cosignOnline, (C78_hex C readFloat c.ask c.wallet _ b (hexToBytes_bytesToHex b)).2, hg]
    simp only [Except.bind, hsig']
    cases h1 : signTransactionHex C (.multi { s with key := c.key }) (bytesToHex b) (lists c) with
    | error e => rw [h1] at h; cases h
    | ok r1 =>
      rw [h1] at h
      dsimp only at h ⊢
      obtain ⟨b', rfl⟩ : ∃ b', r1 = bytesToHex b' := by
        unfold signTransactionHex at h1
        split at h1
        · cases h1
        · exact signTx_hex h1
      exact cosignWith_online lists (fun c' h' => hc c' (List.mem_cons_of_mem _ h')) h

/-- C90. Once a transaction is created, the other co-signers can always sign it, if only their networks answer: none of the calls
raises an error. -/
theorem C90_signed (C : Crypto) (s : MultiSig) (hs : ContractLaws C s) (htwo : TwoScripts C s) (L : Spec.Ledger) (hL : L.WF)
    (hidx : ∀ c ∈ L, c.index < 2 ^ 32) (env : Env Amount) (args : TxArgs Amount) (ask : Ask)
    (w : Wallet) (others : List Cosigner) (hp : Party C s L env args ask w others)
    (hans : ∀ c ∈ others, ∃ us, (c.wallet.getUnspents C c.ask).2 = .ok us) (readFloat : Str → PyFloat) (r : Str)
    (h : (w.createTransaction C env args ask (.given [])).2 = .ok r) :
    ∃ r', cosignOnline C readFloat others r = .ok r' := by
  obtain ⟨w', us, hg, hne, h⟩ := create_asks h
  obtain ⟨cs, hperm, hf, -, hfit⟩ := fetched_contract hs.toContractShape hp.honest hp.signer hg
  have hn := (hperm.map Spec.Utxo.outpoint).nodup_iff.mpr (scripts_nodup (contractScripts_nodup htwo) hL)
  have hmem : ∀ c ∈ cs, c ∈ L := by
    intro c hc
    obtain ⟨s, hs, h1⟩ := List.mem_flatMap.mp (hperm.subset hc)
    exact List.mem_of_mem_filter h1
  have hok : ∀ u ∈ us, TxidOk u ∧ 0 ≤ u.txindex ∧ u.txindex < 2 ^ 32 := by
    intro u hu
    obtain ⟨c, hc, hu⟩ := forall₂_right hf hu
    have := hidx c (hmem c hc)
    refine ⟨⟨c.txid.reverse, by rw [List.length_reverse]; exact hL.txid c (hmem c hc), hu.txid⟩, ?_, ?_⟩
    · rw [hu.index]; exact Int.natCast_nonneg _
    · rw [hu.index]; exact_mod_cast this
  have htell : ∀ u ∈ us, ∃ c ∈ L, Tells c u := by
    intro u hu
    obtain ⟨c, hc, ht⟩ := forall₂_right hf hu
    exact ⟨c, hmem c hc, ht⟩
  obtain ⟨b, rfl⟩ : ∃ b, r = bytesToHex b := by
    obtain ⟨sel, change, fee, t, -, -, -, -, h4⟩ := C63_unsigned C env hp.shuffle args ask w us hne (fun u hu => (hok u hu).1) r h
    unfold signTransactionHex at h4
    split at h4
    · cases h4
    · exact signTx_hex h4
  let lists : Cosigner → List Unspent := fun c => (c.wallet.getUnspents C c.ask).2.toOption.getD []
  have hlists : ∀ c ∈ others, ∃ w', c.wallet.getUnspents C c.ask = (w', .ok (lists c)) := by
    intro c hc
    obtain ⟨us', hu⟩ := hans c hc
    refine ⟨(c.wallet.getUnspents C c.ask).1, ?_⟩
    have : lists c = us' := by
      show (c.wallet.getUnspents C c.ask).2.toOption.getD [] = us'
      rw [hu]; rfl
    rw [this, ← hu]
  have e1 : (others.map fun c => (c.key, lists c)).map Prod.fst = others.map Cosigner.key := by
    rw [List.map_map]; rfl
  obtain ⟨b', hb'⟩ := created_cosignable hs hp.shuffle hp.signer hne hok (tells_distinct hf hn)
    (others := others.map fun c => (c.key, lists c)) (by
      intro p hp'
      obtain ⟨c, hc, rfl⟩ := List.mem_map.mp hp'
      obtain ⟨k1, k2⟩ := hp.cosigner c hc
      obtain ⟨w'', e2⟩ := hlists c hc
      obtain ⟨cs', p', f', -, fit'⟩ := fetched_contract (s := { s with key := c.key }) ⟨hs.hash, hs.redeem⟩
        ⟨k2.legacy, k2.segwit⟩ k1 e2
      exact fetched_same htwo hperm p' hf f' (fun u hu => (hfit u hu).1) (fun u hu => (fit' u hu).1))
    (by rw [e1]; exact hp.laws) (by rw [e1]; exact fun sel change fee t hb => hp.apart us sel change fee t htell hb)
    (by rw [e1]; exact hp.distinct) (by rw [List.length_map]; exact hp.enough.le) h
  exact ⟨_, cosignWith_online lists (fun c hc => ⟨(hp.cosigner c hc).1, hlists c hc⟩) hb'⟩

/-- C90. If `get_balance` of a contract returns, it gives the exact number of units of what belongs to the contract,
and the balance kept in the object is that number of satoshi. -/
theorem C90_shown (C : Crypto) (s : MultiSig) (hs : ContractShape C s) (L : Spec.Ledger) (ask : Ask) (ht : HonestFor C s L ask)
    (w w' : Wallet) (hw : w.signer = .multi s) (prec : Nat) (hp : 9 ≤ prec) (limit now : Int) (answers : List (Py Int))
    (unit : Str) (n : Nat) (hu : (unit, n) ∈ bitcoinUnits) (caches caches' : RateCaches)
    (hcache : (caches unit).satoshis = none ∨ (caches unit).satoshis = some ((10 ^ n : Nat) : Int))
    (hsmall : heldBy (contractScripts C s) L < 10 ^ prec) (text : Str)
    (h : w.getBalance C ask prec limit now answers unit caches = (w', caches', .ok text)) :
    w'.balance = heldBy (contractScripts C s) L ∧ Spec.Denotes text ((heldBy (contractScripts C s) L : ℚ) / 10 ^ n) := by
  rcases hg : w.getUnspents C ask with ⟨w₁, r⟩
  cases r with
  | error e =>
    unfold Wallet.getBalance at h
    rw [hg] at h
    cases h
  | ok us =>
    have hw' : w₁ = w' := by
      unfold Wallet.getBalance at h
      rw [hg] at h
      exact congrArg Prod.fst h
    subst hw'
    obtain ⟨cs, h1, h2, h3, -⟩ := fetched_contract hs ht hw hg
    have e : (us.map Unspent.amount).sum = heldBy (contractScripts C s) L := by
      rw [tells_sum h2, worth_perm h1, scripts_worth]
    obtain ⟨_, _, _, _, text', -, -, -, -, -, -, -, -, h8, h9⟩ := C66_get_balance C ask prec hp limit now answers unit n hu
      caches hcache w w₁ us hg _ e hsmall
    rw [h] at h8
    cases h8
    exact ⟨h3.trans e, h9⟩

/-- What an entry adds to the scripts. -/
def Entry.addsTo (C : Crypto) (ss : List Bytes) : Entry → Int
  | .sent pays fee => -fee - (pays.map Prod.snd).sum + (ss.map fun s => paidTo C s pays).sum
  | .received n => n

/-- The chain over time, as seen from a contract: its co-signers, any of them in any turn, create and sign transactions
from what networks report at that moment, and they are confirmed; others make transactions that a node takes and that
do not spend the coins of the contract; new coins are mined. (A reorganisation of the chain is not among the
steps.) -/
inductive ContractLife (Amount : Type) (C : Crypto) (s : MultiSig) (L : Spec.Ledger) : List Entry → Spec.Ledger → Prop
  | start : ContractLife Amount C s L [] L
  | sends {es : List Entry} {L' : Spec.Ledger} (before : ContractLife Amount C s L es L') (index : ∀ c ∈ L', c.index < 2 ^ 32)
      (creator : PrivKey) (env : Env Amount) (args : TxArgs Amount) (change : args.leftover = none) (ask : Ask) (w : Wallet)
      (others : List Cosigner) (party : Party C { s with key := creator } L' env args ask w others)
      (readFloat : Str → PyFloat) (r r' : Str)
      (creates : (w.createTransaction C env args ask (.given [])).2 = .ok r)
      (signs : cosignOnline C readFloat others r = .ok r')
      (t : Spec.Tx) (wf : t.WF) (text : r' = bytesToHex t.encode) (fresh : L'.Fresh C.doubleSha256 t)
      (pays : List (Str × Int))
      (amounts : List.Forall₂ (fun o p => p.1 = o.1 ∧ env.conv o.2 = .ok p.2) args.outputs pays)
      (fee : Int) (leaves : fee = worth (L'.spentBy t) - (t.outputs.map Spec.TxOutput.value).sum) :
      ContractLife Amount C s L (.sent pays fee :: es) (L'.apply C.doubleSha256 t)
  | others {es : List Entry} {L' : Spec.Ledger} (before : ContractLife Amount C s L es L') (t : Spec.Tx)
      (valid : Valid C.hashing L' t) (fresh : L'.Fresh C.doubleSha256 t)
      (foreign : ∀ c ∈ L'.spentBy t, c.script ∉ contractScripts C s) :
      ContractLife Amount C s L (.received ((contractScripts C s).map fun s =>
        ((t.outputs.filter fun o => o.script = s).map Spec.TxOutput.value).sum).sum :: es) (L'.apply C.doubleSha256 t)
  | mined {es : List Entry} {L' : Spec.Ledger} (before : ContractLife Amount C s L es L') (cs : List Spec.Utxo)
      (wf : Spec.Ledger.WF (L' ++ cs)) :
      ContractLife Amount C s L (.received (heldBy (contractScripts C s) cs) :: es) (L' ++ cs)

theorem heldBy_append (ss : List Bytes) (a b : Spec.Ledger) : heldBy ss (a ++ b) = heldBy ss a + heldBy ss b := by
  unfold heldBy
  rw [← List.sum_map_add]
  congr 1
  refine List.map_congr_left fun s _ => ?_
  unfold balance
  rw [coinsOf_append, worth_append]

theorem ContractLaws.with_key {C : Crypto} {s : MultiSig} (hs : ContractLaws C s) (k : PrivKey) :
    ContractLaws C { s with key := k } :=
  ⟨⟨hs.hash, hs.redeem⟩, hs.pos, hs.nodup, hs.points, hs.der⟩

/-- C90. Over any history, what belongs to a contract is what it had, plus what it received, minus its payments to
others and the fees, whoever created and signed them. -/
theorem C90_history (C : Crypto) (s : MultiSig) (hs : ContractLaws C s) (htwo : TwoScripts C s) (L : Spec.Ledger) (hL : L.WF)
    (es : List Entry) (L' : Spec.Ledger) (h : ContractLife Amount C s L es L') :
    L'.WF ∧ (heldBy (contractScripts C s) L' : Int) =
      heldBy (contractScripts C s) L + (es.map (Entry.addsTo C (contractScripts C s))).sum := by
  have h32 : ∀ b, (C.doubleSha256 b).length = 32 := fun b => hs.hash.sha256_length _
  induction h with
  | start => exact ⟨hL, by simp⟩
  | @sends es L' before index creator env args change ask w others party readFloat r r' creates signs t wf text fresh pays
      amounts fee leaves ih =>
    obtain ⟨ih1, ih2⟩ := ih
    refine ⟨apply_wf h32 ih1 fresh, ?_⟩
    obtain ⟨t', pays', fee', c, changeScript, g1, g2, g3, -, -, -, g6, g7, -, g9⟩ := C90_moves C { s with key := creator }
      (hs.with_key creator) htwo L' ih1 index env args ask w others party readFloat r r' creates signs
    have et : t' = t := encode_inj' g1 wf (bytesToHex_injective (g2.symm.trans text))
    subst et
    have ep := pays_functional g3 amounts
    subst ep
    rw [change] at g6
    have es' : contractScripts C { s with key := creator } = contractScripts C s := rfl
    rw [es'] at g6 g9
    rw [g9, ih2, sum_add, own_change (contractScripts_nodup htwo) g6, List.map_cons, List.sum_cons]
    have := apply_worth C.doubleSha256 L' t'
    have ef : fee' = fee := by omega
    unfold Entry.addsTo
    dsimp only
    omega
  | @others es L' before t valid fresh foreign ih =>
    obtain ⟨ih1, ih2⟩ := ih
    refine ⟨apply_wf h32 ih1 fresh, ?_⟩
    have e : heldBy (contractScripts C s) (L'.apply C.doubleSha256 t) = heldBy (contractScripts C s) L' +
        ((contractScripts C s).map fun s => outTo s t.outputs).sum := by
      unfold heldBy
      rw [← List.sum_map_add]
      congr 1
      refine List.map_congr_left fun s hs => ?_
      have := apply_balance C.doubleSha256 L' t s
      rw [balance_zero (L := L'.spentBy t) fun c hc (e : c.script = s) => foreign c hc (e ▸ hs)] at this
      omega
    rw [e, List.map_cons, List.sum_cons]
    push_cast
    rw [ih2]
    unfold Entry.addsTo
    dsimp only
    have : ((contractScripts C s).map fun s => ((t.outputs.filter fun o => o.script = s).map Spec.TxOutput.value).sum) =
      (contractScripts C s).map fun s => outTo s t.outputs := rfl
    rw [this]
    omega
  | @mined es L' before cs wf ih =>
    obtain ⟨ih1, ih2⟩ := ih
    refine ⟨wf, ?_⟩
    rw [heldBy_append, List.map_cons, List.sum_cons]
    push_cast
    rw [ih2]
    unfold Entry.addsTo
    dsimp only
    omega

/-! ### A chain with two coins of the sample contract and one of somebody else -/

def coinM : Spec.Utxo := ⟨List.replicate 32 7, 1, 90000, Spec.p2shScript (crypto.ripemd160 (crypto.sha256
  (Spec.witnessScript 0 (crypto.sha256 contract.redeemscript))))⟩
def coinL : Spec.Utxo := ⟨List.replicate 32 9, 70000, 60000, Spec.p2shScript (crypto.ripemd160 (crypto.sha256
  contract.redeemscript))⟩
def ledgerC : Spec.Ledger := [coinL, coinOther, coinM]

def addressC : Str := "3BmcALuFaqtWBiB9ZwtvDxeTBb1VfWaYNR".toList
def segwitC : Str := "364TPTrsEFxiv7dn9fka2QR26xjwGa5vpN".toList

/-- Honest networks, that differ in the confirmations that they have seen. -/
def askC (n : Int) : Ask := fun a =>
  if a = addressC then .ok (some [{ unspentL with confirmations := n }])
  else if a = segwitC then .ok (some [{ unspentM with confirmations := n }])
  else .error .connectionError

theorem ledgerC_wf : ledgerC.WF := ⟨by decide +kernel, by decide +kernel⟩

theorem askC_honest (n : Int) : HonestFor crypto contract ledgerC (askC n) := by
  constructor
  · intro a l ha hl
    have e : (Signer.multi contract).address crypto = .ok addressC := by decide +kernel
    rw [e] at ha
    have ha := Except.ok.inj ha
    subst ha
    have e : askC n addressC = .ok (some [{ unspentL with confirmations := n }]) := if_pos rfl
    rw [e] at hl
    have hl := Option.some.inj (Except.ok.inj hl)
    subst hl
    have e : ledgerC.coinsOf (Spec.p2shScript (crypto.ripemd160 (crypto.sha256 contract.redeemscript))) = [coinL] := by
      decide +kernel
    rw [e]
    exact ⟨[coinL], List.Perm.refl _, .cons ⟨rfl, rfl, (by decide +kernel : unspentL.txid = _), rfl⟩ .nil⟩
  · intro a l ha hl
    have e : (Signer.multi contract).segwitAddress crypto = .ok (some segwitC) := by decide +kernel
    rw [e] at ha
    have ha := Option.some.inj (Except.ok.inj ha)
    subst ha
    have e : askC n segwitC = .ok (some [{ unspentM with confirmations := n }]) :=
      (if_neg (by decide +kernel)).trans (if_pos rfl)
    rw [e] at hl
    have hl := Option.some.inj (Except.ok.inj hl)
    subst hl
    have e : ledgerC.coinsOf (Spec.p2shScript (crypto.ripemd160 (crypto.sha256 (Spec.witnessScript 0
      (crypto.sha256 contract.redeemscript))))) = [coinM] := by decide +kernel
    rw [e]
    exact ⟨[coinM], List.Perm.refl _, .cons ⟨rfl, rfl, (by decide +kernel : unspentM.txid = _), rfl⟩ .nil⟩

/-- Key C with a contract object and a network of its own. -/
def cosignerC : Cosigner := ⟨keyC, newWallet (.multi { contract with key := keyC }), askC 8⟩

/-- The hypotheses of C90_valid and C90_moves: key A creates, key C signs. -/
theorem partyC : Party crypto contract ledgerC envB (argsB true) (askC 3) contractWallet [cosignerC] where
  shuffle := fun _ => List.Perm.refl _
  honest := askC_honest 3
  signer := rfl
  cosigner := by
    intro c hc
    rw [List.mem_singleton] at hc
    subst hc
    exact ⟨rfl, askC_honest 8⟩
  laws := by
    intro k hk
    have hk : k ∈ [keyA, keyC] := hk
    simp only [List.mem_cons, List.not_mem_nil, or_false] at hk
    rcases hk with rfl | rfl
    · exact contract_signer (Or.inl rfl)
    · exact contract_signer (Or.inr (Or.inr rfl))
  distinct := by decide +kernel
  enough := by decide
  apart := fun us sel change fee t _ _ => contract_noMixup (by simp [contract, cosignerC]) _ _

theorem twoC : TwoScripts crypto contract := by unfold TwoScripts; decide +kernel

def createdC : Py Str := (contractWallet.createTransaction crypto envB (argsB true) (askC 3) (.given [])).2

def signedC : Py Str := createdC.bind (cosignOnline crypto exactFloat [cosignerC])

/-- The transaction that they make to pay 20000 satoshi for a fee of 515. -/
def txC : Spec.Tx :=
  { version := 1
    inputs := [
      { prevTxid := List.replicate 32 9, prevIndex := 70000
        script := unhex "00" ++ unhex "2230c4ad60b1425a79eea41a138ccc60c987329a7f6afc25f60db9f5040946c1becf01" ++
          unhex "2230c8a16cbd4e5675e2a8161f80c06cc58b3e967366f029fa01b5f908054acdb2c301" ++ unhex "4c69" ++ contract.redeemscript
        sequence := 4294967295, witness := [] },
      { prevTxid := List.replicate 32 7, prevIndex := 1
        script := unhex "220020153595a30b5c1d4f9c3271b3c7100624925e85d19e4d87cb531aadb239b49175"
        sequence := 4294967295
        witness := [[], unhex "30ea9277a8605b70dc71f180c92364b75e6f7d13aed739fc03d5305c07a8311e8401",
          unhex "30e69e7ba46c577cd07dfd8cc52f68bb5263711fa2db35f00fd93c500ba43d128801", contract.redeemscript] }]
    outputs := [⟨20000, unhex "76a91477bff20c60e522dfaa3350c39b030a5d004e839a88ac"⟩, ⟨129485, coinM.script⟩]
    lockTime := 0 }

theorem txC_wf : txC.WF where
  version := by decide
  nonempty := by decide
  inputs := by decide
  input := by
    intro i hi
    simp only [txC, List.mem_cons, List.not_mem_nil, or_false] at hi
    rcases hi with rfl | rfl <;>
      exact ⟨by decide, by decide, by decide +kernel, by decide, by decide +kernel, by decide +kernel⟩
  outputs := by decide
  output := by
    intro i hi
    simp only [txC, List.mem_cons, List.not_mem_nil, or_false] at hi
    rcases hi with rfl | rfl <;> exact ⟨by decide, by decide +kernel⟩
  lockTime := by decide

theorem txC_made : ∃ r, createdC = .ok r ∧ cosignOnline crypto exactFloat [cosignerC] r = .ok (bytesToHex txC.encode) := by
  have h : signedC = .ok (bytesToHex txC.encode) := by decide +kernel
  unfold signedC at h
  cases h1 : createdC with
  | error e => rw [h1] at h; cases h
  | ok r => rw [h1] at h; exact ⟨r, rfl, h⟩

theorem ledgerC_index : ∀ c ∈ ledgerC, c.index < 2 ^ 32 := by decide +kernel

/-- For C90_valid: a node takes it. -/
example : Valid crypto.hashing ledgerC txC := by
  obtain ⟨r, h1, h2⟩ := txC_made
  obtain ⟨t, g1, g2, -, g4, g5⟩ := C90_valid crypto contract contract_laws twoC ledgerC ledgerC_wf ledgerC_index envB
    (argsB true) (by decide) (askC 3) contractWallet [cosignerC] partyC exactFloat r _ h1 h2
  have e : txC = t := encode_inj' txC_wf g1 (bytesToHex_injective g2)
  rw [e]
  exact g5 (g4 (by decide))

/-- For C90_signed: the network of key C answers. -/
example : ∀ c ∈ [cosignerC], (c.wallet.getUnspents crypto c.ask).2.toOption.isSome = true := by decide +kernel

/-- For C90_shown: a new contract object shows the balance. -/
example : (contractWallet.getBalance crypto (askC 3) 28 60 0 [] "mbtc".toList (fun _ => ⟨none, 0⟩)).2.2 =
    .ok "1.5".toList ∧ heldBy (contractScripts crypto contract) ledgerC = 150000 := by decide +kernel

/-- For C90_history: the contract pays 20000, and then somebody mines 600 to it; it had 150000 and has 130085. -/
theorem lifeC : ContractLife Int crypto contract ledgerC [.received 600, .sent [(addrA, 20000)] 515]
    (ledgerC.apply crypto.doubleSha256 txC ++ [⟨List.replicate 32 6, 0, 600, coinL.script⟩]) := by
  obtain ⟨r, h1, h2⟩ := txC_made
  have e : heldBy (contractScripts crypto contract) [⟨List.replicate 32 6, 0, 600, coinL.script⟩] = 600 := by decide +kernel
  have h0 : ContractLife Int crypto contract ledgerC [.sent [(addrA, 20000)] 515] (ledgerC.apply crypto.doubleSha256 txC) :=
    .sends .start ledgerC_index contract.key envB (argsB true) rfl (askC 3) contractWallet [cosignerC] partyC exactFloat r _
      h1 h2 txC txC_wf rfl (by unfold Spec.Ledger.Fresh; decide +kernel) [(addrA, 20000)] (.cons ⟨rfl, rfl⟩ .nil) 515
      (by decide +kernel)
  have h := h0.mined [⟨List.replicate 32 6, 0, 600, coinL.script⟩] ⟨by decide +kernel, by decide +kernel⟩
  rw [e] at h
  exact h

example : (heldBy (contractScripts crypto contract)
    (ledgerC.apply crypto.doubleSha256 txC ++ [⟨List.replicate 32 6, 0, 600, coinL.script⟩]) : Int) = 130085 := by
  have h := (C90_history crypto contract contract_laws twoC ledgerC ledgerC_wf _ _ lifeC).2
  have e : heldBy (contractScripts crypto contract) ledgerC = 150000 := by decide +kernel
  rw [h, e]
  decide +kernel

end Bit
