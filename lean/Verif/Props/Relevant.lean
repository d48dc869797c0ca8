import Verif.Props.Accept
/-
C89: on which parts of the given unspents a signature depends.
-/
namespace Bit
open Concrete

/-! ## C89 -/

/-- What a signature takes from an unspent: whether it is a segwit one, and then its amount. -/
def SignedAlike (u v : Unspent) : Prop := u.isSegwit = v.isSegwit ∧ (u.isSegwit = true → u.amount = v.amount)

theorem prepareInput_alike (C : Crypto) (s : Signer) {d d' : List (Bytes × Unspent)} {i : TxIn}
    (h : match d.lookup (i.txid ++ i.txindex), d'.lookup (i.txid ++ i.txindex) with
      | none, none => True
      | some u, some v => SignedAlike u v
      | _, _ => False) : prepareInput C s d i = prepareInput C s d' i := by
  unfold prepareInput
  cases hd : d.lookup (i.txid ++ i.txindex) with
  | none =>
    cases hd' : d'.lookup (i.txid ++ i.txindex) with
    | none => rfl
    | some v => rw [hd, hd'] at h; exact h.elim
  | some u =>
    cases hd' : d'.lookup (i.txid ++ i.txindex) with
    | none => rw [hd, hd'] at h; exact h.elim
    | some v =>
      rw [hd, hd'] at h
      obtain ⟨h1, h2⟩ := h
      unfold Unspent.isSegwit at h1 h2
      dsimp only
      rw [← h1]
      cases hu : u.segwit.getD false with
      | false => rfl
      | true => rw [h2 hu]

theorem prepareInputs_alike (C : Crypto) (s : Signer) {d d' : List (Bytes × Unspent)} : ∀ {is : List TxIn},
    (∀ i ∈ is, prepareInput C s d i = prepareInput C s d' i) → prepareInputs C s d is = prepareInputs C s d' is
  | [], _ => rfl
  | i :: is, h => by
    rw [prepareInputs, prepareInputs, h i List.mem_cons_self,
      prepareInputs_alike C s fun j hj => h j (List.mem_cons_of_mem _ hj)]

theorem inputDict_ok {C : Crypto} {s : Signer} : ∀ {us : List Unspent} (d : List (Bytes × Unspent)),
    (∀ u ∈ us, (∃ b, s.canSignUnspent C u = .ok b) ∧ ∃ key, outpointOf u = .ok key) → ∃ d', inputDict C s us d = .ok d'
  | [], d, _ => ⟨d, rfl⟩
  | u :: us, d, h => by
    obtain ⟨⟨b, hb⟩, key, hkey⟩ := h u List.mem_cons_self
    have h' : ∀ v ∈ us, _ := fun v hv => h v (List.mem_cons_of_mem _ hv)
    rw [inputDict, hb]
    cases b with
    | false => exact inputDict_ok d h'
    | true =>
      dsimp only
      rw [hkey]
      exact inputDict_ok _ h'

/-- The outpoint of the unspent can be written. -/
structure Locates (u : Unspent) : Prop where
  txid : ∃ b, hexToBytes u.txid = .ok b
  index : 0 ≤ u.txindex ∧ u.txindex < 2 ^ 32

theorem Locates.outpoint {u : Unspent} (h : Locates u) : ∃ key, outpointOf u = .ok key := by
  obtain ⟨⟨b, hb⟩, h0, h1⟩ := h
  obtain ⟨n, hn⟩ := Int.eq_ofNat_of_zero_le h0
  have : n < 256 ^ 4 := by rw [hn] at h1; norm_num; exact_mod_cast h1
  exact ⟨_, outpointOf_iff.mpr ⟨b, _, hb, by rw [hn]; exact toBytesLE_ok this, rfl⟩⟩

/-- C89. What signing returns, or the error that it raises, depends only on the coins that the transaction spends and that the key or
contract can sign, and of these on the kind and, for segwit coins, the amount. Nothing else in the list of
unspents matters: other coins, the order, confirmations, sequence numbers, sizes, amounts of legacy coins. -/
theorem C89_relevant (C : Crypto) (s : Signer) (us us' : List Unspent) (w : Bool) (t : Spec.Tx) (hwf : t.WF)
    (hus : ∀ u ∈ us ++ us', Locates u ∧ ∃ b, s.canSignUnspent C u = .ok b)
    (hsame : ∀ i ∈ t.inputs,
      ((∃ u ∈ us, s.canSignUnspent C u = .ok true ∧ Names u i) ↔
        ∃ v ∈ us', s.canSignUnspent C v = .ok true ∧ Names v i) ∧
      ∀ u ∈ us, ∀ v ∈ us', s.canSignUnspent C u = .ok true → Names u i → s.canSignUnspent C v = .ok true →
        Names v i → SignedAlike u v) :
    signTransactionHex C s (bytesToHex (if w then t.encodeExtended else t.encodeLegacy)) us =
      signTransactionHex C s (bytesToHex (if w then t.encodeExtended else t.encodeLegacy)) us' := by
  obtain ⟨x, hx, hr⟩ := deserialize_enc hwf w
  obtain ⟨d, hd⟩ := inputDict_ok (C := C) (s := s) (us := us) [] fun u hu =>
    ⟨(hus u (List.mem_append_left _ hu)).2, (hus u (List.mem_append_left _ hu)).1.outpoint⟩
  obtain ⟨d', hd'⟩ := inputDict_ok (C := C) (s := s) (us := us') [] fun u hu =>
    ⟨(hus u (List.mem_append_right _ hu)).2, (hus u (List.mem_append_right _ hu)).1.outpoint⟩
  have key : prepareInputs C s d x.ins = prepareInputs C s d' x.ins := by
    refine prepareInputs_alike C s fun y hy => prepareInput_alike C s ?_
    obtain ⟨i, hi, hyi⟩ : ∃ i ∈ t.inputs, InRepresents w y i := by
      exact forall₂_left hr.inputs hy
    have hi' := hwf.input i hi
    rw [hyi.outpoint]
    obtain ⟨h1, h2⟩ := hsame i hi
    have mine : ∀ u, Mine C s (Spec.TxInput.outpoint i) u ↔ s.canSignUnspent C u = .ok true ∧ Names u i := fun u =>
      and_congr Iff.rfl (outpoint_names hi')
    cases e : d.lookup (Spec.TxInput.outpoint i) with
    | none =>
      cases e' : d'.lookup (Spec.TxInput.outpoint i) with
      | none => trivial
      | some v =>
        obtain ⟨g1, g2⟩ := dict_some hd' e'
        obtain ⟨u, hu, g3⟩ := h1.mpr ⟨v, g1, (mine v).mp g2⟩
        exact absurd ((mine u).mpr g3) ((dict_none hd).mp e u hu)
    | some u =>
      obtain ⟨g1, g2⟩ := dict_some hd e
      cases e' : d'.lookup (Spec.TxInput.outpoint i) with
      | none =>
        obtain ⟨v, hv, g3⟩ := h1.mp ⟨u, g1, (mine u).mp g2⟩
        exact absurd ((mine v).mpr g3) ((dict_none hd').mp e' v hv)
      | some v =>
        obtain ⟨g3, g4⟩ := dict_some hd' e'
        exact h2 u g1 v g3 ((mine u).mp g2).1 ((mine u).mp g2).2 ((mine v).mp g4).1 ((mine v).mp g4).2
  have hx' : deserializeHex (bytesToHex (if w then t.encodeExtended else t.encodeLegacy)) = .ok x := by
    rw [deserializeHex_bytesToHex]
    exact hx
  unfold signTransactionHex
  rw [hx']
  unfold signTx signTxObj
  dsimp only
  rw [hd, hd']
  dsimp only
  rw [key]

theorem names_functional {u v : Unspent} {i : Spec.TxInput} (hu : Names u i) (hv : Names v i) (tu : TxidOk u) (tv : TxidOk v) :
    (u.txid, u.txindex) = (v.txid, v.txindex) := by
  obtain ⟨a, -, ha⟩ := tu
  obtain ⟨b, -, hb⟩ := tv
  have e1 := hu.1
  have e2 := hv.1
  rw [ha, hexToBytes_bytesToHex] at e1
  rw [hb, hexToBytes_bytesToHex] at e2
  rw [ha, hb, hu.2, hv.2, Except.ok.inj e1, Except.ok.inj e2]

/-- Two lists that tell of the same coins: the same outpoints, and for each the same script, kind and amount. -/
structure SameCoins (us us' : List Unspent) : Prop where
  forth : ∀ u ∈ us, ∃ v ∈ us', v.txid = u.txid ∧ v.txindex = u.txindex ∧ v.script = u.script ∧ SignedAlike u v
  back : ∀ v ∈ us', ∃ u ∈ us, v.txid = u.txid ∧ v.txindex = u.txindex ∧ v.script = u.script ∧ SignedAlike u v

theorem can_script {C : Crypto} {s : Signer} {u v : Unspent} (h : v.script = u.script) :
    s.canSignUnspent C v = s.canSignUnspent C u := by
  unfold Signer.canSignUnspent
  rw [h]

/-- C89. Lists of different coins that tell of the same coins are interchangeable, in any order. -/
theorem C89_same_coins (C : Crypto) (s : Signer) (us us' : List Unspent) (w : Bool) (t : Spec.Tx) (hwf : t.WF)
    (hok : ∀ u ∈ us, TxidOk u ∧ 0 ≤ u.txindex ∧ u.txindex < 2 ^ 32) (hcan : ∀ u ∈ us, ∃ b, s.canSignUnspent C u = .ok b)
    (hd : Distinct us) (hsame : SameCoins us us') :
    signTransactionHex C s (bytesToHex (if w then t.encodeExtended else t.encodeLegacy)) us =
      signTransactionHex C s (bytesToHex (if w then t.encodeExtended else t.encodeLegacy)) us' := by
  have locates : ∀ u, TxidOk u ∧ 0 ≤ u.txindex ∧ u.txindex < 2 ^ 32 → Locates u := fun u h => by
    obtain ⟨⟨b, -, hb⟩, h1⟩ := h
    exact ⟨⟨b, by rw [hb]; exact hexToBytes_bytesToHex b⟩, h1⟩
  have names : ∀ {u v : Unspent} {i : Spec.TxInput}, v.txid = u.txid → v.txindex = u.txindex → (Names v i ↔ Names u i) := by
    intro u v i e1 e2
    unfold Names
    rw [e1, e2]
  refine C89_relevant C s us us' w t hwf ?_ ?_
  · intro u hu
    rcases List.mem_append.mp hu with hu | hu
    · exact ⟨locates u (hok u hu), hcan u hu⟩
    · obtain ⟨v, hv, e1, e2, e3, -⟩ := hsame.back u hu
      obtain ⟨⟨b, g1, g2⟩, g3⟩ := hok v hv
      refine ⟨locates u ⟨⟨b, g1, by rw [e1]; exact g2⟩, by rw [e2]; exact g3⟩, ?_⟩
      rw [can_script e3]
      exact hcan v hv
  · intro i hi
    refine ⟨⟨?_, ?_⟩, ?_⟩
    · rintro ⟨u, hu, h1, h2⟩
      obtain ⟨v, hv, e1, e2, e3, -⟩ := hsame.forth u hu
      exact ⟨v, hv, by rw [can_script e3]; exact h1, (names e1 e2).mpr h2⟩
    · rintro ⟨v, hv, h1, h2⟩
      obtain ⟨u, hu, e1, e2, e3, -⟩ := hsame.back v hv
      exact ⟨u, hu, by rw [← can_script e3]; exact h1, (names e1 e2).mp h2⟩
    · intro u hu v hv _ n1 _ n2
      obtain ⟨x, hx, e1, e2, -, e3⟩ := hsame.back v hv
      have : x = u := List.inj_on_of_nodup_map hd hx hu (names_functional ((names e1 e2).mp n2) n1 (hok x hx).1 (hok u hu).1)
      subst this
      exact e3

/-- C89 (a limit of legacy signatures). Signing is the same whatever amounts are stated for legacy coins: the
signature does not commit to them. -/
theorem C89_legacy_amounts (C : Crypto) (s : Signer) (us : List Unspent) (w : Bool) (t : Spec.Tx) (hwf : t.WF)
    (hok : ∀ u ∈ us, TxidOk u ∧ 0 ≤ u.txindex ∧ u.txindex < 2 ^ 32) (hcan : ∀ u ∈ us, ∃ b, s.canSignUnspent C u = .ok b)
    (hd : Distinct us) (stated : Unspent → Int) (hseg : ∀ u ∈ us, u.isSegwit = true → stated u = u.amount) :
    signTransactionHex C s (bytesToHex (if w then t.encodeExtended else t.encodeLegacy))
        (us.map fun u => { u with amount := stated u }) =
      signTransactionHex C s (bytesToHex (if w then t.encodeExtended else t.encodeLegacy)) us := by
  have alike : ∀ u ∈ us, SignedAlike u { u with amount := stated u } := fun u hu =>
    ⟨rfl, fun h => (hseg u hu h).symm⟩
  refine (C89_same_coins C s us _ w t hwf hok hcan hd ⟨?_, ?_⟩).symm
  · intro u hu
    exact ⟨_, List.mem_map_of_mem hu, rfl, rfl, rfl, alike u hu⟩
  · intro v hv
    obtain ⟨u, hu, rfl⟩ := List.mem_map.mp hv
    exact ⟨u, hu, rfl, rfl, rfl, alike u hu⟩

/-- Co-signers that sign one after the other, each with a list of their own. -/
def cosignWith (C : Crypto) (s : MultiSig) : List (PrivKey × List Unspent) → Str → Py Str
  | [], tx => .ok tx
  | (k, us) :: ks, tx =>
    match signTransactionHex C (.multi { s with key := k }) tx us with
    | .error e => .error e
    | .ok tx => cosignWith C s ks tx

theorem cosignWith_list {Amount : Type} {C : Crypto} {env : Env Amount} {args : TxArgs Amount} {s : MultiSig}
    (hs : ContractLaws C s) {us sel : List Unspent} {change : Str} {fee : Int} {t : Spec.Tx}
    (hb : Built C env args (.multi s) us sel change fee t) (hwf : t.WF)
    (hfr : Fresh C s (signedCoins args.replaceByFee sel) t)
    (hok : ∀ u ∈ us, TxidOk u ∧ 0 ≤ u.txindex ∧ u.txindex < 2 ^ 32) (hd : Distinct us)
    (hcan : ∀ u ∈ us, ∃ b, (Signer.multi s).canSignUnspent C u = .ok b)
    {d : List (Bytes × Unspent)} (hdict : inputDict C (.multi s) (signedCoins args.replaceByFee sel) [] = .ok d)
    {w : Bool} (hw : w = true ∨ ∀ u ∈ signedCoins args.replaceByFee sel, u.isSegwit = false) :
    ∀ (ks : List (PrivKey × List Unspent)) (done : List PrivKey), (∀ p ∈ ks, SignerLaws C s p.1) →
      (∀ a ∈ done, SignerLaws C s a) → (∀ p ∈ ks, SameCoins us p.2) →
      AllApart C s (ks.map Prod.fst ++ done) (signedCoins args.replaceByFee sel) t →
      ((ks.map Prod.fst ++ done).map fun k => k.publicKey C).Nodup → ((ks.length + done.length : Nat) : Int) ≤ s.m →
      cosignWith C s ks (bytesToHex (enc w (multiTx C s done (signedCoins args.replaceByFee sel) t))) =
      cosign C s us (ks.map Prod.fst) (bytesToHex (enc w (multiTx C s done (signedCoins args.replaceByFee sel) t)))
  | [], _, _, _, _, _, _, _ => rfl
  | (k, l) :: ks, done, h1, h2, hl, hap, h3, h4 => by
    rw [List.length_cons] at h4
    have hk : SignerLaws C s k := h1 _ List.mem_cons_self
    rw [List.map_cons] at hap h3 ⊢
    dsimp only at hap h3 ⊢
    have hperm : (ks.map Prod.fst ++ (k :: done)).Perm (k :: ks.map Prod.fst ++ done) := by
      simp
    have h3' : ((ks.map Prod.fst ++ (k :: done)).map fun k => k.publicKey C).Nodup := (hperm.map _).nodup_iff.mpr h3
    have hn : ((k :: done).map fun k => k.publicKey C).Nodup := by
      rw [List.map_append] at h3'
      exact (List.nodup_append.mp h3').2.1
    have hlt : (done.length : Int) < s.m := by push_cast at h4; omega
    have hsame := C89_same_coins C (.multi { s with key := k }) us l w _ (multiTx_wf hs h2 (us := signedCoins args.replaceByFee sel) hwf)
      hok hcan hd (hl _ List.mem_cons_self)
    rw [cosignWith, cosign]
    have he : ∀ t : Spec.Tx, enc w t = if w then t.encodeExtended else t.encodeLegacy := fun _ => rfl
    rw [he, ← hsame, ← he]
    cases hsg : signTransactionHex C (.multi { s with key := k })
        (bytesToHex (enc w (multiTx C s done (signedCoins args.replaceByFee sel) t))) us with
    | error e => rfl
    | ok r1 =>
      dsimp only
      have hdk : inputDict C (.multi { s with key := k }) (signedCoins args.replaceByFee sel) [] = .ok d := by
        rw [inputDict_key]; exact hdict
      have hsg' := sign_whole_list hb (multiTx_wf hs h2 hwf) (multiTx_skeleton C s done _ t) (fun u hu => (hok u hu).1) hd hdk hsg
      obtain ⟨-, e⟩ := (multi_sign_hex hs h2 hk hn hlt hw hwf hfr
        fun _ => hap.mono (by intro a ha; simp; tauto)).mp hsg'
      rw [e]
      refine cosignWith_list hs hb hwf hfr hok hd hcan hdict hw ks (k :: done)
        (fun p hp => h1 p (List.mem_cons_of_mem _ hp)) ?_ (fun p hp => hl p (List.mem_cons_of_mem _ hp))
        (hap.mono (by intro a ha; simp at ha ⊢; tauto)) h3' ?_
      · intro a ha
        rcases List.mem_cons.mp ha with rfl | ha
        · exact hk
        · exact h2 a ha
      · rw [List.length_cons]; push_cast at h4 ⊢; omega

/-- C89 for contracts. After one of them created a transaction, the other co-signers may each use a list of their
own, as long as the lists tell of the same coins: the outcome is that of using the list of the creator. -/
theorem C89_own_lists {Amount : Type} (C : Crypto) (s : MultiSig) (hs : ContractLaws C s)
    (env : Env Amount) (hshuffle : ∀ l, (env.shuffle l).Perm l) (args : TxArgs Amount) (ask : Ask) (w : Wallet)
    (hw : w.signer = .multi s) (us : List Unspent) (hne : us ≠ [])
    (hok : ∀ u ∈ us, TxidOk u ∧ 0 ≤ u.txindex ∧ u.txindex < 2 ^ 32) (hd : Distinct us)
    (others : List (PrivKey × List Unspent)) (hlists : ∀ p ∈ others, SameCoins us p.2)
    (hks : ∀ k ∈ s.key :: others.map Prod.fst, SignerLaws C s k)
    (hap : ∀ sel change fee t, Built C env args (.multi s) us sel change fee t →
      NoMixup C s (s.key :: others.map Prod.fst) us t)
    (hdiff : ((s.key :: others.map Prod.fst).map fun k => k.publicKey C).Nodup) (hm : (others.length : Int) + 1 ≤ s.m)
    (r : Str) (h : (w.createTransaction C env args ask (.given us)).2 = .ok r) :
    cosignWith C s others r = cosign C s us (others.map Prod.fst) r := by
  have htx : ∀ u ∈ us, TxidOk u := fun u hu => (hok u hu).1
  obtain ⟨v, b, hv⟩ := created_can hshuffle hne htx h
  rw [hw] at hv
  have hcan : ∀ u ∈ us, ∃ b, (Signer.multi s).canSignUnspent C u = .ok b := by
    intro u _
    by_cases ho : OrdinaryAddresses C (.multi s)
    · obtain ⟨c, hc, -⟩ := (C74_can_sign_contract C s hs.toContractShape).1 ho u
      exact ⟨c, hc⟩
    · rw [(C74_can_sign_contract C s hs.toContractShape).2 ho v] at hv; cases hv
  obtain ⟨sel, change, fee, t, h1, h2, h3, -, h4⟩ := C63_unsigned C env hshuffle args ask w us hne htx r h
  rw [hw] at h2 h4
  have eseg : ∀ u : Unspent, decide (u.segwit = some true) = u.isSegwit := by
    intro u
    unfold Unspent.isSegwit
    cases u.segwit with
    | none => rfl
    | some b => cases b <;> rfl
  simp only [eseg] at h4
  have hsub := h2.selected
  have hw' : sel.any Unspent.isSegwit = true ∨ ∀ u ∈ signedCoins args.replaceByFee sel, u.isSegwit = false := by
    cases hb : sel.any Unspent.isSegwit with
    | true => exact Or.inl rfl
    | false =>
      right
      rw [← signedCoins_any args.replaceByFee] at hb
      intro u hu
      have := List.any_eq_false.mp hb u hu
      simpa using this
  have hun : Unsigned C s (signedCoins args.replaceByFee sel) t := fun i hi _ _ _ => h3 i hi
  obtain ⟨d, hdict⟩ := signTransactionHex_dict h4
  have hap' : NoMixup C s (s.key :: others.map Prod.fst) (signedCoins args.replaceByFee sel) t := by
    intro j i v hi hv hown
    obtain ⟨j', hj'⟩ := List.mem_iff_getElem?.mp hv
    have hlt : j' < sel.length := by
      rw [← signedCoins_length args.replaceByFee]; exact (List.getElem?_eq_some_iff.mp hj').1
    obtain ⟨v', v1, v2, v3, v4, v5, v6, v7, v8⟩ :=
      signedCoins_get (rbf := args.replaceByFee) (List.getElem?_eq_getElem hlt)
    rw [hj'] at v1
    injection v1 with v1
    subst v1
    have := hap sel change fee t h2 j i _ hi (hsub.subset (List.getElem_mem hlt)) ?_
    · rw [v2, v3]; exact this
    · unfold OwnsContract PaysContract Names at hown ⊢
      rw [← v4, ← v7, ← v8]
      exact hown
  have hapart := hap'.apart hs h1
  have hkey := hks s.key List.mem_cons_self
  have hpos : 0 < s.m := hs.pos
  have hnil : multiTx C s [] (signedCoins args.replaceByFee sel) t = t := multiTx_nil C s _ t
  have hstep : signTransactionHex C (.multi { s with key := s.key })
      (bytesToHex (enc (sel.any Unspent.isSegwit) (multiTx C s [] (signedCoins args.replaceByFee sel) t)))
      (signedCoins args.replaceByFee sel) = .ok r := by
    rw [hnil]; exact h4
  obtain ⟨-, hr⟩ := (multi_sign_hex hs (by simp) hkey (by simp) (by simpa using hpos) hw' h1 (hun.fresh hs h1)
    fun h => absurd rfl h).mp hstep
  rw [hr]
  refine cosignWith_list hs h2 h1 (hun.fresh hs h1) hok hd hcan hdict hw' others [s.key]
    (fun p hp => hks _ (List.mem_cons_of_mem _ (List.mem_map_of_mem hp))) (by simpa using hkey) hlists
    (hapart.mono (by intro a ha; simp at ha ⊢; tauto)) ?_ ?_
  · have hp : (others.map Prod.fst ++ [s.key]).Perm (s.key :: others.map Prod.fst) := List.perm_append_singleton _ _
    exact (hp.map _).nodup_iff.mpr hdiff
  · rw [List.length_singleton]; push_cast; exact hm

/-- For C89_same_coins: key B signs the second input; the list may be reversed, and told of with other confirmations and sequence
numbers, and the legacy coin with another amount. -/
example : SameCoins [plain 70000, unspentB]
    [{ unspentB with confirmations := 0, sequence := 0 }, plain 12] := by
  refine ⟨?_, ?_⟩
  · intro u hu
    rcases List.mem_cons.mp hu with rfl | hu
    · exact ⟨plain 12, by simp, rfl, rfl, rfl, rfl, by decide⟩
    · rw [List.mem_singleton] at hu
      subst hu
      exact ⟨_, List.mem_cons_self, rfl, rfl, rfl, rfl, by decide⟩
  · intro u hu
    rcases List.mem_cons.mp hu with rfl | hu
    · exact ⟨unspentB, by simp, rfl, rfl, rfl, rfl, by decide⟩
    · rw [List.mem_singleton] at hu
      subst hu
      exact ⟨plain 70000, List.mem_cons_self, rfl, rfl, rfl, rfl, by decide⟩

/-- For C89_own_lists: key A created from two coins of the 2-of-3 contract; key C signs with a list of theirs, in another order
and fetched later. -/
example (r : Str) (h : (contractWallet.createTransaction crypto envB (argsB true) noNetwork (.given [unspentM, unspentL])).2 = .ok r) :
    cosignWith crypto contract [(keyC, [{ unspentL with amount := 3 }, { unspentM with confirmations := 900 }])] r =
      cosign crypto contract [unspentM, unspentL] [keyC] r := by
  refine C89_own_lists crypto contract contract_laws envB (fun _ => List.Perm.refl _) (argsB true) noNetwork contractWallet rfl
    [unspentM, unspentL] (by decide) ?_ (by unfold Distinct; decide +kernel) _ ?_ ?_ ?_ (by decide +kernel) (by decide) r h
  · intro u hu
    simp only [List.mem_cons, List.not_mem_nil, or_false] at hu
    rcases hu with rfl | rfl
    · exact ⟨⟨List.replicate 32 7, by decide, rfl⟩, by decide, by decide⟩
    · exact ⟨⟨List.replicate 32 9, by decide, rfl⟩, by decide, by decide⟩
  · intro p hp
    rw [List.mem_singleton] at hp
    subst hp
    refine ⟨?_, ?_⟩
    · intro u hu
      simp only [List.mem_cons, List.not_mem_nil, or_false] at hu
      rcases hu with rfl | rfl
      · exact ⟨{ unspentM with confirmations := 900 }, by simp, rfl, rfl, rfl, rfl, fun _ => rfl⟩
      · exact ⟨{ unspentL with amount := 3 }, by simp, rfl, rfl, rfl, rfl, by decide⟩
    · intro u hu
      simp only [List.mem_cons, List.not_mem_nil, or_false] at hu
      rcases hu with rfl | rfl
      · exact ⟨unspentL, by simp, rfl, rfl, rfl, rfl, by decide⟩
      · exact ⟨unspentM, by simp, rfl, rfl, rfl, rfl, fun _ => rfl⟩
  · intro k hk
    have hk : k ∈ [keyA, keyC] := hk
    simp only [List.mem_cons, List.not_mem_nil, or_false] at hk
    rcases hk with rfl | rfl
    · exact contract_signer (Or.inl rfl)
    · exact contract_signer (Or.inr (Or.inr rfl))
  · intro sel change fee t _
    exact contract_noMixup (by simp [contract]) _ _

end Bit
