import Verif.Props.LedgerContract
/-
Several keys pay together (C92): they sign one transaction in turn, each the inputs of their own.
-/
namespace Bit
open Concrete
open _root_.Spec.Ledger

variable {Amount : Type}

/-- Keys that sign one after the other, each getting the text that the one before returned, with a list of unspents
each. -/
def signInTurn (C : Crypto) : List (PrivKey × List Unspent) → Str → Py Str
  | [], tx => .ok tx
  | (k, us) :: ps, tx =>
    match signTransactionHex C (.single k) tx us with
    | .error e => .error e
    | .ok tx => signInTurn C ps tx

/-- No input belongs to two of the keys, going by the unspents they have. -/
def KeysApart (C : Crypto) (ps : List (PrivKey × List Unspent)) (t : Spec.Tx) : Prop :=
  ps.Pairwise fun p q => ∀ i ∈ t.inputs, ∀ u ∈ p.2, ∀ v ∈ q.2, ¬ (OwnsKey C p.1 u i ∧ OwnsKey C q.1 v i)

/-- The transaction signed by all. -/
def pooled (C : Crypto) (ps : List (PrivKey × List Unspent)) (t : Spec.Tx) : Spec.Tx :=
  ps.foldl (fun t p => signedTx C p.1 p.2 t) t

theorem pooled_cons (C : Crypto) (p : PrivKey × List Unspent) (ps : List (PrivKey × List Unspent)) (t : Spec.Tx) :
    pooled C (p :: ps) t = pooled C ps (signedTx C p.1 p.2 t) := rfl

theorem pooled_snoc (C : Crypto) (p : PrivKey × List Unspent) (ps : List (PrivKey × List Unspent)) (t : Spec.Tx) :
    pooled C (ps ++ [p]) t = signedTx C p.1 p.2 (pooled C ps t) := by
  unfold pooled
  rw [List.foldl_append]
  rfl

theorem same_trans {t t' t'' : Spec.Tx} (h : Spec.SameSkeleton t t') (h' : Spec.SameSkeleton t' t'') :
    Spec.SameSkeleton t t'' :=
  ⟨h'.version.trans h.version, h'.lockTime.trans h.lockTime, h'.outputs.trans h.outputs, h'.inputs.trans h.inputs⟩

theorem pooled_skeleton (C : Crypto) : ∀ (ps : List (PrivKey × List Unspent)) (t : Spec.Tx),
    Spec.SameSkeleton t (pooled C ps t)
  | [], _ => ⟨rfl, rfl, rfl, rfl⟩
  | p :: ps, t => same_trans (signedTx_skeleton C p.1 p.2 t) (pooled_skeleton C ps _)

theorem pooled_wf {C : Crypto} : ∀ {ps : List (PrivKey × List Unspent)}, (∀ p ∈ ps, KeyLaws C p.1) →
    ∀ {t : Spec.Tx}, t.WF → (pooled C ps t).WF
  | [], _, _, h => h
  | p :: _, hk, _, h => pooled_wf (fun q hq => hk q (List.mem_cons_of_mem _ hq))
      (signedTx_wf (hk p List.mem_cons_self) h)

theorem pooled_hex {C : Crypto} {w : Bool} {r : Str} : ∀ {ps : List (PrivKey × List Unspent)},
    (∀ p ∈ ps, KeyLaws C p.1) → (w = true ∨ ∀ p ∈ ps, ∀ u ∈ p.2, u.isSegwit = false) → ∀ {t : Spec.Tx}, t.WF →
    (signInTurn C ps (bytesToHex (enc w t)) = .ok r ↔
      (∀ p ∈ ps, Signable C p.1 p.2 t) ∧ r = bytesToHex (enc w (pooled C ps t)))
  | [], _, _, t, _ => by
    rw [signInTurn]
    constructor
    · intro h
      exact ⟨fun p hp => absurd hp List.not_mem_nil, (Except.ok.inj h).symm⟩
    · rintro ⟨-, h⟩
      rw [h]
      rfl
  | (k, us) :: ps, hk, hw, t, hwf => by
    have hk1 : KeyLaws C k := hk _ List.mem_cons_self
    have hw1 : w = true ∨ ∀ u ∈ us, u.isSegwit = false := hw.imp id fun h => h _ List.mem_cons_self
    have ih : ∀ {t : Spec.Tx}, t.WF → (signInTurn C ps (bytesToHex (enc w t)) = .ok r ↔
        (∀ p ∈ ps, Signable C p.1 p.2 t) ∧ r = bytesToHex (enc w (pooled C ps t))) :=
      pooled_hex (fun q hq => hk q (List.mem_cons_of_mem _ hq))
        (hw.imp id fun h q hq => h q (List.mem_cons_of_mem _ hq))
    have hwf1 := signedTx_wf hk1 (us := us) hwf
    have hsk := signedTx_skeleton C k us t
    rw [signInTurn]
    constructor
    · intro h
      cases h1 : signTransactionHex C (.single k) (bytesToHex (enc w t)) us with
      | error e => rw [h1] at h; cases h
      | ok a =>
        rw [h1] at h
        dsimp only at h
        obtain ⟨g1, rfl⟩ := (single_sign_hex hk1 hwf hw1).mp h1
        obtain ⟨g2, g3⟩ := (ih hwf1).mp h
        refine ⟨?_, g3⟩
        intro p hp
        rcases List.mem_cons.mp hp with rfl | hp
        · exact g1
        · exact (signable_skeleton hsk).mp (g2 p hp)
    · rintro ⟨g1, g2⟩
      have h1 : signTransactionHex C (.single k) (bytesToHex (enc w t)) us = .ok (bytesToHex (enc w (signedTx C k us t))) :=
        (single_sign_hex hk1 hwf hw1).mpr ⟨g1 _ List.mem_cons_self, rfl⟩
      rw [h1]
      exact (ih hwf1).mpr ⟨fun p hp => (signable_skeleton hsk).mpr (g1 p (List.mem_cons_of_mem _ hp)), g2⟩

/-- No input is signed by two. -/
def SignedOnce (C : Crypto) (ps : List (PrivKey × List Unspent)) (t : Spec.Tx) : Prop :=
  ps.Pairwise fun p q => ∀ i ∈ t.inputs, chosen C (.single p.1) p.2 (Spec.TxInput.outpoint i) = none ∨
    chosen C (.single q.1) q.2 (Spec.TxInput.outpoint i) = none

theorem KeysApart.once {C : Crypto} {ps : List (PrivKey × List Unspent)} {t : Spec.Tx} (hk : ∀ p ∈ ps, KeyLaws C p.1)
    (hwf : t.WF) (h : KeysApart C ps t) : SignedOnce C ps t := by
  refine h.imp_of_mem ?_
  intro p q hp hq hpq i hi
  by_contra hc
  rw [not_or] at hc
  obtain ⟨u₁, e₁⟩ := Option.ne_none_iff_exists'.mp hc.1
  obtain ⟨u₂, e₂⟩ := Option.ne_none_iff_exists'.mp hc.2
  obtain ⟨m₁, n₁⟩ := chosen_mem e₁
  obtain ⟨m₂, n₂⟩ := chosen_mem e₂
  exact hpq i hi u₁ m₁ u₂ m₂
    ⟨owns_of_mine (hk p hp) (hwf.input i hi) n₁, owns_of_mine (hk q hq) (hwf.input i hi) n₂⟩

theorem SignedOnce.skeleton {C : Crypto} {ps : List (PrivKey × List Unspent)} {t t' : Spec.Tx}
    (hsk : Spec.SameSkeleton t t') (h : SignedOnce C ps t) : SignedOnce C ps t' := by
  refine h.imp ?_
  intro p q hpq i' hi'
  obtain ⟨j, hj'⟩ := List.mem_iff_getElem?.mp hi'
  obtain ⟨i, hj⟩ := get_of_length (skeleton_length hsk) hj'
  rw [outpoint_of_skeleton hsk hj hj']
  exact hpq i (List.mem_of_getElem? hj)

theorem SignedOnce.perm {C : Crypto} {ps qs : List (PrivKey × List Unspent)} {t : Spec.Tx} (hp : ps.Perm qs)
    (h : SignedOnce C ps t) : SignedOnce C qs t :=
  (hp.pairwise_iff fun {_ _} hxy i hi => (hxy i hi).symm).mp h

theorem pooled_perm {C : Crypto} {ps qs : List (PrivKey × List Unspent)} (hp : ps.Perm qs) :
    ∀ {t : Spec.Tx}, SignedOnce C ps t → pooled C ps t = pooled C qs t := by
  induction hp with
  | nil => intro t _; rfl
  | cons x _ ih =>
    intro t h
    rw [pooled_cons, pooled_cons]
    exact ih (SignedOnce.skeleton (signedTx_skeleton C x.1 x.2 t) (List.pairwise_cons.mp h).2)
  | swap x y l =>
    intro t h
    rw [pooled_cons, pooled_cons, pooled_cons, pooled_cons, signedTx_comm]
    exact fun i hi => (List.pairwise_cons.mp h).1 x List.mem_cons_self i hi
  | trans h1 _ ih1 ih2 =>
    intro t h
    rw [ih1 h, ih2 (h.perm h1)]

/-- C92. Any number of keys sign a transaction one after the other, and no input belongs to two of them. If that works in
one order, it works in every other order and gives the same text. -/
theorem C92_any_order (C : Crypto) (ps qs : List (PrivKey × List Unspent)) (hk : ∀ p ∈ ps, KeyLaws C p.1) (w : Bool)
    (t : Spec.Tx) (hwf : t.WF) (hw : w = true ∨ ∀ p ∈ ps, ∀ u ∈ p.2, u.isSegwit = false) (hap : KeysApart C ps t)
    (hperm : ps.Perm qs) (r : Str)
    (h : signInTurn C ps (bytesToHex (if w then t.encodeExtended else t.encodeLegacy)) = .ok r) :
    signInTurn C qs (bytesToHex (if w then t.encodeExtended else t.encodeLegacy)) = .ok r := by
  obtain ⟨h1, rfl⟩ := (pooled_hex hk hw hwf).mp h
  refine (pooled_hex (fun q hq => hk q (hperm.symm.subset hq)) (hw.imp id fun hw q hq => hw q (hperm.symm.subset hq))
    hwf).mpr ⟨fun q hq => h1 q (hperm.symm.subset hq), ?_⟩
  rw [pooled_perm hperm (hap.once hk hwf)]

/-- An input of nobody stays as it is. -/
theorem pooled_none {C : Crypto} {j : Nat} {i : Spec.TxInput} : ∀ {ps : List (PrivKey × List Unspent)},
    (∀ p ∈ ps, chosen C (.single p.1) p.2 (Spec.TxInput.outpoint i) = none) → ∀ {t : Spec.Tx}, t.inputs[j]? = some i →
    (pooled C ps t).inputs[j]? = some i
  | [], _, _, h => h
  | p :: ps, hn, t, h => by
    rw [pooled_cons]
    refine pooled_none (fun q hq => hn q (List.mem_cons_of_mem _ hq)) ?_
    rw [signedTx_get, h, Option.map_some, hn p List.mem_cons_self]

/-- An input of one of the keys is the one this key signs. -/
theorem pooled_some {C : Crypto} {ps : List (PrivKey × List Unspent)} {t : Spec.Tx} (ho : SignedOnce C ps t)
    {p : PrivKey × List Unspent} (hp : p ∈ ps) {j : Nat} {i : Spec.TxInput} (hi : t.inputs[j]? = some i) {u : Unspent}
    (hc : chosen C (.single p.1) p.2 (Spec.TxInput.outpoint i) = some u) :
    ∃ t₀, Spec.SameSkeleton t₀ (pooled C ps t) ∧ (pooled C ps t).inputs[j]? = some (signedInput C p.1 t₀ j u i) := by
  obtain ⟨a, b, rfl⟩ := List.append_of_mem hp
  have hperm : (a ++ p :: b).Perm ((a ++ b) ++ [p]) :=
    List.perm_middle.trans (List.perm_append_comm (l₁ := [p]) (l₂ := a ++ b))
  have ho' := ho.perm hperm
  have hother : ∀ q ∈ a ++ b, chosen C (.single q.1) q.2 (Spec.TxInput.outpoint i) = none := by
    intro q hq
    rcases (List.pairwise_append.mp ho').2.2 q hq p (by simp) i (List.mem_of_getElem? hi) with h | h
    · exact h
    · rw [hc] at h; cases h
  refine ⟨pooled C (a ++ b) t, ?_, ?_⟩
  · rw [pooled_perm hperm ho, pooled_snoc]
    exact signedTx_skeleton C p.1 p.2 _
  · rw [pooled_perm hperm ho, pooled_snoc, signedTx_get, pooled_none hother hi, Option.map_some, hc]

/-- C92. After any number of keys signed one after the other, every input that belongs to one of them is accepted by the
script interpreter for the coin it spends, and every other input is as it was before. -/
theorem C92_accepted (C : Crypto) (ps : List (PrivKey × List Unspent)) (hk : ∀ p ∈ ps, KeyLaws C p.1) (w : Bool)
    (t : Spec.Tx) (hwf : t.WF) (hw : w = true ∨ ∀ p ∈ ps, ∀ u ∈ p.2, u.isSegwit = false) (hap : KeysApart C ps t)
    (hfit : ∀ p ∈ ps, ∀ u ∈ p.2, PaysKey C p.1 u → TypeFits C p.1 u) (r : Str)
    (h : signInTurn C ps (bytesToHex (if w then t.encodeExtended else t.encodeLegacy)) = .ok r) :
    ∃ t', t'.WF ∧ Spec.SameSkeleton t t' ∧ r = bytesToHex (if w then t'.encodeExtended else t'.encodeLegacy) ∧
      ∀ (j : Nat) (i i' : Spec.TxInput), t.inputs[j]? = some i → t'.inputs[j]? = some i' →
        ((∀ p ∈ ps, ∀ u ∈ p.2, ¬ OwnsKey C p.1 u i) → i' = i) ∧
        ∀ p ∈ ps, (∃ u ∈ p.2, OwnsKey C p.1 u i) → ∃ u ∈ p.2, OwnsKey C p.1 u i ∧ ∃ script, u.script = bytesToHex script ∧
          Spec.accepts C.hashing t' j i' script u.amount.toNat = true := by
  obtain ⟨hs, hr⟩ := (pooled_hex hk hw hwf).mp h
  have hsk := pooled_skeleton C ps t
  have ho := hap.once hk hwf
  refine ⟨pooled C ps t, pooled_wf hk hwf, hsk, hr, ?_⟩
  intro j i i' hi hi'
  have hiwf := hwf.input i (List.mem_of_getElem? hi)
  refine ⟨?_, ?_⟩
  · intro hno
    have := pooled_none (C := C) (ps := ps) (t := t) (j := j) (i := i) (by
      intro p hp
      obtain ⟨d, hd⟩ := (hs p hp).dict
      exact (chosen_none hd).mpr fun u hu hm => hno p hp u hu (owns_of_mine (hk p hp) hiwf hm)) hi
    rw [this] at hi'
    exact (Option.some.inj hi').symm
  · rintro p hp ⟨u, hu, hm⟩
    obtain ⟨d, hd⟩ := (hs p hp).dict
    cases hc : chosen C (.single p.1) p.2 (Spec.TxInput.outpoint i) with
    | none => exact absurd (mine_of_owns (hk p hp) hd hu hiwf hm) ((chosen_none hd).mp hc u hu)
    | some v =>
      obtain ⟨hv, hmv⟩ := chosen_mem hc
      have hmv := owns_of_mine (hk p hp) hiwf hmv
      obtain ⟨t₀, g1, g2⟩ := pooled_some ho hp hi hc
      rw [hi'] at g2
      obtain ⟨script, e1, e2⟩ := signedInput_spends (hk p hp) g1 (j := j) (i := i) (hfit p hp v hv hmv.1)
      rw [← Option.some.inj g2] at e2
      exact ⟨v, hv, hmv, script, e1, accepted (hk p hp).hash e2⟩

/-- The keys that pay together: one creates the transaction from unspents that belong to one of them each. -/
structure Pool (C : Crypto) (k : PrivKey) (others : List PrivKey) (us : List Unspent) : Prop where
  laws : ∀ a ∈ k :: others, KeyLaws C a
  scripts : ((k :: others).flatMap (keyScripts C)).Nodup
  owned : ∀ u ∈ us, ∃ a ∈ k :: others, PaysKey C a u
  fits : ∀ a ∈ k :: others, ∀ u ∈ us, PaysKey C a u → TypeFits C a u

theorem ordinary_of_can {C : Crypto} {k : PrivKey} (hk : KeyLaws C k) {u : Unspent} {b : Bool}
    (h : (Signer.single k).canSignUnspent C u = .ok b) : OrdinaryAddresses C (.single k) := by
  by_contra ho
  rw [(C74_can_sign C k hk).2 ho u] at h
  cases h

theorem pays_script {C : Crypto} {k : PrivKey} {u : Unspent} (h : PaysKey C k u) :
    ∃ s ∈ keyScripts C k, u.script = bytesToHex s := by
  unfold keyScripts
  rcases h with h | ⟨hc, h⟩
  · exact ⟨_, List.mem_cons_self, h⟩
  · refine ⟨_, List.mem_cons_of_mem _ ?_, h⟩
    rw [if_pos hc]
    exact List.mem_singleton.mpr rfl

theorem Pool.once {C : Crypto} {k : PrivKey} {others : List PrivKey} {us : List Unspent} (h : Pool C k others us) :
    (k :: others).Pairwise fun a b => ∀ u, ¬ (PaysKey C a u ∧ PaysKey C b u) := by
  refine (List.nodup_flatMap.mp h.scripts).2.imp ?_
  rintro a b hab u ⟨h1, h2⟩
  obtain ⟨s, hs, e⟩ := pays_script h1
  obtain ⟨s', hs', e'⟩ := pays_script h2
  rw [← bytesToHex_injective (e.symm.trans e')] at hs'
  exact hab hs hs'

/-- With ordinary addresses, the coins of the inputs can be looked up. -/
theorem signedCoins_dict {C : Crypto} {env : Env Amount} {args : TxArgs Amount} {S : Signer} {us sel : List Unspent}
    {change : Str} {fee : Int} {t : Spec.Tx} (hb : Built C env args S us sel change fee t) (hwf : t.WF) {k : PrivKey}
    (hk : KeyLaws C k) (ho : OrdinaryAddresses C (.single k)) :
    ∃ d, inputDict C (.single k) (signedCoins args.replaceByFee sel) [] = .ok d := by
  refine inputDict_ok [] ?_
  intro v hv
  refine ⟨⟨_, ((C74_can_sign C k hk).1 ho v).choose_spec.1⟩, ?_⟩
  obtain ⟨j, hj⟩ := List.mem_iff_getElem?.mp hv
  obtain ⟨u, hu⟩ := get_of_length (signedCoins_length args.replaceByFee sel) hj
  obtain ⟨i, hi⟩ := get_of_length hb.inputs.length_eq hu
  obtain ⟨v', v1, -, -, -, -, v6, -⟩ := signedCoins_get (rbf := args.replaceByFee) hu
  rw [hj] at v1
  rw [Option.some.inj v1, v6]
  obtain ⟨g1, g2, -⟩ := (forall₂_iff_get.mp hb.inputs).2 j u i hu hi
  exact ⟨_, outpointOf_takes g1 g2 (hwf.input i (List.mem_of_getElem? hi))⟩

theorem seg_cases (rbf : Bool) (sel : List Unspent) :
    sel.any Unspent.isSegwit = true ∨ ∀ u ∈ signedCoins rbf sel, u.isSegwit = false := by
  cases hb : sel.any Unspent.isSegwit with
  | true => exact Or.inl rfl
  | false =>
    right
    rw [← signedCoins_any rbf] at hb
    intro u hu
    have := List.any_eq_false.mp hb u hu
    simpa using this

/-- Keys that sign with the whole list sign as with the coins spent. -/
theorem turn_whole {C : Crypto} {env : Env Amount} {args : TxArgs Amount} {S : Signer} {us sel : List Unspent}
    {change : Str} {fee : Int} {t : Spec.Tx} (hb : Built C env args S us sel change fee t) (hne : us ≠ [])
    (htx : ∀ u ∈ us, TxidOk u) (hd : Distinct us) {r : Str} : ∀ {others : List PrivKey}, (∀ k ∈ others, KeyLaws C k) →
    ∀ {t' : Spec.Tx}, t'.WF → Spec.SameSkeleton t t' →
    signInTurn C (others.map fun k => (k, us)) (bytesToHex (enc (sel.any Unspent.isSegwit) t')) = .ok r →
    signInTurn C (others.map fun k => (k, signedCoins args.replaceByFee sel))
      (bytesToHex (enc (sel.any Unspent.isSegwit) t')) = .ok r
  | [], _, _, _, _, h => h
  | k :: ks, hks, t', hwf, hsk, h => by
    have hk := hks k List.mem_cons_self
    rw [List.map_cons, signInTurn] at h ⊢
    cases h1 : signTransactionHex C (.single k) (bytesToHex (enc (sel.any Unspent.isSegwit) t')) us with
    | error e => rw [h1] at h; cases h
    | ok a =>
      rw [h1] at h
      dsimp only at h
      obtain ⟨d0, hd0⟩ := signTransactionHex_dict h1
      obtain ⟨u, hu⟩ := List.exists_mem_of_ne_nil us hne
      obtain ⟨b, hcan⟩ := inputDict_can hd0 u hu
      have hb' := hb.skeleton hsk
      obtain ⟨d, hdict⟩ := signedCoins_dict hb' hwf hk (ordinary_of_can hk hcan)
      have h2 := sign_whole_list hb hwf hsk htx hd hdict h1
      rw [h2]
      dsimp only
      obtain ⟨-, rfl⟩ := (single_sign_hex hk hwf (seg_cases args.replaceByFee sel)).mp h2
      exact turn_whole hb hne htx hd (fun a ha => hks a (List.mem_cons_of_mem _ ha)) (signedTx_wf hk hwf)
        (same_trans hsk (signedTx_skeleton C k _ t')) h

/-- Which coin a key signs for an input. -/
theorem built_chosen {C : Crypto} {env : Env Amount} {args : TxArgs Amount} {S : Signer} {us sel : List Unspent}
    {change : Str} {fee : Int} {t : Spec.Tx} (hb : Built C env args S us sel change fee t) (hwf : t.WF)
    (htx : ∀ u ∈ us, TxidOk u) (hd : Distinct us) {j : Nat} {u : Unspent} {i : Spec.TxInput} (hu : sel[j]? = some u)
    (hi : t.inputs[j]? = some i) : ∃ v, v.amount = u.amount ∧ v.isSegwit = u.isSegwit ∧ v.script = u.script ∧
      ∀ (k : PrivKey), KeyLaws C k → ∀ d, inputDict C (.single k) (signedCoins args.replaceByFee sel) [] = .ok d →
        (PaysKey C k u → chosen C (.single k) (signedCoins args.replaceByFee sel) (Spec.TxInput.outpoint i) = some v) ∧
        (¬ PaysKey C k u → chosen C (.single k) (signedCoins args.replaceByFee sel) (Spec.TxInput.outpoint i) = none) := by
  obtain ⟨v, v1, v2, v3, v4, v5, v6, v7, v8⟩ := signedCoins_get (rbf := args.replaceByFee) hu
  refine ⟨v, v2, v3, v4, ?_⟩
  intro k hk d hdict
  obtain ⟨g1, g2, -⟩ := (forall₂_iff_get.mp hb.inputs).2 j u i hu hi
  have hop : outpointOf v = .ok (Spec.TxInput.outpoint i) := by
    rw [v6]
    exact outpointOf_takes g1 g2 (hwf.input i (List.mem_of_getElem? hi))
  have hch := chosen_distinct (distinct_signedCoins (rbf := args.replaceByFee) hb.selected hd)
    (txidOk_signedCoins hb.selected htx) hdict (List.mem_of_getElem? v1) hop
  rw [v5] at hch
  obtain ⟨b, hcan⟩ := inputDict_can hdict v (List.mem_of_getElem? v1)
  have hiff := can_iff_pays hk hcan u
  rw [hch]
  exact ⟨fun h => if_pos (hiff.mpr h), fun h => if_neg fun h' => h (hiff.mp h')⟩

/-- The text of a transaction all of whose inputs are signed is its wire format. -/
theorem signed_text {C : Crypto} {sel : List Unspent} {t : Spec.Tx} (hlen : sel.length = t.inputs.length)
    (h : ∀ (j : Nat) (u : Unspent) (i : Spec.TxInput), sel[j]? = some u → t.inputs[j]? = some i →
      ∃ k t₀ j₀ v i₀, i = signedInput C k t₀ j₀ v i₀ ∧ v.isSegwit = u.isSegwit) :
    enc (sel.any Unspent.isSegwit) t = t.encode := by
  have hwit : ∀ (j : Nat) (u : Unspent) (i : Spec.TxInput), sel[j]? = some u → t.inputs[j]? = some i →
      (i.witness = [] ↔ u.isSegwit = false) := by
    intro j u i hu hi
    obtain ⟨k, t₀, j₀, v, i₀, rfl, e⟩ := h j u i hu hi
    unfold signedInput
    dsimp only
    rw [e]
    cases u.isSegwit <;> simp
  have : t.inputs.all (fun i => i.witness.isEmpty) = !(sel.any Unspent.isSegwit) := by
    rw [Bool.eq_iff_iff, Bool.not_eq_true', List.all_eq_true, List.any_eq_false]
    constructor
    · intro ha u hu
      obtain ⟨j, hj⟩ := List.mem_iff_getElem?.mp hu
      obtain ⟨i, hi⟩ := get_of_length hlen hj
      have := (hwit j u i hj hi).mp (by simpa using ha i (List.mem_of_getElem? hi))
      simp [this]
    · intro ha i hi
      obtain ⟨j, hj⟩ := List.mem_iff_getElem?.mp hi
      obtain ⟨u, hu⟩ := get_of_length hlen.symm hj
      have := (hwit j u i hu hj).mpr (by simpa using ha u (List.mem_of_getElem? hu))
      simp [this]
  unfold Spec.Tx.encode enc
  rw [this]
  cases sel.any Unspent.isSegwit <;> rfl

/-- C92. One of several keys creates a transaction from given unspents, each of which belongs to one of the keys, and
the others sign what came back one after the other, with the same unspents. The text that comes back in the end is the
wire format of a transaction built as asked for, and the script interpreter accepts every one of its inputs. -/
theorem C92_pool (C : Crypto) (k : PrivKey) (others : List PrivKey) (us : List Unspent) (hp : Pool C k others us)
    (env : Env Amount) (hshuffle : ∀ l, (env.shuffle l).Perm l) (args : TxArgs Amount) (ask : Ask) (w : Wallet)
    (hw : w.signer = .single k) (hne : us ≠ []) (htx : ∀ u ∈ us, TxidOk u) (hd : Distinct us) (r r' : Str)
    (h : (w.createTransaction C env args ask (.given us)).2 = .ok r)
    (h' : signInTurn C (others.map fun k => (k, us)) r = .ok r') :
    ∃ (sel : List Unspent) (change : Str) (fee : Int) (t : Spec.Tx), t.WF ∧
      Built C env args (.single k) us sel change fee t ∧ r' = bytesToHex t.encode ∧
      ∀ (j : Nat) (u : Unspent) (i : Spec.TxInput), sel[j]? = some u → t.inputs[j]? = some i →
        ∃ script, u.script = bytesToHex script ∧ Spec.accepts C.hashing t j i script u.amount.toNat = true := by
  obtain ⟨sel, change, fee, t, h1, h2, h3, -, h4⟩ := C63_unsigned C env hshuffle args ask w us hne htx r h
  rw [hw] at h2 h4
  have eseg : ∀ u : Unspent, decide (u.segwit = some true) = u.isSegwit := by
    intro u
    unfold Unspent.isSegwit
    cases u.segwit with
    | none => rfl
    | some b => cases b <;> rfl
  simp only [eseg] at h4
  have hseg := seg_cases args.replaceByFee sel
  have hk := hp.laws k List.mem_cons_self
  obtain ⟨-, hr⟩ := (single_sign_hex hk h1 hseg).mp h4
  have hturn : signInTurn C ((k :: others).map fun k => (k, signedCoins args.replaceByFee sel))
      (bytesToHex (enc (sel.any Unspent.isSegwit) t)) = .ok r' := by
    rw [List.map_cons, signInTurn]
    have h4' : signTransactionHex C (.single k) (bytesToHex (enc (sel.any Unspent.isSegwit) t))
      (signedCoins args.replaceByFee sel) = .ok r := h4
    rw [h4']
    dsimp only
    rw [hr] at h' ⊢
    exact turn_whole h2 hne htx hd (fun a ha => hp.laws a (List.mem_cons_of_mem _ ha)) (signedTx_wf hk h1)
      (signedTx_skeleton C k _ t) h'
  have hlaws : ∀ p ∈ (k :: others).map fun k => (k, signedCoins args.replaceByFee sel), KeyLaws C p.1 := by
    intro p hp'
    obtain ⟨a, ha, rfl⟩ := List.mem_map.mp hp'
    exact hp.laws a ha
  obtain ⟨hs, hr'⟩ := (pooled_hex (ps := (k :: others).map fun k => (k, signedCoins args.replaceByFee sel)) hlaws
    (hseg.imp id fun hseg p hp' => by
      obtain ⟨a, ha, rfl⟩ := List.mem_map.mp hp'
      exact hseg) h1).mp hturn
  have hdict : ∀ a ∈ k :: others, ∃ d, inputDict C (.single a) (signedCoins args.replaceByFee sel) [] = .ok d :=
    fun a ha => (hs _ (List.mem_map.mpr ⟨a, ha, rfl⟩)).dict
  have hlen := h2.inputs.length_eq
  have honce : SignedOnce C ((k :: others).map fun k => (k, signedCoins args.replaceByFee sel)) t := by
    unfold SignedOnce
    rw [List.pairwise_map]
    refine hp.once.imp_of_mem ?_
    intro a b ha hb hab i hi
    obtain ⟨j, hj⟩ := List.mem_iff_getElem?.mp hi
    obtain ⟨u, hu⟩ := get_of_length hlen.symm hj
    obtain ⟨v, -, -, -, hv⟩ := built_chosen h2 h1 htx hd hu hj
    obtain ⟨da, hda⟩ := hdict a ha
    obtain ⟨db, hdb⟩ := hdict b hb
    by_cases hpa : PaysKey C a u
    · exact Or.inr ((hv b (hp.laws b hb) db hdb).2
        fun hpb => hab u ⟨hpa, hpb⟩)
    · exact Or.inl ((hv a (hp.laws a ha) da hda).2 hpa)
  have hsk := pooled_skeleton C ((k :: others).map fun k => (k, signedCoins args.replaceByFee sel)) t
  have hin : ∀ (j : Nat) (u : Unspent) (i' : Spec.TxInput), sel[j]? = some u →
      (pooled C ((k :: others).map fun k => (k, signedCoins args.replaceByFee sel)) t).inputs[j]? = some i' →
      ∃ a ∈ k :: others, ∃ t₀ v i, v.amount = u.amount ∧ v.isSegwit = u.isSegwit ∧ v.script = u.script ∧ TypeFits C a v ∧
        Spec.SameSkeleton t₀ (pooled C ((k :: others).map fun k => (k, signedCoins args.replaceByFee sel)) t) ∧
        i' = signedInput C a t₀ j v i := by
    intro j u i' hu hi'
    obtain ⟨i, hi⟩ := get_of_length hlen hu
    obtain ⟨v, v1, v2, v3, hv⟩ := built_chosen h2 h1 htx hd hu hi
    have hus := h2.selected.subset (List.mem_of_getElem? hu)
    obtain ⟨a, ha, hpa⟩ := hp.owned u hus
    obtain ⟨da, hda⟩ := hdict a ha
    obtain ⟨t₀, e1, e2⟩ := pooled_some honce (p := (a, signedCoins args.replaceByFee sel)) (List.mem_map.mpr ⟨a, ha, rfl⟩) hi
      ((hv a (hp.laws a ha) da hda).1 hpa)
    rw [hi'] at e2
    refine ⟨a, ha, t₀, v, i, v1, v2, v3, ?_, e1, Option.some.inj e2⟩
    have hf := hp.fits a ha u hus hpa
    unfold TypeFits at hf ⊢
    rw [v2, v3]
    exact hf
  refine ⟨sel, change, fee, _, pooled_wf hlaws h1, h2.skeleton hsk, ?_, ?_⟩
  · rw [hr']
    congr 1
    exact signed_text (h2.skeleton hsk).inputs.length_eq fun j u i' hu hi' => by
      obtain ⟨a, -, t₀, v, i, -, v2, -, -, -, e⟩ := hin j u i' hu hi'
      exact ⟨a, t₀, j, v, i, e, v2⟩
  · intro j u i' hu hi'
    obtain ⟨a, ha, t₀, v, i, v1, v2, v3, v4, v5, rfl⟩ := hin j u i' hu hi'
    obtain ⟨script, e1, e2⟩ := signedInput_spends (hp.laws a ha) v5 (j := j) (i := i) v4
    rw [← v1, ← v3]
    exact ⟨script, e1, accepted (hp.laws a ha).hash e2⟩

/-- Keys with ordinary addresses sign without failing. -/
theorem turn_succeeds {C : Crypto} {env : Env Amount} {args : TxArgs Amount} {S : Signer} {us sel : List Unspent}
    {change : Str} {fee : Int} {t : Spec.Tx} (hb : Built C env args S us sel change fee t)
    (hok : ∀ u ∈ us, TxidOk u ∧ 0 ≤ u.txindex ∧ u.txindex < 2 ^ 32) (hd : Distinct us)
    (ham : ∀ u ∈ sel, 0 ≤ u.amount ∧ u.amount < 2 ^ 64) : ∀ {others : List PrivKey},
    (∀ k ∈ others, KeyLaws C k ∧ OrdinaryAddresses C (.single k)) → ∀ {t' : Spec.Tx}, t'.WF → Spec.SameSkeleton t t' →
    ∃ r, signInTurn C (others.map fun k => (k, us)) (bytesToHex (enc (sel.any Unspent.isSegwit) t')) = .ok r
  | [], _, _, _, _ => ⟨_, rfl⟩
  | k :: ks, hks, t', hwf, hsk => by
    obtain ⟨hk, ho⟩ := hks k List.mem_cons_self
    have htx : ∀ u ∈ us, TxidOk u := fun u hu => (hok u hu).1
    obtain ⟨d, hdict⟩ := signedCoins_dict (hb.skeleton hsk) hwf hk ho
    obtain ⟨d', hdict'⟩ : ∃ d, inputDict C (.single k) us [] = .ok d := by
      refine inputDict_ok [] fun u hu => ⟨⟨_, ((C74_can_sign C k hk).1 ho u).choose_spec.1⟩, ?_⟩
      obtain ⟨⟨b, -, e⟩, hidx⟩ := hok u hu
      exact Locates.outpoint ⟨⟨b, by rw [e, hexToBytes_bytesToHex]⟩, hidx⟩
    have hsig : Signable C k (signedCoins args.replaceByFee sel) t' := by
      refine ⟨⟨d, hdict⟩, ?_⟩
      intro i _ v hv _
      obtain ⟨hm, -⟩ := chosen_mem hv
      obtain ⟨u, hu, e⟩ := signedCoins_mem hm
      rcases e with rfl | rfl
      · exact ham _ hu
      · rw [(optIn_fields u).1]; exact ham u hu
    have h2 := (single_sign_hex hk hwf (seg_cases args.replaceByFee sel)).mpr ⟨hsig, rfl⟩
    rw [List.map_cons, signInTurn]
    have h1 : signTransactionHex C (.single k) (bytesToHex (enc (sel.any Unspent.isSegwit) t')) us = .ok
        (bytesToHex (enc (sel.any Unspent.isSegwit) (signedTx C k (signedCoins args.replaceByFee sel) t'))) := by
      rw [sign_whole_same hb hwf hsk htx hd hdict hdict']
      exact h2
    rw [h1]
    dsimp only
    exact turn_succeeds hb hok hd ham (fun a ha => hks a (List.mem_cons_of_mem _ ha)) (signedTx_wf hk hwf)
      (same_trans hsk (signedTx_skeleton C k _ t'))

/-- C92. The others can sign what came back: none of them fails, in whatever order, if their addresses are ordinary. -/
theorem C92_signed (C : Crypto) (k : PrivKey) (hk : KeyLaws C k) (others : List PrivKey) (us : List Unspent)
    (hlaws : ∀ a ∈ others, KeyLaws C a ∧ OrdinaryAddresses C (.single a))
    (env : Env Amount) (hshuffle : ∀ l, (env.shuffle l).Perm l) (args : TxArgs Amount) (ask : Ask) (w : Wallet)
    (hw : w.signer = .single k) (hne : us ≠ []) (hok : ∀ u ∈ us, TxidOk u ∧ 0 ≤ u.txindex ∧ u.txindex < 2 ^ 32)
    (hd : Distinct us) (r : Str) (h : (w.createTransaction C env args ask (.given us)).2 = .ok r) :
    ∃ r', signInTurn C (others.map fun k => (k, us)) r = .ok r' := by
  obtain ⟨sel, change, fee, t, h1, h2, -, ham, h4⟩ := C63_unsigned C env hshuffle args ask w us hne (fun u hu => (hok u hu).1) r h
  rw [hw] at h2 h4
  have eseg : ∀ u : Unspent, decide (u.segwit = some true) = u.isSegwit := by
    intro u
    unfold Unspent.isSegwit
    cases u.segwit with
    | none => rfl
    | some b => cases b <;> rfl
  simp only [eseg] at h4
  obtain ⟨-, hr⟩ := (single_sign_hex hk h1 (seg_cases args.replaceByFee sel)).mp h4
  rw [hr]
  exact turn_succeeds h2 hok hd ham hlaws (signedTx_wf hk h1) (signedTx_skeleton C k _ t)

/-- What the keys make together, on the chain. -/
theorem pool_finished {C : Crypto} {k : PrivKey} {others : List PrivKey} {us : List Unspent} (hp : Pool C k others us)
    {L : Spec.Ledger} (hL : L.WF) (htell : ∀ u ∈ us, ∃ c ∈ L, Tells c u)
    {env : Env Amount} (hshuffle : ∀ l, (env.shuffle l).Perm l) {args : TxArgs Amount} {ask : Ask} {w : Wallet}
    (hw : w.signer = .single k) (hne : us ≠ []) (hd : Distinct us) {r r' : Str}
    (h : (w.createTransaction C env args ask (.given us)).2 = .ok r)
    (h' : signInTurn C (others.map fun k => (k, us)) r = .ok r') :
    ∃ sel change fee t ds, Finished C env args (.single k) ((k :: others).flatMap (keyScripts C)) L r' us sel change fee t ds := by
  have htx : ∀ u ∈ us, TxidOk u := by
    intro u hu
    obtain ⟨c, hc, ht⟩ := htell u hu
    exact ⟨c.txid.reverse, by rw [List.length_reverse]; exact hL.txid c hc, ht.txid⟩
  obtain ⟨sel, change, fee, t, h1, h2, h3, h4⟩ := C92_pool C k others us hp env hshuffle args ask w hw hne htx hd r r' h h'
  obtain ⟨cs, hcs, hf⟩ : ∃ cs, (∀ c ∈ cs, c ∈ L) ∧ List.Forall₂ Tells cs us := by
    clear hp hne hd h h' htx h1 h2 h3 h4
    induction us with
    | nil => exact ⟨[], fun c hc => absurd hc List.not_mem_nil, .nil⟩
    | cons u us ih =>
      obtain ⟨cs, g1, g2⟩ := ih fun v hv => htell v (List.mem_cons_of_mem _ hv)
      obtain ⟨c, hc, ht⟩ := htell u List.mem_cons_self
      exact ⟨c :: cs, List.forall_mem_cons.mpr ⟨hc, g1⟩, .cons ht g2⟩
  have hn : (cs.map Spec.Utxo.outpoint).Nodup := by
    unfold Distinct at hd
    rw [tells_key hf] at hd
    have : (cs.map fun c => (bytesToHex c.txid.reverse, (c.index : Int))) =
        (cs.map Spec.Utxo.outpoint).map fun p => (bytesToHex p.1.reverse, (p.2 : Int)) := by
      rw [List.map_map]; rfl
    rw [this] at hd
    exact hd.of_map _
  obtain ⟨ds, d1, d2⟩ := tells_subperm hf h2.selected
  have hnd : (ds.map Spec.Utxo.outpoint).Nodup := by
    obtain ⟨l, e1, e2⟩ := d1
    exact (e1.map _).nodup_iff.mp ((e2.map _).nodup hn)
  have hout := tells_prevouts d2 (h2.inputs.imp fun _ _ h => ⟨h.1, h.2.1⟩)
  have hsub : ∀ c ∈ ds, c ∈ L ∧ c.script ∈ (k :: others).flatMap (keyScripts C) := by
    intro c hc
    refine ⟨hcs c (d1.subset hc), ?_⟩
    obtain ⟨u, hu, ht⟩ := forall₂_left d2 hc
    obtain ⟨a, ha, hpay⟩ := hp.owned u (h2.selected.subset hu)
    obtain ⟨s, hs, e⟩ := pays_script hpay
    rw [← bytesToHex_injective (e.symm.trans ht.script)]
    exact List.mem_flatMap.mpr ⟨a, ha, hs⟩
  refine ⟨sel, change, fee, t, ds, h1, h2, h3, d2, hsub,
    spent_perm hL (fun c hc => (hsub c hc).1) hout hnd, hout ▸ hnd, hout, ?_⟩
  intro j i c hi hc
  obtain ⟨u, hu⟩ := get_of_length d2.length_eq hc
  have ht : Tells c u := (forall₂_iff_get.mp d2).2 j _ _ hc hu
  obtain ⟨script, e1, e2⟩ := h4 j u i hu hi
  have e3 : script = c.script := bytesToHex_injective (e1.symm.trans ht.script)
  have e4 : u.amount.toNat = c.value := by rw [ht.amount]; rfl
  rwa [e3, e4] at e2

/-- C92. If the unspents are as on the chain, a node takes what comes back in the end: it spends unspent outputs of the keys,
each once, satisfies their scripts, and does not pay more than it spends. -/
theorem C92_valid (C : Crypto) (k : PrivKey) (others : List PrivKey) (us : List Unspent) (hp : Pool C k others us)
    (L : Spec.Ledger) (hL : L.WF) (htell : ∀ u ∈ us, ∃ c ∈ L, Tells c u)
    (env : Env Amount) (hshuffle : ∀ l, (env.shuffle l).Perm l) (args : TxArgs Amount) (hfee : 0 ≤ askedFee env args) (ask : Ask)
    (w : Wallet) (hw : w.signer = .single k) (hne : us ≠ []) (hd : Distinct us) (r r' : Str)
    (h : (w.createTransaction C env args ask (.given us)).2 = .ok r)
    (h' : signInTurn C (others.map fun k => (k, us)) r = .ok r') :
    ∃ t : Spec.Tx, t.WF ∧ r' = bytesToHex t.encode ∧
      (∀ c ∈ L.spentBy t, c.script ∈ (k :: others).flatMap (keyScripts C)) ∧
      (args.outputs ≠ [] → t.outputs ≠ []) ∧ (t.outputs ≠ [] → Valid C.hashing L t) := by
  obtain ⟨sel, change, fee, t, ds, hf⟩ := pool_finished hp hL htell hshuffle hw hne hd h h'
  exact ⟨t, hf.wf, hf.text, fun c hc => (hf.mem c (hf.perm.symm.subset hc)).2, finished_valid hf hfee⟩

/-- C92. What the transaction does to the chain when it is confirmed, `pays` being the payments in satoshi: all together
the chain loses the fee. Every script of others gets what the payments say, and nothing is taken from it. The keys
together lose the fee and the payments, except for payments to themselves. Change (`c`) goes to the key that created
the transaction, or to the address given for it. -/
theorem C92_moves (C : Crypto) (k : PrivKey) (others : List PrivKey) (us : List Unspent) (hp : Pool C k others us)
    (L : Spec.Ledger) (hL : L.WF) (htell : ∀ u ∈ us, ∃ c ∈ L, Tells c u)
    (env : Env Amount) (hshuffle : ∀ l, (env.shuffle l).Perm l) (args : TxArgs Amount) (ask : Ask)
    (w : Wallet) (hw : w.signer = .single k) (hne : us ≠ []) (hd : Distinct us) (r r' : Str)
    (h : (w.createTransaction C env args ask (.given us)).2 = .ok r)
    (h' : signInTurn C (others.map fun k => (k, us)) r = .ok r') :
    ∃ (t : Spec.Tx) (pays : List (Str × Int)) (fee c : Int) (changeScript : Bytes), t.WF ∧ r' = bytesToHex t.encode ∧
      List.Forall₂ (fun o p => p.1 = o.1 ∧ env.conv o.2 = .ok p.2) args.outputs pays ∧
      (∃ sel change, Built C env args (.single k) us sel change fee t) ∧ 0 ≤ c ∧
      (match args.leftover with
        | some (a :: l) => addressToScriptpubkey C (a :: l) = .ok (some changeScript)
        | _ => changeScript ∈ keyScripts C k) ∧
      let L' := L.apply C.doubleSha256 t
      let ours := (k :: others).flatMap (keyScripts C)
      (worth L' : Int) = worth L - fee ∧
      (∀ script, script ∉ ours →
        (L'.balance script : Int) = L.balance script + paidTo C script pays + if script = changeScript then c else 0) ∧
      (heldBy ours L' : Int) = heldBy ours L - fee - (pays.map Prod.snd).sum - c +
        (ours.map fun script => paidTo C script pays + if script = changeScript then c else 0).sum := by
  obtain ⟨sel, change, fee, t, ds, hf⟩ := pool_finished hp hL htell hshuffle hw hne hd h h'
  have hk := hp.laws k List.mem_cons_self
  obtain ⟨pays, c, changeScript, h1, h2, -, h3, h4⟩ := finished_moves hp.scripts hf
    fun a script ha hs' => change_own hk ha hs'
  exact ⟨t, pays, fee, c, changeScript, hf.wf, hf.text, h1, ⟨sel, change, hf.built⟩, h2, h3, h4⟩

/-! ### Examples -/

theorem sample_keysApart : KeysApart crypto [(keyA, [unspentA]), (keyB, [unspentB])] sampleTx := by
  refine List.pairwise_cons.mpr ⟨?_, List.pairwise_singleton _ _⟩
  intro q hq i _ u hu v hv ⟨h1, h2⟩
  rw [List.mem_singleton] at hq
  subst hq
  rw [List.mem_singleton] at hu hv
  subst hu; subst hv
  have e : unspentA.txindex = unspentB.txindex := h1.2.2.trans h2.2.2.symm
  exact absurd e (by decide)

/-- For C92_any_order and C92_accepted: two keys sign their inputs of the sample transaction. -/
example : (∀ p ∈ [(keyA, [unspentA]), (keyB, [unspentB])], KeyLaws crypto p.1) ∧ sampleTx.WF ∧
    KeysApart crypto [(keyA, [unspentA]), (keyB, [unspentB])] sampleTx ∧
    (∀ p ∈ [(keyA, [unspentA]), (keyB, [unspentB])], ∀ u ∈ p.2, PaysKey crypto p.1 u → TypeFits crypto p.1 u) ∧
    (signInTurn crypto [(keyA, [unspentA]), (keyB, [unspentB])] (bytesToHex sampleTx.encodeExtended)).isOk = true := by
  refine ⟨?_, sampleTx_wf, sample_keysApart, ?_, by decide +kernel⟩
  · intro p hp
    rcases List.mem_cons.mp hp with rfl | hp
    · exact toy_laws keyA (by decide)
    · rw [List.mem_singleton] at hp
      subst hp
      exact toy_laws keyB (by decide)
  · intro p hp u hu _
    rcases List.mem_cons.mp hp with rfl | hp
    · rw [List.mem_singleton] at hu
      subst hu
      exact Or.inl ⟨by decide, rfl⟩
    · rw [List.mem_singleton] at hp
      subst hp
      rw [List.mem_singleton] at hu
      subst hu
      exact Or.inr ⟨by decide, by decide, rfl⟩

/-- Keys A and B pay together with a coin of each. -/
theorem poolAB : Pool crypto keyA [keyB] [unspentA, unspentB] where
  laws a ha := by
    rcases List.mem_cons.mp ha with rfl | ha
    · exact toy_laws keyA (by decide)
    · rw [List.mem_singleton] at ha
      subst ha
      exact toy_laws keyB (by decide)
  scripts := by decide +kernel
  owned u hu := by
    rcases List.mem_cons.mp hu with rfl | hu
    · exact ⟨keyA, List.mem_cons_self, Or.inl rfl⟩
    · rw [List.mem_singleton] at hu
      subst hu
      exact ⟨keyB, List.mem_cons_of_mem _ List.mem_cons_self, Or.inr ⟨rfl, rfl⟩⟩
  fits a ha u hu hp := by
    rcases List.mem_cons.mp ha with rfl | ha
    · rcases List.mem_cons.mp hu with rfl | hu
      · exact Or.inl ⟨by decide, rfl⟩
      · rw [List.mem_singleton] at hu
        subst hu
        exact absurd ((can_iff_pays (toy_laws keyA (by decide)) unspentA_can unspentB).mpr hp) (by decide +kernel)
    · rw [List.mem_singleton] at ha
      subst ha
      rcases List.mem_cons.mp hu with rfl | hu
      · exact absurd ((can_iff_pays (toy_laws keyB (by decide)) unspentB_can unspentA).mpr hp) (by decide +kernel)
      · rw [List.mem_singleton] at hu
        subst hu
        exact Or.inr ⟨by decide, by decide, rfl⟩

def pooledCreated : Py Str :=
  ((newWallet (.single keyA)).createTransaction crypto envB (argsB true) askL (.given [unspentA, unspentB])).2

def pooledAB : Py Str := pooledCreated.bind (signInTurn crypto [(keyB, [unspentA, unspentB])])

theorem pooledAB_ok : pooledAB.isOk = true := by decide +kernel

/-- The coins on the chain. -/
def ledgerAB : Spec.Ledger := [⟨List.replicate 32 9, 70000, 80000, scriptNested keyB⟩, coinOther,
  ⟨List.replicate 32 7, 1, 70000, scriptP2PKH keyA⟩]

theorem ledgerAB_wf : ledgerAB.WF := ⟨by decide +kernel, by decide +kernel⟩

/-- For C92_pool, C92_signed, C92_valid and C92_moves: key A creates the transaction, key B signs it too, and a node takes
it. -/
example : ∃ r r' t, pooledCreated = .ok r ∧ signInTurn crypto ([keyB].map fun k => (k, [unspentA, unspentB])) r = .ok r' ∧
    r' = bytesToHex t.encode ∧ Valid crypto.hashing ledgerAB t := by
  have h := pooledAB_ok
  unfold pooledAB at h
  cases h1 : pooledCreated with
  | error e => rw [h1] at h; cases h
  | ok r =>
    rw [h1] at h
    cases h2 : signInTurn crypto [(keyB, [unspentA, unspentB])] r with
    | error e =>
      have : (Except.ok r : Py Str).bind (signInTurn crypto [(keyB, [unspentA, unspentB])]) = .error e := h2
      rw [this] at h
      cases h
    | ok r' =>
      obtain ⟨t, -, g2, -, g4, g5⟩ := C92_valid crypto keyA [keyB] [unspentA, unspentB] poolAB ledgerAB ledgerAB_wf (by
        intro u hu
        rcases List.mem_cons.mp hu with rfl | hu
        · exact ⟨_, List.mem_cons_of_mem _ (List.mem_cons_of_mem _ List.mem_cons_self), rfl, rfl, rfl, rfl⟩
        · rw [List.mem_singleton] at hu
          subst hu
          exact ⟨_, List.mem_cons_self, rfl, rfl, rfl, rfl⟩)
        envB (fun _ => List.Perm.refl _) (argsB true) (by decide) askL (newWallet (.single keyA)) rfl (by simp)
        (by unfold Distinct; decide +kernel)
        r r' h1 h2
      exact ⟨r, r', t, rfl, h2, g2, g5 (g4 (by decide))⟩

end Bit
