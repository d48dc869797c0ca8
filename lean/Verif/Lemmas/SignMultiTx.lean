import Verif.Lemmas.SignMulti
/-
Transactions with inputs of a multi-signature contract, signed by some of the co-signers.
-/
namespace Bit

/-- The transaction after the co-signers `done` signed the inputs described by `us`. -/
def multiTx (C : Crypto) (s : MultiSig) (done : List PrivKey) (us : List Unspent) (t : Spec.Tx) : Spec.Tx :=
  { t with inputs := t.inputs.mapIdx fun j i =>
      match chosen C (.multi s) us (Spec.TxInput.outpoint i) with
      | none => i
      | some u => multiInput C s done t j u i }

/-- The conditions under which signing for the contract succeeds. -/
structure MultiSignable (C : Crypto) (s : MultiSig) (us : List Unspent) (t : Spec.Tx) : Prop where
  dict : ∃ d, inputDict C (.multi s) us [] = .ok d
  amounts : ∀ i ∈ t.inputs, ∀ u, chosen C (.multi s) us (Spec.TxInput.outpoint i) = some u →
    u.isSegwit = true → 0 ≤ u.amount ∧ u.amount < 2 ^ 64

/-- No signature of one of the keys for an input of the contract verifies under another key of the contract,
and no part of the contract's script is a signature for the input. -/
def AllApart (C : Crypto) (s : MultiSig) (ks : List PrivKey) (us : List Unspent) (t : Spec.Tx) : Prop :=
  ∀ (j : Nat) (i : Spec.TxInput) (u : Unspent), t.inputs[j]? = some i →
    chosen C (.multi s) us (Spec.TxInput.outpoint i) = some u →
    Apart C s ks (digest C t j i s.redeemscript u.isSegwit u.amount.toNat)

theorem AllApart.mono {C : Crypto} {s : MultiSig} {ks ks' : List PrivKey} {us : List Unspent} {t : Spec.Tx}
    (h : AllApart C s ks us t) (hsub : ∀ k ∈ ks', k ∈ ks) : AllApart C s ks' us t :=
  fun j i u hi hu => ⟨fun k hk => (h j i u hi hu).1 k (hsub k hk), (h j i u hi hu).2⟩

/-- Inputs of the contract are unsigned. -/
def Fresh (C : Crypto) (s : MultiSig) (us : List Unspent) (t : Spec.Tx) : Prop :=
  ∀ i ∈ t.inputs, ∀ u, chosen C (.multi s) us (Spec.TxInput.outpoint i) = some u →
    if u.isSegwit then i.witness = [] else i.script = []

theorem inputDict_key (C : Crypto) (s : MultiSig) (k : PrivKey) : ∀ (us : List Unspent) (d : List (Bytes × Unspent)),
    inputDict C (.multi { s with key := k }) us d = inputDict C (.multi s) us d
  | [], _ => rfl
  | u :: us, d => by
    have hc : (Signer.multi { s with key := k }).canSignUnspent C u = (Signer.multi s).canSignUnspent C u := rfl
    rw [inputDict, inputDict, hc]
    split
    · rfl
    · exact inputDict_key C s k us d
    · split
      · rfl
      · exact inputDict_key C s k us _

theorem chosen_key (C : Crypto) (s : MultiSig) (k : PrivKey) (us : List Unspent) (key : Bytes) :
    chosen C (.multi { s with key := k }) us key = chosen C (.multi s) us key := by
  unfold chosen
  rw [inputDict_key]

theorem multiInput_fields (C : Crypto) (s : MultiSig) (done : List PrivKey) (t : Spec.Tx) (j : Nat) (u : Unspent)
    (i : Spec.TxInput) : (multiInput C s done t j u i).prevTxid = i.prevTxid ∧
      (multiInput C s done t j u i).prevIndex = i.prevIndex ∧
      (multiInput C s done t j u i).sequence = i.sequence := by
  unfold multiInput
  dsimp only
  split
  · exact ⟨rfl, rfl, rfl⟩
  · split <;> exact ⟨rfl, rfl, rfl⟩

theorem multiTx_get {C : Crypto} {s : MultiSig} {done : List PrivKey} {us : List Unspent} {t : Spec.Tx} {j : Nat} :
    (multiTx C s done us t).inputs[j]? = t.inputs[j]?.map fun i =>
      match chosen C (.multi s) us (Spec.TxInput.outpoint i) with
      | none => i
      | some u => multiInput C s done t j u i := by
  unfold multiTx
  rw [List.getElem?_mapIdx]

theorem multiTx_skeleton (C : Crypto) (s : MultiSig) (done : List PrivKey) (us : List Unspent) (t : Spec.Tx) :
    Spec.SameSkeleton t (multiTx C s done us t) := by
  refine ⟨rfl, rfl, rfl, ?_⟩
  apply List.ext_getElem?
  intro j
  rw [List.getElem?_map, List.getElem?_map, multiTx_get, Option.map_map]
  congr 1
  funext i
  simp only [Function.comp]
  split
  · rfl
  · obtain ⟨h1, h2, h3⟩ := multiInput_fields C s done t j _ i
    rw [h1, h2, h3]

theorem multiTx_nil (C : Crypto) (s : MultiSig) (us : List Unspent) (t : Spec.Tx) :
    multiTx C s [] us t = t := by
  have : (multiTx C s [] us t).inputs = t.inputs := by
    apply List.ext_getElem?
    intro j
    rw [multiTx_get]
    cases t.inputs[j]? with
    | none => rfl
    | some i =>
      rw [Option.map_some]
      congr 1
      split
      · rfl
      · rfl
  unfold multiTx at this ⊢
  exact congrArg (fun l => ({ t with inputs := l } : Spec.Tx)) this

theorem sigsFor_nil (C : Crypto) (s : MultiSig) (d : Bytes) : sigsFor C s [] d = [] := by
  simp [sigsFor]

/-- The bytes written when one more co-signer signs. -/
theorem multi_bytes {C : Crypto} {s : MultiSig} {done : List PrivKey} {k : PrivKey} (hs : ContractLaws C s)
    (hd : ∀ a ∈ done, SignerLaws C s a) (hk : SignerLaws C s k)
    (hn : ((k :: done).map fun k => k.publicKey C).Nodup) (hlt : (done.length : Int) < s.m)
    {w : Bool} {t : Spec.Tx} {j : Nat} {u : Unspent} {i : Spec.TxInput} {x : TxIn}
    (hap : done ≠ [] → Apart C s done (digest C t j i s.redeemscript u.isSegwit u.amount.toNat))
    (hfresh : if u.isSegwit then i.witness = [] else i.script = []) (hw : u.isSegwit = true → w = true)
    (hx : InRepresents w x (multiInput C s done t j u i)) :
    signMulti C { s with key := k } w u.isSegwit (digest C t j i s.redeemscript u.isSegwit u.amount.toNat)
        (if u.isSegwit then x.witness else x.scriptSig) =
      .ok ((multiInput C s (k :: done) t j u i).script,
        if w then Spec.encodeStack (multiInput C s (k :: done) t j u i).witness else []) := by
  have hpos := hs.pos
  obtain ⟨-, hrl, hm15, -⟩ := redeem_head hs
  have hall : ∀ a ∈ k :: done, SignerLaws C s a := by
    intro a ha
    rcases List.mem_cons.mp ha with rfl | ha
    · exact hk
    · exact hd a ha
  have hn' : (done.map fun k => k.publicKey C).Nodup := (List.nodup_cons.mp hn).2
  have hlen := sigsFor_length (s := s) (d := digest C t j i s.redeemscript u.isSegwit u.amount.toNat) hs.nodup hn'
    (fun a ha => (hd a ha).mem)
  have hlen' := sigsFor_length (s := s) (d := digest C t j i s.redeemscript u.isSegwit u.amount.toNat) hs.nodup hn
    (fun a ha => (hall a ha).mem)
  rw [List.length_cons] at hlen'
  cases hseg : u.isSegwit with
  | true =>
    have := hw hseg
    subst this
    rw [hseg] at hfresh hlen hlen' hap
    simp only [if_true] at hfresh ⊢
    have hfield : x.witness = Spec.encodeStack (multiInput C s done t j u i).witness := hx.witness
    have hread : getSignaturesFromScript C.isDer x.witness =
        .ok (sigsFor C s done (digest C t j i s.redeemscript true u.amount.toNat)) := by
      rw [hfield]
      unfold multiInput
      dsimp only
      by_cases hdn : done = []
      · subst hdn
        rw [if_pos rfl, hfresh, sigsFor_nil]
        simp [Spec.encodeStack, getSignaturesFromScript, Spec.compact, getSigsLoop]
      · rw [if_neg hdn, if_pos hseg, hseg]
        exact read_segwit hs hd _ (by rw [hlen]; omega)
    have hne : x.witness.isEmpty = false := by
      rw [hfield]
      have := encodeStack_ne_nil (multiInput C s done t j u i).witness
      simpa using this
    rw [← List.append_nil (sigsFor C s done _)] at hread
    rw [signMulti_more hs hd (fun a ha => (hap (List.ne_nil_of_mem ha)).1 a ha) hk true true hne (extra := []) (by simp) hread, if_neg (by rw [hlen]; omega), hlen]
    unfold multiInput
    dsimp only
    rw [if_neg (List.cons_ne_nil _ _), if_pos hseg, if_pos rfl, hseg]
    dsimp only
    congr 2
    unfold Spec.encodeStack
    have hc : ([] :: sigsFor C s (k :: done) (digest C t j i s.redeemscript true u.amount.toNat) ++
        List.replicate (s.m.toNat - (k :: done).length) [] ++ [s.redeemscript]).length = (s.m + 2).toNat := by
      simp only [List.length_append, List.length_cons, List.length_replicate, List.length_nil, hlen']
      omega
    rw [hc]
    simp only [List.flatMap_append, List.flatMap_cons, List.flatMap_nil, List.cons_append, replicate_zero_flatMap,
      List.length_cons, List.append_nil]
    rw [show (s.m - (done.length : Int) - (([] : List Bytes).length : Int) - 1).toNat =
      s.m.toNat - (done.length + 1) by rw [List.length_nil]; omega]
    simp [Spec.varBytes, show Spec.compact 0 = [0x00] by decide]
  | false =>
    rw [hseg] at hfresh hlen hlen' hap
    simp only [Bool.false_eq_true, if_false] at hfresh ⊢
    have hfield : x.scriptSig = (multiInput C s done t j u i).script := hx.script
    have hres : ∀ z, padding C s (done.length + 1) = z →
        (([0x00] ++ (sigsFor C s (k :: done) (digest C t j i s.redeemscript false u.amount.toNat)).flatMap Spec.varBytes
          ++ List.replicate z 0x00 ++ pushPrefix s.redeemscript.length ++ s.redeemscript : Bytes),
          (if w then [0x00] else [] : Bytes)) = ((multiInput C s (k :: done) t j u i).script,
        if w then Spec.encodeStack (multiInput C s (k :: done) t j u i).witness else []) := by
      intro z hz
      unfold multiInput
      dsimp only
      rw [if_neg (List.cons_ne_nil _ _), if_neg (show ¬u.isSegwit = true by rw [hseg]; simp), hseg,
        List.length_cons, hz]
      simp [Spec.encodeStack, Spec.compact]
    by_cases hdn : done = []
    · subst hdn
      have h0 : x.scriptSig = [] := by
        rw [hfield]
        unfold multiInput
        dsimp only
        rw [if_pos rfl, hfresh]
      rw [h0, signMulti_first hs hk, ← hres 0 (by simp [padding])]
      simp
    · have hz : done.length ≠ 0 := fun h => hdn (List.length_eq_zero_iff.mp h)
      have hread : getSignaturesFromScript C.isDer x.scriptSig =
          .ok (sigsFor C s done (digest C t j i s.redeemscript false u.amount.toNat) ++ strays C s) := by
        rw [hfield]
        unfold multiInput
        dsimp only
        rw [if_neg hdn, if_neg (by rw [hseg]; simp), hseg]
        exact read_legacy hs hd _
      have hne : x.scriptSig.isEmpty = false := by
        rw [hfield]
        unfold multiInput
        dsimp only
        rw [if_neg hdn, if_neg (by rw [hseg]; simp)]
        simp
      rw [signMulti_more hs hd (hap hdn).1 hk w false hne ((hap hdn).strays hs) hread, if_neg (by rw [hlen]; omega), hlen,
        ← hres _ (show padding C s (done.length + 1) = (s.m - (done.length : Int) - (strays C s).length - 1).toNat by
          unfold padding; rw [if_neg (by omega)]; omega)]
      simp

theorem multiInput_script_lt {C : Crypto} {s : MultiSig} {done : List PrivKey} (hs : ContractLaws C s)
    (hd : ∀ a ∈ done, SignerLaws C s a) (t : Spec.Tx) (j : Nat) (u : Unspent) {i : Spec.TxInput}
    (hi : i.script.length < 2 ^ 64) : (multiInput C s done t j u i).script.length < 2 ^ 64 := by
  obtain ⟨-, hrl, hm15, hk15, -⟩ := redeem_head hs
  unfold multiInput
  dsimp only
  split
  · exact hi
  · split
    · have h32 : (C.sha256 s.redeemscript).length = 32 := hs.hash.sha256_length _
      simp [Spec.witnessScript, h32]
    · have hp : (pushPrefix s.redeemscript.length).length ≤ 5 := by
        unfold pushPrefix
        unfold scriptPush
        split_ifs
        · rw [intToUnknownBytes_lt256 (by omega)]; simp
        · rw [intToUnknownBytes_lt256 (by omega)]; simp
        · rw [toBytesLE_ok (by norm_num; omega)]
          show List.length (0x4d :: leBytes 2 s.redeemscript.length) ≤ 5
          simp [leBytes]
        · omega
      have hf : ∀ (l : List Bytes), (∀ b ∈ l, b.length ≤ 73) → l.length ≤ 15 →
          (l.flatMap Spec.varBytes).length ≤ 74 * l.length := by
        intro l
        induction l with
        | nil => intro _ _; simp
        | cons b l ih =>
          intro h1 h2
          have hb := h1 b List.mem_cons_self
          have := ih (fun c hc => h1 c (List.mem_cons_of_mem _ hc)) (by rw [List.length_cons] at h2; omega)
          rw [List.flatMap_cons, List.length_append, Spec.varBytes, compact_small (by omega), List.length_append,
            List.length_singleton, List.length_cons]
          omega
      have hsl : ∀ d, (sigsFor C s done d).length ≤ 15 := by
        intro d
        unfold sigsFor
        rw [List.length_map]
        exact le_trans (List.length_filter_le _ _) hk15
      have h1 := hf _ (sigsFor_item (d := digest C t j i s.redeemscript u.isSegwit u.amount.toNat) hd) (hsl _)
      have h2 := hsl (digest C t j i s.redeemscript u.isSegwit u.amount.toNat)
      have h3 : padding C s done.length ≤ 15 := by unfold padding; split <;> omega
      simp only [List.length_append, List.length_cons, List.length_nil, List.length_replicate]
      refine lt_of_le_of_lt (b := 3000) ?_ (by norm_num)
      omega

/-- One input, signed by one more co-signer. -/
theorem multi_step {C : Crypto} {s : MultiSig} {done : List PrivKey} {k : PrivKey} (hs : ContractLaws C s)
    (hd : ∀ a ∈ done, SignerLaws C s a) (hk : SignerLaws C s k)
    (hn : ((k :: done).map fun k => k.publicKey C).Nodup) (hlt : (done.length : Int) < s.m)
    {us : List Unspent} {d : List (Bytes × Unspent)} (hdict : inputDict C (.multi s) us [] = .ok d) {w : Bool}
    (hw : w = true ∨ ∀ u ∈ us, u.isSegwit = false) {t : Spec.Tx} (hwf : t.WF) (hfr : Fresh C s us t)
    (hap : done ≠ [] → AllApart C s done us t) {j : Nat} {ti i' : Spec.TxInput} (hti : t.inputs[j]? = some ti)
    (hi' : (multiTx C s done us t).inputs[j]? = some i') {x x' : TxIn} (hx : InRepresents w x i') :
    StepAt C (.multi { s with key := k }) d w (multiTx C s done us t) j i' x x' ↔
      (∀ u, chosen C (.multi s) us (Spec.TxInput.outpoint ti) = some u → u.isSegwit = true →
        0 ≤ u.amount ∧ u.amount < 2 ^ 64) ∧
      (match chosen C (.multi s) us (Spec.TxInput.outpoint ti) with
        | none => x' = x
        | some u => InRepresents w x' (multiInput C s (k :: done) t j u ti) ∧ x'.amount = x.amount ∧
            x'.segwitInput = u.isSegwit) := by
  have hsk := multiTx_skeleton C s done us t
  obtain ⟨f1, f2, f3⟩ := skeleton_get hsk hti hi'
  have hout : x.txid ++ x.txindex = Spec.TxInput.outpoint ti := by
    rw [hx.outpoint]; unfold Spec.TxInput.outpoint; rw [f1, f2]
  unfold StepAt
  rw [hout, chosen_eq hdict]
  cases hc : chosen C (.multi s) us (Spec.TxInput.outpoint ti) with
  | none => simp
  | some u =>
    obtain ⟨hu, -⟩ := chosen_mem hc
    have hwu : u.isSegwit = true → w = true := by
      intro h
      rcases hw with hw | hw
      · exact hw
      · rw [hw u hu] at h; cases h
    have hmi : i' = multiInput C s done t j u ti := by
      rw [multiTx_get, hti, Option.map_some, hc] at hi'
      injection hi' with hi'
      exact hi'.symm
    have hdig : digest C (multiTx C s done us t) j i' s.redeemscript u.isSegwit u.amount.toNat =
        digest C t j ti s.redeemscript u.isSegwit u.amount.toNat := skeleton_digest hsk hti hi' _ _ _
    rw [hmi] at hx
    have hb := multi_bytes (t := t) (j := j) (u := u) hs hd hk hn hlt (fun hd => hap hd j ti u hti hc)
      (hfr ti (List.mem_of_getElem? hti) u hc) hwu hx
    have hsc : (Signer.multi { s with key := k }).scriptcode C = .ok (some s.redeemscript) := rfl
    dsimp only
    simp only [hsc, signBytes]
    constructor
    · rintro ⟨sc, script, witness, len, h1, -, h3, h4, h5, rfl⟩
      injection h1 with h1
      injection h1 with h1
      subst h1
      refine ⟨?_, ?_, rfl, rfl⟩
      · intro u' hu'
        injection hu' with hu'
        subst hu'
        exact h3
      · rw [hdig, hb] at h4
        simp only [Except.ok.injEq, Prod.mk.injEq] at h4
        obtain ⟨rfl, rfl⟩ := h4
        obtain ⟨-, rfl⟩ := intToVarint_ok h5
        obtain ⟨g1, g2, g3⟩ := multiInput_fields C s (k :: done) t j u ti
        obtain ⟨e1, e2, e3⟩ := multiInput_fields C s done t j u ti
        refine ⟨?_, ?_, rfl, rfl, ?_, rfl⟩
        · rw [g1, ← e1]; exact hx.txid
        · rw [g2, ← e2]; exact hx.txindex
        · rw [g3, ← e3]; exact hx.sequence
    · rintro ⟨h1, h2, h3, h4⟩
      obtain ⟨-, hrl, -⟩ := redeem_head hs
      have hall : ∀ a ∈ k :: done, SignerLaws C s a := by
        intro a ha
        rcases List.mem_cons.mp ha with rfl | ha
        · exact hk
        · exact hd a ha
      refine ⟨s.redeemscript, (multiInput C s (k :: done) t j u ti).script,
        (if w then Spec.encodeStack (multiInput C s (k :: done) t j u ti).witness else []),
        Spec.compact (multiInput C s (k :: done) t j u ti).script.length, rfl,
        lt_of_le_of_lt hrl (by norm_num), h1 u rfl, ?_, ?_, ?_⟩
      · rw [hdig]; exact hb
      · apply intToVarint_compact
        exact multiInput_script_lt hs hall t j u ((hwf.input ti (List.mem_of_getElem? hti)).script)
      · have e1 := h2.txid; have e2 := h2.txindex; have e3 := h2.sequence
        have e4 := h2.script; have e5 := h2.scriptLen; have e6 := h2.witness
        obtain ⟨g1, g2, g3⟩ := multiInput_fields C s (k :: done) t j u ti
        obtain ⟨c1, c2, c3⟩ := multiInput_fields C s done t j u ti
        rw [g1, ← c1, ← hx.txid] at e1
        rw [g2, ← c2, ← hx.txindex] at e2
        rw [g3, ← c3, ← hx.sequence] at e3
        rw [← e5, ← e4, ← e6, ← h4]
        obtain ⟨⟩ := x'
        simp only at *
        simp [*]

theorem multiTx_wf {C : Crypto} {s : MultiSig} {done : List PrivKey} (hs : ContractLaws C s)
    (hd : ∀ a ∈ done, SignerLaws C s a) {us : List Unspent} {t : Spec.Tx}
    (h : t.WF) : (multiTx C s done us t).WF := by
  obtain ⟨-, hrl, hm15, hk15, -⟩ := redeem_head hs
  refine ⟨h.version, ?_, ?_, ?_, h.outputs, h.output, h.lockTime⟩
  · intro he
    apply h.nonempty
    have : (multiTx C s done us t).inputs.length = 0 := by rw [he]; rfl
    rw [multiTx, List.length_mapIdx] at this
    exact List.length_eq_zero_iff.mp this
  · rw [multiTx, List.length_mapIdx]; exact h.inputs
  · intro i hi
    obtain ⟨j, hj⟩ := List.mem_iff_getElem?.mp hi
    rw [multiTx_get, Option.map_eq_some_iff] at hj
    obtain ⟨i0, h0, rfl⟩ := hj
    have hw := h.input i0 (List.mem_of_getElem? h0)
    split
    · exact hw
    · rename_i u _
      obtain ⟨e1, e2, e3⟩ := multiInput_fields C s done t j u i0
      have hscr := multiInput_script_lt hs hd t j u hw.script
      refine ⟨by rw [e1]; exact hw.txid, by rw [e2]; exact hw.index, hscr, by rw [e3]; exact hw.sequence, ?_, ?_⟩
      · unfold multiInput
        dsimp only
        split
        · exact hw.items
        · split
          · have hsl : ∀ d, (sigsFor C s done d).length ≤ 15 := by
              intro d
              unfold sigsFor
              rw [List.length_map]
              exact le_trans (List.length_filter_le _ _) hk15
            have := hsl (digest C t j i0 s.redeemscript u.isSegwit u.amount.toNat)
            simp only [List.length_append, List.length_cons, List.length_nil, List.length_replicate]
            refine lt_of_le_of_lt (b := 3000) ?_ (by norm_num)
            omega
          · simp
      · unfold multiInput
        dsimp only
        split
        · exact hw.item
        · split
          · intro b hb
            simp only [List.mem_append, List.mem_cons, List.mem_replicate, List.not_mem_nil, or_false] at hb
            rcases hb with ((rfl | hb) | ⟨-, rfl⟩) | rfl
            · simp
            · have := sigsFor_item hd b hb; omega
            · simp
            · omega
          · simp

/-- One more co-signer signs. -/
theorem multi_sign {C : Crypto} {s : MultiSig} {done : List PrivKey} {k : PrivKey} (hs : ContractLaws C s)
    (hd : ∀ a ∈ done, SignerLaws C s a) (hk : SignerLaws C s k)
    (hn : ((k :: done).map fun k => k.publicKey C).Nodup) (hlt : (done.length : Int) < s.m)
    {us : List Unspent} {w : Bool} (hw : w = true ∨ ∀ u ∈ us, u.isSegwit = false) {x : TxObj} {t : Spec.Tx}
    (hwf : t.WF) (hfr : Fresh C s us t) (hap : done ≠ [] → AllApart C s done us t) (hx : Represents w x (multiTx C s done us t)) :
    (∀ x', signTxObj C (.multi { s with key := k }) x us = .ok x' → MultiSignable C s us t ∧
      Represents w x' (multiTx C s (k :: done) us t)) ∧
    (MultiSignable C s us t → ∃ x', signTxObj C (.multi { s with key := k }) x us = .ok x') := by
  have hin := forall₂_iff_get.mp hx.inputs
  have hwf' := multiTx_wf hs hd (us := us) hwf
  have hsk := multiTx_skeleton C s done us t
  constructor
  · intro x' h
    obtain ⟨d, sg, hdict, hsg, hx', hlen, hstep⟩ := (signTxObj_iff hx.skel hwf'.inputs hwf'.outputs).mp h
    rw [isSegwit_represents hx hwf'] at hsg
    injection hsg with hsg
    subst hsg
    rw [inputDict_key] at hdict
    constructor
    · refine ⟨⟨d, hdict⟩, ?_⟩
      intro i hi
      obtain ⟨j, hj⟩ := List.mem_iff_getElem?.mp hi
      obtain ⟨i', hi'⟩ := get_of_length (skeleton_length hsk).symm hj
      obtain ⟨xj, hxj⟩ := get_of_length hin.1.symm hi'
      obtain ⟨x'j, hx'j⟩ := get_of_length hlen.symm hxj
      exact ((multi_step hs hd hk hn hlt hdict hw hwf hfr hap hj hi' (hin.2 j xj i' hxj hi')).mp
        (hstep j xj x'j i' hxj hx'j hi')).1
    · rw [hx']
      refine ⟨hx.version, ?_, hx.outputs, hx.lockTime⟩
      dsimp only
      refine forall₂_iff_get.mpr ⟨?_, ?_⟩
      · rw [hlen, hin.1]; simp [multiTx]
      · intro j x'j i'' hx'j hi''
        rw [multiTx_get] at hi''
        obtain ⟨xj, hxj⟩ := get_of_length hlen hx'j
        obtain ⟨i', hi'⟩ := get_of_length hin.1 hxj
        obtain ⟨i, hi⟩ := get_of_length (skeleton_length hsk) hi'
        rw [hi, Option.map_some, Option.some.injEq] at hi''
        subst hi''
        have hr := hin.2 j xj i' hxj hi'
        have := ((multi_step hs hd hk hn hlt hdict hw hwf hfr hap hi hi' hr).mp (hstep j xj x'j i' hxj hx'j hi')).2
        cases hc : chosen C (.multi s) us (Spec.TxInput.outpoint i) with
        | none =>
          rw [hc] at this; dsimp only at this ⊢; rw [this]
          rw [multiTx_get, hi, Option.map_some, hc] at hi'
          injection hi' with hi'
          dsimp only at hi'
          rw [hi']
          exact hr
        | some u => rw [hc] at this; exact this.1
  · rintro ⟨⟨d, hdict⟩, ham⟩
    let f : Nat → TxIn → TxIn := fun j xj =>
      match t.inputs[j]? with
      | none => xj
      | some i =>
        match chosen C (.multi s) us (Spec.TxInput.outpoint i) with
        | none => xj
        | some u => { inOf w (multiInput C s (k :: done) t j u i) with amount := xj.amount, segwitInput := u.isSegwit }
    refine ⟨{ x with ins := x.ins.mapIdx f }, (signTxObj_iff hx.skel hwf'.inputs hwf'.outputs).mpr
      ⟨d, w, by rw [inputDict_key]; exact hdict, isSegwit_represents hx hwf', rfl, by simp, ?_⟩⟩
    intro j xj x'j i' hxj hx'j hi'
    obtain ⟨i, hi⟩ := get_of_length (skeleton_length hsk) hi'
    dsimp only at hx'j
    rw [List.getElem?_mapIdx, hxj, Option.map_some, Option.some.injEq] at hx'j
    refine (multi_step hs hd hk hn hlt hdict hw hwf hfr hap hi hi' (hin.2 j xj i' hxj hi')).mpr
      ⟨ham i (List.mem_of_getElem? hi), ?_⟩
    subst hx'j
    simp only [f, hi]
    cases hc : chosen C (.multi s) us (Spec.TxInput.outpoint i) with
    | none => rfl
    | some u =>
      exact ⟨⟨rfl, rfl, rfl, rfl, rfl, rfl⟩, rfl, rfl⟩

/-- The wire encoding in use. -/
def enc (w : Bool) (t : Spec.Tx) : Bytes := if w then t.encodeExtended else t.encodeLegacy

theorem deserialize_enc {t : Spec.Tx} (h : t.WF) (w : Bool) :
    ∃ x, deserialize (enc w t) = .ok x ∧ Represents w x t := by
  obtain ⟨h1, h2⟩ := C24_deserialize t h
  cases w
  · exact h1
  · exact h2

/-- The same for hexadecimal texts. -/
theorem multi_sign_hex {C : Crypto} {s : MultiSig} {done : List PrivKey} {k : PrivKey} (hs : ContractLaws C s)
    (hd : ∀ a ∈ done, SignerLaws C s a) (hk : SignerLaws C s k)
    (hn : ((k :: done).map fun k => k.publicKey C).Nodup) (hlt : (done.length : Int) < s.m)
    {us : List Unspent} {w : Bool} (hw : w = true ∨ ∀ u ∈ us, u.isSegwit = false) {t : Spec.Tx}
    (hwf : t.WF) (hfr : Fresh C s us t) (hap : done ≠ [] → AllApart C s done us t) {r : Str} :
    signTransactionHex C (.multi { s with key := k }) (bytesToHex (enc w (multiTx C s done us t))) us = .ok r ↔
      MultiSignable C s us t ∧ r = bytesToHex (enc w (multiTx C s (k :: done) us t)) := by
  have hwf1 := multiTx_wf hs hd (us := us) hwf
  have hwf2 := multiTx_wf hs (done := k :: done) (by
    intro a ha
    rcases List.mem_cons.mp ha with rfl | ha
    · exact hk
    · exact hd a ha) (us := us) hwf
  obtain ⟨x, hx, hrep⟩ := deserialize_enc hwf1 w
  obtain ⟨m1, m2⟩ := multi_sign hs hd hk hn hlt hw hwf hfr hap hrep
  unfold signTransactionHex
  rw [deserializeHex_bytesToHex, hx]
  dsimp only
  unfold signTx
  constructor
  · intro h
    cases hso : signTxObj C (.multi { s with key := k }) x us with
    | error e => rw [hso] at h; cases h
    | ok x' =>
      rw [hso] at h
      dsimp only at h
      obtain ⟨hsig, hrep'⟩ := m1 x' hso
      unfold TxObj.toHex at h
      rw [(C24_serialize w x' _ hrep' hwf2.nonempty hwf2.inputs hwf2.outputs).1] at h
      injection h with h
      exact ⟨hsig, h.symm⟩
  · rintro ⟨hsig, rfl⟩
    obtain ⟨x', hx'⟩ := m2 hsig
    have hrep' := (m1 x' hx').2
    rw [hx']
    dsimp only
    unfold TxObj.toHex
    rw [(C24_serialize w x' _ hrep' hwf2.nonempty hwf2.inputs hwf2.outputs).1]
    rfl

/-! ### the order of the co-signers -/

theorem find_unique {C : Crypto} {l : List PrivKey} {p : Bytes} (hn : (l.map fun k => k.publicKey C).Nodup)
    {k : PrivKey} (hk : k ∈ l) (hp : k.publicKey C = p) : l.find? (fun k => k.publicKey C = p) = some k := by
  induction l with
  | nil => simp at hk
  | cons a l ih =>
    rw [List.map_cons, List.nodup_cons] at hn
    by_cases ha : a.publicKey C = p
    · rw [List.find?_cons_of_pos (by simpa using ha)]
      rcases List.mem_cons.mp hk with rfl | hk
      · rfl
      · exfalso
        apply hn.1
        rw [ha, ← hp]
        exact List.mem_map.mpr ⟨k, hk, rfl⟩
    · rw [List.find?_cons_of_neg (by simpa using ha)]
      rcases List.mem_cons.mp hk with rfl | hk
      · exact absurd hp ha
      · exact ih hn.2 hk

theorem sigsFor_perm {C : Crypto} {s : MultiSig} {l l' : List PrivKey} {d : Bytes} (h : l.Perm l')
    (hn : (l.map fun k => k.publicKey C).Nodup) : sigsFor C s l d = sigsFor C s l' d := by
  have hn' : (l'.map fun k => k.publicKey C).Nodup := (h.map _).nodup_iff.mp hn
  have hm : ∀ p, (p ∈ l.map fun k => k.publicKey C) ↔ p ∈ l'.map fun k => k.publicKey C :=
    fun p => (h.map _).mem_iff
  unfold sigsFor
  simp only [hm]
  apply List.map_congr_left
  intro p hp
  rw [List.mem_filter] at hp
  obtain ⟨k, hk, hkp⟩ := List.mem_map.mp (by simpa using hp.2 : p ∈ l'.map fun k => k.publicKey C)
  unfold sigOf
  rw [find_unique hn (h.mem_iff.mpr hk) hkp, find_unique hn' hk hkp]

theorem multiTx_perm {C : Crypto} {s : MultiSig} {l l' : List PrivKey} {us : List Unspent} {t : Spec.Tx}
    (h : l.Perm l') (hn : (l.map fun k => k.publicKey C).Nodup) :
    multiTx C s l us t = multiTx C s l' us t := by
  have e : ∀ j u i, multiInput C s l t j u i = multiInput C s l' t j u i := by
    intro j u i
    unfold multiInput
    have : l = [] ↔ l' = [] := by
      constructor
      · intro he; subst he; exact h.nil_eq.symm
      · intro he; subst he; exact h.eq_nil
    simp only [this, sigsFor_perm h hn, h.length_eq]
  unfold multiTx
  simp only [e]

end Bit
