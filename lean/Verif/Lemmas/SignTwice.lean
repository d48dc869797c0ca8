import Verif.Lemmas.SignMultiTx
/-
Legacy inputs of a multi-signature contract, signed by a sequence of co-signers with repetitions.
-/
namespace Bit

/-- The transaction with the inputs of the contract replaced. -/
def withTx (C : Crypto) (s : MultiSig) (us : List Unspent) (F : Nat → Unspent → Spec.TxInput → Spec.TxInput)
    (t : Spec.Tx) : Spec.Tx :=
  { t with inputs := t.inputs.mapIdx fun j i =>
      match chosen C (.multi s) us (Spec.TxInput.outpoint i) with
      | none => i
      | some u => F j u i }

/-- The replacement keeps what the outpoint and the sequence are, and gives inputs that can be encoded. -/
def Keeps (F : Nat → Unspent → Spec.TxInput → Spec.TxInput) : Prop :=
  ∀ j u i, (F j u i).prevTxid = i.prevTxid ∧ (F j u i).prevIndex = i.prevIndex ∧ (F j u i).sequence = i.sequence ∧
    (i.WF → (F j u i).WF)

section
variable {C : Crypto} {s : MultiSig} {us : List Unspent} {F G : Nat → Unspent → Spec.TxInput → Spec.TxInput}
  {t : Spec.Tx}

theorem withTx_get {j : Nat} : (withTx C s us F t).inputs[j]? = t.inputs[j]?.map fun i =>
      match chosen C (.multi s) us (Spec.TxInput.outpoint i) with
      | none => i
      | some u => F j u i := by
  unfold withTx
  rw [List.getElem?_mapIdx]

theorem withTx_skeleton (hF : Keeps F) : Spec.SameSkeleton t (withTx C s us F t) := by
  refine ⟨rfl, rfl, rfl, ?_⟩
  apply List.ext_getElem?
  intro j
  rw [List.getElem?_map, List.getElem?_map, withTx_get, Option.map_map]
  congr 1
  funext i
  simp only [Function.comp]
  split
  · rfl
  · obtain ⟨h1, h2, h3, -⟩ := hF j ‹_› i
    rw [h1, h2, h3]

theorem withTx_wf (hF : Keeps F) (h : t.WF) : (withTx C s us F t).WF := by
  refine ⟨h.version, ?_, ?_, ?_, h.outputs, h.output, h.lockTime⟩
  · intro he
    apply h.nonempty
    have : (withTx C s us F t).inputs.length = 0 := by rw [he]; rfl
    rw [withTx, List.length_mapIdx] at this
    exact List.length_eq_zero_iff.mp this
  · rw [withTx, List.length_mapIdx]; exact h.inputs
  · intro i hi
    obtain ⟨j, hj⟩ := List.mem_iff_getElem?.mp hi
    rw [withTx_get, Option.map_eq_some_iff] at hj
    obtain ⟨i0, h0, rfl⟩ := hj
    have hw := h.input i0 (List.mem_of_getElem? h0)
    split
    · exact hw
    · exact (hF j _ i0).2.2.2 hw

/-- What the key writes into an input of the contract. -/
def Writes (C : Crypto) (s : MultiSig) (us : List Unspent) (t : Spec.Tx) (k : PrivKey) (w : Bool)
    (F G : Nat → Unspent → Spec.TxInput → Spec.TxInput) : Prop :=
  ∀ (j : Nat) (i : Spec.TxInput) (u : Unspent) (x : TxIn), t.inputs[j]? = some i →
    chosen C (.multi s) us (Spec.TxInput.outpoint i) = some u → InRepresents w x (F j u i) →
    signMulti C { s with key := k } w u.isSegwit (digest C t j i s.redeemscript u.isSegwit u.amount.toNat)
        (if u.isSegwit then x.witness else x.scriptSig) =
      .ok ((G j u i).script, if w then Spec.encodeStack (G j u i).witness else [])

theorem with_step {k : PrivKey} (hs : ContractLaws C s) (hF : Keeps F) (hG : Keeps G)
    {d : List (Bytes × Unspent)} (hdict : inputDict C (.multi s) us [] = .ok d) {w : Bool}
    (hwr : Writes C s us t k w F G) (hwf : t.WF)
    {j : Nat} {ti i' : Spec.TxInput} (hti : t.inputs[j]? = some ti)
    (hi' : (withTx C s us F t).inputs[j]? = some i') {x x' : TxIn} (hx : InRepresents w x i') :
    StepAt C (.multi { s with key := k }) d w (withTx C s us F t) j i' x x' ↔
      (∀ u, chosen C (.multi s) us (Spec.TxInput.outpoint ti) = some u → u.isSegwit = true →
        0 ≤ u.amount ∧ u.amount < 2 ^ 64) ∧
      (match chosen C (.multi s) us (Spec.TxInput.outpoint ti) with
        | none => x' = x
        | some u => InRepresents w x' (G j u ti) ∧ x'.amount = x.amount ∧
            x'.segwitInput = u.isSegwit) := by
  have hsk := withTx_skeleton (C := C) (s := s) (us := us) (t := t) hF
  obtain ⟨f1, f2, f3⟩ := skeleton_get hsk hti hi'
  have hout : x.txid ++ x.txindex = Spec.TxInput.outpoint ti := by
    rw [hx.outpoint]; unfold Spec.TxInput.outpoint; rw [f1, f2]
  unfold StepAt
  rw [hout, chosen_eq hdict]
  cases hc : chosen C (.multi s) us (Spec.TxInput.outpoint ti) with
  | none => simp
  | some u =>
    have hmi : i' = F j u ti := by
      rw [withTx_get, hti, Option.map_some, hc] at hi'
      injection hi' with hi'
      exact hi'.symm
    have hdig : digest C (withTx C s us F t) j i' s.redeemscript u.isSegwit u.amount.toNat =
        digest C t j ti s.redeemscript u.isSegwit u.amount.toNat := skeleton_digest hsk hti hi' _ _ _
    rw [hmi] at hx
    have hb := hwr j ti u x hti hc hx
    have hsc : (Signer.multi { s with key := k }).scriptcode C = .ok (some s.redeemscript) := rfl
    obtain ⟨g1, g2, g3, g4⟩ := hG j u ti
    obtain ⟨e1, e2, e3, -⟩ := hF j u ti
    dsimp only
    simp only [hsc, signBytes]
    constructor
    · rintro ⟨sc, script, witness, len, h1, -, h3, h4, h5, rfl⟩
      injection h1 with h1
      injection h1 with h1
      subst h1
      refine ⟨?_, ?_, rfl, rfl⟩
      · intro u' hu'
        injection hu' with hu'
        subst hu'
        exact h3
      · rw [hdig, hb] at h4
        simp only [Except.ok.injEq, Prod.mk.injEq] at h4
        obtain ⟨rfl, rfl⟩ := h4
        obtain ⟨-, rfl⟩ := intToVarint_ok h5
        refine ⟨?_, ?_, rfl, rfl, ?_, rfl⟩
        · rw [g1, ← e1]; exact hx.txid
        · rw [g2, ← e2]; exact hx.txindex
        · rw [g3, ← e3]; exact hx.sequence
    · rintro ⟨h1, h2, h3, h4⟩
      obtain ⟨-, hrl, -⟩ := redeem_head hs
      refine ⟨s.redeemscript, (G j u ti).script,
        (if w then Spec.encodeStack (G j u ti).witness else []),
        Spec.compact (G j u ti).script.length, rfl,
        lt_of_le_of_lt hrl (by norm_num), h1 u rfl, ?_, ?_, ?_⟩
      · rw [hdig]; exact hb
      · apply intToVarint_compact
        exact (g4 (hwf.input ti (List.mem_of_getElem? hti))).script
      · have a1 := h2.txid; have a2 := h2.txindex; have a3 := h2.sequence
        have a4 := h2.script; have a5 := h2.scriptLen; have a6 := h2.witness
        rw [g1, ← e1, ← hx.txid] at a1
        rw [g2, ← e2, ← hx.txindex] at a2
        rw [g3, ← e3, ← hx.sequence] at a3
        rw [← a5, ← a4, ← a6, ← h4]
        obtain ⟨⟩ := x'
        simp only at *
        simp [*]

theorem with_sign {k : PrivKey} (hs : ContractLaws C s) (hF : Keeps F) (hG : Keeps G) {w : Bool}
    (hwr : Writes C s us t k w F G) (hwf : t.WF) {x : TxObj} (hx : Represents w x (withTx C s us F t)) :
    (∀ x', signTxObj C (.multi { s with key := k }) x us = .ok x' → MultiSignable C s us t ∧
      Represents w x' (withTx C s us G t)) ∧
    (MultiSignable C s us t → ∃ x', signTxObj C (.multi { s with key := k }) x us = .ok x') := by
  have hin := forall₂_iff_get.mp hx.inputs
  have hwf' := withTx_wf (C := C) (s := s) (us := us) hF hwf
  have hsk := withTx_skeleton (C := C) (s := s) (us := us) (t := t) hF
  constructor
  · intro x' h
    obtain ⟨d, sg, hdict, hsg, hx', hlen, hstep⟩ := (signTxObj_iff hx.skel hwf'.inputs hwf'.outputs).mp h
    rw [isSegwit_represents hx hwf'] at hsg
    injection hsg with hsg
    subst hsg
    rw [inputDict_key] at hdict
    constructor
    · refine ⟨⟨d, hdict⟩, ?_⟩
      intro i hi
      obtain ⟨j, hj⟩ := List.mem_iff_getElem?.mp hi
      obtain ⟨i', hi'⟩ := get_of_length (skeleton_length hsk).symm hj
      obtain ⟨xj, hxj⟩ := get_of_length hin.1.symm hi'
      obtain ⟨x'j, hx'j⟩ := get_of_length hlen.symm hxj
      exact ((with_step hs hF hG hdict hwr hwf hj hi' (hin.2 j xj i' hxj hi')).mp
        (hstep j xj x'j i' hxj hx'j hi')).1
    · rw [hx']
      refine ⟨hx.version, ?_, hx.outputs, hx.lockTime⟩
      dsimp only
      refine forall₂_iff_get.mpr ⟨?_, ?_⟩
      · rw [hlen, hin.1]; simp [withTx]
      · intro j x'j i'' hx'j hi''
        rw [withTx_get] at hi''
        obtain ⟨xj, hxj⟩ := get_of_length hlen hx'j
        obtain ⟨i', hi'⟩ := get_of_length hin.1 hxj
        obtain ⟨i, hi⟩ := get_of_length (skeleton_length hsk) hi'
        rw [hi, Option.map_some, Option.some.injEq] at hi''
        subst hi''
        have hr := hin.2 j xj i' hxj hi'
        have := ((with_step hs hF hG hdict hwr hwf hi hi' hr).mp (hstep j xj x'j i' hxj hx'j hi')).2
        cases hc : chosen C (.multi s) us (Spec.TxInput.outpoint i) with
        | none =>
          rw [hc] at this; dsimp only at this ⊢; rw [this]
          rw [withTx_get, hi, Option.map_some, hc] at hi'
          injection hi' with hi'
          dsimp only at hi'
          rw [hi']
          exact hr
        | some u => rw [hc] at this; exact this.1
  · rintro ⟨⟨d, hdict⟩, ham⟩
    let f : Nat → TxIn → TxIn := fun j xj =>
      match t.inputs[j]? with
      | none => xj
      | some i =>
        match chosen C (.multi s) us (Spec.TxInput.outpoint i) with
        | none => xj
        | some u => { inOf w (G j u i) with amount := xj.amount, segwitInput := u.isSegwit }
    refine ⟨{ x with ins := x.ins.mapIdx f }, (signTxObj_iff hx.skel hwf'.inputs hwf'.outputs).mpr
      ⟨d, w, by rw [inputDict_key]; exact hdict, isSegwit_represents hx hwf', rfl, by simp, ?_⟩⟩
    intro j xj x'j i' hxj hx'j hi'
    obtain ⟨i, hi⟩ := get_of_length (skeleton_length hsk) hi'
    dsimp only at hx'j
    rw [List.getElem?_mapIdx, hxj, Option.map_some, Option.some.injEq] at hx'j
    refine (with_step hs hF hG hdict hwr hwf hi hi' (hin.2 j xj i' hxj hi')).mpr
      ⟨ham i (List.mem_of_getElem? hi), ?_⟩
    subst hx'j
    simp only [f, hi]
    cases hc : chosen C (.multi s) us (Spec.TxInput.outpoint i) with
    | none => rfl
    | some u =>
      exact ⟨⟨rfl, rfl, rfl, rfl, rfl, rfl⟩, rfl, rfl⟩

theorem with_sign_hex {k : PrivKey} (hs : ContractLaws C s) (hF : Keeps F) (hG : Keeps G) {w : Bool}
    (hwr : Writes C s us t k w F G) (hwf : t.WF) {r : Str} :
    signTransactionHex C (.multi { s with key := k }) (bytesToHex (enc w (withTx C s us F t))) us = .ok r ↔
      MultiSignable C s us t ∧ r = bytesToHex (enc w (withTx C s us G t)) := by
  have hwf1 := withTx_wf (C := C) (s := s) (us := us) hF hwf
  have hwf2 := withTx_wf (C := C) (s := s) (us := us) hG hwf
  obtain ⟨x, hx, hrep⟩ := deserialize_enc hwf1 w
  obtain ⟨m1, m2⟩ := with_sign hs hF hG hwr hwf hrep
  unfold signTransactionHex
  rw [deserializeHex_bytesToHex, hx]
  dsimp only
  unfold signTx
  constructor
  · intro h
    cases hso : signTxObj C (.multi { s with key := k }) x us with
    | error e => rw [hso] at h; cases h
    | ok x' =>
      rw [hso] at h
      dsimp only at h
      obtain ⟨hsig, hrep'⟩ := m1 x' hso
      unfold TxObj.toHex at h
      rw [(C24_serialize w x' _ hrep' hwf2.nonempty hwf2.inputs hwf2.outputs).1] at h
      injection h with h
      exact ⟨hsig, h.symm⟩
  · rintro ⟨hsig, rfl⟩
    obtain ⟨x', hx'⟩ := m2 hsig
    have hrep' := (m1 x' hx').2
    rw [hx']
    dsimp only
    unfold TxObj.toHex
    rw [(C24_serialize w x' _ hrep' hwf2.nonempty hwf2.inputs hwf2.outputs).1]
    rfl

end

/-! ### legacy inputs with any number of empty items -/

/-- How many of the contract's keys have signed. -/
def signed (C : Crypto) (s : MultiSig) (done : List PrivKey) : Nat :=
  (s.publicKeys.filter fun p => p ∈ done.map fun k => k.publicKey C).length

theorem sigsFor_signed (C : Crypto) (s : MultiSig) (done : List PrivKey) (d : Bytes) :
    (sigsFor C s done d).length = signed C s done := by
  unfold sigsFor signed
  rw [List.length_map]

theorem signed_mono (C : Crypto) (s : MultiSig) {l l' : List PrivKey} (h : ∀ k ∈ l, k ∈ l') :
    signed C s l ≤ signed C s l' := by
  unfold signed
  apply List.Sublist.length_le
  apply List.monotone_filter_right
  intro p hp
  simp only [decide_eq_true_eq, List.mem_map] at hp ⊢
  obtain ⟨k, hk, rfl⟩ := hp
  exact ⟨k, h k hk, rfl⟩

/-- A legacy input of the contract with the signatures of `done` and `z` empty items. -/
def padInput (C : Crypto) (s : MultiSig) (t : Spec.Tx) (done : List PrivKey) (z : Nat) (j : Nat) (u : Unspent)
    (i : Spec.TxInput) : Spec.TxInput :=
  { i with script := [0x00] ++ (sigsFor C s done (digest C t j i s.redeemscript u.isSegwit u.amount.toNat)).flatMap Spec.varBytes
             ++ List.replicate z 0x00 ++ pushPrefix s.redeemscript.length ++ s.redeemscript
           witness := [] }

theorem padInput_keeps {C : Crypto} {s : MultiSig} (hs : ContractLaws C s) (t : Spec.Tx) {done : List PrivKey}
    (hd : ∀ a ∈ done, SignerLaws C s a) {z : Nat} (hz : z ≤ 15) : Keeps (padInput C s t done z) := by
  intro j u i
  refine ⟨rfl, rfl, rfl, fun hi => ⟨hi.txid, hi.index, ?_, hi.sequence, by simp [padInput], by simp [padInput]⟩⟩
  obtain ⟨-, hrl, hm15, hk15, -⟩ := redeem_head hs
  have hp : (pushPrefix s.redeemscript.length).length ≤ 5 := by
    unfold pushPrefix
    unfold scriptPush
    split_ifs
    · rw [intToUnknownBytes_lt256 (by omega)]; simp
    · rw [intToUnknownBytes_lt256 (by omega)]; simp
    · rw [toBytesLE_ok (by norm_num; omega)]
      show List.length (0x4d :: leBytes 2 s.redeemscript.length) ≤ 5
      simp [leBytes]
    · omega
  have hf : ∀ (l : List Bytes), (∀ b ∈ l, b.length ≤ 73) → l.length ≤ 15 →
      (l.flatMap Spec.varBytes).length ≤ 74 * l.length := by
    intro l
    induction l with
    | nil => intro _ _; simp
    | cons b l ih =>
      intro h1 h2
      have hb := h1 b List.mem_cons_self
      have := ih (fun c hc => h1 c (List.mem_cons_of_mem _ hc)) (by rw [List.length_cons] at h2; omega)
      rw [List.flatMap_cons, List.length_append, Spec.varBytes, compact_small (by omega), List.length_append,
        List.length_singleton, List.length_cons]
      omega
  have hsl : ∀ d, (sigsFor C s done d).length ≤ 15 := by
    intro d
    unfold sigsFor
    rw [List.length_map]
    exact le_trans (List.length_filter_le _ _) hk15
  have h1 := hf _ (sigsFor_item (d := digest C t j i s.redeemscript u.isSegwit u.amount.toNat) hd) (hsl _)
  have h2 := hsl (digest C t j i s.redeemscript u.isSegwit u.amount.toNat)
  simp only [padInput, List.length_append, List.length_cons, List.length_nil, List.length_replicate]
  refine lt_of_le_of_lt (b := 3000) ?_ (by norm_num)
  omega

theorem first_writes {C : Crypto} {s : MultiSig} (hs : ContractLaws C s) {us : List Unspent}
    (hleg : ∀ u ∈ us, u.isSegwit = false) {t : Spec.Tx} (hfr : Fresh C s us t) {k : PrivKey} (hk : SignerLaws C s k)
    (w : Bool) : Writes C s us t k w (fun _ _ i => i) (padInput C s t [k] 0) := by
  intro j i u x hi hc hx
  have hseg := hleg u (chosen_mem hc).1
  have h0 := hfr i (List.mem_of_getElem? hi) u hc
  rw [hseg] at h0
  simp only [Bool.false_eq_true, if_false] at h0
  simp only [hseg, Bool.false_eq_true, if_false]
  rw [hx.script, h0, signMulti_first hs hk]
  simp [padInput, hseg, Spec.encodeStack, Spec.compact]

theorem more_writes {C : Crypto} {s : MultiSig} (hs : ContractLaws C s) {us : List Unspent}
    (hleg : ∀ u ∈ us, u.isSegwit = false) {t : Spec.Tx} {done : List PrivKey}
    (hd : ∀ a ∈ done, SignerLaws C s a) (hap : AllApart C s done us t) (hlt : (signed C s done : Int) < s.m)
    {k : PrivKey} (hk : SignerLaws C s k) (w : Bool) (z : Nat) :
    Writes C s us t k w (padInput C s t done z) (padInput C s t (k :: done) (s.m - signed C s done - (strays C s).length - 1).toNat) := by
  intro j i u x hi hc hx
  have hseg := hleg u (chosen_mem hc).1
  have hap := hap j i u hi hc
  rw [hseg] at hap
  simp only [hseg, Bool.false_eq_true, if_false]
  have hfield := hx.script
  unfold padInput at hfield
  dsimp only at hfield
  rw [hseg] at hfield
  rw [signMulti_more hs hd hap.1 hk w false (by rw [hfield]; simp) (hap.strays hs)
      (by rw [hfield]; exact read_legacy hs hd _),
    sigsFor_signed, if_neg (by omega)]
  simp [padInput, hseg, Spec.encodeStack, Spec.compact]

/-- Histories with the same co-signers give the same signatures. -/
theorem sigsFor_same {C : Crypto} {s : MultiSig} {l l' : List PrivKey} {d : Bytes} (h : ∀ a, a ∈ l ↔ a ∈ l')
    (hinj : ∀ a ∈ l, ∀ b ∈ l, a.publicKey C = b.publicKey C → a = b) : sigsFor C s l d = sigsFor C s l' d := by
  have hm : ∀ p, (p ∈ l.map fun k => k.publicKey C) ↔ p ∈ l'.map fun k => k.publicKey C := by
    intro p
    simp only [List.mem_map, h]
  unfold sigsFor
  simp only [hm]
  apply List.map_congr_left
  intro p hp
  rw [List.mem_filter] at hp
  have hp' : p ∈ l'.map fun k => k.publicKey C := by simpa using hp.2
  obtain ⟨a, ha, hap, ha'⟩ := find_of_mem ((hm p).mpr hp')
  obtain ⟨b, hb, hbp, hb'⟩ := find_of_mem hp'
  unfold sigOf
  rw [ha', hb', hinj a ha b ((h b).mpr hb) (by rw [hap, hbp])]

theorem signed_same {C : Crypto} {s : MultiSig} {l l' : List PrivKey} (h : ∀ a, a ∈ l ↔ a ∈ l') :
    signed C s l = signed C s l' :=
  le_antisymm (signed_mono C s fun k hk => (h k).mp hk) (signed_mono C s fun k hk => (h k).mpr hk)

theorem multiTx_pad {C : Crypto} {s : MultiSig} {us : List Unspent} (hleg : ∀ u ∈ us, u.isSegwit = false)
    {t : Spec.Tx} {done : List PrivKey} (hne : done ≠ []) :
    multiTx C s done us t = withTx C s us (padInput C s t done (padding C s done.length)) t := by
  have : (multiTx C s done us t).inputs = (withTx C s us (padInput C s t done (padding C s done.length)) t).inputs := by
    apply List.ext_getElem?
    intro j
    rw [multiTx_get, withTx_get]
    cases t.inputs[j]? with
    | none => rfl
    | some i =>
      rw [Option.map_some, Option.map_some]
      congr 1
      cases hc : chosen C (.multi s) us (Spec.TxInput.outpoint i) with
      | none => rfl
      | some u =>
        have hseg := hleg u (chosen_mem hc).1
        dsimp only
        unfold multiInput padInput
        dsimp only
        rw [if_neg hne, if_neg (by rw [hseg]; simp)]
  unfold multiTx at this ⊢
  unfold withTx at this ⊢
  exact congrArg (fun l => ({ t with inputs := l } : Spec.Tx)) this

theorem withTx_id (C : Crypto) (s : MultiSig) (us : List Unspent) (t : Spec.Tx) :
    withTx C s us (fun _ _ i => i) t = t := by
  have : (withTx C s us (fun _ _ i => i) t).inputs = t.inputs := by
    apply List.ext_getElem?
    intro j
    rw [withTx_get]
    cases t.inputs[j]? with
    | none => rfl
    | some i =>
      rw [Option.map_some]
      congr 1
      split <;> rfl
  unfold withTx at this ⊢
  exact congrArg (fun l => ({ t with inputs := l } : Spec.Tx)) this

end Bit
