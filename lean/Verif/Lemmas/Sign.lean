import Verif.Model.Sign
import Verif.Spec.Sighash
import Verif.Props.Tx
/-
Lemmas on `calculate_preimages` and `sign_tx`: the digests, and signing as a change of every input on
its own.
-/
namespace Bit

/-! ### skeletons -/

structure InSkel (x : TxIn) (i : Spec.TxInput) : Prop where
  txid : x.txid = i.prevTxid
  txindex : x.txindex = Spec.leEncode 4 i.prevIndex
  sequence : x.sequence = Spec.leEncode 4 i.sequence

/-- The object has the parts of the transaction that signing leaves alone. -/
structure Skel (x : TxObj) (t : Spec.Tx) : Prop where
  version : x.version = Spec.leEncode 4 t.version
  inputs : List.Forall₂ InSkel x.ins t.inputs
  outputs : List.Forall₂ OutRepresents x.outs t.outputs
  lockTime : x.locktime = Spec.leEncode 4 t.lockTime

theorem InRepresents.skel {w : Bool} {x : TxIn} {i : Spec.TxInput} (h : InRepresents w x i) : InSkel x i :=
  ⟨h.txid, h.txindex, h.sequence⟩

theorem Represents.skel {w : Bool} {x : TxObj} {t : Spec.Tx} (h : Represents w x t) : Skel x t :=
  ⟨h.version, h.inputs.imp fun _ _ h => h.skel, h.outputs, h.lockTime⟩

theorem hashTypeAll_eq : hashTypeAll = Spec.leEncode 4 1 := by decide

theorem stripped_encode {x : TxIn} {i : Spec.TxInput} (h : InSkel x i) :
    x.stripped = Spec.TxInput.encode { i with script := [] } := by
  unfold TxIn.stripped Spec.TxInput.encode
  rw [h.txid, h.txindex, h.sequence]
  simp [Spec.varBytes, show Spec.compact 0 = [0x00] by decide]

theorem stripped_flatMap {xs : List TxIn} {is : List Spec.TxInput} (h : List.Forall₂ InSkel xs is) :
    (is.map fun i => { i with script := [] }).flatMap Spec.TxInput.encode
      = xs.flatMap TxIn.stripped := by
  induction h with
  | nil => rfl
  | cons hx _ ih => rw [List.map_cons, List.flatMap_cons, List.flatMap_cons, ih, stripped_encode hx]

theorem legacy_inputs {xs : List TxIn} {is : List Spec.TxInput} (h : List.Forall₂ InSkel xs is) :
    ∀ (k : Nat) (x : TxIn) (sc : Bytes), xs[k]? = some x → x.scriptSig = sc →
      x.scriptSigLen = Spec.compact sc.length →
      (is.mapIdx fun j i => { i with script := if j = k then sc else [] }).flatMap Spec.TxInput.encode =
        (xs.take k).flatMap TxIn.stripped ++ x.txid ++ x.txindex ++ x.scriptSigLen ++ x.scriptSig
          ++ x.sequence ++ (xs.drop (k + 1)).flatMap TxIn.stripped := by
  induction h with
  | nil => intro k x sc h; simp at h
  | @cons a b as bs hab hrest ih =>
    intro k x sc hk h1 h2
    cases k with
    | zero =>
      simp only [List.getElem?_cons_zero, Option.some.injEq] at hk
      subst hk
      have e : (bs.mapIdx fun j i => ({ i with script := if j + 1 = 0 then sc else [] } : Spec.TxInput)) =
          bs.map fun i => { i with script := [] } := by
        rw [List.mapIdx_eq_iff]
        intro j
        simp
      rw [List.mapIdx_cons, List.flatMap_cons, e, stripped_flatMap hrest]
      simp only [Spec.TxInput.encode, if_true, Spec.varBytes, List.take_zero, List.flatMap_nil,
        List.nil_append, List.drop_succ_cons, List.drop_zero]
      rw [h1, h2, hab.txid, hab.txindex, hab.sequence]
      simp
    | succ k =>
      simp only [List.getElem?_cons_succ] at hk
      have e : (bs.mapIdx fun j i => ({ i with script := if j + 1 = k + 1 then sc else [] } : Spec.TxInput)) =
          bs.mapIdx fun j i => { i with script := if j = k then sc else [] } := by
        simp
      rw [List.mapIdx_cons, List.flatMap_cons, e, ih k x sc hk h1 h2]
      simp only [List.take_succ_cons, List.flatMap_cons, List.drop_succ_cons]
      rw [stripped_encode hab, if_neg (by omega)]
      simp

theorem preimage_legacy {C : Crypto} {x : TxObj} {t : Spec.Tx} (h : Skel x t)
    (hi : t.inputs.length < 2 ^ 64) (ho : t.outputs.length < 2 ^ 64) {k : Nat} {xi : TxIn} {sc : Bytes}
    (hk : x.ins[k]? = some xi) (h1 : xi.scriptSig = sc) (h2 : xi.scriptSigLen = Spec.compact sc.length) :
    preimage C x k hashTypeAll false = .ok (C.sha256 (Spec.legacyMessage t k sc)) := by
  unfold preimage
  rw [h.inputs.length_eq, h.outputs.length_eq, intToVarint_compact hi, intToVarint_compact ho]
  dsimp only
  rw [if_neg (by simp), hk]
  dsimp only
  rw [if_neg (by simp), flatMap_outBytes h.outputs, h.version, h.lockTime, hashTypeAll_eq]
  unfold Spec.legacyMessage Spec.Tx.encodeLegacy Spec.Tx.encodeBody
  dsimp only
  rw [legacy_inputs h.inputs k xi sc hk h1 h2]
  simp

theorem outpoints_flatMap {xs : List TxIn} {is : List Spec.TxInput} (h : List.Forall₂ InSkel xs is) :
    (xs.flatMap fun i => i.txid ++ i.txindex) =
      is.flatMap fun i => i.prevTxid ++ Spec.leEncode 4 i.prevIndex := by
  induction h with
  | nil => rfl
  | cons hx _ ih => rw [List.flatMap_cons, List.flatMap_cons, ih, hx.txid, hx.txindex]

theorem sequences_flatMap {xs : List TxIn} {is : List Spec.TxInput} (h : List.Forall₂ InSkel xs is) :
    (xs.flatMap fun i => i.sequence) = is.flatMap fun i => Spec.leEncode 4 i.sequence := by
  induction h with
  | nil => rfl
  | cons hx _ ih => rw [List.flatMap_cons, List.flatMap_cons, ih, hx.sequence]

theorem forall₂_get {α β : Type} {R : α → β → Prop} {xs : List α} {ys : List β} (h : List.Forall₂ R xs ys) :
    ∀ {k : Nat} {x : α}, xs[k]? = some x → ∃ y, ys[k]? = some y ∧ R x y := by
  induction h with
  | nil => intro k x h; simp at h
  | cons hab _ ih =>
    intro k x hk
    cases k with
    | zero => simp only [List.getElem?_cons_zero, Option.some.injEq] at hk; subst hk; exact ⟨_, rfl, hab⟩
    | succ k => simp only [List.getElem?_cons_succ] at hk ⊢; exact ih hk

theorem preimage_segwit {C : Crypto} {x : TxObj} {t : Spec.Tx} (h : Skel x t)
    (hi : t.inputs.length < 2 ^ 64) (ho : t.outputs.length < 2 ^ 64) {k : Nat} {xi : TxIn} {sc : Bytes}
    {ti : Spec.TxInput} {amount : Nat}
    (hk : x.ins[k]? = some xi) (hti : t.inputs[k]? = some ti)
    (h1 : xi.scriptSig = sc ++ Spec.leEncode 8 amount) (h2 : xi.scriptSigLen = Spec.compact sc.length) :
    preimage C x k hashTypeAll true = .ok (C.sha256 (Spec.segwitMessage C.doubleSha256 t ti sc amount)) := by
  unfold preimage
  rw [h.inputs.length_eq, h.outputs.length_eq, intToVarint_compact hi, intToVarint_compact ho]
  dsimp only
  rw [if_neg (by simp), hk]
  dsimp only
  obtain ⟨y, hy, hs⟩ := forall₂_get h.inputs hk
  rw [hti] at hy
  injection hy with hy
  subst hy
  rw [if_pos rfl, flatMap_outBytes h.outputs, outpoints_flatMap h.inputs, sequences_flatMap h.inputs,
    h.version, h.lockTime, hashTypeAll_eq, h1, h2, hs.txid, hs.txindex, hs.sequence]
  unfold Spec.segwitMessage Spec.varBytes
  simp

/-! ### the passes over the inputs -/

theorem prepareInputs_iff {C : Crypto} {s : Signer} {d : List (Bytes × Unspent)} :
    ∀ {ins : List TxIn} {ps : List Prepared}, prepareInputs C s d ins = .ok ps ↔
      List.Forall₂ (fun i p => prepareInput C s d i = .ok p) ins ps
  | [], ps => by
    constructor
    · intro h; injection h with h; subst h; exact .nil
    · intro h; cases h; rfl
  | i :: ins, ps => by
    constructor
    · intro h
      rw [prepareInputs] at h
      split at h
      · cases h
      · rename_i p hp
        split at h
        · cases h
        · rename_i qs hqs
          injection h with h; subst h
          exact .cons hp (prepareInputs_iff.mp hqs)
    · intro h
      cases h with
      | cons h1 h2 => rw [prepareInputs, h1, prepareInputs_iff.mpr h2]

/-- What the second loop does with the prepared input at index `k`. -/
def FinishAt (C : Crypto) (s : Signer) (segwitTx : Bool) (Y : TxObj) (k : Nat) (p : Prepared) (r : TxIn) :
    Prop :=
  match p.sign with
  | none => r = p.input
  | some sg => ∃ h, preimage C Y k hashTypeAll sg = .ok h ∧
      signInput C s segwitTx sg h p.field p.input = .ok r

theorem finish_iff {C : Crypto} {s : Signer} {segwitTx : Bool} {Y : TxObj} :
    ∀ {ps : List Prepared} {k : Nat} {is : List TxIn},
      (∃ hs, calculatePreimages C Y (inputsParameters k ps) = .ok hs ∧
        signInputs C s segwitTx ps hs = .ok is) ↔
      (is.length = ps.length ∧ ∀ j p r, ps[j]? = some p → is[j]? = some r →
        FinishAt C s segwitTx Y (k + j) p r)
  | [], k, is => by
    constructor
    · rintro ⟨hs, -, h⟩
      injection h with h; subst h
      exact ⟨rfl, by intro j p r h; simp at h⟩
    · rintro ⟨h, -⟩
      have : is = [] := List.length_eq_zero_iff.mp h
      subst this
      exact ⟨[], rfl, rfl⟩
  | p :: ps, k, is => by
    have hcons : ∀ {r : TxIn} {rs : List TxIn}, (FinishAt C s segwitTx Y k p r ∧
        rs.length = ps.length ∧ (∀ j p r, ps[j]? = some p → rs[j]? = some r →
          FinishAt C s segwitTx Y (k + 1 + j) p r)) ↔
        ((r :: rs).length = (p :: ps).length ∧ ∀ j q r', (p :: ps)[j]? = some q → (r :: rs)[j]? = some r' →
          FinishAt C s segwitTx Y (k + j) q r') := by
      intro r rs
      constructor
      · rintro ⟨h1, h2, h3⟩
        refine ⟨by simp [h2], ?_⟩
        intro j q r' hq hr
        cases j with
        | zero =>
          simp only [List.getElem?_cons_zero, Option.some.injEq] at hq hr
          subst hq; subst hr; exact h1
        | succ j =>
          simp only [List.getElem?_cons_succ] at hq hr
          have := h3 j q r' hq hr
          rwa [show k + 1 + j = k + (j + 1) by omega] at this
      · rintro ⟨h1, h2⟩
        refine ⟨h2 0 p r rfl rfl, by simpa using h1, ?_⟩
        intro j q r' hq hr
        have := h2 (j + 1) q r' (by simpa using hq) (by simpa using hr)
        rwa [show k + 1 + j = k + (j + 1) by omega]
    cases hp : p.sign with
    | none =>
      have e1 : inputsParameters k (p :: ps) = inputsParameters (k + 1) ps := by
        rw [inputsParameters, hp]
      rw [e1]
      constructor
      · rintro ⟨hs, h1, h2⟩
        rw [signInputs, hp] at h2
        dsimp only at h2
        split at h2
        · cases h2
        · rename_i rs hrs
          injection h2 with h2; subst h2
          refine hcons.mp ⟨?_, finish_iff.mp ⟨hs, h1, hrs⟩⟩
          unfold FinishAt; rw [hp]
      · intro h
        cases is with
        | nil => simp at h
        | cons r rs =>
          obtain ⟨h1, h2⟩ := hcons.mpr h
          obtain ⟨hs, h3, h4⟩ := finish_iff.mpr h2
          refine ⟨hs, h3, ?_⟩
          unfold FinishAt at h1
          rw [hp] at h1
          dsimp only at h1
          rw [signInputs, hp]
          dsimp only
          rw [h4, h1]
    | some sg =>
      have e1 : inputsParameters k (p :: ps) = (k, hashTypeAll, sg) :: inputsParameters (k + 1) ps := by
        rw [inputsParameters, hp]
      rw [e1]
      constructor
      · rintro ⟨hs, h1, h2⟩
        rw [calculatePreimages] at h1
        split at h1
        · cases h1
        · rename_i h hh
          split at h1
          · cases h1
          · rename_i hs' hhs'
            injection h1 with h1; subst h1
            rw [signInputs, hp] at h2
            dsimp only at h2
            split at h2
            · cases h2
            · rename_i r hr
              split at h2
              · cases h2
              · rename_i rs hrs
                injection h2 with h2; subst h2
                refine hcons.mp ⟨?_, finish_iff.mp ⟨hs', hhs', hrs⟩⟩
                unfold FinishAt; rw [hp]
                exact ⟨h, hh, hr⟩
      · intro h
        cases is with
        | nil => simp at h
        | cons r rs =>
          obtain ⟨h1, h2⟩ := hcons.mpr h
          obtain ⟨hs, h3, h4⟩ := finish_iff.mpr h2
          unfold FinishAt at h1
          rw [hp] at h1
          obtain ⟨h, hh, hr⟩ := h1
          refine ⟨h :: hs, ?_, ?_⟩
          · rw [calculatePreimages, hh, h3]
          · rw [signInputs, hp]
            dsimp only
            rw [hr]
            dsimp only
            rw [h4]

/-! ### signing one input -/

/-- The digest signed for the input `ti` at index `k`. -/
def digest (C : Crypto) (t : Spec.Tx) (k : Nat) (ti : Spec.TxInput) (sc : Bytes) (segwit : Bool)
    (amount : Nat) : Bytes :=
  C.sha256 (if segwit then Spec.segwitMessage C.doubleSha256 t ti sc amount else Spec.legacyMessage t k sc)

/-- Is the unspent marked as segwit? -/
def Unspent.isSegwit (u : Unspent) : Bool := u.segwit.getD false

/-- What signing does to the input at index `k`. -/
def StepAt (C : Crypto) (s : Signer) (d : List (Bytes × Unspent)) (segwitTx : Bool) (t : Spec.Tx) (k : Nat)
    (ti : Spec.TxInput) (x x' : TxIn) : Prop :=
  match d.lookup (x.txid ++ x.txindex) with
  | none => x' = x
  | some u => ∃ sc script witness len, s.scriptcode C = .ok (some sc) ∧ sc.length < 2 ^ 64 ∧
      (u.isSegwit = true → 0 ≤ u.amount ∧ u.amount < 2 ^ 64) ∧
      signBytes C s segwitTx u.isSegwit (digest C t k ti sc u.isSegwit u.amount.toNat)
        (if u.isSegwit then x.witness else x.scriptSig) = .ok (script, witness) ∧
      intToVarint script.length = .ok len ∧
      x' = { x with segwitInput := u.isSegwit, scriptSig := script, scriptSigLen := len,
                    witness := witness }

theorem intToVarint_ok {n : Nat} {v : Bytes} (h : intToVarint n = .ok v) :
    n < 2 ^ 64 ∧ v = Spec.compact n := by
  by_cases hn : n < 2 ^ 64
  · rw [intToVarint_compact hn] at h
    injection h with h
    exact ⟨hn, h.symm⟩
  · exfalso
    unfold intToVarint at h
    rw [if_neg (by omega), if_neg (by omega), if_neg (by omega), toBytesLE_overflow] at h
    · cases h
    · right; norm_num; omega

theorem signInput_iff {C : Crypto} {s : Signer} {segwitTx sg : Bool} {hash field : Bytes} {i r : TxIn} :
    signInput C s segwitTx sg hash field i = .ok r ↔
      ∃ script witness len, signBytes C s segwitTx sg hash field = .ok (script, witness) ∧
        intToVarint script.length = .ok len ∧
        r = { i with scriptSig := script, scriptSigLen := len, witness := witness } := by
  unfold signInput
  constructor
  · intro h
    split at h
    · cases h
    · rename_i script witness hb
      split at h
      · cases h
      · rename_i len hl
        injection h with h
        exact ⟨script, witness, len, hb, hl, h.symm⟩
  · rintro ⟨script, witness, len, h1, h2, rfl⟩
    rw [h1]
    dsimp only
    rw [h2]

theorem prepareInput_skel {C : Crypto} {s : Signer} {d : List (Bytes × Unspent)} {i : TxIn} {p : Prepared}
    (h : prepareInput C s d i = .ok p) :
    p.input.txid = i.txid ∧ p.input.txindex = i.txindex ∧ p.input.sequence = i.sequence := by
  unfold prepareInput at h
  split at h
  · injection h with h; subst h; exact ⟨rfl, rfl, rfl⟩
  · dsimp only at h
    split at h
    · cases h
    · cases h
    · split at h
      · cases h
      · split at h
        · split at h
          · cases h
          · injection h with h; subst h; exact ⟨rfl, rfl, rfl⟩
        · injection h with h; subst h; exact ⟨rfl, rfl, rfl⟩


theorem forall₂_iff_get {α β : Type} {R : α → β → Prop} {xs : List α} {ys : List β} :
    List.Forall₂ R xs ys ↔ xs.length = ys.length ∧ ∀ (k : Nat) (x : α) (y : β), xs[k]? = some x → ys[k]? = some y → R x y := by
  constructor
  · intro h
    refine ⟨h.length_eq, ?_⟩
    intro k x y hx hy
    obtain ⟨y', hy', hr⟩ := forall₂_get h hx
    rw [hy] at hy'
    injection hy' with hy'
    subst hy'
    exact hr
  · rintro ⟨h1, h2⟩
    induction xs generalizing ys with
    | nil =>
      cases ys with
      | nil => exact .nil
      | cons => simp at h1
    | cons a as ih =>
      cases ys with
      | nil => simp at h1
      | cons b bs =>
        refine .cons (h2 0 a b rfl rfl) (ih (by simpa using h1) ?_)
        intro k x y hx hy
        exact h2 (k + 1) x y (by simpa using hx) (by simpa using hy)

theorem get_of_length {α β : Type} {xs : List α} {ys : List β} (h : xs.length = ys.length) {k : Nat} {x : α}
    (hx : xs[k]? = some x) : ∃ y, ys[k]? = some y := by
  obtain ⟨hk, -⟩ := List.getElem?_eq_some_iff.mp hx
  exact ⟨ys[k]'(h ▸ hk), List.getElem?_eq_getElem (h ▸ hk)⟩

/-- Preparing and finishing one input together are one step. -/
theorem step_iff {C : Crypto} {s : Signer} {d : List (Bytes × Unspent)} {segwitTx : Bool} {Y : TxObj}
    {t : Spec.Tx} (hY : Skel Y t) (hi : t.inputs.length < 2 ^ 64) (ho : t.outputs.length < 2 ^ 64)
    {k : Nat} {x r : TxIn} {p : Prepared} {ti : Spec.TxInput} (hti : t.inputs[k]? = some ti)
    (hp : prepareInput C s d x = .ok p) (hk : Y.ins[k]? = some p.input) :
    FinishAt C s segwitTx Y k p r ↔ StepAt C s d segwitTx t k ti x r := by
  unfold FinishAt StepAt
  unfold prepareInput at hp
  cases hl : d.lookup (x.txid ++ x.txindex) with
  | none =>
    rw [hl] at hp
    injection hp with hp
    subst hp
    rfl
  | some u =>
    rw [hl] at hp
    dsimp only at hp ⊢
    cases hs : s.scriptcode C with
    | error e => rw [hs] at hp; cases hp
    | ok o =>
      rw [hs] at hp
      cases o with
      | none => cases hp
      | some sc =>
        dsimp only at hp
        cases hv : intToVarint sc.length with
        | error e => rw [hv] at hp; cases hp
        | ok l =>
          rw [hv] at hp
          dsimp only at hp
          obtain ⟨hscl, rfl⟩ := intToVarint_ok hv
          cases hsg : u.segwit.getD false with
          | true =>
            have hseg : u.isSegwit = true := hsg
            rw [hsg, if_pos rfl] at hp
            cases ha : toBytesLE u.amount 8 with
            | error e => rw [ha] at hp; cases hp
            | ok a =>
              rw [ha] at hp
              injection hp with hp
              obtain ⟨h1, h2, h3⟩ := toBytesLE_eq_ok ha
              have hpre := preimage_segwit (C := C) (sc := sc) (amount := u.amount.toNat) hY hi ho hk hti
                (by rw [← hp, h3, leEncode_eq]) (by rw [← hp])
              subst hp
              dsimp only
              rw [hpre]
              simp only [signInput_iff, hseg, if_true]
              constructor
              · rintro ⟨h, he, script, witness, len, h4, h5, h6⟩
                injection he with he
                subst he
                exact ⟨sc, script, witness, len, rfl, hscl, fun _ => ⟨h1, by norm_num at h2 ⊢; exact h2⟩,
                  h4, h5, h6⟩
              · rintro ⟨sc', script, witness, len, he, -, -, h4, h5, h6⟩
                injection he with he
                injection he with he
                subst he
                exact ⟨_, rfl, script, witness, len, h4, h5, h6⟩
          | false =>
            have hseg : u.isSegwit = false := hsg
            rw [hsg, if_neg (by simp)] at hp
            injection hp with hp
            have hpre := preimage_legacy (C := C) (sc := sc) hY hi ho hk
                (by rw [← hp]) (by rw [← hp])
            subst hp
            dsimp only
            rw [hpre]
            simp only [signInput_iff, hseg, Bool.false_eq_true, if_false]
            constructor
            · rintro ⟨h, he, script, witness, len, h4, h5, h6⟩
              injection he with he
              subst he
              exact ⟨sc, script, witness, len, rfl, hscl, fun h => h.elim,
                h4, h5, h6⟩
            · rintro ⟨sc', script, witness, len, he, -, -, h4, h5, h6⟩
              injection he with he
              injection he with he
              subst he
              exact ⟨_, rfl, script, witness, len, h4, h5, h6⟩

/-- `StepAt` is only possible for inputs that can be prepared. -/
theorem prepare_of_step {C : Crypto} {s : Signer} {d : List (Bytes × Unspent)} {segwitTx : Bool}
    {t : Spec.Tx} {k : Nat} {x r : TxIn} {ti : Spec.TxInput} (h : StepAt C s d segwitTx t k ti x r) :
    ∃ p, prepareInput C s d x = .ok p := by
  unfold StepAt at h
  unfold prepareInput
  split at h
  · rename_i hl; rw [hl]; exact ⟨_, rfl⟩
  · rename_i u hl
    rw [hl]
    obtain ⟨sc, script, witness, len, h1, h2, h3, -⟩ := h
    dsimp only
    rw [h1]
    dsimp only
    rw [intToVarint_compact h2]
    dsimp only
    split
    · rename_i hs
      obtain ⟨h4, h5⟩ := h3 hs
      have : toBytesLE u.amount 8 = .ok (leBytes 8 u.amount.toNat) := by
        unfold toBytesLE
        rw [if_pos ⟨h4, by norm_num; omega⟩]
      rw [this]
      exact ⟨_, rfl⟩
    · exact ⟨_, rfl⟩

/-- Signing succeeds exactly if every input can be signed on its own, and then it does just that. -/
theorem signTxObj_iff {C : Crypto} {s : Signer} {x x' : TxObj} {us : List Unspent} {t : Spec.Tx}
    (hx : Skel x t) (hi : t.inputs.length < 2 ^ 64) (ho : t.outputs.length < 2 ^ 64) :
    signTxObj C s x us = .ok x' ↔
      ∃ d segwitTx, inputDict C s us [] = .ok d ∧ x.isSegwit = .ok segwitTx ∧
        x' = { x with ins := x'.ins } ∧ x'.ins.length = x.ins.length ∧
        ∀ k xk x'k ti, x.ins[k]? = some xk → x'.ins[k]? = some x'k → t.inputs[k]? = some ti →
          StepAt C s d segwitTx t k ti xk x'k := by
  have hskel : ∀ {d ps}, List.Forall₂ (fun i p => prepareInput C s d i = .ok p) x.ins ps →
      Skel { x with ins := ps.map Prepared.input } t := by
    intro d ps hps
    refine ⟨hx.version, ?_, hx.outputs, hx.lockTime⟩
    dsimp only
    have h1 := forall₂_iff_get.mp hps
    have h2 := forall₂_iff_get.mp hx.inputs
    refine forall₂_iff_get.mpr ⟨by rw [List.length_map, ← h1.1, h2.1], ?_⟩
    intro k y z hy hz
    rw [List.getElem?_map, Option.map_eq_some_iff] at hy
    obtain ⟨p, hp, rfl⟩ := hy
    obtain ⟨xk, hxk⟩ := get_of_length h1.1.symm hp
    obtain ⟨e1, e2, e3⟩ := prepareInput_skel (h1.2 k xk p hxk hp)
    have := h2.2 k xk z hxk hz
    exact ⟨e1.trans this.txid, e2.trans this.txindex, e3.trans this.sequence⟩
  constructor
  · intro h
    unfold signTxObj at h
    split at h
    · cases h
    · rename_i d hd
      split at h
      · cases h
      · rename_i sg hsg
        split at h
        · cases h
        · rename_i ps hps
          split at h
          · cases h
          · rename_i hs hhs
            split at h
            · cases h
            · rename_i ins hins
              injection h with h
              subst h
              have hps' := prepareInputs_iff.mp hps
              have hp := forall₂_iff_get.mp hps'
              obtain ⟨hl, hf⟩ := finish_iff.mp ⟨hs, hhs, hins⟩
              refine ⟨d, sg, hd, hsg, rfl, by dsimp only; rw [hl, hp.1], ?_⟩
              intro k xk x'k ti hxk hx'k hti
              obtain ⟨p, hpk⟩ := get_of_length hp.1 hxk
              have := hf k p x'k hpk hx'k
              rw [Nat.zero_add] at this
              refine (step_iff (hskel hps') hi ho hti (hp.2 k xk p hxk hpk) ?_).mp this
              dsimp only
              rw [List.getElem?_map, hpk]
              rfl
  · rintro ⟨d, sg, hd, hsg, hx', hlen, hsteps⟩
    have hlt : x.ins.length = t.inputs.length := hx.inputs.length_eq
    have hps : ∃ ps, prepareInputs C s d x.ins = .ok ps := by
      have : ∀ (l : List TxIn), (∀ y ∈ l, ∃ p, prepareInput C s d y = .ok p) →
          ∃ ps, prepareInputs C s d l = .ok ps := by
        intro l
        induction l with
        | nil => intro _; exact ⟨[], rfl⟩
        | cons a l ih =>
          intro h
          obtain ⟨p, hp⟩ := h a List.mem_cons_self
          obtain ⟨ps, hps⟩ := ih fun y hy => h y (List.mem_cons_of_mem _ hy)
          exact ⟨p :: ps, by rw [prepareInputs, hp, hps]⟩
      apply this
      intro y hy
      obtain ⟨k, hk⟩ := List.mem_iff_getElem?.mp hy
      obtain ⟨r, hr⟩ := get_of_length hlen.symm hk
      obtain ⟨ti, hti⟩ := get_of_length hlt hk
      exact prepare_of_step (hsteps k y r ti hk hr hti)
    obtain ⟨ps, hps⟩ := hps
    have hps' := prepareInputs_iff.mp hps
    have hp := forall₂_iff_get.mp hps'
    obtain ⟨hs, h1, h2⟩ := (finish_iff (C := C) (s := s) (segwitTx := sg)
      (Y := { x with ins := ps.map Prepared.input }) (ps := ps) (k := 0) (is := x'.ins)).mpr
      ⟨by rw [hlen, hp.1], by
        intro j p r hpj hrj
        obtain ⟨xj, hxj⟩ := get_of_length hp.1.symm hpj
        obtain ⟨ti, hti⟩ := get_of_length hlt hxj
        rw [Nat.zero_add]
        refine (step_iff (hskel hps') hi ho hti (hp.2 j xj p hxj hpj) ?_).mpr (hsteps j xj r ti hxj hrj hti)
        dsimp only
        rw [List.getElem?_map, hpj]
        rfl⟩
    unfold signTxObj
    rw [hd]
    dsimp only
    rw [hsg]
    dsimp only
    rw [hps]
    dsimp only
    rw [h1]
    dsimp only
    rw [h2]
    dsimp only
    rw [← hx']

/-! ### the dictionary of unspents -/

theorem inputDict_mem {C : Crypto} {s : Signer} : ∀ {us : List Unspent} {d0 d : List (Bytes × Unspent)},
    inputDict C s us d0 = .ok d → ∀ e, e ∈ d ↔ (e ∈ d0 ∨
      (e.2 ∈ us ∧ s.canSignUnspent C e.2 = .ok true ∧ outpointOf e.2 = .ok e.1))
  | [], d0, d, h, e => by
    injection h with h; subst h; simp
  | u :: us, d0, d, h, e => by
    rw [inputDict] at h
    split at h
    · cases h
    · rename_i hc
      rw [inputDict_mem h e]
      constructor
      · rintro (h | ⟨h1, h2, h3⟩)
        · exact Or.inl h
        · exact Or.inr ⟨List.mem_cons_of_mem _ h1, h2, h3⟩
      · rintro (h | ⟨h1, h2, h3⟩)
        · exact Or.inl h
        · rcases List.mem_cons.mp h1 with h1 | h1
          · rw [h1, hc] at h2; cases h2
          · exact Or.inr ⟨h1, h2, h3⟩
    · rename_i hc
      split at h
      · cases h
      · rename_i key hkey
        rw [inputDict_mem h e]
        constructor
        · rintro (h | ⟨h1, h2, h3⟩)
          · rcases List.mem_cons.mp h with h | h
            · right; rw [h]; exact ⟨List.mem_cons_self, hc, hkey⟩
            · exact Or.inl h
          · exact Or.inr ⟨List.mem_cons_of_mem _ h1, h2, h3⟩
        · rintro (h | ⟨h1, h2, h3⟩)
          · exact Or.inl (List.mem_cons_of_mem _ h)
          · rcases List.mem_cons.mp h1 with h1 | h1
            · left
              rw [h1, hkey] at h3
              injection h3 with h3
              rw [show e = (key, u) from Prod.ext h3.symm h1]
              exact List.mem_cons_self
            · exact Or.inr ⟨h1, h2, h3⟩

/-- The given unspent can be signed by the key and has that outpoint. -/
def Mine (C : Crypto) (s : Signer) (outpoint : Bytes) (u : Unspent) : Prop :=
  s.canSignUnspent C u = .ok true ∧ outpointOf u = .ok outpoint

theorem lookup_mem {d : List (Bytes × Unspent)} {key : Bytes} {u : Unspent} (h : d.lookup key = some u) :
    (key, u) ∈ d := by
  induction d with
  | nil => cases h
  | cons e d ih =>
    obtain ⟨k, v⟩ := e
    rw [List.lookup_cons] at h
    split at h
    · rename_i hk
      have : key = k := by simpa using hk
      subst this
      injection h with h
      subst h
      exact List.mem_cons_self
    · exact List.mem_cons_of_mem _ (ih h)

theorem lookup_none {d : List (Bytes × Unspent)} {key : Bytes} (h : d.lookup key = none) (u : Unspent) :
    (key, u) ∉ d := by
  induction d with
  | nil => simp
  | cons e d ih =>
    obtain ⟨k, v⟩ := e
    rw [List.lookup_cons] at h
    split at h
    · cases h
    · rename_i hk
      have hk : key ≠ k := by simpa using hk
      intro hm
      rcases List.mem_cons.mp hm with hm | hm
      · exact hk (congrArg Prod.fst hm)
      · exact ih h hm

theorem dict_some {C : Crypto} {s : Signer} {us : List Unspent} {d : List (Bytes × Unspent)}
    (hd : inputDict C s us [] = .ok d) {key : Bytes} {u : Unspent} (h : d.lookup key = some u) :
    u ∈ us ∧ Mine C s key u := by
  have := (inputDict_mem hd (key, u)).mp (lookup_mem h)
  simpa [Mine] using this

theorem dict_none {C : Crypto} {s : Signer} {us : List Unspent} {d : List (Bytes × Unspent)}
    (hd : inputDict C s us [] = .ok d) {key : Bytes} :
    d.lookup key = none ↔ ∀ u ∈ us, ¬ Mine C s key u := by
  constructor
  · intro h u hu hm
    exact lookup_none h u ((inputDict_mem hd (key, u)).mpr (Or.inr ⟨hu, hm.1, hm.2⟩))
  · intro h
    cases hl : d.lookup key with
    | none => rfl
    | some u =>
      obtain ⟨h1, h2⟩ := dict_some hd hl
      exact absurd h2 (h u h1)

end Bit
