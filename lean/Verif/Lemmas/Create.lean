import Verif.Lemmas.SignMultiTx
import Verif.Props.Build
/-
Lemmas on `create_new_transaction`: signing does not look at the fields `amount` and `segwit_input` of
an input, so that signing the object just built is signing its serialisation.
-/
namespace Bit

def TxIn.core (i : TxIn) : TxIn := { i with amount := none, segwitInput := false }

def Prepared.core (p : Prepared) : Prepared := { p with input := p.input.core }

def TxObj.core (x : TxObj) : TxObj := { x with ins := x.ins.map TxIn.core }

theorem TxIn.core_core (i : TxIn) : i.core.core = i.core := rfl

theorem prepareInput_core (C : Crypto) (s : Signer) (d : List (Bytes × Unspent)) (i : TxIn) :
    (prepareInput C s d i.core).map Prepared.core = (prepareInput C s d i).map Prepared.core := by
  unfold prepareInput
  have e : i.core.txid ++ i.core.txindex = i.txid ++ i.txindex := rfl
  rw [e]
  cases d.lookup (i.txid ++ i.txindex) with
  | none => rfl
  | some u =>
    dsimp only
    cases s.scriptcode C with
    | error e => rfl
    | ok sc =>
      cases sc with
      | none => rfl
      | some sc =>
        dsimp only
        cases intToVarint sc.length with
        | error e => rfl
        | ok l =>
          dsimp only
          by_cases hs : u.segwit.getD false = true
          · rw [if_pos hs, if_pos hs]
            cases toBytesLE u.amount 8 with
            | error e => rfl
            | ok a => rfl
          · rw [if_neg hs, if_neg hs]
            rfl

theorem prepareInputs_core (C : Crypto) (s : Signer) (d : List (Bytes × Unspent)) : ∀ (is : List TxIn),
    (prepareInputs C s d (is.map TxIn.core)).map (List.map Prepared.core) =
      (prepareInputs C s d is).map (List.map Prepared.core)
  | [] => rfl
  | i :: is => by
    have h1 := prepareInput_core C s d i
    have h2 := prepareInputs_core C s d is
    rw [List.map_cons, prepareInputs, prepareInputs]
    cases ha : prepareInput C s d i.core with
    | error e =>
      rw [ha] at h1
      cases hb : prepareInput C s d i with
      | error e' => rw [hb] at h1; simpa [Except.map] using h1
      | ok p => rw [hb] at h1; simp [Except.map] at h1
    | ok p =>
      rw [ha] at h1
      cases hb : prepareInput C s d i with
      | error e' => rw [hb] at h1; simp [Except.map] at h1
      | ok p' =>
        rw [hb] at h1
        dsimp only
        cases hc : prepareInputs C s d (is.map TxIn.core) with
        | error e =>
          rw [hc] at h2
          cases hd : prepareInputs C s d is with
          | error e' => rw [hd] at h2; simpa [Except.map] using h2
          | ok ps => rw [hd] at h2; simp [Except.map] at h2
        | ok ps =>
          rw [hc] at h2
          cases hd : prepareInputs C s d is with
          | error e' => rw [hd] at h2; simp [Except.map] at h2
          | ok ps' =>
            rw [hd] at h2
            simp only [Except.map, Except.ok.injEq, List.map_cons] at h1 h2 ⊢
            rw [h1, h2]

theorem preimage_core (C : Crypto) (tx : TxObj) (k : Nat) (ht : Bytes) (sg : Bool) :
    preimage C tx.core k ht sg = preimage C tx k ht sg := by
  unfold preimage TxObj.core
  dsimp only
  rw [List.length_map, List.getElem?_map]
  cases hi : tx.ins[k]? with
  | none => rfl
  | some i =>
    simp only [Option.map_some, List.flatMap_map, ← List.map_take, ← List.map_drop]
    rfl

theorem calculatePreimages_core (C : Crypto) (tx : TxObj) : ∀ ps : List (Nat × Bytes × Bool),
    calculatePreimages C tx.core ps = calculatePreimages C tx ps
  | [] => rfl
  | (i, h, sg) :: ps => by
    rw [calculatePreimages, calculatePreimages, preimage_core, calculatePreimages_core]

theorem inputsParameters_core : ∀ (k : Nat) (ps : List Prepared),
    inputsParameters k (ps.map Prepared.core) = inputsParameters k ps
  | _, [] => rfl
  | k, p :: ps => by
    rw [List.map_cons, inputsParameters, inputsParameters, inputsParameters_core]
    rfl

theorem signInput_core (C : Crypto) (s : Signer) (a b : Bool) (hash field : Bytes) (i : TxIn) :
    (signInput C s a b hash field i.core).map TxIn.core = (signInput C s a b hash field i).map TxIn.core := by
  unfold signInput
  cases signBytes C s a b hash field with
  | error e => rfl
  | ok r =>
    dsimp only
    cases intToVarint r.1.length with
    | error e => rfl
    | ok l => rfl

theorem signInputs_core (C : Crypto) (s : Signer) (a : Bool) : ∀ (ps : List Prepared) (hs : List Bytes),
    (signInputs C s a (ps.map Prepared.core) hs).map (List.map TxIn.core) =
      (signInputs C s a ps hs).map (List.map TxIn.core)
  | [], _ => rfl
  | p :: ps, hs => by
    rw [List.map_cons, signInputs, signInputs]
    have e : p.core.sign = p.sign := rfl
    rw [e]
    cases p.sign with
    | none =>
      dsimp only
      have h2 := signInputs_core C s a ps hs
      cases hc : signInputs C s a (ps.map Prepared.core) hs with
      | error e =>
        rw [hc] at h2
        cases hd : signInputs C s a ps hs with
        | error e' => rw [hd] at h2; simpa [Except.map] using h2
        | ok l => rw [hd] at h2; simp [Except.map] at h2
      | ok l =>
        rw [hc] at h2
        cases hd : signInputs C s a ps hs with
        | error e' => rw [hd] at h2; simp [Except.map] at h2
        | ok l' =>
          rw [hd] at h2
          simp only [Except.map, Except.ok.injEq, List.map_cons] at h2 ⊢
          rw [h2]
          rfl
    | some sg =>
      cases hs with
      | nil => rfl
      | cons hash hs =>
        dsimp only
        have h1 := signInput_core C s a sg hash p.field p.input
        have h2 := signInputs_core C s a ps hs
        have e1 : signInput C s a sg hash p.core.field p.core.input =
          signInput C s a sg hash p.field p.input.core := rfl
        rw [e1]
        cases ha : signInput C s a sg hash p.field p.input.core with
        | error e =>
          rw [ha] at h1
          cases hb : signInput C s a sg hash p.field p.input with
          | error e' => rw [hb] at h1; simpa [Except.map] using h1
          | ok p => rw [hb] at h1; simp [Except.map] at h1
        | ok i =>
          rw [ha] at h1
          cases hb : signInput C s a sg hash p.field p.input with
          | error e' => rw [hb] at h1; simp [Except.map] at h1
          | ok i' =>
            rw [hb] at h1
            dsimp only
            cases hc : signInputs C s a (ps.map Prepared.core) hs with
            | error e =>
              rw [hc] at h2
              cases hd : signInputs C s a ps hs with
              | error e' => rw [hd] at h2; simpa [Except.map] using h2
              | ok l => rw [hd] at h2; simp [Except.map] at h2
            | ok l =>
              rw [hc] at h2
              cases hd : signInputs C s a ps hs with
              | error e' => rw [hd] at h2; simp [Except.map] at h2
              | ok l' =>
                rw [hd] at h2
                simp only [Except.map, Except.ok.injEq, List.map_cons] at h1 h2 ⊢
                rw [h1, h2]

theorem bytes_core (x : TxObj) : x.core.bytes = x.bytes := by
  unfold TxObj.bytes TxObj.body TxObj.core
  simp only [List.length_map, List.flatMap_map]
  rfl

theorem signTxObj_core (C : Crypto) (s : Signer) (x : TxObj) (us : List Unspent) :
    (signTxObj C s x.core us).map TxObj.core = (signTxObj C s x us).map TxObj.core := by
  unfold signTxObj
  cases inputDict C s us [] with
  | error e => rfl
  | ok d =>
    dsimp only
    have e : x.core.isSegwit = x.isSegwit := by
      unfold TxObj.isSegwit
      rw [bytes_core]
    rw [e]
    cases x.isSegwit with
    | error e => rfl
    | ok sg =>
      dsimp only
      have h1 := prepareInputs_core C s d x.ins
      have e1 : x.core.ins = x.ins.map TxIn.core := rfl
      rw [e1]
      cases ha : prepareInputs C s d (x.ins.map TxIn.core) with
      | error e =>
        rw [ha] at h1
        cases hb : prepareInputs C s d x.ins with
        | error e' => rw [hb] at h1; simpa [Except.map] using h1
        | ok p => rw [hb] at h1; simp [Except.map] at h1
      | ok ps =>
        rw [ha] at h1
        cases hb : prepareInputs C s d x.ins with
        | error e' => rw [hb] at h1; simp [Except.map] at h1
        | ok ps' =>
          rw [hb] at h1
          simp only [Except.map, Except.ok.injEq] at h1
          dsimp only
          have e2 : ∀ (y : TxObj) (qs : List Prepared), calculatePreimages C { y with ins := qs.map Prepared.input }
              (inputsParameters 0 qs) = calculatePreimages C
                { y with ins := (qs.map Prepared.core).map Prepared.input } (inputsParameters 0 (qs.map Prepared.core)) := by
            intro y qs
            rw [inputsParameters_core]
            rw [← calculatePreimages_core]
            have : ({ y with ins := (qs.map Prepared.core).map Prepared.input } : TxObj) =
                ({ y with ins := qs.map Prepared.input } : TxObj).core := by
              unfold TxObj.core
              simp [Function.comp_def, Prepared.core]
            rw [this]
          have e3 : calculatePreimages C { x.core with ins := ps.map Prepared.input } (inputsParameters 0 ps) =
              calculatePreimages C { x with ins := ps'.map Prepared.input } (inputsParameters 0 ps') := by
            rw [e2, e2 x ps', h1]
            rfl
          rw [e3]
          cases calculatePreimages C { x with ins := ps'.map Prepared.input } (inputsParameters 0 ps') with
          | error e => rfl
          | ok hashes =>
            dsimp only
            have h3 := signInputs_core C s sg ps hashes
            rw [h1, signInputs_core C s sg ps' hashes] at h3
            cases hc : signInputs C s sg ps hashes with
            | error e =>
              rw [hc] at h3
              cases hd : signInputs C s sg ps' hashes with
              | error e' => rw [hd] at h3; simpa [Except.map, eq_comm] using h3
              | ok l => rw [hd] at h3; simp [Except.map] at h3
            | ok l =>
              rw [hc] at h3
              cases hd : signInputs C s sg ps' hashes with
              | error e' => rw [hd] at h3; simp [Except.map] at h3
              | ok l' =>
                rw [hd] at h3
                simp only [Except.map, Except.ok.injEq] at h3 ⊢
                unfold TxObj.core
                simp only [TxObj.mk.injEq, true_and, and_true]
                exact h3.symm

theorem signTx_core (C : Crypto) (s : Signer) (x : TxObj) (us : List Unspent) :
    signTx C s x.core us = signTx C s x us := by
  have h := signTxObj_core C s x us
  unfold signTx
  cases ha : signTxObj C s x.core us with
  | error e =>
    rw [ha] at h
    cases hb : signTxObj C s x us with
    | error e' => rw [hb] at h; simpa [Except.map] using h
    | ok p => rw [hb] at h; simp [Except.map] at h
  | ok y =>
    rw [ha] at h
    cases hb : signTxObj C s x us with
    | error e' => rw [hb] at h; simp [Except.map] at h
    | ok y' =>
      rw [hb] at h
      simp only [Except.map, Except.ok.injEq] at h
      dsimp only
      unfold TxObj.toHex
      rw [← bytes_core y, h, bytes_core]

theorem inRepresents_core {w : Bool} {a b : TxIn} {i : Spec.TxInput} (ha : InRepresents w a i)
    (hb : InRepresents w b i) : a.core = b.core := by
  unfold TxIn.core
  rw [TxIn.mk.injEq]
  exact ⟨ha.script.trans hb.script.symm, ha.scriptLen.trans hb.scriptLen.symm, ha.txid.trans hb.txid.symm,
    ha.txindex.trans hb.txindex.symm, ha.witness.trans hb.witness.symm, rfl, ha.sequence.trans hb.sequence.symm, rfl⟩

theorem represents_core {w : Bool} {x y : TxObj} {t : Spec.Tx} (hx : Represents w x t) (hy : Represents w y t) :
    x.core = y.core := by
  unfold TxObj.core
  rw [TxObj.mk.injEq]
  refine ⟨hx.version.trans hy.version.symm, ?_, ?_, hx.lockTime.trans hy.lockTime.symm⟩
  · have key : ∀ {xs ys : List TxIn} {is : List Spec.TxInput}, List.Forall₂ (InRepresents w) xs is →
        List.Forall₂ (InRepresents w) ys is → xs.map TxIn.core = ys.map TxIn.core := by
      intro xs ys is h
      induction h generalizing ys with
      | nil => intro h; cases h; rfl
      | cons a _ ih =>
        intro h
        cases h with
        | cons b h => rw [List.map_cons, List.map_cons, inRepresents_core a b, ih h]
    exact key hx.inputs hy.inputs
  · have key : ∀ {xs ys : List TxOut} {os : List Spec.TxOutput}, List.Forall₂ OutRepresents xs os →
        List.Forall₂ OutRepresents ys os → xs = ys := by
      intro xs ys os h
      induction h generalizing ys with
      | nil => intro h; cases h; rfl
      | cons a _ ih =>
        intro h
        cases h with
        | cons b h =>
          rw [ih h]
          congr 1
          rename_i x _ _ _ _ y _ 
          cases x
          cases y
          rw [TxOut.mk.injEq]
          exact ⟨a.amount.trans b.amount.symm, a.scriptLen.trans b.scriptLen.symm, a.script.trans b.script.symm⟩
    exact key hx.outputs hy.outputs

/-- Signing an object is signing its serialisation. -/
theorem signTx_represents {C : Crypto} {s : Signer} {w : Bool} {x : TxObj} {t : Spec.Tx} (hx : Represents w x t)
    (hwf : t.WF) (us : List Unspent) :
    signTx C s x us = signTransactionHex C s (bytesToHex (enc w t)) us := by
  obtain ⟨y, hy, hrep⟩ := deserialize_enc hwf w
  unfold signTransactionHex
  rw [deserializeHex_bytesToHex, hy]
  dsimp only
  rw [← signTx_core, represents_core hx hrep, signTx_core]

/-- The input `i` takes the coin `u`. -/
structure Takes (u : Unspent) (i : Spec.TxInput) : Prop where
  txid : u.txid = bytesToHex i.prevTxid.reverse
  index : (i.prevIndex : Int) = u.txindex
  sequence : (i.sequence : Int) = u.sequence

/-- The output `o` is the one asked for: a payment to an address, or a message with amount zero. -/
structure Pays (C : Crypto) (d : Dest) (n : Int) (o : Spec.TxOutput) : Prop where
  value : (o.value : Int) = n
  payment : n ≠ 0 → ∃ a, d = .str a ∧ addressToScriptpubkey C a = .ok (some o.script)
  message : n = 0 → ∃ b, d = .bytes b ∧ o.script = 0x6a :: UInt8.ofNat b.length :: b

/-- The transaction id is given by 64 hexadecimal digits. -/
def TxidOk (u : Unspent) : Prop := ∃ b : Bytes, b.length = 32 ∧ u.txid = bytesToHex b

theorem unsignedInput_ok {u : Unspent} {x : TxIn} (htx : TxidOk u) (h : unsignedInput u = .ok x) :
    ∃ i : Spec.TxInput, i.WF ∧ Takes u i ∧ i.script = [] ∧ i.witness = [] ∧ InRepresents false x i ∧
      x.segwitInput = u.isSegwit ∧ 0 ≤ u.amount ∧ u.amount < 2 ^ 64 := by
  obtain ⟨b, hb, hu⟩ := htx
  unfold unsignedInput at h
  rw [hu, hexToBytes_bytesToHex] at h
  dsimp only at h
  cases h1 : toBytesLE u.txindex 4 with
  | error e => rw [h1] at h; cases h
  | ok ix =>
    rw [h1] at h
    dsimp only at h
    cases h2 : toBytesLE u.amount 8 with
    | error e => rw [h2] at h; cases h
    | ok am =>
      rw [h2] at h
      dsimp only at h
      cases h3 : toBytesLE u.sequence 4 with
      | error e => rw [h3] at h; cases h
      | ok sq =>
        rw [h3] at h
        dsimp only at h
        obtain ⟨a1, a2, a3⟩ := toBytesLE_eq_ok h1
        obtain ⟨b1, b2, -⟩ := toBytesLE_eq_ok h2
        obtain ⟨c1, c2, c3⟩ := toBytesLE_eq_ok h3
        norm_num at a2 b2 c2
        unfold mkTxIn at h
        rw [intToVarint_compact (by simp)] at h
        simp only [Except.ok.injEq] at h
        subst h
        refine ⟨⟨b.reverse, u.txindex.toNat, [], u.sequence.toNat, []⟩, ⟨?_, ?_, ?_, ?_, ?_, ?_⟩, ⟨?_, ?_, ?_⟩, rfl,
          rfl, ⟨rfl, ?_, rfl, rfl, ?_, rfl⟩, rfl, b1, ?_⟩
        · simpa using hb
        · show u.txindex.toNat < 2 ^ 32
          omega
        · simp
        · show u.sequence.toNat < 2 ^ 32
          omega
        · simp
        · simp
        · rw [List.reverse_reverse]; exact hu
        · show (u.txindex.toNat : Int) = _
          omega
        · show (u.sequence.toNat : Int) = _
          omega
        · rw [leEncode_eq]; exact a3
        · rw [leEncode_eq]; exact c3
        · omega

theorem unsignedInputs_ok : ∀ {us : List Unspent} {xs : List TxIn}, (∀ u ∈ us, TxidOk u) →
    unsignedInputs us = .ok xs →
    ∃ is : List Spec.TxInput, (∀ i ∈ is, i.WF ∧ i.script = [] ∧ i.witness = []) ∧ List.Forall₂ Takes us is ∧
      List.Forall₂ (InRepresents false) xs is ∧ xs.map TxIn.segwitInput = us.map Unspent.isSegwit ∧
      ∀ u ∈ us, 0 ≤ u.amount ∧ u.amount < 2 ^ 64
  | [], xs, _, h => by
    injection h with h
    subst h
    exact ⟨[], by simp, .nil, .nil, rfl, by simp⟩
  | u :: us, xs, htx, h => by
    rw [unsignedInputs] at h
    cases h1 : unsignedInput u with
    | error e => rw [h1] at h; cases h
    | ok x =>
      rw [h1] at h
      dsimp only at h
      cases h2 : unsignedInputs us with
      | error e => rw [h2] at h; cases h
      | ok l =>
        rw [h2] at h
        simp only [Except.ok.injEq] at h
        subst h
        obtain ⟨i, b1, b2, b3, b4, b5, b6, b7⟩ := unsignedInput_ok (htx u List.mem_cons_self) h1
        obtain ⟨is, c1, c2, c3, c4, c5⟩ :=
          unsignedInputs_ok (fun v hv => htx v (List.mem_cons_of_mem _ hv)) h2
        refine ⟨i :: is, ?_, .cons b2 c2, .cons b5 c3, ?_, ?_⟩
        · intro a ha
          rcases List.mem_cons.mp ha with rfl | ha
          · exact ⟨b1, b3, b4⟩
          · exact c1 a ha
        · rw [List.map_cons, List.map_cons, b6, c4]
        · intro v hv
          rcases List.mem_cons.mp hv with rfl | hv
          · exact b7
          · exact c5 v hv

theorem mkTxOut_ok {a s : Bytes} {o : TxOut} (h : mkTxOut a s = .ok o) :
    s.length < 2 ^ 64 ∧ o = ⟨a, Spec.compact s.length, s⟩ := by
  unfold mkTxOut at h
  cases h1 : intToVarint s.length with
  | error e => rw [h1] at h; cases h
  | ok l =>
    rw [h1] at h
    simp only [Except.ok.injEq] at h
    obtain ⟨h2, h3⟩ := intToVarint_ok h1
    subst h3
    exact ⟨h2, h.symm⟩

theorem constructOutput_ok {C : Crypto} {d : Dest} {n : Int} {x : TxOut} (h : constructOutput C d n = .ok x) :
    ∃ o : Spec.TxOutput, o.WF ∧ Pays C d n o ∧ OutRepresents x o := by
  unfold constructOutput at h
  by_cases hn : n = 0
  · rw [if_neg (by simpa using hn)] at h
    subst hn
    cases d with
    | str s =>
      dsimp only at h
      cases h1 : toBytesLE s.length 1 with
      | error e => rw [h1] at h; cases h
      | ok l => rw [h1] at h; cases h
    | bytes b =>
      dsimp only at h
      cases h1 : toBytesLE b.length 1 with
      | error e => rw [h1] at h; cases h
      | ok l =>
        rw [h1] at h
        dsimp only at h
        obtain ⟨h2, rfl⟩ := mkTxOut_ok h
        obtain ⟨c1, c2, c3⟩ := toBytesLE_eq_ok h1
        rw [Int.toNat_natCast] at c3
        norm_num at c2
        have c2 : b.length < 256 := by omega
        rw [leBytes_one c2] at c3
        refine ⟨⟨0, [0x6a] ++ l ++ b⟩, ⟨by simp, h2⟩, ⟨rfl, fun h => absurd rfl h, fun _ => ⟨b, rfl, ?_⟩⟩, ⟨?_, rfl, rfl⟩⟩
        · rw [c3]; rfl
        · show [0, 0, 0, 0, 0, 0, 0, 0] = Spec.leEncode 8 0
          decide
  · rw [if_pos hn] at h
    cases d with
    | bytes b => cases h
    | str a =>
      dsimp only at h
      cases h1 : addressToScriptpubkey C a with
      | error e => rw [h1] at h; cases h
      | ok sc =>
        rw [h1] at h
        dsimp only at h
        cases h2 : toBytesLE n 8 with
        | error e => rw [h2] at h; cases h
        | ok am =>
          rw [h2] at h
          dsimp only at h
          cases sc with
          | none => cases h
          | some sc =>
            dsimp only at h
            obtain ⟨h3, rfl⟩ := mkTxOut_ok h
            obtain ⟨c1, c2, c3⟩ := toBytesLE_eq_ok h2
            norm_num at c2
            refine ⟨⟨n.toNat, sc⟩, ⟨?_, h3⟩, ⟨?_, fun _ => ⟨a, rfl, h1⟩, fun h => absurd h hn⟩, ⟨?_, rfl, rfl⟩⟩
            · show n.toNat < 2 ^ 64
              omega
            · show (n.toNat : Int) = n
              omega
            · rw [leEncode_eq]; exact c3

theorem constructOutputs_ok {C : Crypto} : ∀ {reqs : List (Dest × Int)} {xs : List TxOut},
    constructOutputs C reqs = .ok xs →
    ∃ os : List Spec.TxOutput, (∀ o ∈ os, o.WF) ∧ List.Forall₂ (fun q o => Pays C q.1 q.2 o) reqs os ∧
      List.Forall₂ OutRepresents xs os
  | [], xs, h => by
    injection h with h
    subst h
    exact ⟨[], by simp, .nil, .nil⟩
  | (d, n) :: reqs, xs, h => by
    rw [constructOutputs] at h
    cases h1 : constructOutput C d n with
    | error e => rw [h1] at h; cases h
    | ok x =>
      rw [h1] at h
      dsimp only at h
      cases h2 : constructOutputs C reqs with
      | error e => rw [h2] at h; cases h
      | ok l =>
        rw [h2] at h
        simp only [Except.ok.injEq] at h
        subst h
        obtain ⟨o, b1, b2, b3⟩ := constructOutput_ok h1
        obtain ⟨os, c1, c2, c3⟩ := constructOutputs_ok h2
        refine ⟨o :: os, ?_, .cons b2 c2, .cons b3 c3⟩
        intro a ha
        rcases List.mem_cons.mp ha with rfl | ha
        · exact b1
        · exact c1 a ha

theorem forall₂_mem_left {α β : Type} {R : α → β → Prop} {xs : List α} {ys : List β} (h : List.Forall₂ R xs ys) :
    ∀ x ∈ xs, ∃ y ∈ ys, R x y := by
  induction h with
  | nil => simp
  | cons a _ ih =>
    intro x hx
    rcases List.mem_cons.mp hx with rfl | hx
    · exact ⟨_, List.mem_cons_self, a⟩
    · obtain ⟨y, hy, hr⟩ := ih x hx
      exact ⟨y, List.mem_cons_of_mem _ hy, hr⟩

theorem mkTxObj_inputs {xs : List TxIn} {is : List Spec.TxInput} (h : List.Forall₂ (InRepresents false) xs is)
    (hw : ∀ i ∈ is, i.witness = []) (v : Bytes) (outs : List TxOut) (lt : Bytes) :
    List.Forall₂ (InRepresents ((xs.map TxIn.segwitInput).any id)) (mkTxObj v xs outs lt).ins is := by
  have hwx : ∀ x ∈ xs, x.witness = [] := by
    intro x hx
    obtain ⟨i, -, hi⟩ := forall₂_mem_left h x hx
    simpa using hi.witness
  have e : xs.any TxIn.isSegwit = (xs.map TxIn.segwitInput).any id := by
    rw [List.any_map]
    rw [Bool.eq_iff_iff, List.any_eq_true, List.any_eq_true]
    constructor
    · rintro ⟨x, hx, hs⟩
      refine ⟨x, hx, ?_⟩
      unfold TxIn.isSegwit at hs
      rw [hwx x hx] at hs
      simpa using hs
    · rintro ⟨x, hx, hs⟩
      refine ⟨x, hx, ?_⟩
      unfold TxIn.isSegwit
      have : x.segwitInput = true := hs
      rw [this]
      rfl
  unfold mkTxObj
  dsimp only
  rw [e]
  by_cases hb : (xs.map TxIn.segwitInput).any id = true
  · rw [if_pos hb, hb]
    clear e hb
    induction h with
    | nil => exact .nil
    | cons a _ ih =>
      rename_i x i xs is _
      have hx : x.witness = [] := hwx x List.mem_cons_self
      rw [List.map_cons]
      refine .cons ?_ (ih (fun j hj => hw j (List.mem_cons_of_mem _ hj))
        (fun j hj => hwx j (List.mem_cons_of_mem _ hj)))
      rw [hx]
      refine ⟨a.txid, a.txindex, a.script, a.scriptLen, a.sequence, ?_⟩
      rw [hw i List.mem_cons_self]
      rfl
  · rw [if_neg hb]
    have : (xs.map TxIn.segwitInput).any id = false := by simpa using hb
    rw [this]
    exact h

/-- The lengths of the lists are checked when the object is serialised. -/
theorem bytes_lengths {x : TxObj} {b : Bytes} (h : x.bytes = .ok b) :
    x.ins.length < 2 ^ 64 ∧ x.outs.length < 2 ^ 64 := by
  unfold TxObj.bytes at h
  cases h1 : x.body with
  | error e => rw [h1] at h; cases h
  | ok body =>
    unfold TxObj.body at h1
    cases h2 : intToVarint x.ins.length with
    | error e => rw [h2] at h1; cases h1
    | ok n1 =>
      rw [h2] at h1
      dsimp only at h1
      cases h3 : intToVarint x.outs.length with
      | error e => rw [h3] at h1; cases h1
      | ok n2 => exact ⟨(intToVarint_ok h2).1, (intToVarint_ok h3).1⟩

theorem signTx_lengths {C : Crypto} {s : Signer} {x : TxObj} {us : List Unspent} {r : Str}
    (h : signTx C s x us = .ok r) : x.ins.length < 2 ^ 64 ∧ x.outs.length < 2 ^ 64 := by
  unfold signTx at h
  cases h1 : signTxObj C s x us with
  | error e => rw [h1] at h; cases h
  | ok y =>
    unfold signTxObj at h1
    cases h2 : inputDict C s us [] with
    | error e => rw [h2] at h1; cases h1
    | ok d =>
      rw [h2] at h1
      dsimp only at h1
      cases h3 : x.isSegwit with
      | error e => rw [h3] at h1; cases h1
      | ok sg =>
        unfold TxObj.isSegwit at h3
        cases h4 : x.bytes with
        | error e => rw [h4] at h3; cases h3
        | ok b => exact bytes_lengths h4

/-- Creating a transaction is signing an unsigned transaction with the given inputs and outputs, also with any other
functions that give the same output scripts. -/
theorem create_unsigned_any {C : Crypto} {s : Signer} {us : List Unspent} {reqs : List (Dest × Int)} {r : Str}
    (hne : us ≠ []) (htx : ∀ u ∈ us, TxidOk u) (h : createNewTransaction C s us reqs = .ok r) :
    ∃ t : Spec.Tx, t.WF ∧ t.version = 1 ∧ t.lockTime = 0 ∧ List.Forall₂ Takes us t.inputs ∧
      (∀ i ∈ t.inputs, i.script = [] ∧ i.witness = []) ∧
      List.Forall₂ (fun q o => Pays C q.1 q.2 o) reqs t.outputs ∧
      (∀ u ∈ us, 0 ≤ u.amount ∧ u.amount < 2 ^ 64) ∧
      ∀ C', constructOutputs C' reqs = constructOutputs C reqs →
        createNewTransaction C' s us reqs =
          signTransactionHex C' s (bytesToHex (enc (us.any Unspent.isSegwit) t)) us := by
  unfold createNewTransaction at h
  cases h1 : constructOutputs C reqs with
  | error e => rw [h1] at h; cases h
  | ok outs =>
    rw [h1] at h
    dsimp only at h
    cases h2 : unsignedInputs us with
    | error e => rw [h2] at h; cases h
    | ok ins =>
      rw [h2] at h
      dsimp only at h
      obtain ⟨os, o1, o2, o3⟩ := constructOutputs_ok h1
      obtain ⟨is, i1, i2, i3, i4, i5⟩ := unsignedInputs_ok htx h2
      obtain ⟨l1, l2⟩ := signTx_lengths h
      have hin := mkTxObj_inputs i3 (fun i hi => (i1 i hi).2.2) [0x01, 0x00, 0x00, 0x00] outs [0x00, 0x00, 0x00, 0x00]
      have ew : (ins.map TxIn.segwitInput).any id = us.any Unspent.isSegwit := by
        rw [i4, List.any_map]; rfl
      rw [ew] at hin
      have hwf : Spec.Tx.WF ⟨1, is, os, 0⟩ := by
        refine ⟨by simp, ?_, ?_, fun i hi => (i1 i hi).1, ?_, o1, by simp⟩
        · intro he
          have he : is = [] := he
          subst he
          cases i2
          exact hne rfl
        · have := hin.length_eq
          show is.length < 2 ^ 64
          omega
        · have := o3.length_eq
          show os.length < 2 ^ 64
          have : (mkTxObj [0x01, 0x00, 0x00, 0x00] ins outs [0x00, 0x00, 0x00, 0x00]).outs = outs := rfl
          rw [this] at l2
          omega
      have hrep : Represents (us.any Unspent.isSegwit)
          (mkTxObj [0x01, 0x00, 0x00, 0x00] ins outs [0x00, 0x00, 0x00, 0x00]) ⟨1, is, os, 0⟩ :=
        ⟨show [1, 0, 0, 0] = Spec.leEncode 4 1 by decide, hin, o3, show [0, 0, 0, 0] = Spec.leEncode 4 0 by decide⟩
      refine ⟨⟨1, is, os, 0⟩, hwf, rfl, rfl, i2, fun i hi => (i1 i hi).2, o2, i5, ?_⟩
      intro C' hC
      rw [createNewTransaction, hC]
      dsimp only
      rw [h2]
      dsimp only
      rw [signTx_represents hrep hwf]

/-- Creating a transaction is signing an unsigned transaction with the given inputs and outputs. -/
theorem create_unsigned {C : Crypto} {s : Signer} {us : List Unspent} {reqs : List (Dest × Int)} {r : Str}
    (hne : us ≠ []) (htx : ∀ u ∈ us, TxidOk u) (h : createNewTransaction C s us reqs = .ok r) :
    ∃ t : Spec.Tx, t.WF ∧ t.version = 1 ∧ t.lockTime = 0 ∧ List.Forall₂ Takes us t.inputs ∧
      (∀ i ∈ t.inputs, i.script = [] ∧ i.witness = []) ∧
      List.Forall₂ (fun q o => Pays C q.1 q.2 o) reqs t.outputs ∧
      (∀ u ∈ us, 0 ≤ u.amount ∧ u.amount < 2 ^ 64) ∧
      signTransactionHex C s (bytesToHex (enc (us.any Unspent.isSegwit) t)) us = .ok r := by
  obtain ⟨t, h1, h2, h3, h4, h5, h6, h7, h8⟩ := create_unsigned_any hne htx h
  exact ⟨t, h1, h2, h3, h4, h5, h6, h7, (h8 C rfl).symm.trans h⟩

end Bit
