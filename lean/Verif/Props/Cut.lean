import Verif.Lemmas.Cut
import Verif.Lemmas.SignSingle
import Verif.Props.SignMulti
/-
Transactions that were cut off: which are refused (C26), and what becomes of the others when they are signed (C102).
-/
namespace Bit
open Concrete

/-! ### what is read from the beginning of an encoding -/

/-- The witnesses (in wire format) of an object whose lock time is `lock`: complete stacks or empty, save perhaps the
last one, which may be cut if nothing follows. -/
def FitWitnesses (ws : List Bytes) (lock : Bytes) : Prop :=
  (∀ w ∈ ws, w = [] ∨ IsStack w) ∨
  (lock = [] ∧ ∃ pre last, ws = pre ++ [last] ∧ (∀ w ∈ pre, w = [] ∨ IsStack w) ∧ ∃ S, IsStack S ∧ last <+: S)

/-- The input object has the fields of a specified input, whatever its witness. -/
def InFields (x : TxIn) : Prop :=
  ∃ i : Spec.TxInput, i.WF ∧ x.txid = i.prevTxid ∧ x.txindex = Spec.leEncode 4 i.prevIndex ∧
    x.sequence = Spec.leEncode 4 i.sequence ∧ x.scriptSig = i.script ∧ x.scriptSigLen = Spec.compact i.script.length

/-- The object has the shape of a transaction, but its lock time is too short. -/
structure CutShape (x : TxObj) : Prop where
  version : ∃ v, v < 2 ^ 32 ∧ x.version = Spec.leEncode 4 v
  nonempty : x.ins ≠ []
  inputs : x.ins.length < 2 ^ 64
  input : ∀ i ∈ x.ins, InFields i
  outputs : ∃ os : List Spec.TxOutput, os.length < 2 ^ 64 ∧ (∀ o ∈ os, o.WF) ∧ x.outs = os.map outOf
  lockTime : x.locktime.length < 4
  witness : FitWitnesses (x.ins.map TxIn.witness) x.locktime

theorem inOf_fields {i : Spec.TxInput} (h : i.WF) (w : Bytes) : InFields { inOf false i with witness := w } :=
  ⟨i, h, rfl, rfl, rfl, rfl, rfl⟩

theorem encode_two (t : Spec.Tx) :
    t.encode = Spec.leEncode 4 t.version ++ (t.encodeBody ++ Spec.leEncode 4 t.lockTime) ∧ (∀ i ∈ t.inputs, i.witness = []) ∨
    t.encode = Spec.leEncode 4 t.version ++ ([0x00, 0x01] ++ (t.encodeBody ++
      (t.inputs.flatMap (fun i => Spec.encodeStack i.witness) ++ Spec.leEncode 4 t.lockTime))) ∧
      ¬ (∀ i ∈ t.inputs, i.witness = []) := by
  unfold Spec.Tx.encode
  split
  · rename_i h
    left
    refine ⟨by simp [Spec.Tx.encodeLegacy], ?_⟩
    simpa [List.all_eq_true] using h
  · rename_i h
    right
    refine ⟨by simp [Spec.Tx.encodeExtended], ?_⟩
    intro h'
    apply h
    simpa [List.all_eq_true] using h'

/-- The body is read from the beginning of an encoding as far as it goes: inputs, then outputs. -/
theorem read_body {t : Spec.Tx} (h : t.WF) {rest p : Bytes} {n : Nat} {s : Bytes} {ins : List TxIn} {s' : Bytes}
    {m : Nat} {s'' : Bytes} {outs : List TxOut} {r : Bytes} (hp : p <+: t.encodeBody ++ rest)
    (h1 : readVarInt p = .ok (n, s)) (h2 : readIns n s = .ok (ins, s')) (h3 : readVarInt s' = .ok (m, s''))
    (h4 : readOuts m s'' = .ok (outs, r)) :
    ins = t.inputs.map (inOf false) ∧
    ((∃ q, p = t.encodeBody ++ q ∧ q <+: rest ∧ outs = t.outputs.map outOf ∧ r = q) ∨
     (r = [] ∧ p.length < t.encodeBody.length ∧
      (∃ os : List Spec.TxOutput, os.length ≤ t.outputs.length ∧ (∀ o ∈ os, o.WF) ∧ outs = os.map outOf) ∧
      (t.outputs.length < 253 → ∀ o, t.outputs.getLast? = some o →
        t.encodeBody.length < p.length + (Spec.varBytes o.script).length))) := by
  have hb : t.encodeBody = Spec.compact t.inputs.length ++ (t.inputs.flatMap Spec.TxInput.encode ++
      (Spec.compact t.outputs.length ++ t.outputs.flatMap Spec.TxOutput.encode)) := by
    simp [Spec.Tx.encodeBody]
  have nil : ∀ {e : Py (Nat × Bytes)}, readVarInt [] = e → ∀ {v}, e = .ok v → False := by
    rintro _ rfl v hv
    rw [readVarInt_nil] at hv
    cases hv
  rw [hb] at hp
  simp only [List.append_assoc] at hp
  rcases cut_append hp with ⟨hp, hl⟩ | ⟨p1, rfl, hp1⟩
  · obtain rfl := readVarInt_cut hp hl h1
    obtain ⟨-, rfl⟩ := readIns_nil h2
    exact (nil rfl h3).elim
  rw [readVarInt_compact h.inputs] at h1
  injection h1 with h1
  obtain ⟨rfl, rfl⟩ := Prod.mk.inj h1
  rcases cut_append hp1 with ⟨hp1, hl⟩ | ⟨p2, rfl, hp2⟩
  · obtain rfl := readIns_cut h.input hp1 hl h2
    exact (nil rfl h3).elim
  rw [readIns_encode _ _ h.input] at h2
  injection h2 with h2
  obtain ⟨rfl, rfl⟩ := Prod.mk.inj h2
  refine ⟨rfl, ?_⟩
  rcases cut_append hp2 with ⟨hp2, hl⟩ | ⟨p3, rfl, hp3⟩
  · obtain rfl := readVarInt_cut hp2 hl h3
    obtain ⟨rfl, rfl, rfl⟩ := readOuts_nil h4
    right
    refine ⟨rfl, ?_, ⟨[], by simp, by simp, rfl⟩, ?_⟩
    · rw [hb]
      simp only [List.length_append]
      omega
    · intro hm
      rw [show Spec.compact t.outputs.length = [UInt8.ofNat t.outputs.length] by rw [Spec.compact, if_pos hm]] at hl
      have h0 : p2 = [] := List.length_eq_zero_iff.mp (by simpa using hl)
      subst h0
      exact (nil rfl h3).elim
  rw [readVarInt_compact h.outputs] at h3
  injection h3 with h3
  obtain ⟨rfl, rfl⟩ := Prod.mk.inj h3
  rcases cut_append hp3 with ⟨hp3, hl⟩ | ⟨p4, rfl, hp4⟩
  · obtain ⟨rfl, ⟨os, e1, e2, rfl⟩, hlast⟩ := readOuts_cut h.output hp3 hl h4
    right
    refine ⟨rfl, ?_, ⟨os, e1.le, e2, rfl⟩, ?_⟩
    · rw [hb]
      simp only [List.length_append]
      omega
    · intro _ o ho
      have := hlast o ho
      rw [hb]
      simp only [List.length_append]
      omega
  · rw [readOuts_encode _ _ h.output] at h4
    injection h4 with h4
    obtain ⟨rfl, rfl⟩ := Prod.mk.inj h4
    left
    exact ⟨p4, by rw [hb]; simp, hp4, rfl, rfl⟩

/-- What is read from a transaction that was cut off, with how much of it must have been there. -/
theorem deserialize_cut {t : Spec.Tx} (h : t.WF) {p : Bytes} (hp : p <+: t.encode) (hl : p.length < t.encode.length)
    {x : TxObj} (hx : deserialize p = .ok x) :
    CutShape x ∧
    ((∀ i ∈ t.inputs, i.witness = []) → (∀ i ∈ x.ins, i.witness = []) ∧
      (t.outputs.length < 253 → ∀ o, t.outputs.getLast? = some o →
        t.encode.length < p.length + 4 + (Spec.varBytes o.script).length)) ∧
    (¬ (∀ i ∈ t.inputs, i.witness = []) → ∀ i, t.inputs.getLast? = some i →
      t.encode.length < p.length + 4 + (Spec.encodeStack i.witness).length) := by
  have hlong : 4 < p.length := by
    by_contra hc
    rw [C26_missing_count_refused p (by omega)] at hx
    cases hx
  have h0 : t.inputs.length ≠ 0 := by simpa using h.nonempty
  have hb : t.encodeBody = Spec.compact t.inputs.length ++ (t.inputs.flatMap Spec.TxInput.encode ++
      (Spec.compact t.outputs.length ++ t.outputs.flatMap Spec.TxOutput.encode)) := by
    simp [Spec.Tx.encodeBody]
  rcases encode_two t with ⟨e, hw⟩ | ⟨e, hw⟩
  · -- the original serialisation
    rw [e] at hp hl
    rcases cut_append hp with ⟨-, h4⟩ | ⟨q, rfl, hq⟩
    · rw [leEncode_length] at h4; omega
    have hsw : bytesIsSegwit (Spec.leEncode 4 t.version ++ q) = false := by
      obtain ⟨b, bs, hb0, eb⟩ := compact_head h0 (t.inputs.flatMap Spec.TxInput.encode ++
        (Spec.compact t.outputs.length ++ (t.outputs.flatMap Spec.TxOutput.encode ++ Spec.leEncode 4 t.lockTime)))
      cases q with
      | nil => simp [leEncode_length] at hlong
      | cons c q =>
        rw [hb] at hq
        simp only [List.append_assoc] at hq
        rw [eb, List.cons_prefix_cons] at hq
        unfold bytesIsSegwit
        rw [List.drop_left' (leEncode_length 4 _), hq.1]
        simp [hb0]
    unfold deserialize at hx
    rw [hsw, readBytes_append _ _ (leEncode_length 4 _)] at hx
    dsimp only at hx
    rw [if_neg (by simp)] at hx
    split at hx
    · cases hx
    · rename_i n s h1
      split at hx
      · cases hx
      · rename_i ins s' h2
        split at hx
        · cases hx
        · rename_i m s'' h3
          split at hx
          · cases hx
          · rename_i outs r h4
            simp only [Bool.false_eq_true, if_false] at hx
            injection hx with hx
            obtain ⟨rfl, hcase⟩ := read_body h hq h1 h2 h3 h4
            have hany : (t.inputs.map (inOf false)).any TxIn.isSegwit = false := by
              simp [List.any_eq_false, TxIn.isSegwit, inOf]
            rw [mkTxObj, if_neg (by rw [hany]; simp)] at hx
            have hwit : ∀ i ∈ t.inputs.map (inOf false), i.witness = [] := by
              intro i hi
              obtain ⟨j, -, rfl⟩ := List.mem_map.mp hi
              rfl
            have shape : ∀ os : List Spec.TxOutput, os.length < 2 ^ 64 → (∀ o ∈ os, o.WF) → outs = os.map outOf →
                (r.take 4).length < 4 → CutShape x := by
              intro os e1 e2 e3 e4
              rw [← hx]
              refine ⟨⟨t.version, h.version, rfl⟩, by simpa using h.nonempty, by simpa using h.inputs, ?_,
                ⟨os, e1, e2, e3⟩, e4, .inl ?_⟩
              · intro i hi
                obtain ⟨j, hj, rfl⟩ := List.mem_map.mp hi
                exact inOf_fields (h.input j hj) []
              · intro w hw'
                obtain ⟨i, hi, rfl⟩ := List.mem_map.mp hw'
                exact .inl (hwit i hi)
            rcases hcase with ⟨q', rfl, hq', e3, rfl⟩ | ⟨rfl, hlen, ⟨os, e1, e2, e3⟩, hlast⟩
            · have hlq : r.length < 4 := by
                simp only [List.length_append, leEncode_length] at hl
                omega
              refine ⟨shape t.outputs h.outputs h.output e3 (by rw [List.length_take]; omega), fun _ => ⟨?_, ?_⟩,
                fun hn => (hn hw).elim⟩
              · rw [← hx]
                exact hwit
              · intro _ o ho
                have : 0 < (Spec.varBytes o.script).length := by
                  apply List.length_pos_of_ne_nil
                  simp [Spec.varBytes, compact_ne_nil]
                rw [e]
                simp only [List.length_append, leEncode_length]
                omega
            · refine ⟨shape os (by have := h.outputs; omega) e2 e3 (by simp), fun _ => ⟨?_, ?_⟩,
                fun hn => (hn hw).elim⟩
              · rw [← hx]
                exact hwit
              · intro hm o ho
                have := hlast hm o ho
                rw [e]
                simp only [List.length_append, leEncode_length]
                omega
  · -- the extended serialisation
    rw [e] at hp hl
    rcases cut_append hp with ⟨-, h4⟩ | ⟨q, rfl, hq⟩
    · rw [leEncode_length] at h4; omega
    rcases cut_append hq with ⟨hq, hql⟩ | ⟨q', rfl, hq'⟩
    · -- only the marker is there
      exfalso
      cases q with
      | nil => simp [leEncode_length] at hlong
      | cons c q =>
        have hq0 : q = [] := List.length_eq_zero_iff.mp (by rw [List.length_cons, List.length_cons, List.length_singleton] at hql; omega)
        subst hq0
        rw [List.cons_prefix_cons] at hq
        obtain ⟨rfl, -⟩ := hq
        have hsw : bytesIsSegwit (Spec.leEncode 4 t.version ++ [0x00]) = false := by
          unfold bytesIsSegwit
          rw [List.drop_left' (leEncode_length 4 _)]
          decide
        unfold deserialize at hx
        rw [hsw, readBytes_append _ _ (leEncode_length 4 _)] at hx
        dsimp only at hx
        have hz : readVarInt [0x00] = .ok (0, []) := readVarInt_small (b := 0x00) (by decide) []
        rw [if_neg (by simp), hz] at hx
        dsimp only [readIns] at hx
        rw [readVarInt_nil] at hx
        cases hx
    · have hsw : bytesIsSegwit (Spec.leEncode 4 t.version ++ ([0x00, 0x01] ++ q')) = true := isSegwit_extended _ _
      unfold deserialize at hx
      rw [hsw, readBytes_append _ _ (leEncode_length 4 _)] at hx
      simp only [if_true, readBytes, List.cons_append, List.nil_append, List.drop_succ_cons, List.drop_zero] at hx
      split at hx
      · cases hx
      · rename_i n s h1
        split at hx
        · cases hx
        · rename_i ins s' h2
          split at hx
          · cases hx
          · rename_i m s'' h3
            split at hx
            · cases hx
            · rename_i outs r h4
              split at hx
              · cases hx
              · rename_i ins' r' h5
                injection hx with hx
                obtain ⟨rfl, hcase⟩ := read_body h hq' h1 h2 h3 h4
                rcases hcase with ⟨q, rfl, hq, e3, rfl⟩ | ⟨rfl, -⟩
                swap
                · obtain ⟨hn, -⟩ := readWitnesses_nil h5
                  exact absurd (List.map_eq_nil_iff.mp hn) h.nonempty
                -- no witness is empty after reading
                have shape : ∀ (lock : Bytes), lock.length < 4 → ins'.length = t.inputs.length →
                    (∀ i ∈ ins', InFields i) → FitWitnesses (ins'.map TxIn.witness) lock →
                    x = mkTxObj (Spec.leEncode 4 t.version) ins' outs lock → CutShape x := by
                  intro lock hk hlen' hf hfit hx
                  rw [hx, mkTxObj]
                  have hne : ins' ≠ [] := by
                    rintro rfl
                    exact h0 hlen'.symm
                  split
                  · refine ⟨⟨t.version, h.version, rfl⟩, by simpa using hne, by rw [List.length_map, hlen']; exact h.inputs, ?_,
                      ⟨t.outputs, h.outputs, h.output, e3⟩, hk, ?_⟩
                    · intro i hi
                      obtain ⟨j, hj, rfl⟩ := List.mem_map.mp hi
                      obtain ⟨a, ha⟩ := hf j hj
                      split
                      · exact ⟨a, ha⟩
                      · exact ⟨a, ha⟩
                    · have hz : IsStack [0x00] := ⟨[], by decide, by norm_num, by simp⟩
                      dsimp only
                      rw [List.map_map]
                      have good : ∀ {w : Bytes}, (w = [] ∨ IsStack w) → ((if w.isEmpty then [0x00] else w) = [] ∨
                          IsStack (if w.isEmpty then [0x00] else w)) := by
                        intro w hw'
                        split
                        · exact .inr hz
                        · exact hw'
                      have ef : (TxIn.witness ∘ fun i : TxIn => if i.witness.isEmpty then { i with witness := [0x00] } else i)
                          = (fun w : Bytes => if w.isEmpty then [0x00] else w) ∘ TxIn.witness := by
                        funext i
                        simp only [Function.comp]
                        split <;> rfl
                      rw [ef, ← List.map_map]
                      rcases hfit with hfit | ⟨rfl, pre, last, e4, hpre, S, hS, hlS⟩
                      · left
                        intro w hw'
                        obtain ⟨v, hv, rfl⟩ := List.mem_map.mp hw'
                        exact good (hfit v hv)
                      · rw [e4, List.map_append, List.map_singleton]
                        refine .inr ⟨rfl, _, _, rfl, ?_, ?_⟩
                        · intro w hw'
                          obtain ⟨v, hv, rfl⟩ := List.mem_map.mp hw'
                          exact good (hpre v hv)
                        · split
                          · exact ⟨_, hz, List.prefix_refl _⟩
                          · exact ⟨S, hS, hlS⟩
                  · exact ⟨⟨t.version, h.version, rfl⟩, hne, by rw [hlen']; exact h.inputs, hf,
                      ⟨t.outputs, h.outputs, h.output, e3⟩, hk, hfit⟩
                rcases cut_append hq with ⟨hq, hql⟩ | ⟨k, rfl, hk⟩
                · obtain ⟨rfl, pre, last, w, e5, rfl, hS, hlen⟩ := readWitnesses_cut h.input hq hql h5
                  refine ⟨shape [] (by simp) ?_ ?_ ?_ hx.symm, fun hn => (hw hn).elim, ?_⟩
                  · rw [e5]; simp
                  · intro i hi
                    rcases List.mem_append.mp hi with hi | hi
                    · obtain ⟨j, hj, rfl⟩ := List.mem_map.mp hi
                      exact inOf_fields (h.input j (by rw [e5]; simp [hj])) (Spec.encodeStack j.witness)
                    · rw [List.mem_singleton.mp hi]
                      exact inOf_fields (h.input last (by rw [e5]; simp)) w
                  · refine .inr ⟨rfl, pre.map (fun i => Spec.encodeStack i.witness), w, ?_, ?_, hS⟩
                    · rw [List.map_append, List.map_map]
                      rfl
                    · intro v hv
                      obtain ⟨j, hj, rfl⟩ := List.mem_map.mp hv
                      exact .inr (input_stack (h.input j (by rw [e5]; simp [hj])))
                  · intro _ i hi
                    rw [e5, List.getLast?_concat, Option.some.injEq] at hi
                    subst hi
                    rw [e]
                    simp only [List.length_append, leEncode_length]
                    omega
                · rw [readWitnesses_encode _ _ h.input] at h5
                  injection h5 with h5
                  obtain ⟨rfl, rfl⟩ := Prod.mk.inj h5
                  have hkl : k.length < 4 := by
                    simp only [List.length_append, leEncode_length] at hl
                    omega
                  refine ⟨shape (k.take 4) (by rw [List.length_take]; omega) (by simp) ?_ ?_ hx.symm,
                    fun hn => (hw hn).elim, ?_⟩
                  · intro i hi
                    obtain ⟨j, hj, rfl⟩ := List.mem_map.mp hi
                    exact inOf_fields (h.input j hj) (Spec.encodeStack j.witness)
                  · left
                    intro v hv
                    rw [List.map_map] at hv
                    obtain ⟨j, hj, rfl⟩ := List.mem_map.mp hv
                    exact .inr (input_stack (h.input j hj))
                  · intro _ i hi
                    have : 0 < (Spec.encodeStack i.witness).length := List.length_pos_of_ne_nil (encodeStack_ne_nil _)
                    rw [e]
                    simp only [List.length_append, leEncode_length]
                    omega

/-! ## C26 -/

/-- C26. The original serialisation of a transaction with fewer than 253 outputs, cut anywhere before the script of the
last output begins, is refused. -/
theorem C26_cut_refused (t : Spec.Tx) (h : t.WF) (hw : ∀ i ∈ t.inputs, i.witness = []) (hm : t.outputs.length < 253)
    (o : Spec.TxOutput) (ho : t.outputs.getLast? = some o) (n : Nat)
    (hn : n + 4 + (Spec.varBytes o.script).length ≤ t.encode.length) :
    deserialize (t.encode.take n) = .error .valueError := by
  cases hx : deserialize (t.encode.take n) with
  | error e => rw [C26_only_valueError _ _ hx]
  | ok x =>
    have hl : (t.encode.take n).length = n := by rw [List.length_take]; omega
    have := ((deserialize_cut h (List.take_prefix n _) (by omega) hx).2.1 hw).2 hm o ho
    omega

/-- Cut in the middle of the second input, or of the value of the last output. -/
example : deserialize (unsignedTx.encode.take 60) = .error .valueError ∧
    deserialize (unsignedTx.encode.take (unsignedTx.encode.length - 10)) = .error .valueError :=
  ⟨C26_cut_refused unsignedTx unsignedTx_wf (by decide) (by decide) ⟨0, []⟩ rfl _ (by decide +kernel),
    C26_cut_refused unsignedTx unsignedTx_wf (by decide) (by decide) ⟨0, []⟩ rfl _ (by decide +kernel)⟩

/-- C26. A transaction with witnesses, cut anywhere before the witness of the last input begins, is refused. -/
theorem C26_cut_witness_refused (t : Spec.Tx) (h : t.WF) (hw : ¬ ∀ i ∈ t.inputs, i.witness = [])
    (i : Spec.TxInput) (hi : t.inputs.getLast? = some i) (n : Nat)
    (hn : n + 4 + (Spec.encodeStack i.witness).length ≤ t.encode.length) :
    deserialize (t.encode.take n) = .error .valueError := by
  cases hx : deserialize (t.encode.take n) with
  | error e => rw [C26_only_valueError _ _ hx]
  | ok x =>
    have hl : (t.encode.take n).length = n := by rw [List.length_take]; omega
    have := (deserialize_cut h (List.take_prefix n _) (by omega) hx).2.2 hw i hi
    omega

/-- Cut in the middle of the witness of the first input. -/
example : deserialize (sampleTx.encode.take (sampleTx.encode.length - 100)) = .error .valueError :=
  C26_cut_witness_refused sampleTx sampleTx_wf (by decide) sampleTx.inputs[1] rfl _ (by decide +kernel)

/-- C26 (the code violates the ideal). Cut inside the script of the last output, the original serialisation is accepted:
the script is shortened, and there is no lock time. -/
theorem C26_cut_script_accepted (t : Spec.Tx) (h : t.WF) (hw : ∀ i ∈ t.inputs, i.witness = [])
    (pre : List Spec.TxOutput) (o : Spec.TxOutput) (ho : t.outputs = pre ++ [o])
    (k : Nat) (hk : k ≤ o.script.length) :
    ∃ x, deserialize (t.encode.take (t.encode.length - 4 - k)) = .ok x ∧ x.locktime = [] ∧
      x.outs.map TxOut.scriptPubkey = pre.map Spec.TxOutput.script ++ [o.script.take (o.script.length - k)] := by
  obtain ⟨e, -⟩ : t.encode = Spec.leEncode 4 t.version ++ (t.encodeBody ++ Spec.leEncode 4 t.lockTime) ∧
      (∀ i ∈ t.inputs, i.witness = []) := (encode_two t).resolve_right fun h' => h'.2 hw
  have h0 : t.inputs.length ≠ 0 := by simpa using h.nonempty
  have hpre : ∀ o ∈ pre, o.WF := fun a ha => h.output a (by rw [ho]; simp [ha])
  have hos : o.WF := h.output o (by rw [ho]; simp)
  have hcut : t.encode.take (t.encode.length - 4 - k) = Spec.leEncode 4 t.version ++ (Spec.compact t.inputs.length ++
      (t.inputs.flatMap Spec.TxInput.encode ++ (Spec.compact t.outputs.length ++ (pre.flatMap Spec.TxOutput.encode ++
        (Spec.leEncode 8 o.value ++ (Spec.compact o.script.length ++ o.script.take (o.script.length - k))))))) := by
    have e2 : t.encode = (Spec.leEncode 4 t.version ++ (Spec.compact t.inputs.length ++
      (t.inputs.flatMap Spec.TxInput.encode ++ (Spec.compact t.outputs.length ++ (pre.flatMap Spec.TxOutput.encode ++
        (Spec.leEncode 8 o.value ++ Spec.compact o.script.length)))))) ++ (o.script ++ Spec.leEncode 4 t.lockTime) := by
      rw [e, Spec.Tx.encodeBody, ho]
      simp [Spec.TxOutput.encode, Spec.varBytes]
    have key : ∀ a : Bytes, (a ++ (o.script ++ Spec.leEncode 4 t.lockTime)).take
        ((a ++ (o.script ++ Spec.leEncode 4 t.lockTime)).length - 4 - k) = a ++ o.script.take (o.script.length - k) := by
      intro a
      rw [List.length_append, List.length_append (as := o.script), leEncode_length,
        show a.length + (o.script.length + 4) - 4 - k = a.length + (o.script.length - k) by omega,
        List.take_length_add_append, List.take_append_of_le_length (by omega)]
    rw [e2, key]
    simp only [List.append_assoc]
  have hread : ∀ (os : List Spec.TxOutput), (∀ o ∈ os, o.WF) → readOuts (os ++ [o]).length (os.flatMap Spec.TxOutput.encode ++
      (Spec.leEncode 8 o.value ++ (Spec.compact o.script.length ++ o.script.take (o.script.length - k)))) =
      .ok (os.map outOf ++ [outOf { o with script := o.script.take (o.script.length - k) }], []) := by
    intro os
    induction os with
    | nil =>
      intro _
      rw [List.nil_append, List.flatMap_nil, List.nil_append, List.length_singleton, readOuts,
        readBytes_append _ _ (leEncode_length 8 _)]
      dsimp only
      unfold readVarString
      rw [readVarInt_compact hos.script]
      have hl : (o.script.take (o.script.length - k)).length ≤ o.script.length := by
        rw [List.length_take]; omega
      dsimp only [readBytes]
      rw [List.take_of_length_le hl, List.drop_eq_nil_of_le hl, mkTxOut,
        intToVarint_compact (by have := hos.script; omega)]
      rfl
    | cons a os ih =>
      intro hw'
      have ha := hw' a (by simp)
      rw [List.cons_append, List.length_cons, readOuts, List.flatMap_cons, Spec.TxOutput.encode]
      simp only [List.append_assoc]
      rw [readBytes_append _ _ (leEncode_length 8 _)]
      dsimp only
      rw [readVarString_varBytes ha.script]
      dsimp only
      rw [mkTxOut, intToVarint_compact ha.script]
      dsimp only
      rw [ih fun b hb => hw' b (by simp [hb])]
      rfl
  refine ⟨⟨Spec.leEncode 4 t.version, t.inputs.map (inOf false),
    pre.map outOf ++ [outOf { o with script := o.script.take (o.script.length - k) }], []⟩, ?_, rfl, ?_⟩
  · rw [hcut]
    unfold deserialize
    rw [isSegwit_legacy _ h0, readBytes_append _ _ (leEncode_length 4 _)]
    dsimp only
    rw [if_neg (by simp), readVarInt_compact h.inputs]
    dsimp only
    rw [readIns_encode _ _ h.input]
    dsimp only
    rw [readVarInt_compact h.outputs]
    dsimp only
    have := hread pre hpre
    rw [← ho] at this
    rw [this]
    simp only [Bool.false_eq_true, if_false, mkTxObj, readBytes]
    rw [if_neg]
    · rfl
    · simp [List.any_eq_true, TxIn.isSegwit, inOf]
  · simp [outOf, Function.comp_def]

/-- The unsigned sample transaction with the outputs in the other order. -/
def turnedTx : Spec.Tx := { unsignedTx with outputs := [{ value := 0, script := [] }, { value := 5000000000, script := [0x51, 0x52, 0x53] }] }

theorem turnedTx_wf : turnedTx.WF where
  version := by decide
  nonempty := List.cons_ne_nil _ _
  inputs := by decide
  input := unsignedTx_wf.input
  outputs := by decide
  output := by
    have h : ∀ o ∈ turnedTx.outputs, o.value < 2 ^ 64 ∧ o.script.length < 2 ^ 64 := by decide +kernel
    intro o ho
    exact ⟨(h o ho).1, (h o ho).2⟩
  lockTime := by decide

example : ∃ x, deserialize (turnedTx.encode.take (turnedTx.encode.length - 4 - 2)) = .ok x ∧ x.locktime = [] ∧
    x.outs.map TxOut.scriptPubkey = [[], [0x51]] :=
  C26_cut_script_accepted turnedTx turnedTx_wf (by decide) [{ value := 0, script := [] }]
    { value := 5000000000, script := [0x51, 0x52, 0x53] } rfl 2 (by decide)

/-- C26 (the code violates the ideal). With 256 outputs the number of outputs takes three bytes, the second of which is
zero: cut after it, the transaction is accepted, without any outputs. -/
theorem C26_cut_outputs_lost (t : Spec.Tx) (h : t.WF) (hw : ∀ i ∈ t.inputs, i.witness = []) (hm : t.outputs.length = 256) :
    ∃ n x, n < t.encode.length ∧ deserialize (t.encode.take n) = .ok x ∧ x.outs = [] ∧
      x.ins.length = t.inputs.length := by
  obtain ⟨e, -⟩ : t.encode = Spec.leEncode 4 t.version ++ (t.encodeBody ++ Spec.leEncode 4 t.lockTime) ∧
      (∀ i ∈ t.inputs, i.witness = []) := (encode_two t).resolve_right fun h' => h'.2 hw
  have h0 : t.inputs.length ≠ 0 := by simpa using h.nonempty
  have hc : Spec.compact t.outputs.length = [0xfd, 0x00] ++ [0x01] := by rw [hm]; decide
  have e2 : t.encode = (Spec.leEncode 4 t.version ++ (Spec.compact t.inputs.length ++
      (t.inputs.flatMap Spec.TxInput.encode ++ [0xfd, 0x00]))) ++ ([0x01] ++ (t.outputs.flatMap Spec.TxOutput.encode ++
        Spec.leEncode 4 t.lockTime)) := by
    rw [e, Spec.Tx.encodeBody, hc]
    simp
  refine ⟨(Spec.leEncode 4 t.version ++ (Spec.compact t.inputs.length ++
      (t.inputs.flatMap Spec.TxInput.encode ++ [0xfd, 0x00]))).length,
    ⟨Spec.leEncode 4 t.version, t.inputs.map (inOf false), [], []⟩, ?_, ?_, rfl, by simp⟩
  · rw [e2]
    simp only [List.length_append, List.length_singleton]
    omega
  · rw [e2, List.take_left' rfl]
    unfold deserialize
    rw [isSegwit_legacy _ h0, readBytes_append _ _ (leEncode_length 4 _)]
    dsimp only
    rw [if_neg (by simp), readVarInt_compact h.inputs]
    dsimp only
    rw [readIns_encode _ _ h.input]
    dsimp only
    have hz : readVarInt [0xfd, 0x00] = .ok (0, []) := by decide +kernel
    rw [hz]
    dsimp only [readOuts]
    simp only [Bool.false_eq_true, if_false, mkTxObj, readBytes]
    rw [if_neg]
    · rfl
    · simp [List.any_eq_true, TxIn.isSegwit, inOf]

/-- A payment to 256 recipients. -/
def manyTx : Spec.Tx := { unsignedTx with outputs := List.replicate 256 ⟨1000, [0x51]⟩ }

theorem manyTx_many : manyTx.outputs.length = 256 := List.length_replicate

theorem manyTx_wf : manyTx.WF where
  version := by decide
  nonempty := List.cons_ne_nil _ _
  inputs := by decide
  input := unsignedTx_wf.input
  outputs := by rw [manyTx_many]; norm_num
  output := by
    intro o ho
    rw [List.eq_of_mem_replicate ho]
    exact ⟨by decide, by decide⟩
  lockTime := by decide

example : ∃ n x, n < manyTx.encode.length ∧ deserialize (manyTx.encode.take n) = .ok x ∧ x.outs = [] ∧
    x.ins.length = manyTx.inputs.length :=
  C26_cut_outputs_lost manyTx manyTx_wf (by decide) manyTx_many

/-! ### signing what was read -/

theorem varint_lt {n : Nat} {l : Bytes} (h : intToVarint n = .ok l) : n < 2 ^ 64 ∧ l = Spec.compact n := by
  have hlt : n < 2 ^ 64 := by
    rcases intToVarint_cases n with ⟨h1, e⟩ | ⟨h1, h2, e⟩ | ⟨h1, h2, e⟩ | ⟨h1, h2, e⟩ | ⟨h1, e⟩
    · omega
    · omega
    · omega
    · omega
    · rw [e] at h; cases h
  refine ⟨hlt, ?_⟩
  rw [intToVarint_compact hlt] at h
  injection h with h
  exact h.symm

/-- The witness that the signer writes into a segwit input is a stack, given the previous witness. -/
def WritesStacks (C : Crypto) (s : Signer) (ws : List Bytes) : Prop :=
  ∀ w ∈ ws, ∀ sw hash a b, signBytes C s sw true hash w = .ok (a, b) → IsStack b

theorem signBytes_plain {C : Crypto} {s : Signer} {sw : Bool} {hash field a b : Bytes}
    (h : signBytes C s sw false hash field = .ok (a, b)) : b = [] ∨ IsStack b := by
  have hz : (if sw then [0x00] else [] : Bytes) = [] ∨ IsStack (if sw then [0x00] else [] : Bytes) := by
    cases sw
    · exact .inl rfl
    · exact .inr ⟨[], by decide, by norm_num, by simp⟩
  cases s with
  | single k =>
    unfold signBytes signSingle at h
    dsimp only at h
    split at h
    · cases h
    · split at h
      · cases h
      · rw [if_neg (by simp)] at h
        injection h with h
        rw [← (Prod.mk.inj h).2]
        exact hz
  | multi m =>
    unfold signBytes signMulti at h
    dsimp only at h
    split at h
    · cases h
    · split at h
      · cases h
      · split at h
        · cases h
        · split at h
          · cases h
          · rw [if_neg (by simp)] at h
            injection h with h
            rw [← (Prod.mk.inj h).2]
            exact hz

/-- What signing does to an input: nothing, or it writes script and witness. -/
def SignedInput (i i' : TxIn) : Prop :=
  i' = i ∨ (i'.txid = i.txid ∧ i'.txindex = i.txindex ∧ i'.sequence = i.sequence ∧ i'.scriptSig.length < 2 ^ 64 ∧
    i'.scriptSigLen = Spec.compact i'.scriptSig.length ∧ (i'.witness = [] ∨ IsStack i'.witness))

theorem signInputs_shape {C : Crypto} {s : Signer} {d : List (Bytes × Unspent)} {sw : Bool} :
    ∀ {xs : List TxIn} {ps : List Prepared} {hashes : List Bytes} {is : List TxIn},
      WritesStacks C s (xs.map TxIn.witness) → prepareInputs C s d xs = .ok ps →
      signInputs C s sw ps hashes = .ok is → List.Forall₂ SignedInput xs is
  | [], ps, hashes, is, _, hp, hs => by
    injection hp with hp
    subst hp
    injection hs with hs
    subst hs
    exact .nil
  | x :: xs, ps, hashes, is, hg, hp, hs => by
    have hg' : WritesStacks C s (xs.map TxIn.witness) := fun w hw => hg w (by simp only [List.map_cons, List.mem_cons]; exact .inr hw)
    rw [prepareInputs] at hp
    split at hp
    · cases hp
    · rename_i p hpx
      split at hp
      · cases hp
      · rename_i ps' hps
        injection hp with hp
        subst hp
        rw [signInputs] at hs
        unfold prepareInput at hpx
        split at hpx
        · injection hpx with hpx
          subst hpx
          dsimp only at hs
          split at hs
          · cases hs
          · rename_i is' his
            injection hs with hs
            subst hs
            exact .cons (.inl rfl) (signInputs_shape hg' hps his)
        · rename_i u _
          dsimp only at hpx
          split at hpx
          · cases hpx
          · cases hpx
          · split at hpx
            · cases hpx
            · have step : ∀ {sg : Bool} {field : Bytes} {i i' : TxIn} {hash : Bytes}, i.txid = x.txid → i.txindex = x.txindex →
                  i.sequence = x.sequence → (sg = true → field = x.witness) →
                  signInput C s sw sg hash field i = .ok i' → SignedInput x i' := by
                intro sg field i i' hash e1 e2 e3 ef h
                unfold signInput at h
                split at h
                · cases h
                · rename_i a b hab
                  split at h
                  · cases h
                  · rename_i l hlen
                    injection h with h
                    subst h
                    obtain ⟨h64, rfl⟩ := varint_lt hlen
                    refine .inr ⟨e1, e2, e3, h64, rfl, ?_⟩
                    cases sg
                    · exact signBytes_plain hab
                    · rw [ef rfl] at hab
                      exact .inr (hg _ (by simp) sw hash a b hab)
              split at hpx
              · split at hpx
                · cases hpx
                · injection hpx with hpx
                  subst hpx
                  dsimp only at hs
                  split at hs
                  · cases hs
                  · split at hs
                    · cases hs
                    · rename_i i' hi'
                      split at hs
                      · cases hs
                      · rename_i is' his
                        injection hs with hs
                        subst hs
                        refine .cons (step ?_ ?_ ?_ ?_ hi') (signInputs_shape hg' hps his)
                        · rfl
                        · rfl
                        · rfl
                        · exact fun _ => rfl
              · rename_i hsg
                injection hpx with hpx
                subst hpx
                dsimp only at hs
                split at hs
                · cases hs
                · split at hs
                  · cases hs
                  · rename_i i' hi'
                    split at hs
                    · cases hs
                    · rename_i is' his
                      injection hs with hs
                      subst hs
                      refine .cons (step ?_ ?_ ?_ ?_ hi') (signInputs_shape hg' hps his)
                      · rfl
                      · rfl
                      · rfl
                      · exact fun h => absurd h hsg

theorem signTxObj_shape {C : Crypto} {s : Signer} {x x' : TxObj} {us : List Unspent}
    (hg : WritesStacks C s (x.ins.map TxIn.witness)) (h : signTxObj C s x us = .ok x') :
    x'.version = x.version ∧ x'.outs = x.outs ∧ x'.locktime = x.locktime ∧ List.Forall₂ SignedInput x.ins x'.ins := by
  unfold signTxObj at h
  split at h
  · cases h
  · split at h
    · cases h
    · split at h
      · cases h
      · rename_i ps hps
        split at h
        · cases h
        · split at h
          · cases h
          · rename_i ins hins
            injection h with h
            subst h
            exact ⟨rfl, rfl, rfl, signInputs_shape hg hps hins⟩

theorem signed_good {xs is : List TxIn} (h : List.Forall₂ SignedInput xs is)
    (hg : ∀ w ∈ xs.map TxIn.witness, w = [] ∨ IsStack w) : ∀ w ∈ is.map TxIn.witness, w = [] ∨ IsStack w := by
  induction h with
  | nil => exact hg
  | @cons a b as bs hab _ ih =>
    intro w hw
    rw [List.map_cons, List.mem_cons] at hw
    rcases hw with rfl | hw
    · rcases hab with rfl | ⟨-, -, -, -, -, hb⟩
      · exact hg _ (by simp)
      · exact hb
    · exact ih (fun w hw => hg w (by rw [List.map_cons, List.mem_cons]; exact .inr hw)) w hw

theorem forall₂_snoc {α β : Type} {R : α → β → Prop} : ∀ {xs : List α} {x : α} {ys : List β},
    List.Forall₂ R (xs ++ [x]) ys → ∃ is y, ys = is ++ [y] ∧ List.Forall₂ R xs is ∧ R x y
  | [], x, ys, h => by
    cases h with
    | @cons _ b _ _ hb hn =>
      cases hn
      exact ⟨[], b, rfl, .nil, hb⟩
  | a :: xs, x, ys, h => by
    cases h with
    | @cons _ b _ bs hb hn =>
      obtain ⟨is, y, rfl, h1, h2⟩ := forall₂_snoc hn
      exact ⟨b :: is, y, rfl, .cons hb h1, h2⟩

/-- Signing keeps the shape: the lock time stays too short. -/
theorem CutShape.sign {C : Crypto} {s : Signer} {x x' : TxObj} {us : List Unspent} (hx : CutShape x)
    (hg : WritesStacks C s (x.ins.map TxIn.witness)) (h : signTxObj C s x us = .ok x') : CutShape x' := by
  obtain ⟨e1, e2, e3, hin⟩ := signTxObj_shape hg h
  refine ⟨by rw [e1]; exact hx.version, ?_, by rw [← hin.length_eq]; exact hx.inputs, ?_, by rw [e2]; exact hx.outputs,
    by rw [e3]; exact hx.lockTime, ?_⟩
  · intro h0
    rw [h0] at hin
    cases hin' : x.ins with
    | nil => exact hx.nonempty hin'
    | cons a as => rw [hin'] at hin; cases hin
  · have key : ∀ {xs is : List TxIn}, List.Forall₂ SignedInput xs is → (∀ i ∈ xs, InFields i) → ∀ i ∈ is, InFields i := by
      intro xs is hf
      induction hf with
      | nil => exact fun h => h
      | @cons a b as bs hab _ ih =>
        intro hall i hi
        rcases List.mem_cons.mp hi with rfl | hi
        · obtain ⟨j, hj, f1, f2, f3, f4, f5⟩ := hall a (by simp)
          rcases hab with rfl | ⟨g1, g2, g3, g4, g5, -⟩
          · exact ⟨j, hj, f1, f2, f3, f4, f5⟩
          · exact ⟨{ j with script := i.scriptSig }, ⟨hj.txid, hj.index, g4, hj.sequence, hj.items, hj.item⟩,
              g1.trans f1, g2.trans f2, g3.trans f3, rfl, g5⟩
        · exact ih (fun k hk => hall k (by simp [hk])) i hi
    exact key hin hx.input
  · rw [e3]
    rcases hx.witness with hfit | ⟨hlock, pre, last, e4, hpre, S, hS, hlS⟩
    · exact .inl (signed_good hin hfit)
    · obtain ⟨xs, xl, e5, e6, e7⟩ : ∃ xs xl, x.ins = xs ++ [xl] ∧ xs.map TxIn.witness = pre ∧ xl.witness = last := by
        rw [List.map_eq_append_iff] at e4
        obtain ⟨l1, l2, e5, e6, e7⟩ := e4
        rw [List.map_eq_singleton_iff] at e7
        obtain ⟨a, rfl, e8⟩ := e7
        exact ⟨l1, a, e5, e6, e8⟩
      rw [e5] at hin
      obtain ⟨is, b, e8, hin1, hb⟩ := forall₂_snoc hin
      rw [e8, List.map_append, List.map_singleton]
      have hgood := signed_good hin1 (by rw [e6]; exact hpre)
      rcases hb with rfl | ⟨-, -, -, -, -, hb⟩
      · exact .inr ⟨hlock, _, _, rfl, hgood, S, hS, by rw [e7]; exact hlS⟩
      · left
        intro w hw
        rcases List.mem_append.mp hw with hw | hw
        · exact hgood w hw
        · rw [List.mem_singleton.mp hw]
          exact hb

/-! ### what is left is not a transaction -/

theorem readItems_le : ∀ {n : Nat} {p v r : Bytes}, readItems n p = .ok (v, r) → r.length ≤ p.length
  | 0, p, v, r, h => by
    injection h with h
    rw [← (Prod.mk.inj h).2]
  | n + 1, p, v, r, h => by
    rw [readItems] at h
    split at h
    · cases h
    · rename_i w tx hw
      split at h
      · cases h
      · rename_i he
        injection h with h
        have h1 := readItems_le he
        rw [(Prod.mk.inj h).2] at h1
        unfold readSegwitString at hw
        split at hw
        · cases hw
        · rename_i k tx' hk
          have h2 := readVarInt_shorter hk
          dsimp only [readBytes] at hw
          split at hw
          · cases hw
          · injection hw with hw
            have h3 := congrArg List.length (Prod.mk.inj hw).2
            rw [List.length_drop] at h3
            omega

theorem readStack_le {p v r : Bytes} (h : readStack p = .ok (v, r)) : r.length ≤ p.length := by
  unfold readStack at h
  split at h
  · cases h
  · rename_i hn
    have h1 := readVarInt_shorter hn
    split at h
    · cases h
    · split at h
      · cases h
      · rename_i he
        injection h with h
        have h2 := readItems_le he
        rw [(Prod.mk.inj h).2] at h2
        omega

theorem readWitnesses_le : ∀ {xs : List TxIn} {p r : Bytes} {v : List TxIn}, readWitnesses xs p = .ok (v, r) →
    r.length ≤ p.length
  | [], p, r, v, h => by
    injection h with h
    rw [← (Prod.mk.inj h).2]
  | x :: xs, p, r, v, h => by
    rw [readWitnesses_cons] at h
    split at h
    · cases h
    · rename_i hw
      split at h
      · cases h
      · rename_i he
        injection h with h
        have h1 := readWitnesses_le he
        rw [(Prod.mk.inj h).2] at h1
        have := readStack_le hw
        omega

/-- Reading back the witnesses leaves too little for a lock time. -/
theorem readWitnesses_short {lock : Bytes} (hk : lock.length < 4) : ∀ {ws : List Bytes} {xs v : List TxIn} {r : Bytes},
    ws.length ≤ xs.length → FitWitnesses ws lock → readWitnesses xs (ws.flatten ++ lock) = .ok (v, r) → r.length < 4
  | [], xs, v, r, _, _, h => by
    have := readWitnesses_le h
    rw [List.flatten_nil, List.nil_append] at this
    omega
  | w :: ws, [], v, r, hl, _, h => by simp at hl
  | w :: ws, x :: xs, v, r, hl, hf, h => by
    have hl' : ws.length ≤ xs.length := by simpa using hl
    -- a complete or empty first witness
    have full : (w = [] ∨ IsStack w) → FitWitnesses ws lock → r.length < 4 := by
      intro hw hf'
      rw [List.flatten_cons, List.append_assoc] at h
      rcases hw with rfl | hw
      · rw [List.nil_append] at h
        exact readWitnesses_short hk (by simp; omega) hf' h
      · rw [readWitnesses_cons, readStack_append hw] at h
        dsimp only at h
        split at h
        · cases h
        · rename_i he
          injection h with h
          rw [← (Prod.mk.inj h).2]
          exact readWitnesses_short hk hl' hf' he
    rcases hf with hf | ⟨rfl, pre, last, e, hpre, S, hS, hlS⟩
    · exact full (hf w (by simp)) (.inl fun v hv => hf v (by simp [hv]))
    · cases pre with
      | cons a pre =>
        obtain ⟨rfl, rfl⟩ := List.cons.inj e
        exact full (hpre w (by simp)) (.inr ⟨rfl, pre, last, rfl, fun v hv => hpre v (by simp [hv]), S, hS, hlS⟩)
      | nil =>
        obtain ⟨rfl, rfl⟩ := List.cons.inj e
        rw [List.flatten_cons, List.flatten_nil, List.append_nil, List.append_nil, readWitnesses_cons] at h
        rcases Nat.lt_or_ge w.length S.length with hlt | hge
        · split at h
          · cases h
          · rename_i hw
            obtain ⟨rfl, -⟩ := readStack_cut hS hlS hlt hw
            split at h
            · cases h
            · rename_i he
              injection h with h
              have := readWitnesses_le he
              rw [(Prod.mk.inj h).2] at this
              simp at this
              simp [this]
        · have hwS : w = S := hlS.eq_of_length (le_antisymm hlS.length_le hge)
          have h' : readStack w = .ok (w, []) := by
            have := readStack_append hS []
            rw [List.append_nil, ← hwS] at this
            exact this
          rw [h'] at h
          dsimp only at h
          split at h
          · cases h
          · rename_i he
            injection h with h
            have := readWitnesses_le he
            rw [(Prod.mk.inj h).2] at this
            simp at this
            simp [this]

theorem fields_list : ∀ {xs : List TxIn}, (∀ i ∈ xs, InFields i) →
    ∃ is : List Spec.TxInput, is.length = xs.length ∧ (∀ i ∈ is, i.WF) ∧
      xs.flatMap TxIn.bytes = is.flatMap Spec.TxInput.encode
  | [], _ => ⟨[], rfl, by simp, rfl⟩
  | x :: xs, h => by
    obtain ⟨is, h1, h2, h3⟩ := fields_list (xs := xs) fun i hi => h i (by simp [hi])
    obtain ⟨i, hi, e1, e2, e3, e4, e5⟩ := h x (by simp)
    refine ⟨i :: is, by simp [h1], ?_, ?_⟩
    · intro j hj
      rcases List.mem_cons.mp hj with rfl | hj
      · exact hi
      · exact h2 j hj
    · rw [List.flatMap_cons, List.flatMap_cons, h3, TxIn.bytes, Spec.TxInput.encode, e1, e2, e3, e4, e5, Spec.varBytes]
      simp

theorem outs_bytes (os : List Spec.TxOutput) : (os.map outOf).flatMap TxOut.bytes = os.flatMap Spec.TxOutput.encode :=
  flatMap_outBytes (forall2_outOf os)

/-- Read back, the lock time is too short again. -/
theorem CutShape.readback {x y : TxObj} {b : Bytes} (hx : CutShape x) (hb : x.bytes = .ok b)
    (hy : deserialize b = .ok y) : y.locktime.length < 4 := by
  obtain ⟨is, hlen, hwf, hbytes⟩ := fields_list hx.input
  obtain ⟨v, hv, ev⟩ := hx.version
  obtain ⟨os, hol, how, eo⟩ := hx.outputs
  have hne : is ≠ [] := by
    intro h0
    rw [h0] at hlen
    exact hx.nonempty (List.length_eq_zero_iff.mp hlen.symm)
  have hbody : x.body = .ok (Spec.Tx.encodeBody ⟨v, is, os, 0⟩) := by
    unfold TxObj.body
    rw [intToVarint_compact hx.inputs]
    dsimp only
    rw [eo, List.length_map, intToVarint_compact hol]
    dsimp only
    rw [hbytes, outs_bytes, ← hlen]
    rfl
  have hwf' : Spec.Tx.WF ⟨v, is, os, 0⟩ := ⟨hv, hne, by rw [hlen]; exact hx.inputs, hwf, hol, how, by norm_num⟩
  unfold TxObj.bytes at hb
  rw [hbody] at hb
  dsimp only at hb
  injection hb with hb
  have hfit := hx.witness
  have hk := hx.lockTime
  rw [List.flatMap_def] at hb
  have hws : (x.ins.map TxIn.witness).length = is.length := by rw [List.length_map, hlen]
  generalize x.ins.map TxIn.witness = ws at hb hfit hws
  rw [ev] at hb
  cases hw : ws.flatten.isEmpty with
  | true =>
    rw [hw, List.isEmpty_iff.mp hw] at hb
    simp only [if_true, List.append_nil, List.append_assoc] at hb
    have := deserialize_legacy_tail ⟨v, is, os, 0⟩ hwf' x.locktime
    dsimp only at this
    rw [hb, hy] at this
    injection this with this
    rw [this]
    dsimp only
    rw [List.length_take]
    omega
  | false =>
    rw [hw] at hb
    simp only [Bool.false_eq_true, if_false, List.append_assoc] at hb
    rw [← hb] at hy
    unfold deserialize Spec.Tx.encodeBody at hy
    simp only [List.append_assoc, List.cons_append, List.nil_append] at hy
    rw [isSegwit_extended, readBytes_append _ _ (leEncode_length 4 _)] at hy
    simp only [if_true, readBytes, List.drop_succ_cons, List.drop_zero] at hy
    rw [readVarInt_compact hwf'.inputs] at hy
    dsimp only at hy
    rw [readIns_encode _ _ hwf] at hy
    dsimp only at hy
    rw [readVarInt_compact hol] at hy
    dsimp only at hy
    rw [readOuts_encode _ _ how] at hy
    dsimp only at hy
    split at hy
    · cases hy
    · rename_i xs r hr
      injection hy with hy
      have := readWitnesses_short hk (by rw [List.length_map, hws]) hfit hr
      rw [← hy]
      simp only [mkTxObj, List.length_take]
      omega

/-- The bytes are those of a transaction with at least one input, in either serialisation. -/
def IsTransaction (b : Bytes) : Prop := ∃ t : Spec.Tx, t.WF ∧ (b = t.encodeLegacy ∨ b = t.encodeExtended)

theorem CutShape.no_tx {x : TxObj} {b : Bytes} (hx : CutShape x) (hb : x.bytes = .ok b) : ¬ IsTransaction b := by
  rintro ⟨t, h, he⟩
  have : ∃ w y, deserialize b = .ok y ∧ Represents w y t := by
    rcases he with rfl | rfl
    · exact ⟨_, (C24_deserialize t h).1⟩
    · exact ⟨_, (C24_deserialize t h).2⟩
  obtain ⟨w, y, hy, hr⟩ := this
  have := hx.readback hb hy
  rw [hr.lockTime, leEncode_length] at this
  omega

theorem bytesToHex_take : ∀ (b : Bytes) (k : Nat), (bytesToHex b).take (2 * k) = bytesToHex (b.take k)
  | [], k => by simp [bytesToHex]
  | x :: b, 0 => by simp [bytesToHex]
  | x :: b, k + 1 => by
    rw [show 2 * (k + 1) = 2 * k + 2 by omega]
    simp only [bytesToHex, List.take_succ_cons]
    rw [bytesToHex_take b k]

theorem bytesToHex_inj {a b : Bytes} (h : bytesToHex a = bytesToHex b) : a = b := by
  have := hexToBytes_bytesToHex a
  rw [h, hexToBytes_bytesToHex] at this
  injection this with this
  exact this.symm

/-- The text is that of a transaction with at least one input, in either serialisation. -/
def IsTransactionText (r : Str) : Prop := ∃ b, IsTransaction b ∧ r = bytesToHex b

/-- Signing a text that was cut off between bytes. -/
theorem sign_cut {C : Crypto} {s : Signer} {t : Spec.Tx} (h : t.WF) {k : Nat} (hk : k < t.encode.length)
    (hg : ∀ x, CutShape x → ((∀ i ∈ t.inputs, i.witness = []) → ∀ i ∈ x.ins, i.witness = []) →
      WritesStacks C s (x.ins.map TxIn.witness)) {us : List Unspent} {r : Str}
    (hr : signTransactionHex C s ((bytesToHex t.encode).take (2 * k)) us = .ok r) : ¬ IsTransactionText r := by
  unfold signTransactionHex at hr
  rw [bytesToHex_take, deserializeHex_bytesToHex] at hr
  split at hr
  · cases hr
  · rename_i x hx
    unfold signTx at hr
    split at hr
    · cases hr
    · rename_i x' hx'
      unfold TxObj.toHex at hr
      split at hr
      · cases hr
      · rename_i b hb
        injection hr with hr
        obtain ⟨h1, h2, -⟩ := deserialize_cut h (List.take_prefix k _) (by rw [List.length_take]; omega) hx
        have hshape := h1.sign (hg x h1 fun hw => (h2 hw).1) hx'
        rintro ⟨b', hb', e⟩
        rw [← hr] at e
        rw [← bytesToHex_inj e] at hb'
        exact hshape.no_tx hb hb'

/-! ## C102 -/

/-- C102. A key never makes a transaction out of one that was cut off: whatever transaction the text was cut from, with
or without witnesses, wherever it was cut between bytes, and whatever unspents are given, signing raises or returns a
text that is not a transaction. -/
theorem C102_cut (C : Crypto) (k : PrivKey) (hk : KeyLaws C k) (t : Spec.Tx) (h : t.WF) (n : Nat)
    (hn : n < t.encode.length) (us : List Unspent) (r : Str)
    (hr : signTransactionHex C (.single k) ((bytesToHex t.encode).take (2 * n)) us = .ok r) :
    ¬ IsTransactionText r := by
  refine sign_cut h hn ?_ hr
  intro x _ _ w _ sw hash a b hab
  rw [signBytes, signSingle_eq hk] at hab
  injection hab with hab
  dsimp only at hab
  rw [if_pos rfl] at hab
  rw [← (Prod.mk.inj hab).2]
  refine ⟨_, rfl, by norm_num, ?_⟩
  intro i hi
  have h1 := hk.sig hash
  have h2 := hk.pub'
  simp only [List.mem_cons, List.not_mem_nil, or_false] at hi
  rcases hi with rfl | rfl
  · rw [List.length_append, List.length_singleton]; omega
  · omega

/-- Whether the call returned a text. -/
def returned : Py Str → Bool
  | .ok _ => true
  | .error _ => false

theorem of_returned {a : Py Str} (h : returned a = true) : ∃ r, a = .ok r := by
  cases a with
  | ok r => exact ⟨r, rfl⟩
  | error e => cases h

/-- Without three of its last bytes the sample transaction is signed; what comes out is not a transaction. -/
example : ∃ r, signTransactionHex crypto (.single keyA) ((bytesToHex sampleTx.encode).take (2 * (sampleTx.encode.length - 3)))
    [unspentA] = .ok r ∧ ¬ IsTransactionText r := by
  obtain ⟨r, hr⟩ := of_returned (a := signTransactionHex crypto (.single keyA) ((bytesToHex sampleTx.encode).take
    (2 * (sampleTx.encode.length - 3))) [unspentA]) (by decide +kernel)
  exact ⟨r, hr, C102_cut crypto keyA (toy_laws keyA (by decide)) sampleTx sampleTx_wf _ (by decide +kernel) _ r hr⟩

/-- C102. The same for the signers of a contract, for transactions without witnesses. -/
theorem C102_cut_contract (C : Crypto) (s : MultiSig) (k : PrivKey) (hs : ContractLaws C s) (hk : SignerLaws C s k)
    (t : Spec.Tx) (h : t.WF) (hw : ∀ i ∈ t.inputs, i.witness = []) (n : Nat) (hn : n < t.encode.length)
    (us : List Unspent) (r : Str)
    (hr : signTransactionHex C (.multi { s with key := k }) ((bytesToHex t.encode).take (2 * n)) us = .ok r) :
    ¬ IsTransactionText r := by
  refine sign_cut h hn ?_ hr
  intro x _ hx w hmem sw hash a b hab
  obtain ⟨i, hi, rfl⟩ := List.mem_map.mp hmem
  rw [hx hw i hi, signBytes, signMulti_first hs hk] at hab
  injection hab with hab
  dsimp only at hab
  rw [if_pos rfl] at hab
  rw [← (Prod.mk.inj hab).2]
  obtain ⟨-, hl, -⟩ := redeem_head hs
  have hone : (sigsFor C s [k] hash).length = 1 :=
    sigsFor_length hs.nodup (by simp) fun a ha => by rw [List.mem_singleton.mp ha]; exact hk.mem
  obtain ⟨sig, hsig⟩ := List.length_eq_one_iff.mp hone
  have hsl := sigsFor_item (d := hash) (done := [k]) (s := s) (C := C) (by
    intro a ha
    rw [List.mem_singleton.mp ha]
    exact hk)
  rw [hsig] at hsl ⊢
  refine ⟨[[], sig, s.redeemscript], ?_, by norm_num, ?_⟩
  · simp [Spec.encodeStack, Spec.varBytes, show Spec.compact 0 = [0x00] by decide]
  · intro i hi
    simp only [List.mem_cons, List.not_mem_nil, or_false] at hi
    rcases hi with rfl | rfl | rfl
    · simp
    · have := hsl i (by simp)
      omega
    · omega

/-- The contract signs its segwit input of the transaction without lock time. -/
example : ∃ r, signTransactionHex crypto (.multi { contract with key := keyA }) ((bytesToHex unsignedTx.encode).take
    (2 * (unsignedTx.encode.length - 4))) [unspentM] = .ok r ∧ ¬ IsTransactionText r := by
  obtain ⟨r, hr⟩ := of_returned (a := signTransactionHex crypto (.multi { contract with key := keyA })
    ((bytesToHex unsignedTx.encode).take (2 * (unsignedTx.encode.length - 4))) [unspentM]) (by decide +kernel)
  exact ⟨r, hr, C102_cut_contract crypto contract keyA contract_laws (contract_signer (Or.inl rfl)) unsignedTx unsignedTx_wf
    (by decide) _ (by decide +kernel) _ r hr⟩

/-! ### texts with an odd number of digits -/

/-- The bytes read from digits that were moved by one, the first of them being `c`. -/
def nibShift : Nat → Bytes → Bytes
  | _, [] => []
  | c, b :: bs => UInt8.ofNat (16 * c + b.toNat / 16) :: nibShift (b.toNat % 16) bs

theorem nibShift_length : ∀ (c : Nat) (b : Bytes), (nibShift c b).length = b.length
  | _, [] => rfl
  | _, b :: bs => by simp [nibShift, nibShift_length]

theorem fromHex_shift : ∀ (b : Bytes) (k c : Nat), c < 16 → k < b.length →
    fromHex (hexDigit c :: (bytesToHex b).take (2 * k + 1)) = .ok (nibShift c (b.take (k + 1)))
  | [], k, c, _, h => by simp at h
  | x :: b, 0, c, hc, _ => by
    have hx := u8_lt x
    simp only [bytesToHex, Nat.mul_zero, Nat.zero_add, List.take_succ_cons, List.take_zero]
    rw [fromHex, hexDigit_space hc, if_neg (by simp)]
    rw [hexDigit_val hc, hexDigit_val (by omega)]
    rfl
  | x :: b, k + 1, c, hc, hk => by
    have hx := u8_lt x
    have ih := fromHex_shift b k (x.toNat % 16) (by omega) (by simpa using hk)
    rw [show 2 * (k + 1) + 1 = (2 * k + 1) + 2 by omega]
    simp only [bytesToHex, List.take_succ_cons]
    rw [fromHex, hexDigit_space hc, if_neg (by simp)]
    rw [hexDigit_val hc, hexDigit_val (by omega)]
    dsimp only
    rw [ih]
    rfl

theorem deserializeHex_odd {b : Bytes} {k : Nat} (hk : k < b.length) :
    deserializeHex ((bytesToHex b).take (2 * k + 1)) = deserialize (nibShift 0 (b.take (k + 1))) := by
  have hall : ((bytesToHex b).take (2 * k + 1)).all (fun c => (hexVal c).isSome) = true := by
    rw [List.all_eq_true]
    intro c hc
    exact List.all_eq_true.mp (bytesToHex_all_hex b) c (List.mem_of_mem_take hc)
  have hlen : ((bytesToHex b).take (2 * k + 1)).length % 2 = 1 := by
    rw [List.length_take, bytesToHex_length]
    omega
  unfold deserializeHex
  rw [if_pos hall, hexToBytes, if_pos hlen, show '0' = hexDigit 0 by decide, fromHex_shift b k 0 (by norm_num) hk]

theorem readOuts_length : ∀ {n : Nat} {p r : Bytes} {v : List TxOut}, readOuts n p = .ok (v, r) → v.length = n
  | 0, p, r, v, h => by
    injection h with h
    rw [← (Prod.mk.inj h).1]
    rfl
  | n + 1, p, r, v, h => by
    rw [readOuts] at h
    dsimp only at h
    split at h
    · cases h
    · split at h
      · cases h
      · split at h
        · cases h
        · rename_i he
          injection h with h
          rw [← (Prod.mk.inj h).1, List.length_cons, readOuts_length he]

/-- Moved by one digit, the bytes after the version of ordinary size say that there are no inputs. -/
theorem odd_bytes {v : Nat} (hv : v < 2 ^ 24) {b4 b5 : UInt8} (h4 : b4.toNat < 15) (rest : Bytes) {k : Nat} (hk : 5 ≤ k) :
    ∃ a tail, a.length = 4 ∧ nibShift 0 ((Spec.leEncode 4 v ++ (b4 :: b5 :: rest)).take (k + 1)) =
      a ++ (0x00 :: UInt8.ofNat (16 * b4.toNat + b5.toNat / 16) :: tail) := by
  obtain ⟨j, rfl⟩ : ∃ j, k = j + 5 := ⟨k - 5, by omega⟩
  have h3 : v / 256 / 256 / 256 % 256 = 0 := by
    have : v / 256 / 256 / 256 = 0 := by
      norm_num at hv
      omega
    rw [this]
  refine ⟨nibShift 0 (Spec.leEncode 4 v), nibShift (b5.toNat % 16) (rest.take j), ?_, ?_⟩
  · rw [nibShift_length, leEncode_length]
  · simp only [Spec.leEncode, List.cons_append, List.nil_append, List.take_succ_cons, nibShift, h3]
    simp only [show UInt8.ofNat 0 = 0 from rfl, show (0 : UInt8).toNat = 0 from rfl, Nat.zero_mod, Nat.mul_zero, Nat.zero_add,
      Nat.div_eq_of_lt (show b4.toNat < 16 by omega), Nat.mod_eq_of_lt (show b4.toNat < 16 by omega)]

theorem odd_read {v : Nat} (hv : v < 2 ^ 24) {b4 b5 : UInt8} (h4 : b4.toNat < 15)
    (h1 : 16 * b4.toNat + b5.toNat / 16 ≠ 1) {rest : Bytes} {k : Nat} (hk : k < rest.length + 6) {x : TxObj}
    (hx : deserializeHex ((bytesToHex (Spec.leEncode 4 v ++ (b4 :: b5 :: rest))).take (2 * k + 1)) = .ok x) :
    x.version.length = 4 ∧ x.ins = [] ∧ x.outs.length = 16 * b4.toNat + b5.toNat / 16 ∧ 5 ≤ k := by
  have h5 := u8_lt b5
  rw [deserializeHex_odd (by simp [leEncode_length]; omega)] at hx
  rcases Nat.lt_or_ge k 5 with hk5 | hk5
  · -- too little is there
    exfalso
    rcases Nat.lt_or_ge k 4 with hk4 | hk4
    · rw [C26_missing_count_refused _ (by rw [nibShift_length, List.length_take]; omega)] at hx
      cases hx
    · obtain rfl : k = 4 := by omega
      have h3 : v / 256 / 256 / 256 % 256 = 0 := by
        have : v / 256 / 256 / 256 = 0 := by
          norm_num at hv
          omega
        rw [this]
      have e : nibShift 0 ((Spec.leEncode 4 v ++ (b4 :: b5 :: rest)).take (4 + 1)) = nibShift 0 (Spec.leEncode 4 v) ++ [0x00] := by
        simp only [Spec.leEncode, List.cons_append, List.nil_append, List.take_succ_cons, List.take_zero, nibShift, h3]
        simp only [show UInt8.ofNat 0 = 0 from rfl, show (0 : UInt8).toNat = 0 from rfl, Nat.zero_mod, Nat.mul_zero, Nat.zero_add,
          Nat.div_eq_of_lt (show b4.toNat < 16 by omega)]
      rw [e] at hx
      have hl : (nibShift 0 (Spec.leEncode 4 v)).length = 4 := by rw [nibShift_length, leEncode_length]
      unfold deserialize at hx
      rw [readBytes_append _ _ hl] at hx
      have hsw : bytesIsSegwit (nibShift 0 (Spec.leEncode 4 v) ++ [0x00]) = false := by
        unfold bytesIsSegwit
        rw [List.drop_left' hl]
        decide
      have hz : readVarInt [0x00] = .ok (0, []) := readVarInt_small (b := 0x00) (by decide) []
      rw [hsw] at hx
      dsimp only at hx
      rw [if_neg (by simp), hz] at hx
      dsimp only [readIns] at hx
      rw [readVarInt_nil] at hx
      cases hx
  · obtain ⟨a, tail, ha, e⟩ := odd_bytes hv h4 (b5 := b5) rest hk5
    have hz : (UInt8.ofNat (16 * b4.toNat + b5.toNat / 16)).toNat = 16 * b4.toNat + b5.toNat / 16 :=
      u8_ofNat_toNat _ (by omega)
    generalize UInt8.ofNat (16 * b4.toNat + b5.toNat / 16) = z at e hz
    rw [e] at hx
    unfold deserialize at hx
    have hsw : bytesIsSegwit (a ++ 0x00 :: z :: tail) = false := by
      unfold bytesIsSegwit
      rw [List.drop_left' ha]
      have : z ≠ 0x01 := by
        rintro rfl
        exact h1 hz.symm
      simp [this]
    rw [hsw, readBytes_append _ _ ha] at hx
    dsimp only at hx
    rw [if_neg (by simp), readVarInt_small (b := 0x00) (by decide)] at hx
    dsimp only [UInt8.toNat_zero] at hx
    rw [show (0x00 : UInt8).toNat = 0 from rfl] at hx
    dsimp only [readIns] at hx
    rw [readVarInt_small (b := z) (by omega)] at hx
    dsimp only at hx
    split at hx
    · cases hx
    · rename_i outs r ho
      simp only [Bool.false_eq_true, if_false] at hx
      injection hx with hx
      rw [← hx]
      refine ⟨ha, by simp [mkTxObj], ?_, hk5⟩
      rw [← hz]
      exact readOuts_length ho

/-- The fifth and sixth byte of an encoding. -/
theorem encode_fifth {t : Spec.Tx} (h : t.WF) (hin : t.inputs.length < 15 ∨ ¬ ∀ i ∈ t.inputs, i.witness = []) :
    ∃ (b4 b5 : UInt8) (rest : Bytes), t.encode = Spec.leEncode 4 t.version ++ (b4 :: b5 :: rest) ∧ b4.toNat < 15 ∧
      16 * b4.toNat + b5.toNat / 16 ≠ 1 ∧ ((¬ ∀ i ∈ t.inputs, i.witness = []) → b4 = 0x00 ∧ b5 = 0x01) := by
  rcases encode_two t with ⟨e, hw⟩ | ⟨e, hw⟩
  · have hin : t.inputs.length < 15 := hin.resolve_right fun h' => h' hw
    have h0 : t.inputs.length ≠ 0 := by simpa using h.nonempty
    cases hi : t.inputs with
    | nil => exact absurd hi h.nonempty
    | cons i is =>
      have hid := (h.input i (by rw [hi]; simp)).txid
      cases hp : i.prevTxid with
      | nil => rw [hp] at hid; simp at hid
      | cons c cs =>
        have hn : (UInt8.ofNat t.inputs.length).toNat = t.inputs.length := u8_ofNat_toNat _ (by omega)
        refine ⟨UInt8.ofNat t.inputs.length, c, cs ++ (Spec.leEncode 4 i.prevIndex ++ (Spec.varBytes i.script ++
            (Spec.leEncode 4 i.sequence ++ (is.flatMap Spec.TxInput.encode ++ (Spec.compact t.outputs.length ++
              (t.outputs.flatMap Spec.TxOutput.encode ++ Spec.leEncode 4 t.lockTime)))))), ?_, by omega, by omega,
          fun h' => (h' (by rw [← hi]; exact hw)).elim⟩
        · rw [e, Spec.Tx.encodeBody, Spec.compact, if_pos (by omega), hi, List.flatMap_cons, Spec.TxInput.encode, hp]
          simp
  · exact ⟨0x00, 0x01, _, by rw [e]; rfl, by decide, by decide, fun _ => ⟨rfl, rfl⟩⟩

/-- C26 (the code violates the ideal). A transaction with witnesses (and a version below 2^24), cut off in the middle of
a byte anywhere after its tenth digit, is always accepted: it is read as a transaction without inputs and outputs. -/
theorem C26_cut_odd_accepted (t : Spec.Tx) (h : t.WF) (hv : t.version < 2 ^ 24)
    (hw : ¬ ∀ i ∈ t.inputs, i.witness = []) (k : Nat) (hk5 : 5 ≤ k) (hk : k < t.encode.length) :
    ∃ x, deserializeHex ((bytesToHex t.encode).take (2 * k + 1)) = .ok x ∧ x.ins = [] ∧ x.outs = [] := by
  obtain ⟨b4, b5, rest, e, h4, h1, hb⟩ := encode_fifth h (.inr hw)
  obtain ⟨rfl, rfl⟩ := hb hw
  rw [deserializeHex_odd hk, e]
  obtain ⟨a, tail, ha, e'⟩ := odd_bytes hv h4 (b5 := 0x01) rest hk5
  rw [e']
  refine ⟨⟨a, [], [], tail.take 4⟩, ?_, rfl, rfl⟩
  have hz : UInt8.ofNat (16 * (0x00 : UInt8).toNat + (0x01 : UInt8).toNat / 16) = 0x00 := by decide
  rw [hz]
  have hsw : bytesIsSegwit (a ++ 0x00 :: 0x00 :: tail) = false := by
    unfold bytesIsSegwit
    rw [List.drop_left' ha]
    simp
  unfold deserialize
  rw [hsw, readBytes_append _ _ ha]
  dsimp only
  rw [if_neg (by simp), readVarInt_small (b := 0x00) (by decide), show (0x00 : UInt8).toNat = 0 from rfl]
  dsimp only [readIns]
  rw [readVarInt_small (b := 0x00) (by decide), show (0x00 : UInt8).toNat = 0 from rfl]
  dsimp only [readOuts]
  rfl

example : ∃ x, deserializeHex ((bytesToHex sampleTx.encode).take 101) = .ok x ∧ x.ins = [] ∧ x.outs = [] :=
  C26_cut_odd_accepted sampleTx sampleTx_wf (by decide) (by decide) 50 (by norm_num) (by decide +kernel)

/-- C102. Cut in the middle of a byte: whoever signs, nothing becomes a transaction (for versions below 2^24 and, without
witnesses, fewer than 15 inputs). -/
theorem C102_cut_odd (C : Crypto) (s : Signer) (t : Spec.Tx) (h : t.WF) (hv : t.version < 2 ^ 24)
    (hin : t.inputs.length < 15 ∨ ¬ ∀ i ∈ t.inputs, i.witness = []) (n : Nat) (hn : n < t.encode.length)
    (us : List Unspent) (r : Str)
    (hr : signTransactionHex C s ((bytesToHex t.encode).take (2 * n + 1)) us = .ok r) : ¬ IsTransactionText r := by
  obtain ⟨b4, b5, rest, e, h4, h1, -⟩ := encode_fifth h hin
  unfold signTransactionHex at hr
  split at hr
  · cases hr
  · rename_i x hx
    rw [e] at hx hn
    obtain ⟨e1, e2, e3, -⟩ := odd_read hv h4 h1 (by simp [leEncode_length] at hn; omega) hx
    have h5 := u8_lt b5
    unfold signTx at hr
    split at hr
    · cases hr
    · rename_i x' hx'
      obtain ⟨f1, f2, f3, f4⟩ := signTxObj_shape (by rw [e2]; intro w hw; simp at hw) hx'
      rw [e2] at f4
      have f4 : x'.ins = [] := by cases hc : x'.ins with
        | nil => rfl
        | cons a as => rw [hc] at f4; cases f4
      unfold TxObj.toHex at hr
      split at hr
      · cases hr
      · rename_i b hb
        injection hr with hr
        unfold TxObj.bytes TxObj.body at hb
        rw [f4, f2, List.length_nil, intToVarint_compact (by norm_num)] at hb
        dsimp only at hb
        rw [intToVarint_compact (by omega)] at hb
        dsimp only at hb
        injection hb with hb
        have hb4 : b.drop 4 = 0x00 :: (Spec.compact x.outs.length ++ (x.outs.flatMap TxOut.bytes ++ x'.locktime)) := by
          rw [← hb]
          simp only [List.flatMap_nil, List.isEmpty_nil, if_true, List.append_nil, List.append_assoc]
          rw [List.drop_left' (by rw [f1]; exact e1)]
          rfl
        rintro ⟨b', ⟨t', ht', he⟩, er⟩
        rw [← hr] at er
        rw [← bytesToHex_inj er] at he
        rcases he with he | he
        · rw [he, ← List.append_nil t'.encodeLegacy, encodeLegacy_assoc, List.drop_left' (leEncode_length 4 _),
            Spec.Tx.encodeBody] at hb4
          simp only [List.append_assoc] at hb4
          obtain ⟨c, cs, hc, ec⟩ := compact_head (show t'.inputs.length ≠ 0 by simpa using ht'.nonempty)
            (t'.inputs.flatMap Spec.TxInput.encode ++ (Spec.compact t'.outputs.length ++
              (t'.outputs.flatMap Spec.TxOutput.encode ++ (Spec.leEncode 4 t'.lockTime ++ []))))
          rw [ec] at hb4
          exact hc (List.cons.inj hb4).1
        · rw [he, ← List.append_nil t'.encodeExtended, encodeExtended_assoc, List.drop_left' (leEncode_length 4 _)] at hb4
          obtain ⟨c, cs, hc, ec⟩ := compact_first (n := x.outs.length) (by omega) (x.outs.flatMap TxOut.bytes ++ x'.locktime)
          rw [ec] at hb4
          simp only [List.cons_append, List.cons.injEq] at hb4
          exact hc hb4.2.1.symm

/-- Key A "signs" half of the sample transaction without complaint. -/
example : ∃ r, signTransactionHex crypto (.single keyA) ((bytesToHex sampleTx.encode).take (2 * 300 + 1)) [unspentA] = .ok r ∧
    ¬ IsTransactionText r := by
  obtain ⟨r, hr⟩ := of_returned (a := signTransactionHex crypto (.single keyA) ((bytesToHex sampleTx.encode).take
    (2 * 300 + 1)) [unspentA]) (by decide +kernel)
  exact ⟨r, hr, C102_cut_odd crypto (.single keyA) sampleTx sampleTx_wf (by decide) (.inl (by decide)) 300 (by decide +kernel)
    _ r hr⟩

end Bit
