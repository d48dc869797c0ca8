import Verif.Props.Tx
/-
Lemmas on what `deserialize` reads from the beginning of an encoding: every reader either reads its whole field,
or raises, or uses up the stream.
-/
namespace Bit

theorem cut_append {p a b : Bytes} (h : p <+: a ++ b) :
    (p <+: a ∧ p.length < a.length) ∨ ∃ q, p = a ++ q ∧ q <+: b := by
  rcases Nat.lt_or_ge p.length a.length with hl | hl
  · exact .inl ⟨List.prefix_of_prefix_length_le h (List.prefix_append a b) hl.le, hl⟩
  · obtain ⟨q, rfl⟩ := List.prefix_of_prefix_length_le (List.prefix_append a b) h hl
    exact .inr ⟨q, rfl, (List.prefix_append_right_inj a).mp h⟩

theorem readVarInt_nil : readVarInt [] = .error .valueError := by
  unfold readVarInt
  rw [hexInt_eq]
  simp

theorem readVarString_nil : readVarString [] = .error .valueError := by
  unfold readVarString
  rw [readVarInt_nil]

theorem wide_cut {b : UInt8} {k : Nat} (h : b.toNat = 252 + k) (hk : 1 ≤ k) {q r : Bytes} {v : Nat}
    (hq : q.length ≤ 2 ^ k) (hr : readVarInt (b :: q) = .ok (v, r)) : r = [] := by
  unfold readVarInt at hr
  rw [hexInt_eq] at hr
  have h1 : beNat [b] = 252 + k := by simp [beNat, leNat, h]
  have hlt : ¬ (252 + k < 253) := by omega
  simp only [List.take_succ_cons, List.take_zero, List.cons_ne_nil, if_false, h1, hlt,
    List.drop_succ_cons, List.drop_zero, Nat.add_sub_cancel_left] at hr
  unfold readAsInt at hr
  split at hr
  · injection hr with hr
    have := (Prod.mk.inj hr).2
    rw [← this]
    exact List.drop_eq_nil_of_le hq
  · cases hr

/-- A number of which a part is missing uses up the stream. -/
theorem readVarInt_cut {n v : Nat} {p r : Bytes} (h : p <+: Spec.compact n) (hl : p.length < (Spec.compact n).length)
    (hr : readVarInt p = .ok (v, r)) : r = [] := by
  cases p with
  | nil => rw [readVarInt_nil] at hr; cases hr
  | cons b q =>
    unfold Spec.compact at h hl
    split_ifs at h hl
    · simp at hl
    all_goals
      rw [List.cons_prefix_cons] at h
      obtain ⟨rfl, h⟩ := h
      rw [List.length_cons, List.length_cons, leEncode_length] at hl
    · exact wide_cut (k := 1) rfl (by norm_num) (by norm_num; omega) hr
    · exact wide_cut (k := 2) rfl (by norm_num) (by norm_num; omega) hr
    · exact wide_cut (k := 3) rfl (by norm_num) (by norm_num; omega) hr

theorem readVarString_cut {b p v r : Bytes} (hb : b.length < 2 ^ 64) (h : p <+: Spec.varBytes b)
    (hl : p.length < (Spec.varBytes b).length) (hr : readVarString p = .ok (v, r)) : r = [] ∧ v.length < 2 ^ 64 := by
  refine ⟨?_, readVarString_lt hr⟩
  unfold readVarString at hr
  rcases cut_append h with ⟨h, hl'⟩ | ⟨q, rfl, hq⟩
  · split at hr
    · cases hr
    · rename_i n s he
      obtain rfl := readVarInt_cut h hl' he
      injection hr with hr
      simpa [readBytes] using (congrArg Prod.snd hr).symm
  · rw [readVarInt_compact hb] at hr
    injection hr with hr
    rw [Spec.varBytes, List.length_append, List.length_append] at hl
    rw [readBytes] at hr
    rw [← (Prod.mk.inj hr).2]
    exact List.drop_eq_nil_of_le (by omega)

theorem readIns_nil : ∀ {n : Nat} {v : List TxIn} {r : Bytes}, readIns n [] = .ok (v, r) → n = 0 ∧ r = []
  | 0, v, r, h => by
    injection h with h
    exact ⟨rfl, (congrArg Prod.snd h).symm⟩
  | n + 1, v, r, h => by
    rw [readIns] at h
    simp only [readBytes, List.drop_nil, readVarString_nil] at h
    cases h

theorem readIns_cut : ∀ {is : List Spec.TxInput}, (∀ i ∈ is, i.WF) → ∀ {p r : Bytes} {v : List TxIn},
    p <+: is.flatMap Spec.TxInput.encode → p.length < (is.flatMap Spec.TxInput.encode).length →
    readIns is.length p = .ok (v, r) → r = []
  | [], _, p, r, v, h, hl, hr => by simp at hl
  | i :: is, hw, p, r, v, h, hl, hr => by
    have hi := hw i (by simp)
    rw [List.flatMap_cons] at h hl
    rw [List.length_cons, readIns] at hr
    dsimp only [readBytes] at hr
    rw [List.drop_drop] at hr
    have e : i.encode = (i.prevTxid ++ Spec.leEncode 4 i.prevIndex) ++ (Spec.varBytes i.script ++ Spec.leEncode 4 i.sequence) := by
      simp [Spec.TxInput.encode]
    have hlen : (i.prevTxid ++ Spec.leEncode 4 i.prevIndex).length = 36 := by
      rw [List.length_append, hi.txid, leEncode_length]
    rcases cut_append h with ⟨h, hl'⟩ | ⟨q, rfl, hq⟩
    · rw [e] at h hl'
      rcases cut_append h with ⟨-, h36⟩ | ⟨q, rfl, hq⟩
      · rw [List.drop_eq_nil_of_le (by omega), readVarString_nil] at hr
        cases hr
      · rw [List.drop_left' hlen] at hr
        rcases cut_append hq with ⟨hq, hql⟩ | ⟨q', rfl, hq'⟩
        · split at hr
          · cases hr
          · rename_i s tx he
            obtain ⟨rfl, -⟩ := readVarString_cut hi.script hq hql he
            rw [List.drop_nil] at hr
            split at hr
            · cases hr
            · split at hr
              · cases hr
              · rename_i he'
                injection hr with hr
                rw [← (Prod.mk.inj hr).2]
                exact (readIns_nil he').2
        · rw [readVarString_varBytes hi.script] at hr
          dsimp only at hr
          have : q'.drop 4 = [] := List.drop_eq_nil_of_le (by
            have := hq'.length_le
            rwa [leEncode_length] at this)
          rw [this] at hr
          split at hr
          · cases hr
          · split at hr
            · cases hr
            · rename_i he'
              injection hr with hr
              rw [← (Prod.mk.inj hr).2]
              exact (readIns_nil he').2
    · have hd : (i.encode ++ q).drop (32 + 4) = Spec.varBytes i.script ++ (Spec.leEncode 4 i.sequence ++ q) := by
        rw [e, List.append_assoc, List.drop_left' hlen, List.append_assoc]
      rw [hd, readVarString_varBytes hi.script] at hr
      dsimp only at hr
      rw [List.drop_left' (leEncode_length 4 _)] at hr
      split at hr
      · cases hr
      · split at hr
        · cases hr
        · rename_i he
          injection hr with hr
          rw [← (Prod.mk.inj hr).2]
          rw [List.length_append, List.length_append] at hl
          exact readIns_cut (fun j hj => hw j (by simp [hj])) hq (by omega) he

theorem readOuts_nil : ∀ {n : Nat} {v : List TxOut} {r : Bytes}, readOuts n [] = .ok (v, r) → n = 0 ∧ v = [] ∧ r = []
  | 0, v, r, h => by
    injection h with h
    exact ⟨rfl, (congrArg Prod.fst h).symm, (congrArg Prod.snd h).symm⟩
  | n + 1, v, r, h => by
    rw [readOuts] at h
    simp only [readBytes, List.drop_nil, readVarString_nil] at h
    cases h

/-- Outputs of which a part is missing: the stream is used up, all amounts are there, and only the last script is
cut. -/
theorem readOuts_cut : ∀ {os : List Spec.TxOutput}, (∀ o ∈ os, o.WF) → ∀ {p r : Bytes} {v : List TxOut},
    p <+: os.flatMap Spec.TxOutput.encode → p.length < (os.flatMap Spec.TxOutput.encode).length →
    readOuts os.length p = .ok (v, r) →
    r = [] ∧ (∃ os' : List Spec.TxOutput, os'.length = os.length ∧ (∀ o ∈ os', o.WF) ∧ v = os'.map outOf) ∧
      ∀ o, os.getLast? = some o → (os.flatMap Spec.TxOutput.encode).length < p.length + (Spec.varBytes o.script).length
  | [], _, p, r, v, h, hl, hr => by simp at hl
  | o :: os, hw, p, r, v, h, hl, hr => by
    have ho := hw o (by simp)
    rw [List.flatMap_cons] at h hl
    rw [List.length_cons, readOuts] at hr
    dsimp only [readBytes] at hr
    rcases cut_append h with ⟨h, hl'⟩ | ⟨q, rfl, hq⟩
    · rw [Spec.TxOutput.encode] at h hl'
      rcases cut_append h with ⟨-, h8⟩ | ⟨q, rfl, hq⟩
      · rw [leEncode_length] at h8
        rw [List.drop_eq_nil_of_le (by omega), readVarString_nil] at hr
        cases hr
      · rw [List.drop_left' (leEncode_length 8 _), List.take_left' (leEncode_length 8 _)] at hr
        rw [List.length_append, List.length_append] at hl'
        split at hr
        · cases hr
        · rename_i s tx he
          obtain ⟨rfl, hs⟩ := readVarString_cut ho.script hq (by omega) he
          rw [mkTxOut, intToVarint_compact hs] at hr
          dsimp only at hr
          split at hr
          · cases hr
          · rename_i he'
            obtain ⟨h0, rfl, rfl⟩ := readOuts_nil he'
            injection hr with hr
            have hos : os = [] := List.length_eq_zero_iff.mp h0
            subst hos
            refine ⟨(Prod.mk.inj hr).2.symm, ⟨[⟨o.value, s⟩], rfl, ?_, (Prod.mk.inj hr).1.symm⟩, ?_⟩
            · intro o' ho'
              rw [List.mem_singleton.mp ho']
              exact ⟨ho.value, hs⟩
            · intro o' ho'
              simp only [List.getLast?_singleton, Option.some.injEq] at ho'
              subst ho'
              have hq0 : q ≠ [] := by
                rintro rfl
                rw [readVarString_nil] at he
                cases he
              have := List.length_pos_of_ne_nil hq0
              simp only [List.flatMap_cons, List.flatMap_nil, List.append_nil, Spec.TxOutput.encode, List.length_append]
              omega
    · rw [Spec.TxOutput.encode, List.append_assoc, List.drop_left' (leEncode_length 8 _),
        List.take_left' (leEncode_length 8 _), readVarString_varBytes ho.script] at hr
      dsimp only at hr
      rw [mkTxOut, intToVarint_compact ho.script] at hr
      dsimp only at hr
      rw [List.length_append, List.length_append] at hl
      split at hr
      · cases hr
      · rename_i he
        injection hr with hr
        obtain ⟨rfl, ⟨os', h1, h2, rfl⟩, h3⟩ := readOuts_cut (fun j hj => hw j (by simp [hj])) hq (by omega) he
        refine ⟨(Prod.mk.inj hr).2.symm, ⟨o :: os', by simp [h1], ?_, (Prod.mk.inj hr).1.symm⟩, ?_⟩
        · intro o' ho'
          rcases List.mem_cons.mp ho' with rfl | ho'
          · exact ho
          · exact h2 o' ho'
        · intro o' ho'
          have hne : os ≠ [] := by
            rintro rfl
            simp at hl
          rw [List.getLast?_cons_of_ne_nil hne] at ho'
          have := h3 o' ho'
          rw [List.flatMap_cons, List.length_append, List.length_append]
          omega

theorem readItems_nil : ∀ {n : Nat} {v r : Bytes}, readItems n [] = .ok (v, r) → n = 0 ∧ v = [] ∧ r = []
  | 0, v, r, h => by
    injection h with h
    exact ⟨rfl, (congrArg Prod.fst h).symm, (congrArg Prod.snd h).symm⟩
  | n + 1, v, r, h => by
    rw [readItems, readSegwitString, readVarInt_nil] at h
    cases h

theorem readItems_cut : ∀ {ws : List Bytes}, (∀ w ∈ ws, w.length < 2 ^ 64) → ∀ {p v r : Bytes},
    p <+: ws.flatMap Spec.varBytes → p.length < (ws.flatMap Spec.varBytes).length →
    readItems ws.length p = .ok (v, r) →
    r = [] ∧ ∃ ws' : List Bytes, ws'.length = ws.length ∧ (∀ w ∈ ws', w.length < 2 ^ 64) ∧ v <+: ws'.flatMap Spec.varBytes
  | [], _, p, v, r, h, hl, hr => by simp at hl
  | w :: ws, hw, p, v, r, h, hl, hr => by
    have hi := hw w (by simp)
    rw [List.flatMap_cons] at h hl
    rw [List.length_cons, readItems] at hr
    -- one item from a stream that ends inside it
    have last : ∀ {a c : Bytes}, a <+: Spec.varBytes c → c.length < 2 ^ 64 →
        ((match readItems ws.length ([] : Bytes) with
          | .error e => .error e
          | .ok (ws, tx) => .ok (a ++ ws, tx)) : Py (Bytes × Bytes)) = .ok (v, r) →
        r = [] ∧ ∃ ws' : List Bytes, ws'.length = (w :: ws).length ∧ (∀ w ∈ ws', w.length < 2 ^ 64) ∧
          v <+: ws'.flatMap Spec.varBytes := by
      intro a c ha hc hs
      split at hs
      · cases hs
      · rename_i he
        obtain ⟨h0, rfl, rfl⟩ := readItems_nil he
        injection hs with hs
        have hws : ws = [] := List.length_eq_zero_iff.mp h0
        subst hws
        refine ⟨(Prod.mk.inj hs).2.symm, [c], rfl, ?_, ?_⟩
        · intro x hx
          rw [List.mem_singleton.mp hx]
          exact hc
        · rw [← (Prod.mk.inj hs).1]
          simpa using ha
    rcases cut_append h with ⟨h, hl'⟩ | ⟨q, rfl, hq⟩
    · unfold readSegwitString at hr
      rcases cut_append h with ⟨h, hl'⟩ | ⟨q, rfl, hq⟩
      · split at hr
        · cases hr
        · rename_i he
          split at he
          · cases he
          · rename_i n s hn
            obtain rfl := readVarInt_cut h hl' hn
            rw [intToVarint_compact (readVarInt_lt hn)] at he
            dsimp only [readBytes] at he
            injection he with he
            obtain ⟨rfl, rfl⟩ := Prod.mk.inj he
            rw [List.drop_nil] at hr
            refine last (c := List.replicate n 0) ?_ ?_ hr
            · rw [Spec.varBytes, List.length_replicate, List.take_nil, List.append_nil]
              exact List.prefix_append _ _
            · rw [List.length_replicate]
              exact readVarInt_lt hn
      · rw [readVarInt_compact hi] at hr
        dsimp only [readBytes] at hr
        rw [intToVarint_compact hi] at hr
        dsimp only at hr
        have hql := hq.length_le
        rw [List.drop_eq_nil_of_le hql, List.take_of_length_le hql] at hr
        exact last (c := w) ((List.prefix_append_right_inj _).mpr hq) hi hr
    · rw [readSegwitString_varBytes hi] at hr
      dsimp only at hr
      rw [List.length_append, List.length_append] at hl
      split at hr
      · cases hr
      · rename_i he
        injection hr with hr
        obtain ⟨rfl, ws', h1, h2, h3⟩ := readItems_cut (fun j hj => hw j (by simp [hj])) hq (by omega) he
        refine ⟨(Prod.mk.inj hr).2.symm, w :: ws', by simp [h1], ?_, ?_⟩
        · intro x hx
          rcases List.mem_cons.mp hx with rfl | hx
          · exact hi
          · exact h2 x hx
        · rw [← (Prod.mk.inj hr).1, List.flatMap_cons]
          exact (List.prefix_append_right_inj _).mpr h3

/-- The bytes are a witness stack. -/
def IsStack (w : Bytes) : Prop :=
  ∃ items : List Bytes, w = Spec.encodeStack items ∧ items.length < 2 ^ 64 ∧ ∀ i ∈ items, i.length < 2 ^ 64

/-- The first step of reading witnesses, on its own. -/
def readStack (tx : Bytes) : Py (Bytes × Bytes) :=
  match readVarInt tx with
  | .error e => .error e
  | .ok (wnum, tx) =>
    match intToVarint wnum with
    | .error e => .error e
    | .ok count =>
      match readItems wnum tx with
      | .error e => .error e
      | .ok (items, tx) => .ok (count ++ items, tx)

theorem readWitnesses_cons (i : TxIn) (is : List TxIn) (tx : Bytes) :
    readWitnesses (i :: is) tx =
      match readStack tx with
      | .error e => .error e
      | .ok (w, tx) =>
        match readWitnesses is tx with
        | .error e => .error e
        | .ok (is, tx) => .ok ({ i with witness := w } :: is, tx) := by
  rw [readWitnesses]
  unfold readStack
  cases readVarInt tx with
  | error e => rfl
  | ok v =>
    obtain ⟨n, tx⟩ := v
    dsimp only
    cases intToVarint n with
    | error e => rfl
    | ok c =>
      dsimp only
      cases readItems n tx with
      | error e => rfl
      | ok v => rfl

theorem readStack_nil : readStack [] = .error .valueError := by
  unfold readStack
  rw [readVarInt_nil]

theorem readStack_append {w : Bytes} (h : IsStack w) (rest : Bytes) : readStack (w ++ rest) = .ok (w, rest) := by
  obtain ⟨items, rfl, h1, h2⟩ := h
  unfold readStack Spec.encodeStack
  rw [List.append_assoc, readVarInt_compact h1]
  dsimp only
  rw [intToVarint_compact h1]
  dsimp only
  rw [readItems_encode _ _ h2]

theorem readStack_cut {S p v r : Bytes} (hS : IsStack S) (h : p <+: S) (hl : p.length < S.length)
    (hr : readStack p = .ok (v, r)) : r = [] ∧ ∃ S', IsStack S' ∧ v <+: S' := by
  obtain ⟨items, rfl, h1, h2⟩ := hS
  unfold readStack at hr
  rcases cut_append h with ⟨h, hl'⟩ | ⟨q, rfl, hq⟩
  · split at hr
    · cases hr
    · rename_i n s hn
      obtain rfl := readVarInt_cut h hl' hn
      rw [intToVarint_compact (readVarInt_lt hn)] at hr
      dsimp only at hr
      split at hr
      · cases hr
      · rename_i he
        obtain ⟨rfl, rfl, rfl⟩ := readItems_nil he
        injection hr with hr
        refine ⟨(Prod.mk.inj hr).2.symm, Spec.encodeStack [], ⟨[], rfl, by norm_num, by simp⟩, ?_⟩
        rw [← (Prod.mk.inj hr).1, Spec.encodeStack]
        simp
  · rw [readVarInt_compact h1] at hr
    dsimp only at hr
    rw [intToVarint_compact h1] at hr
    dsimp only at hr
    rw [Spec.encodeStack, List.length_append, List.length_append] at hl
    split at hr
    · cases hr
    · rename_i he
      injection hr with hr
      obtain ⟨rfl, ws', h3, h4, h5⟩ := readItems_cut h2 hq (by omega) he
      refine ⟨(Prod.mk.inj hr).2.symm, Spec.encodeStack ws', ⟨ws', rfl, by omega, h4⟩, ?_⟩
      rw [← (Prod.mk.inj hr).1, Spec.encodeStack, h3]
      exact (List.prefix_append_right_inj _).mpr h5

theorem input_stack {i : Spec.TxInput} (h : i.WF) : IsStack (Spec.encodeStack i.witness) :=
  ⟨i.witness, rfl, h.items, h.item⟩

theorem readWitnesses_nil {is : List TxIn} {v : List TxIn} {r : Bytes} (h : readWitnesses is [] = .ok (v, r)) :
    is = [] ∧ v = [] ∧ r = [] := by
  cases is with
  | nil =>
    injection h with h
    exact ⟨rfl, (congrArg Prod.fst h).symm, (congrArg Prod.snd h).symm⟩
  | cons i is =>
    rw [readWitnesses_cons, readStack_nil] at h
    cases h

/-- Witnesses of which a part is missing: the stream is used up, and only the last witness is cut. -/
theorem readWitnesses_cut : ∀ {is : List Spec.TxInput}, (∀ i ∈ is, i.WF) → ∀ {p r : Bytes} {v : List TxIn},
    p <+: is.flatMap (fun i => Spec.encodeStack i.witness) →
    p.length < (is.flatMap (fun i => Spec.encodeStack i.witness)).length →
    readWitnesses (is.map (inOf false)) p = .ok (v, r) →
    r = [] ∧ ∃ pre last w, is = pre ++ [last] ∧ v = pre.map (inOf true) ++ [{ inOf false last with witness := w }] ∧
      (∃ S, IsStack S ∧ w <+: S) ∧
      (is.flatMap (fun i => Spec.encodeStack i.witness)).length < p.length + (Spec.encodeStack last.witness).length
  | [], _, p, r, v, h, hl, hr => by simp at hl
  | i :: is, hw, p, r, v, h, hl, hr => by
    have hi := hw i (by simp)
    rw [List.flatMap_cons] at h hl
    rw [List.map_cons, readWitnesses_cons] at hr
    rcases cut_append h with ⟨h, hl'⟩ | ⟨q, rfl, hq⟩
    · split at hr
      · cases hr
      · rename_i w s he
        obtain ⟨rfl, S, hS, hwS⟩ := readStack_cut (input_stack hi) h hl' he
        split at hr
        · cases hr
        · rename_i he'
          obtain ⟨h0, rfl, rfl⟩ := readWitnesses_nil he'
          have his : is = [] := List.map_eq_nil_iff.mp h0
          subst his
          injection hr with hr
          refine ⟨(Prod.mk.inj hr).2.symm, [], i, w, rfl, (Prod.mk.inj hr).1.symm, ⟨S, hS, hwS⟩, ?_⟩
          have hp : p ≠ [] := by
            rintro rfl
            rw [readStack_nil] at he
            cases he
          have := List.length_pos_of_ne_nil hp
          simp only [List.flatMap_cons, List.flatMap_nil, List.append_nil]
          omega
    · rw [readStack_append (input_stack hi)] at hr
      dsimp only at hr
      rw [List.length_append, List.length_append] at hl
      split at hr
      · cases hr
      · rename_i he
        injection hr with hr
        obtain ⟨rfl, pre, last, w, rfl, rfl, h3, h4⟩ :=
          readWitnesses_cut (fun j hj => hw j (by simp [hj])) hq (by omega) he
        refine ⟨(Prod.mk.inj hr).2.symm, i :: pre, last, w, rfl, ?_, h3, ?_⟩
        · rw [← (Prod.mk.inj hr).1]
          rfl
        · rw [List.flatMap_cons, List.length_append, List.length_append]
          omega

end Bit
