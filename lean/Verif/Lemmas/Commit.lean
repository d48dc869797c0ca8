import Verif.Lemmas.Sign
/-
The serialisations are injective: what was hashed can be recovered.
-/
namespace Bit
open Spec (leEncode compact varBytes)

theorem leEncode_cancel {len n m : Nat} {r r' : Bytes} (h : leEncode len n ++ r = leEncode len m ++ r')
    (hn : n < 256 ^ len) (hm : m < 256 ^ len) : n = m ∧ r = r' := by
  obtain ⟨h1, h2⟩ := List.append_inj h (by rw [leEncode_length, leEncode_length])
  rw [leEncode_eq, leEncode_eq] at h1
  have := congrArg leNat h1
  rw [leNat_leBytes_of_lt hn, leNat_leBytes_of_lt hm] at this
  exact ⟨this, h2⟩

theorem compact_cancel {n m : Nat} {r r' : Bytes} (h : compact n ++ r = compact m ++ r') (hn : n < 2 ^ 64)
    (hm : m < 2 ^ 64) : n = m ∧ r = r' := by
  have h1 := readVarInt_compact hn r
  rw [h, readVarInt_compact hm r'] at h1
  injection h1 with h1
  injection h1 with h1 h2
  exact ⟨h1.symm, h2.symm⟩

theorem varBytes_cancel {a b r r' : Bytes} (h : varBytes a ++ r = varBytes b ++ r') (ha : a.length < 2 ^ 64)
    (hb : b.length < 2 ^ 64) : a = b ∧ r = r' := by
  have h1 := readVarString_varBytes ha r
  rw [h, readVarString_varBytes hb r'] at h1
  injection h1 with h1
  injection h1 with h1 h2
  exact ⟨h1.symm, h2.symm⟩

theorem input_cancel {i j : Spec.TxInput} {r r' : Bytes} (hi : i.WF) (hj : j.WF)
    (h : i.encode ++ r = j.encode ++ r') : { i with witness := [] } = { j with witness := [] } ∧ r = r' := by
  unfold Spec.TxInput.encode at h
  simp only [List.append_assoc] at h
  obtain ⟨h1, h⟩ := List.append_inj h (by rw [hi.txid, hj.txid])
  obtain ⟨h2, h⟩ := leEncode_cancel h (by have := hi.index; omega) (by have := hj.index; omega)
  obtain ⟨h3, h⟩ := varBytes_cancel h hi.script hj.script
  obtain ⟨h4, h⟩ := leEncode_cancel h (by have := hi.sequence; omega) (by have := hj.sequence; omega)
  refine ⟨?_, h⟩
  rw [h1, h2, h3, h4]

theorem output_cancel {o p : Spec.TxOutput} {r r' : Bytes} (ho : o.WF) (hp : p.WF)
    (h : o.encode ++ r = p.encode ++ r') : o = p ∧ r = r' := by
  unfold Spec.TxOutput.encode at h
  simp only [List.append_assoc] at h
  obtain ⟨h1, h⟩ := leEncode_cancel h (by have := ho.value; omega) (by have := hp.value; omega)
  obtain ⟨h2, h⟩ := varBytes_cancel h ho.script hp.script
  refine ⟨?_, h⟩
  cases o
  cases p
  simp only at h1 h2
  rw [h1, h2]

/-- Two lists of the same length whose elements are written one after the other. -/
theorem flatMap_cancel {α β : Type} {enc : α → Bytes} {core : α → β} {ok : α → Prop}
    (hc : ∀ {a b : α} {r r' : Bytes}, ok a → ok b → enc a ++ r = enc b ++ r' → core a = core b ∧ r = r') :
    ∀ {l l' : List α} {r r' : Bytes}, l.length = l'.length → (∀ a ∈ l, ok a) → (∀ a ∈ l', ok a) →
      l.flatMap enc ++ r = l'.flatMap enc ++ r' → l.map core = l'.map core ∧ r = r'
  | [], [], r, r', _, _, _, h => ⟨rfl, h⟩
  | a :: l, b :: l', r, r', hl, h1, h2, h => by
    rw [List.flatMap_cons, List.flatMap_cons, List.append_assoc, List.append_assoc] at h
    obtain ⟨h3, h⟩ := hc (h1 a List.mem_cons_self) (h2 b List.mem_cons_self) h
    obtain ⟨h4, h⟩ := flatMap_cancel hc (by simpa using hl) (fun a ha => h1 a (List.mem_cons_of_mem _ ha))
      (fun a ha => h2 a (List.mem_cons_of_mem _ ha)) h
    exact ⟨by rw [List.map_cons, List.map_cons, h3, h4], h⟩

/-- The number of elements can be recovered too if no element is written as nothing. -/
theorem flatMap_cancel_nil {α β : Type} {enc : α → Bytes} {core : α → β} {ok : α → Prop}
    (hc : ∀ {a b : α} {r r' : Bytes}, ok a → ok b → enc a ++ r = enc b ++ r' → core a = core b ∧ r = r')
    (hne : ∀ a, enc a ≠ []) :
    ∀ {l l' : List α}, (∀ a ∈ l, ok a) → (∀ a ∈ l', ok a) →
      l.flatMap enc = l'.flatMap enc → l.map core = l'.map core
  | [], [], _, _, h => rfl
  | [], b :: l', _, _, h => by
    rw [List.flatMap_nil, List.flatMap_cons] at h
    exact absurd (List.append_eq_nil_iff.mp h.symm).1 (hne b)
  | a :: l, [], _, _, h => by
    rw [List.flatMap_nil, List.flatMap_cons] at h
    exact absurd (List.append_eq_nil_iff.mp h).1 (hne a)
  | a :: l, b :: l', h1, h2, h => by
    rw [List.flatMap_cons, List.flatMap_cons] at h
    obtain ⟨h3, h⟩ := hc (h1 a List.mem_cons_self) (h2 b List.mem_cons_self) h
    rw [List.map_cons, List.map_cons, h3, flatMap_cancel_nil hc hne (fun a ha => h1 a (List.mem_cons_of_mem _ ha))
      (fun a ha => h2 a (List.mem_cons_of_mem _ ha)) h]

/-- The original serialisation determines everything but the witnesses. -/
theorem encodeLegacy_cancel {t t' : Spec.Tx} {r r' : Bytes} (hv : t.version < 2 ^ 32) (hv' : t'.version < 2 ^ 32)
    (hi : t.inputs.length < 2 ^ 64) (hi' : t'.inputs.length < 2 ^ 64) (hin : ∀ i ∈ t.inputs, i.WF)
    (hin' : ∀ i ∈ t'.inputs, i.WF) (ho : t.outputs.length < 2 ^ 64) (ho' : t'.outputs.length < 2 ^ 64)
    (hout : ∀ o ∈ t.outputs, o.WF) (hout' : ∀ o ∈ t'.outputs, o.WF) (hl : t.lockTime < 2 ^ 32)
    (hl' : t'.lockTime < 2 ^ 32) (h : t.encodeLegacy ++ r = t'.encodeLegacy ++ r') :
    t.version = t'.version ∧
    t.inputs.map (fun i => { i with witness := [] }) = t'.inputs.map (fun i => { i with witness := [] }) ∧
    t.outputs = t'.outputs ∧ t.lockTime = t'.lockTime := by
  unfold Spec.Tx.encodeLegacy Spec.Tx.encodeBody at h
  simp only [List.append_assoc] at h
  obtain ⟨h1, h⟩ := leEncode_cancel h (by omega) (by omega)
  obtain ⟨h2, h⟩ := compact_cancel h hi hi'
  obtain ⟨h3, h⟩ := flatMap_cancel (ok := Spec.TxInput.WF) (fun ha hb h => input_cancel ha hb h) h2 hin hin' h
  obtain ⟨h4, h⟩ := compact_cancel h ho ho'
  obtain ⟨h5, h⟩ := flatMap_cancel (ok := Spec.TxOutput.WF) (core := id)
    (fun ha hb h => output_cancel ha hb h) h4 hout hout' h
  obtain ⟨h6, h⟩ := leEncode_cancel h (by omega) (by omega)
  rw [List.map_id, List.map_id] at h5
  exact ⟨h1, h3, h5, h6⟩

/-! ## The signed messages -/

/-- What `SameSkeleton` compares of an input. -/
def core (i : Spec.TxInput) : Bytes × Nat × Nat := (i.prevTxid, i.prevIndex, i.sequence)

/-- The inputs as they are in the message of the original scheme. -/
def blanked (t : Spec.Tx) (j : Nat) (code : Bytes) : List Spec.TxInput :=
  t.inputs.mapIdx fun n i => { i with script := if n = j then code else [] }

theorem blanked_get (t : Spec.Tx) (j : Nat) (code : Bytes) (n : Nat) :
    (blanked t j code)[n]? = t.inputs[n]?.map fun i => { i with script := if n = j then code else [] } := by
  unfold blanked
  rw [List.getElem?_mapIdx]

theorem blanked_core (t : Spec.Tx) (j : Nat) (code : Bytes) : (blanked t j code).map core = t.inputs.map core := by
  refine List.ext_getElem? fun n => ?_
  rw [List.getElem?_map, List.getElem?_map, blanked_get]
  cases t.inputs[n]? <;> rfl

theorem blanked_wf {t : Spec.Tx} (h : t.WF) {j : Nat} {code : Bytes} (hc : code.length < 2 ^ 64) :
    ∀ i ∈ blanked t j code, i.WF := by
  intro i hi
  obtain ⟨n, hn⟩ := List.getElem?_of_mem hi
  rw [blanked_get] at hn
  obtain ⟨i', hi', rfl⟩ := Option.map_eq_some_iff.mp hn
  have hw := h.input i' (List.mem_of_getElem? hi')
  refine ⟨hw.txid, hw.index, ?_, hw.sequence, hw.items, hw.item⟩
  dsimp only
  split
  · exact hc
  · decide

/-- The message of the original scheme determines the transaction (but for scripts and witnesses), the position and
the script code. -/
theorem legacyMessage_cancel {t t' : Spec.Tx} (h : t.WF) (h' : t'.WF) {j j' : Nat} {code code' : Bytes}
    {i : Spec.TxInput} (hj : t.inputs[j]? = some i) (hc : code.length < 2 ^ 64) (hc' : code'.length < 2 ^ 64)
    (hne : code ≠ []) (e : Spec.legacyMessage t j code = Spec.legacyMessage t' j' code') :
    Spec.SameSkeleton t t' ∧ j' = j ∧ code' = code := by
  have hlen : ∀ (s : Spec.Tx) (n : Nat) (c : Bytes), (blanked s n c).length = s.inputs.length := by
    intro s n c
    unfold blanked
    rw [List.length_mapIdx]
  obtain ⟨h1, h2, h3, h4⟩ := encodeLegacy_cancel (t := { t with inputs := blanked t j code })
    (t' := { t' with inputs := blanked t' j' code' }) h.version h'.version (by rw [hlen]; exact h.inputs)
    (by rw [hlen]; exact h'.inputs) (blanked_wf h hc) (blanked_wf h' hc') h.outputs h'.outputs h.output h'.output
    h.lockTime h'.lockTime e
  dsimp only at h1 h2 h3 h4
  have hcore := congrArg (List.map core) h2
  rw [List.map_map, List.map_map] at hcore
  have hcomp : core ∘ (fun i : Spec.TxInput => { i with witness := [] }) = core := rfl
  rw [hcomp, blanked_core, blanked_core] at hcore
  refine ⟨⟨h1.symm, h4.symm, h3.symm, hcore.symm⟩, ?_⟩
  have hget := congrArg (fun l : List Spec.TxInput => l[j]?) h2
  rw [List.getElem?_map, List.getElem?_map, blanked_get, blanked_get, hj, Option.map_some, Option.map_some] at hget
  cases hj' : t'.inputs[j]? with
  | none => rw [hj'] at hget; cases hget
  | some i' =>
    rw [hj', Option.map_some, Option.map_some, Option.some.injEq] at hget
    have hs := congrArg Spec.TxInput.script hget
    dsimp only at hs
    rw [if_pos rfl] at hs
    split at hs
    · rename_i he
      exact ⟨he.symm, hs.symm⟩
    · exact absurd hs hne

/-- The BIP-143 message determines the transaction (but for scripts and witnesses), the outpoint, the script code and the
value, if the hash is injective on the three lists that are hashed. -/
theorem segwitMessage_cancel {dsha : Bytes → Bytes} (h32 : ∀ b, (dsha b).length = 32) {t t' : Spec.Tx} (h : t.WF)
    (h' : t'.WF) {i i' : Spec.TxInput} (hi : i ∈ t.inputs) (hi' : i' ∈ t'.inputs) {code code' : Bytes} {v v' : Nat}
    (hc : code.length < 2 ^ 64) (hc' : code'.length < 2 ^ 64) (hv : v < 2 ^ 64) (hv' : v' < 2 ^ 64)
    (hp : dsha (t.inputs.flatMap fun i => i.prevTxid ++ leEncode 4 i.prevIndex) =
        dsha (t'.inputs.flatMap fun i => i.prevTxid ++ leEncode 4 i.prevIndex) →
      (t.inputs.flatMap fun i => i.prevTxid ++ leEncode 4 i.prevIndex) =
        t'.inputs.flatMap fun i => i.prevTxid ++ leEncode 4 i.prevIndex)
    (hs : dsha (t.inputs.flatMap fun i => leEncode 4 i.sequence) =
        dsha (t'.inputs.flatMap fun i => leEncode 4 i.sequence) →
      (t.inputs.flatMap fun i => leEncode 4 i.sequence) = t'.inputs.flatMap fun i => leEncode 4 i.sequence)
    (ho : dsha (t.outputs.flatMap Spec.TxOutput.encode) = dsha (t'.outputs.flatMap Spec.TxOutput.encode) →
      t.outputs.flatMap Spec.TxOutput.encode = t'.outputs.flatMap Spec.TxOutput.encode)
    (e : Spec.segwitMessage dsha t i code v = Spec.segwitMessage dsha t' i' code' v') :
    Spec.SameSkeleton t t' ∧ i'.prevTxid = i.prevTxid ∧ i'.prevIndex = i.prevIndex ∧ code' = code ∧ v' = v := by
  have wi := h.input i hi
  have wi' := h'.input i' hi'
  unfold Spec.segwitMessage at e
  simp only [List.append_assoc] at e
  obtain ⟨e1, e⟩ := leEncode_cancel e (by have := h.version; omega) (by have := h'.version; omega)
  obtain ⟨e2, e⟩ := List.append_inj e (by rw [h32, h32])
  obtain ⟨e3, e⟩ := List.append_inj e (by rw [h32, h32])
  obtain ⟨e4, e⟩ := List.append_inj e (by rw [wi.txid, wi'.txid])
  obtain ⟨e5, e⟩ := leEncode_cancel e (by have := wi.index; omega) (by have := wi'.index; omega)
  obtain ⟨e6, e⟩ := varBytes_cancel e hc hc'
  obtain ⟨e7, e⟩ := leEncode_cancel e (by omega) (by omega)
  obtain ⟨e8, e⟩ := leEncode_cancel e (by have := wi.sequence; omega) (by have := wi'.sequence; omega)
  obtain ⟨e9, e⟩ := List.append_inj e (by rw [h32, h32])
  obtain ⟨e10, e⟩ := leEncode_cancel e (by have := h.lockTime; omega) (by have := h'.lockTime; omega)
  have f1 : t.inputs.map (fun i => (i.prevTxid, i.prevIndex)) = t'.inputs.map fun i => (i.prevTxid, i.prevIndex) := by
    refine flatMap_cancel_nil (ok := Spec.TxInput.WF) ?_ ?_ h.input h'.input (hp e2)
    · intro a b r r' ha hb e
      rw [List.append_assoc, List.append_assoc] at e
      obtain ⟨g1, e⟩ := List.append_inj e (by rw [ha.txid, hb.txid])
      obtain ⟨g2, e⟩ := leEncode_cancel e (by have := ha.index; omega) (by have := hb.index; omega)
      exact ⟨by rw [g1, g2], e⟩
    · intro a ha
      have := congrArg List.length ha
      rw [List.length_append, leEncode_length, List.length_nil] at this
      omega
  have f2 : t.inputs.map (fun i => i.sequence) = t'.inputs.map fun i => i.sequence := by
    refine flatMap_cancel_nil (ok := Spec.TxInput.WF) ?_ ?_ h.input h'.input (hs e3)
    · intro a b r r' ha hb e
      exact leEncode_cancel e (by have := ha.sequence; omega) (by have := hb.sequence; omega)
    · intro a ha
      have := congrArg List.length ha
      rw [leEncode_length, List.length_nil] at this
      omega
  have f3 : t.outputs = t'.outputs := by
    have := flatMap_cancel_nil (ok := Spec.TxOutput.WF) (core := id) (fun ha hb h => output_cancel ha hb h) (by
      intro a ha
      have := congrArg List.length ha
      unfold Spec.TxOutput.encode at this
      rw [List.length_append, leEncode_length, List.length_nil] at this
      omega) h.output h'.output (ho e9)
    rwa [List.map_id, List.map_id] at this
  refine ⟨⟨e1.symm, e10.symm, f3.symm, ?_⟩, e4.symm, e5.symm, e6.symm, e7.symm⟩
  refine List.ext_getElem? fun n => ?_
  have g1 := congrArg (fun l : List (Bytes × Nat) => l[n]?) f1
  have g2 := congrArg (fun l : List Nat => l[n]?) f2
  simp only [List.getElem?_map] at g1 g2 ⊢
  cases ha : t.inputs[n]? with
  | none =>
    rw [ha] at g1
    cases hb : t'.inputs[n]? with
    | none => rfl
    | some b => rw [hb] at g1; cases g1
  | some a =>
    rw [ha] at g1 g2
    cases hb : t'.inputs[n]? with
    | none => rw [hb] at g1; cases g1
    | some b =>
      rw [hb] at g1 g2
      simp only [Option.map_some, Option.some.injEq, Prod.mk.injEq] at g1 g2 ⊢
      exact ⟨g1.1.symm, g1.2.symm, g2.symm⟩

end Bit
