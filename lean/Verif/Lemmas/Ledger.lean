import Verif.Spec.Ledger
import Verif.Lemmas.Commit
import Mathlib.Data.List.Perm.Lattice
/-
The set of unspent outputs after a transaction; the wire format is injective.
-/
namespace Bit
open Spec (leEncode compact varBytes)

/-! ## The wire format names one transaction -/

theorem stack_cancel {a b : List Bytes} {r r' : Bytes} (ha : a.length < 2 ^ 64) (hb : b.length < 2 ^ 64)
    (ha' : ∀ w ∈ a, w.length < 2 ^ 64) (hb' : ∀ w ∈ b, w.length < 2 ^ 64)
    (h : Spec.encodeStack a ++ r = Spec.encodeStack b ++ r') : a = b ∧ r = r' := by
  unfold Spec.encodeStack at h
  rw [List.append_assoc, List.append_assoc] at h
  obtain ⟨h1, h⟩ := compact_cancel h ha hb
  obtain ⟨h2, h⟩ := flatMap_cancel (ok := fun w : Bytes => w.length < 2 ^ 64) (core := id)
    (fun ha hb h => varBytes_cancel h ha hb) h1 ha' hb' h
  rw [List.map_id, List.map_id] at h2
  exact ⟨h2, h⟩

theorem inputs_of_parts {is js : List Spec.TxInput}
    (h1 : is.map (fun i => { i with witness := [] }) = js.map (fun i => { i with witness := [] }))
    (h2 : is.map Spec.TxInput.witness = js.map Spec.TxInput.witness) : is = js := by
  induction is generalizing js with
  | nil =>
    cases js with
    | nil => rfl
    | cons _ _ => cases h1
  | cons i is ih =>
    cases js with
    | nil => cases h1
    | cons j js =>
      simp only [List.map_cons, List.cons.injEq] at h1 h2
      rw [ih h1.2 h2.2]
      cases i
      cases j
      simp only [Spec.TxInput.mk.injEq] at h1
      simp only at h2
      rw [h1.1.1, h1.1.2.1, h1.1.2.2.1, h1.1.2.2.2.1, h2.1]

theorem encode_inj' {t t' : Spec.Tx} (h : t.WF) (h' : t'.WF) (e : t.encode = t'.encode) : t = t' := by
  have key : ∀ (w w' : Bool), (if w then t.encodeExtended else t.encodeLegacy) =
      (if w' then t'.encodeExtended else t'.encodeLegacy) →
      (w = false → ∀ i ∈ t.inputs, i.witness = []) → (w' = false → ∀ i ∈ t'.inputs, i.witness = []) → t = t' := by
    intro w w' e hw hw'
    have clash : ∀ {s s' : Spec.Tx}, s.WF → s'.WF → s.encodeLegacy = s'.encodeExtended → False := by
      intro s s' hs hs' e
      unfold Spec.Tx.encodeLegacy Spec.Tx.encodeExtended Spec.Tx.encodeBody at e
      simp only [List.append_assoc] at e
      obtain ⟨-, e⟩ := leEncode_cancel e (by have := hs.version; omega) (by have := hs'.version; omega)
      have hz : compact 0 = [0] := rfl
      obtain ⟨e1, -⟩ := compact_cancel (n := s.inputs.length) (m := 0) (by rw [e, hz]; rfl) hs.inputs (by norm_num)
      exact hs.nonempty (List.length_eq_zero_iff.mp e1)
    cases w with
    | false =>
      cases w' with
      | true => exact (clash h h' e).elim
      | false =>
        have e' : t.encodeLegacy ++ [] = t'.encodeLegacy ++ [] := by simpa using e
        obtain ⟨e1, e2, e3, e4⟩ := encodeLegacy_cancel h.version h'.version h.inputs h'.inputs h.input h'.input h.outputs
          h'.outputs h.output h'.output h.lockTime h'.lockTime e'
        have : t.inputs = t'.inputs := by
          refine inputs_of_parts e2 ?_
          have hl : t.inputs.length = t'.inputs.length := by simpa using congrArg List.length e2
          rw [List.map_congr_left (g := fun _ => []) (hw rfl), List.map_congr_left (g := fun _ => []) (hw' rfl),
            List.map_const', List.map_const', hl]
        cases t
        cases t'
        simp_all
    | true =>
      cases w' with
      | false => exact (clash h' h e.symm).elim
      | true =>
        have e : t.encodeExtended = t'.encodeExtended := e
        unfold Spec.Tx.encodeExtended Spec.Tx.encodeBody at e
        simp only [List.append_assoc] at e
        obtain ⟨h1, e⟩ := leEncode_cancel e (by have := h.version; omega) (by have := h'.version; omega)
        obtain ⟨-, e⟩ := List.append_inj e rfl
        obtain ⟨h2, e⟩ := compact_cancel e h.inputs h'.inputs
        obtain ⟨h3, e⟩ := flatMap_cancel (ok := Spec.TxInput.WF) (fun ha hb h => input_cancel ha hb h) h2 h.input h'.input e
        obtain ⟨h4, e⟩ := compact_cancel e h.outputs h'.outputs
        obtain ⟨h5, e⟩ := flatMap_cancel (ok := Spec.TxOutput.WF) (core := id)
          (fun ha hb h => output_cancel ha hb h) h4 h.output h'.output e
        obtain ⟨h6, e⟩ := flatMap_cancel (enc := fun i : Spec.TxInput => Spec.encodeStack i.witness)
          (core := Spec.TxInput.witness) (ok := Spec.TxInput.WF)
          (fun ha hb h => stack_cancel ha.items hb.items ha.item hb.item h) h2 h.input h'.input e
        have h7 : t.lockTime = t'.lockTime := by
          have e' : leEncode 4 t.lockTime ++ [] = leEncode 4 t'.lockTime ++ [] := by simpa using e
          exact (leEncode_cancel e' (by have := h.lockTime; omega) (by have := h'.lockTime; omega)).1
        rw [List.map_id, List.map_id] at h5
        have h8 := inputs_of_parts h3 h6
        cases t
        cases t'
        simp_all
  refine key (!t.inputs.all fun i => i.witness.isEmpty) (!t'.inputs.all fun i => i.witness.isEmpty) ?_ ?_ ?_
  · unfold Spec.Tx.encode at e
    revert e
    cases t.inputs.all fun i => i.witness.isEmpty <;> cases t'.inputs.all fun i => i.witness.isEmpty <;> exact id
  · intro hb i hi
    have : t.inputs.all (fun i => i.witness.isEmpty) = true := by simpa using hb
    simpa using List.all_eq_true.mp this i hi
  · intro hb i hi
    have : t'.inputs.all (fun i => i.witness.isEmpty) = true := by simpa using hb
    simpa using List.all_eq_true.mp this i hi

/-! ## Unspent outputs -/

open Spec.Ledger

theorem worth_append (a b : List Spec.Utxo) : worth (a ++ b) = worth a + worth b := by
  unfold worth; rw [List.map_append, List.sum_append]

theorem worth_perm {a b : List Spec.Utxo} (h : a.Perm b) : worth a = worth b := (h.map _).sum_nat

theorem worth_filter (L : List Spec.Utxo) (p : Spec.Utxo → Bool) :
    worth (L.filter p) + worth (L.filter fun c => !p c) = worth L := by
  induction L with
  | nil => rfl
  | cons c L ih =>
    cases h : p c <;> simp_all [worth] <;> omega

theorem split_worth (L : Spec.Ledger) (t : Spec.Tx) : worth (L.spentBy t) + worth (L.keptBy t) = worth L := by
  have := worth_filter L fun c => decide (c.outpoint ∈ t.inputs.map Spec.TxInput.prevout)
  unfold spentBy keptBy
  rw [← this]
  congr 3
  funext c
  exact decide_not

theorem coinsOf_append (a b : Spec.Ledger) (s : Bytes) : coinsOf (a ++ b) s = coinsOf a s ++ coinsOf b s :=
  List.filter_append ..

theorem split_balance (L : Spec.Ledger) (t : Spec.Tx) (s : Bytes) :
    (L.spentBy t).balance s + (L.keptBy t).balance s = L.balance s := by
  have := worth_filter (L.coinsOf s) fun c => decide (c.outpoint ∈ t.inputs.map Spec.TxInput.prevout)
  unfold balance coinsOf spentBy keptBy at *
  simp only [List.filter_filter] at *
  rw [← this]
  congr 2
  · apply List.filter_congr; intro c _; rw [Bool.and_comm]
  · apply List.filter_congr; intro c _; rw [Bool.and_comm, decide_not]

theorem made_worth (id : Bytes) : ∀ (os : List Spec.TxOutput) (n : Nat),
    worth (made id n os) = (os.map Spec.TxOutput.value).sum
  | [], _ => rfl
  | o :: os, n => by
    have := made_worth id os (n + 1)
    unfold worth at *
    simp only [made, List.map_cons, List.sum_cons, this]

/-- What the outputs pay to a script. -/
def outTo (s : Bytes) (os : List Spec.TxOutput) : Nat := ((os.filter fun o => o.script = s).map Spec.TxOutput.value).sum

theorem made_balance (id : Bytes) (s : Bytes) : ∀ (os : List Spec.TxOutput) (n : Nat),
    balance (made id n os) s = outTo s os
  | [], _ => rfl
  | o :: os, n => by
    have := made_balance id s os (n + 1)
    unfold balance coinsOf worth outTo at *
    simp only [made, List.filter_cons]
    split
    · simp only [List.map_cons, List.sum_cons, this]
    · exact this

theorem apply_worth (dsha : Bytes → Bytes) (L : Spec.Ledger) (t : Spec.Tx) :
    worth (L.apply dsha t) + worth (L.spentBy t) = worth L + (t.outputs.map Spec.TxOutput.value).sum := by
  unfold apply
  rw [worth_append, made_worth, ← split_worth L t]
  omega

theorem apply_balance (dsha : Bytes → Bytes) (L : Spec.Ledger) (t : Spec.Tx) (s : Bytes) :
    balance (L.apply dsha t) s + (L.spentBy t).balance s = L.balance s + outTo s t.outputs := by
  unfold apply
  rw [show ∀ a b : Spec.Ledger, balance (a ++ b) s = balance a s + balance b s from
    fun a b => by unfold balance; rw [coinsOf_append, worth_append], made_balance, ← split_balance L t s]
  omega

theorem made_txid {id : Bytes} : ∀ {os : List Spec.TxOutput} {n : Nat} {c : Spec.Utxo}, c ∈ made id n os →
    c.txid = id ∧ n ≤ c.index
  | [], _, _, h => by cases h
  | o :: os, n, c, h => by
    rcases List.mem_cons.mp h with rfl | h
    · exact ⟨rfl, le_refl _⟩
    · obtain ⟨h1, h2⟩ := made_txid h
      exact ⟨h1, by omega⟩

theorem made_nodup (id : Bytes) : ∀ (os : List Spec.TxOutput) (n : Nat), ((made id n os).map Spec.Utxo.outpoint).Nodup
  | [], _ => List.nodup_nil
  | o :: os, n => by
    simp only [made, List.map_cons, List.nodup_cons]
    refine ⟨?_, made_nodup id os (n + 1)⟩
    intro h
    obtain ⟨c, hc, e⟩ := List.mem_map.mp h
    have := (made_txid hc).2
    have e2 : c.index = n := congrArg Prod.snd e
    omega

theorem apply_wf {dsha : Bytes → Bytes} (h32 : ∀ b, (dsha b).length = 32) {L : Spec.Ledger} (hL : L.WF) {t : Spec.Tx}
    (hf : L.Fresh dsha t) : (L.apply dsha t).WF := by
  unfold apply
  constructor
  · rw [List.map_append, List.nodup_append]
    refine ⟨(List.filter_sublist.map _).nodup hL.nodup, made_nodup _ _ _, ?_⟩
    intro a ha b hb e
    obtain ⟨c, hc, rfl⟩ := List.mem_map.mp ha
    obtain ⟨d, hd, rfl⟩ := List.mem_map.mp hb
    have e1 : c.txid = d.txid := congrArg Prod.fst e
    rw [(made_txid hd).1] at e1
    exact hf c (List.mem_of_mem_filter hc) e1
  · intro c hc
    rcases List.mem_append.mp hc with hc | hc
    · exact hL.txid c (List.mem_of_mem_filter hc)
    · rw [(made_txid hc).1]; exact h32 _

/-- The coins that the inputs name are the ones that are spent. -/
theorem spent_perm {L : Spec.Ledger} (hL : L.WF) {t : Spec.Tx} {cs : List Spec.Utxo} (hsub : ∀ c ∈ cs, c ∈ L)
    (hin : cs.map Spec.Utxo.outpoint = t.inputs.map Spec.TxInput.prevout) (hn : (cs.map Spec.Utxo.outpoint).Nodup) :
    cs.Perm (L.spentBy t) := by
  have hL' : L.Nodup := List.Nodup.of_map _ hL.nodup
  refine (List.perm_ext_iff_of_nodup (List.Nodup.of_map _ hn) (hL'.filter _)).mpr ?_
  intro c
  rw [List.mem_filter, ← hin]
  simp only [decide_eq_true_eq]
  constructor
  · intro h
    exact ⟨hsub c h, List.mem_map_of_mem h⟩
  · rintro ⟨h1, h2⟩
    obtain ⟨d, hd, e⟩ := List.mem_map.mp h2
    rwa [← List.inj_on_of_nodup_map hL.nodup (hsub d hd) h1 e]

end Bit
