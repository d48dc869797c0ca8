import Verif.Model.Keys
/-
The sort of the model permutes and orders.
-/
namespace Bit

theorem insertSorted_perm {α : Type} (le : α → α → Bool) (x : α) (l : List α) :
    (insertSorted le x l).Perm (x :: l) := by
  induction l with
  | nil => exact List.Perm.refl _
  | cons y l ih =>
    unfold insertSorted
    split
    · exact List.Perm.refl _
    · exact (ih.cons y).trans (List.Perm.swap x y l)

theorem pySorted_perm {α : Type} (le : α → α → Bool) (l : List α) : (pySorted le l).Perm l := by
  induction l with
  | nil => exact List.Perm.refl _
  | cons x l ih => exact (insertSorted_perm le x _).trans (ih.cons x)

theorem pySorted_pairwise {α : Type} {le : α → α → Bool}
    (htrans : ∀ a b c, le a b = true → le b c = true → le a c = true)
    (htotal : ∀ a b, (le a b || le b a) = true) (l : List α) :
    (pySorted le l).Pairwise (fun a b => le a b = true) := by
  have hins : ∀ (x : α) (l : List α), l.Pairwise (fun a b => le a b = true) →
      (insertSorted le x l).Pairwise (fun a b => le a b = true) := by
    intro x l
    induction l with
    | nil => intro _; simp [insertSorted]
    | cons y l ih =>
      intro h
      rw [List.pairwise_cons] at h
      unfold insertSorted
      split
      · rename_i hxy
        rw [List.pairwise_cons]
        refine ⟨?_, List.pairwise_cons.mpr h⟩
        intro z hz
        rcases List.mem_cons.mp hz with rfl | hz
        · exact hxy
        · exact htrans _ _ _ hxy (h.1 z hz)
      · rename_i hxy
        rw [List.pairwise_cons]
        refine ⟨?_, ih h.2⟩
        intro z hz
        rcases List.mem_cons.mp ((insertSorted_perm le x l).mem_iff.mp hz) with rfl | hz
        · have := htotal z y
          simp only [Bool.not_eq_true] at hxy
          simpa [hxy] using this
        · exact h.1 z hz
  induction l with
  | nil => exact List.Pairwise.nil
  | cons x l ih => exact hins x _ ih

end Bit
