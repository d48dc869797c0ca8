import Verif.Model.CoinSelect
import Verif.Lemmas.Sort
import Mathlib.Data.List.Perm.Subperm
import Mathlib.Data.List.Perm.Basic
import Mathlib.Algebra.BigOperators.Group.List.Basic
import Mathlib.Tactic.Linarith
import Mathlib.Tactic.Ring
/-
Lemmas on the coin selection loops.
-/
namespace Bit

/-- Four times the effective value of a list of coins: amounts minus fee for their sizes. -/
def effSum (fee : Int) (coins : List Unspent) : Int :=
  (coins.map fun u => 4 * u.amount - fee * u.vsize4).sum

theorem effSum_cons (fee : Int) (u : Unspent) (l : List Unspent) :
    effSum fee (u :: l) = 4 * u.amount - fee * u.vsize4 + effSum fee l := by simp [effSum]

theorem effSum_eq (fee : Int) (l : List Unspent) :
    effSum fee l = 4 * (l.map Unspent.amount).sum - fee * ((l.map Unspent.vsize4).sum : Nat) := by
  induction l with
  | nil => simp [effSum]
  | cons u l ih =>
    rw [effSum_cons, ih]
    simp only [List.map_cons, List.sum_cons]
    push_cast
    ring

/-- A nonempty result of the search is the selection so far followed by a sublist of the rest whose
effective value lies in the match window. -/
theorem bnb_sound (flips : Nat → Bool) (tries : Nat) (fee t4 r4 : Int) :
    ∀ (rest sel : List Unspent) (eff : Int) (used : Nat),
      (branchAndBound flips tries fee t4 r4 rest sel eff used).1 ≠ [] →
      ∃ s, s.Sublist rest ∧ (branchAndBound flips tries fee t4 r4 rest sel eff used).1 = sel ++ s ∧
        t4 ≤ eff + effSum fee s ∧ eff + effSum fee s ≤ t4 + r4 := by
  intro rest
  induction rest with
  | nil =>
    intro sel eff used h
    rw [branchAndBound] at h ⊢
    split_ifs at h ⊢ with h1 h2 h3
    · exact absurd rfl h
    · exact ⟨[], List.Sublist.refl _, by simp, by simp [effSum]; omega, by simp [effSum]; omega⟩
    · exact absurd rfl h
    · exact absurd rfl h
  | cons u rest ih =>
    intro sel eff used h
    have hin : ∀ k, (branchAndBound flips tries fee t4 r4 rest (sel ++ [u])
        (eff + 4 * u.amount - fee * u.vsize4) k).1 ≠ [] →
        ∃ s, s.Sublist (u :: rest) ∧ (branchAndBound flips tries fee t4 r4 rest (sel ++ [u])
        (eff + 4 * u.amount - fee * u.vsize4) k).1 = sel ++ s ∧
        t4 ≤ eff + effSum fee s ∧ eff + effSum fee s ≤ t4 + r4 := by
      intro k hk
      obtain ⟨s, hs, he, hl, hh⟩ := ih _ _ _ hk
      refine ⟨u :: s, hs.cons_cons u, by rw [he]; simp, ?_, ?_⟩ <;> rw [effSum_cons] <;> linarith
    have hout : ∀ k, (branchAndBound flips tries fee t4 r4 rest sel eff k).1 ≠ [] →
        ∃ s, s.Sublist (u :: rest) ∧ (branchAndBound flips tries fee t4 r4 rest sel eff k).1 = sel ++ s ∧
        t4 ≤ eff + effSum fee s ∧ eff + effSum fee s ≤ t4 + r4 := by
      intro k hk
      obtain ⟨s, hs, he, hl, hh⟩ := ih _ _ _ hk
      exact ⟨s, hs.cons u, he, hl, hh⟩
    rw [branchAndBound] at h ⊢
    dsimp only at h ⊢
    split_ifs at h ⊢ with h1 h2 h3 h4 h5 h5
    · exact absurd rfl h
    · exact ⟨[], List.nil_sublist _, by simp, by simp [effSum]; omega, by simp [effSum]; omega⟩
    · exact absurd rfl h
    · exact hin _ h5
    · exact hout _ h
    · exact hout _ h5
    · exact hin _ h

/-- Number of calls: once the tries are used up every pending call makes at most one more. -/
theorem bnb_calls (flips : Nat → Bool) (tries : Nat) (fee t4 r4 : Int) :
    ∀ (rest sel : List Unspent) (eff : Int) (used : Nat),
      (branchAndBound flips tries fee t4 r4 rest sel eff used).2 ≤ max (used + 1) (tries + rest.length) := by
  intro rest
  induction rest with
  | nil =>
    intro sel eff used
    rw [branchAndBound]
    split_ifs <;> exact Nat.le_max_left _ _
  | cons u rest ih =>
    intro sel eff used
    rw [branchAndBound]
    dsimp only
    split_ifs with h1 h2 h3 h4 h5 h5
    · exact Nat.le_max_left _ _
    · exact Nat.le_max_left _ _
    · exact Nat.le_max_left _ _
    · have := ih (sel ++ [u]) (eff + 4 * u.amount - fee * u.vsize4) (used + 1)
      simp only [List.length_cons]; omega
    · have a := ih (sel ++ [u]) (eff + 4 * u.amount - fee * u.vsize4) (used + 1)
      have b := ih sel eff (branchAndBound flips tries fee t4 r4 rest (sel ++ [u])
        (eff + 4 * u.amount - fee * u.vsize4) (used + 1)).2
      simp only [List.length_cons]; omega
    · have := ih sel eff (used + 1)
      simp only [List.length_cons]; omega
    · have a := ih sel eff (used + 1)
      have b := ih (sel ++ [u]) (eff + 4 * u.amount - fee * u.vsize4)
        (branchAndBound flips tries fee t4 r4 rest sel eff (used + 1)).2
      simp only [List.length_cons]; omega

/-- Number of calls: at most the size of the binary tree. -/
theorem bnb_tree (flips : Nat → Bool) (tries : Nat) (fee t4 r4 : Int) :
    ∀ (rest sel : List Unspent) (eff : Int) (used : Nat),
      (branchAndBound flips tries fee t4 r4 rest sel eff used).2 + 1 ≤ used + 2 ^ (rest.length + 1) := by
  intro rest
  induction rest with
  | nil =>
    intro sel eff used
    rw [branchAndBound]
    split_ifs <;> simp
  | cons u rest ih =>
    intro sel eff used
    have hp : 2 ^ ((u :: rest).length + 1) = 2 * 2 ^ (rest.length + 1) := by
      rw [List.length_cons, Nat.pow_succ]; omega
    have hp1 : 2 ≤ 2 ^ (rest.length + 1) := by
      have := Nat.pow_le_pow_right (n := 2) (by norm_num) (Nat.succ_le_succ (Nat.zero_le rest.length))
      simpa using this
    rw [hp, branchAndBound]
    dsimp only
    split_ifs with h1 h2 h3 h4 h5 h5
    · dsimp only; omega
    · dsimp only; omega
    · dsimp only; omega
    · have := ih (sel ++ [u]) (eff + 4 * u.amount - fee * u.vsize4) (used + 1)
      omega
    · have a := ih (sel ++ [u]) (eff + 4 * u.amount - fee * u.vsize4) (used + 1)
      have b := ih sel eff (branchAndBound flips tries fee t4 r4 rest (sel ++ [u])
        (eff + 4 * u.amount - fee * u.vsize4) (used + 1)).2
      omega
    · have := ih sel eff (used + 1)
      omega
    · have a := ih sel eff (used + 1)
      have b := ih (sel ++ [u]) (eff + 4 * u.amount - fee * u.vsize4)
        (branchAndBound flips tries fee t4 r4 rest sel eff (used + 1)).2
      omega

theorem effSum_nonneg {fee : Int} : ∀ {l : List Unspent},
    (∀ u ∈ l, 0 ≤ 4 * u.amount - fee * u.vsize4) → 0 ≤ effSum fee l
  | [], _ => by simp [effSum]
  | u :: l, h => by
    rw [effSum_cons]
    have := effSum_nonneg (l := l) (fun v hv => h v (by simp [hv]))
    have := h u (by simp)
    omega

/-- If the tree fits into the tries, no coin has a negative effective value and some sublist of the
rest lands in the window, then the search returns something. -/
theorem bnb_complete (flips : Nat → Bool) (tries : Nat) (fee t4 r4 : Int) :
    ∀ (rest sel : List Unspent) (eff : Int) (used : Nat) (s : List Unspent),
      used + 2 ^ (rest.length + 1) ≤ tries + 1 →
      (∀ u ∈ rest, 0 ≤ 4 * u.amount - fee * u.vsize4) →
      s.Sublist rest → t4 ≤ eff + effSum fee s → eff + effSum fee s ≤ t4 + r4 →
      (eff < t4 ∨ sel ≠ []) →
      (branchAndBound flips tries fee t4 r4 rest sel eff used).1 ≠ [] := by
  intro rest
  induction rest with
  | nil =>
    intro sel eff used s _ _ hs hl hh hsel
    rw [List.sublist_nil] at hs
    subst hs
    simp only [effSum, List.map_nil, List.sum_nil] at hl hh
    rw [branchAndBound, if_neg (by omega), if_pos (by omega)]
    rcases hsel with h | h
    · omega
    · exact h
  | cons u rest ih =>
    intro sel eff used s htries hpos hs hl hh hsel
    have hp : 2 ^ ((u :: rest).length + 1) = 2 * 2 ^ (rest.length + 1) := by
      rw [List.length_cons, Nat.pow_succ]; omega
    have hp1 : 2 ≤ 2 ^ (rest.length + 1) := by
      have := Nat.pow_le_pow_right (n := 2) (by norm_num) (Nat.succ_le_succ (Nat.zero_le rest.length))
      simpa using this
    rw [hp] at htries
    have hposr : ∀ v ∈ rest, 0 ≤ 4 * v.amount - fee * v.vsize4 := fun v hv => hpos v (by simp [hv])
    have hge : 0 ≤ effSum fee s := effSum_nonneg fun v hv => hpos v (hs.subset hv)
    rw [branchAndBound]
    dsimp only
    rw [if_neg (by omega)]
    split_ifs with h2 h3 h4 h5 h5
    · rcases hsel with h | h
      · omega
      · exact h
    · omega
    · exact h5
    · -- inclusion branch failed, so the sublist omits `u`
      have a := bnb_tree flips tries fee t4 r4 rest (sel ++ [u]) (eff + 4 * u.amount - fee * u.vsize4)
        (used + 1)
      cases hs with
      | cons _ hs' => exact ih sel eff _ s (by omega) hposr hs' hl hh (Or.inl (by omega))
      | cons_cons _ hs' =>
        rename_i s'
        rw [effSum_cons] at hl hh
        exact absurd (ih (sel ++ [u]) (eff + 4 * u.amount - fee * u.vsize4) (used + 1) s' (by omega) hposr
          hs' (by linarith) (by linarith) (Or.inr (by simp))) h5
    · exact h5
    · have a := bnb_tree flips tries fee t4 r4 rest sel eff (used + 1)
      cases hs with
      | cons _ hs' =>
        exact absurd (ih sel eff (used + 1) s (by omega) hposr hs' hl hh (Or.inl (by omega))) h5
      | cons_cons _ hs' =>
        rename_i s'
        rw [effSum_cons] at hl hh
        exact ih (sel ++ [u]) (eff + 4 * u.amount - fee * u.vsize4) _ s' (by omega) hposr
          hs' (by linarith) (by linarith) (Or.inr (by simp))

/-- What remains for change after spending the coins. -/
def remainder (target fee : Int) (outputSize : List Nat) (absoluteFee : Bool) (coins : List Unspent) :
    Int := (coins.map Unspent.amount).sum - target - drawFee fee outputSize absoluteFee coins

/-- The draw loop stops at the first sufficient nonempty prefix (only the whole list if
consolidating), or raises. -/
theorem drawLoop_spec (target fee : Int) (outputSize : List Nat) (minChange : Int)
    (absoluteFee consolidate : Bool) : ∀ (us sel : List Unspent),
    (∃ pre post, us = pre ++ post ∧ pre ≠ [] ∧
      drawLoop target fee outputSize minChange absoluteFee consolidate us sel =
        .ok (sel ++ pre, remainder target fee outputSize absoluteFee (sel ++ pre)) ∧
      minChange ≤ remainder target fee outputSize absoluteFee (sel ++ pre) ∧
      (consolidate = true → post = []) ∧
      (consolidate = false → ∀ p q, pre = p ++ q → p ≠ [] → q ≠ [] →
        remainder target fee outputSize absoluteFee (sel ++ p) < minChange)) ∨
    (drawLoop target fee outputSize minChange absoluteFee consolidate us sel =
        .error (if (sel ++ us).isEmpty then .unboundLocalError else .insufficientFunds) ∧
      (consolidate = true → us ≠ [] →
        remainder target fee outputSize absoluteFee (sel ++ us) < minChange) ∧
      (consolidate = false → ∀ p q, us = p ++ q → p ≠ [] →
        remainder target fee outputSize absoluteFee (sel ++ p) < minChange)) := by
  intro us
  induction us with
  | nil =>
    intro sel
    right
    refine ⟨?_, fun _ h => absurd rfl h, fun _ p q h hp => ?_⟩
    · rw [drawLoop]; cases sel <;> simp
    · simp at h; exact absurd h.1 hp
  | cons u us ih =>
    intro sel
    by_cases hc : remainder target fee outputSize absoluteFee (sel ++ [u]) ≥ minChange ∧
        (¬ consolidate = true ∨ us.length = 0)
    · left
      refine ⟨[u], us, rfl, by simp, ?_, hc.1, ?_, ?_⟩
      · rw [drawLoop]
        exact if_pos hc
      · intro h
        rcases hc.2 with h' | h'
        · exact absurd h h'
        · exact List.length_eq_zero_iff.mp h'
      · intro _ p q h hp hq
        have : p.length + q.length = 1 := by
          have := congrArg List.length h
          simpa using this.symm
        have h1 := List.length_pos_iff.mpr hp
        have h2 := List.length_pos_iff.mpr hq
        omega
    · have e : drawLoop target fee outputSize minChange absoluteFee consolidate (u :: us) sel =
          drawLoop target fee outputSize minChange absoluteFee consolidate us (sel ++ [u]) := by
        rw [drawLoop]
        exact if_neg hc
      rcases ih (sel ++ [u]) with ⟨pre, post, h1, h2, h3, h4, h5, h6⟩ | ⟨h1, h2, h3⟩
      · left
        refine ⟨u :: pre, post, by rw [h1]; rfl, by simp, ?_, ?_, h5, ?_⟩
        · rw [e, h3]; simp
        · simpa using h4
        · intro hcons p q hpq hp hq
          cases p with
          | nil => exact absurd rfl hp
          | cons v p =>
            simp only [List.cons_append, List.cons.injEq] at hpq
            obtain ⟨rfl, hpq⟩ := hpq
            cases p with
            | nil =>
              by_contra hx
              exact hc ⟨by omega, Or.inl (by simp [hcons])⟩
            | cons w p =>
              have := h6 hcons (w :: p) q hpq (by simp) hq
              simpa using this
      · right
        refine ⟨?_, ?_, ?_⟩
        · rw [e, h1]; simp
        · intro hcons _
          cases us with
          | nil =>
            by_contra hx
            exact hc ⟨by omega, Or.inr rfl⟩
          | cons v us =>
            have := h2 hcons (by simp)
            simpa using this
        · intro hcons p q hpq hp
          cases p with
          | nil => exact absurd rfl hp
          | cons v p =>
            simp only [List.cons_append, List.cons.injEq] at hpq
            obtain ⟨rfl, hpq⟩ := hpq
            cases p with
            | nil =>
              by_contra hx
              exact hc ⟨by omega, Or.inl (by simp [hcons])⟩
            | cons w p =>
              have := h3 hcons (w :: p) q hpq (by simp)
              simpa using this

end Bit
