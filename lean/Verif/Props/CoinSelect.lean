import Verif.Lemmas.CoinSelect
import Mathlib.Data.List.Sublists
/-
Properties of coin selection (C30 to C36).

Throughout, `flips` is the outcome of the coin tosses, `shuffle` the outcome of the shuffle (any
permutation), and the theorems hold for all of them. Sizes are in quarters of a virtual byte.
-/
namespace Bit

/-- The fee estimate for spending `coins` (all of `sizes` as outputs, the last one being change). -/
def feeFor (rate : Int) (sizes : List Nat) (coins : List Unspent) : Int :=
  estimateTxFee (coins.map Unspent.vsize4).sum coins.length sizes.sum sizes.length rate
    (coins.any fun u => u.segwit = some true)

/-- `coins` is a changeless match: after paying `rate` for their own size they are worth at least the
target and `rate` times the overhead (9 bytes and all outputs but the last), and at most the price of
182 bytes more. -/
structure PerfectMatch (target rate : Int) (sizes : List Nat) (coins : List Unspent) : Prop where
  nonempty : coins ≠ []
  lower : 4 * (target + rate * (9 + sizes.dropLast.sum : Nat)) ≤
    (coins.map fun u => 4 * u.amount - rate * u.vsize4).sum
  upper : (coins.map fun u => 4 * u.amount - rate * u.vsize4).sum ≤
    4 * (target + rate * (9 + sizes.dropLast.sum : Nat)) + 4 * (182 * rate)

theorem overhead_eq (target fee : Int) (sizes : List Nat) :
    4 * (target + (8 + sizes.dropLast.sum + 1 : Nat) * fee) =
      4 * (target + fee * (9 + sizes.dropLast.sum : Nat)) := by
  push_cast; ring

theorem range_eq (fee : Int) : 4 * (148 * fee + 34 * fee) = 4 * (182 * fee) := by ring

theorem drawFee_relative (fee : Int) (sizes : List Nat) (coins : List Unspent) :
    drawFee fee sizes false coins = feeFor fee sizes coins := rfl

theorem drawFee_absolute (fee : Int) (sizes : List Nat) (coins : List Unspent) :
    drawFee fee sizes true coins = fee := rfl

/-- All ways `select_coins` can end. -/
theorem selectCoins_cases (flips : Nat → Bool) (shuffle : List Unspent → List Unspent)
    (hshuffle : ∀ l, (shuffle l).Perm l) (target fee : Int) (sizes : List Nat) (minChange : Int)
    (absoluteFee consolidate : Bool) (unspents : List Unspent) :
    (∃ sel, selectCoins flips shuffle target fee sizes minChange absoluteFee consolidate unspents
        = .ok (sel, 0) ∧ absoluteFee = false ∧ consolidate = false ∧ sel.Subperm unspents ∧
        PerfectMatch target fee sizes sel) ∨
    (∃ pre post, (if consolidate then unspents else shuffle unspents) = pre ++ post ∧ pre ≠ [] ∧
      selectCoins flips shuffle target fee sizes minChange absoluteFee consolidate unspents =
        .ok (pre, remainder target fee sizes absoluteFee pre) ∧
      minChange ≤ remainder target fee sizes absoluteFee pre ∧
      (consolidate = true → post = []) ∧
      (consolidate = false → ∀ p q, pre = p ++ q → p ≠ [] → q ≠ [] →
        remainder target fee sizes absoluteFee p < minChange)) ∨
    (selectCoins flips shuffle target fee sizes minChange absoluteFee consolidate unspents =
        .error (if unspents.isEmpty then .unboundLocalError else .insufficientFunds) ∧
      (consolidate = true → unspents ≠ [] →
        remainder target fee sizes absoluteFee unspents < minChange) ∧
      (consolidate = false → ∀ p q, shuffle unspents = p ++ q → p ≠ [] →
        remainder target fee sizes absoluteFee p < minChange)) := by
  generalize hsel : (if ¬ consolidate = true ∧ ¬ absoluteFee = true then
      (branchAndBound flips bnbTries fee (4 * (target + (8 + sizes.dropLast.sum + 1 : Nat) * fee))
        (4 * (148 * fee + 34 * fee))
        (pySorted (fun u v => v.amount ≤ u.amount) unspents) [] 0 0).1 else []) = selected
  have e : selectCoins flips shuffle target fee sizes minChange absoluteFee consolidate unspents =
      if selected = [] then
        drawLoop target fee sizes minChange absoluteFee consolidate
          (if consolidate then unspents else shuffle unspents) []
      else .ok (selected, 0) := by
    rw [← hsel]; rfl
  rw [e]
  by_cases hs : selected = []
  · right
    rw [if_pos hs]
    have hemp : (shuffle unspents).isEmpty = unspents.isEmpty := by
      have h := (hshuffle unspents).length_eq
      cases unspents <;> cases h' : shuffle _ <;> simp_all
    rcases drawLoop_spec target fee sizes minChange absoluteFee consolidate
      (if consolidate then unspents else shuffle unspents) [] with
      ⟨pre, post, h1, h2, h3, h4, h5, h6⟩ | ⟨h1, h2, h3⟩
    · left
      exact ⟨pre, post, h1, h2, by simpa using h3, by simpa using h4, h5, by simpa using h6⟩
    · right
      refine ⟨?_, ?_, ?_⟩
      · rw [h1]
        cases consolidate
        · simp [hemp]
        · simp
      · intro hc hne
        have := h2 hc (by simpa [hc] using hne)
        simpa [hc] using this
      · intro hc
        simpa [hc] using h3 hc
  · left
    rw [if_neg hs]
    refine ⟨selected, rfl, ?_⟩
    split_ifs at hsel with hc
    · obtain ⟨hc1, hc2⟩ := hc
      refine ⟨by simpa using hc2, by simpa using hc1, ?_⟩
      obtain ⟨s, hsub, he, hl, hh⟩ := bnb_sound flips bnbTries fee _ _ _ [] 0 0 (by rw [hsel]; exact hs)
      rw [hsel] at he
      simp only [List.nil_append] at he
      subst he
      refine ⟨hsub.subperm.trans (pySorted_perm _ _).subperm, hs, ?_, ?_⟩
      · rw [← overhead_eq]; simpa [effSum] using hl
      · rw [← overhead_eq, ← range_eq]; simpa [effSum] using hh
    · exact absurd hsel.symm hs

/-! Samples. -/

def coin (amount : Int) : Unspent :=
  mkUnspent amount 1 [] [] 0 "p2pkh".toList 0 none 4294967295

def coins3 : List Unspent := [coin 10000, coin 50000, coin 20000]

/-! ## C30 -/

/-- C30. The selected coins are a nonempty sub-collection of the offered ones: no coin is invented or
selected more often than offered. -/
theorem C30_subcollection (flips : Nat → Bool) (shuffle : List Unspent → List Unspent)
    (hshuffle : ∀ l, (shuffle l).Perm l) (target fee : Int) (sizes : List Nat) (minChange : Int)
    (absoluteFee consolidate : Bool) (unspents sel : List Unspent) (change : Int)
    (h : selectCoins flips shuffle target fee sizes minChange absoluteFee consolidate unspents
      = .ok (sel, change)) :
    sel ≠ [] ∧ sel.Subperm unspents ∧ ∀ u, sel.count u ≤ unspents.count u := by
  have key : sel ≠ [] ∧ sel.Subperm unspents := by
    rcases selectCoins_cases flips shuffle hshuffle target fee sizes minChange absoluteFee consolidate
      unspents with ⟨s, h1, -, -, h2, h3⟩ | ⟨pre, post, h1, h2, h3, -⟩ | ⟨h1, -⟩
    · rw [h1] at h; injection h with h; injection h with h _; subst h
      exact ⟨h3.nonempty, h2⟩
    · rw [h3] at h; injection h with h; injection h with h _; subst h
      refine ⟨h2, ?_⟩
      have hp : (if consolidate then unspents else shuffle unspents).Perm unspents := by
        split
        · exact List.Perm.refl _
        · exact hshuffle _
      have hsub : pre.Sublist (if consolidate then unspents else shuffle unspents) := by
        rw [h1]; exact List.sublist_append_left _ _
      exact hsub.subperm.trans hp.subperm
    · rw [h1] at h; cases h
  exact ⟨key.1, key.2, fun u => key.2.count_le u⟩

example : selectCoins (fun _ => true) List.reverse 25000 1 [34, 34] 0 false false coins3
    = .ok ([coin 20000, coin 50000], 44626) := by decide +kernel

/-! ## C31 -/

/-- C31. The selected amounts equal target + change + fee. Either it is a perfect match, without
change, and the fee is at least the rate times the size of overhead and inputs and exceeds it by at
most the price of 182 bytes; or the fee is exactly the estimate for the selected coins and the change
is at least the minimum change. -/
theorem C31_conservation (flips : Nat → Bool) (shuffle : List Unspent → List Unspent)
    (hshuffle : ∀ l, (shuffle l).Perm l) (target rate : Int) (sizes : List Nat) (minChange : Int)
    (consolidate : Bool) (unspents sel : List Unspent) (change : Int)
    (h : selectCoins flips shuffle target rate sizes minChange false consolidate unspents
      = .ok (sel, change)) :
    ∃ fee, (sel.map Unspent.amount).sum = target + change + fee ∧
      ((change = 0 ∧
          4 * (rate * (9 + sizes.dropLast.sum : Nat)) + rate * ((sel.map Unspent.vsize4).sum : Nat)
            ≤ 4 * fee ∧
          4 * fee ≤ 4 * (rate * (9 + sizes.dropLast.sum : Nat))
            + rate * ((sel.map Unspent.vsize4).sum : Nat) + 4 * (182 * rate)) ∨
       (minChange ≤ change ∧ fee = feeFor rate sizes sel)) := by
  rcases selectCoins_cases flips shuffle hshuffle target rate sizes minChange false consolidate
    unspents with ⟨s, h1, -, -, h2, h3⟩ | ⟨pre, post, h1, h2, h3, h4, -⟩ | ⟨h1, -⟩
  · rw [h1] at h; injection h with h; injection h with h h0; subst h; subst h0
    refine ⟨(s.map Unspent.amount).sum - target, by ring, Or.inl ⟨rfl, ?_, ?_⟩⟩
    · have := h3.lower
      rw [show (s.map fun u => 4 * u.amount - rate * u.vsize4).sum = effSum rate s from rfl,
        effSum_eq] at this
      linarith
    · have := h3.upper
      rw [show (s.map fun u => 4 * u.amount - rate * u.vsize4).sum = effSum rate s from rfl,
        effSum_eq] at this
      linarith
  · rw [h3] at h; injection h with h; injection h with h h0; subst h; subst h0
    refine ⟨feeFor rate sizes pre, ?_, Or.inr ⟨h4, rfl⟩⟩
    rw [remainder, drawFee_relative]; ring
  · rw [h1] at h; cases h

/-- drawn with change: the two coins are worth 25000 + 44626 + 374, and 374 is the estimate -/
example : selectCoins (fun _ => true) List.reverse 25000 1 [34, 34] 0 false false coins3
      = .ok ([coin 20000, coin 50000], 44626) ∧
    feeFor 1 [34, 34] [coin 20000, coin 50000] = 374 := by decide +kernel

/-! ## C32 -/

/-- C32. With an absolute fee the selected amounts equal target + change + exactly that fee, and the
change is at least the minimum change. -/
theorem C32_absolute_fee (flips : Nat → Bool) (shuffle : List Unspent → List Unspent)
    (hshuffle : ∀ l, (shuffle l).Perm l) (target fee : Int) (sizes : List Nat) (minChange : Int)
    (consolidate : Bool) (unspents sel : List Unspent) (change : Int)
    (h : selectCoins flips shuffle target fee sizes minChange true consolidate unspents
      = .ok (sel, change)) :
    (sel.map Unspent.amount).sum = target + change + fee ∧ minChange ≤ change := by
  rcases selectCoins_cases flips shuffle hshuffle target fee sizes minChange true consolidate
    unspents with ⟨s, -, h2, -⟩ | ⟨pre, post, h1, h2, h3, h4, -⟩ | ⟨h1, -⟩
  · cases h2
  · rw [h3] at h; injection h with h; injection h with h h0; subst h; subst h0
    refine ⟨?_, h4⟩
    rw [remainder, drawFee_absolute]; ring
  · rw [h1] at h; cases h

example : selectCoins (fun _ => true) List.reverse 25000 777 [34, 34] 0 true false coins3
    = .ok ([coin 20000, coin 50000], 44223) := by decide +kernel

/-! ## C33 -/

/-- C33. For at most 18 unspents, none of which costs more than it is worth: if some sub-collection
is a perfect match then, whatever the coin tosses, the selection is a perfect match without change. -/
theorem C33_match_found (flips : Nat → Bool) (shuffle : List Unspent → List Unspent)
    (target rate : Int) (sizes : List Nat) (minChange : Int) (unspents : List Unspent)
    (hn : unspents.length ≤ 18) (hval : ∀ u ∈ unspents, rate * u.vsize4 ≤ 4 * u.amount)
    (ht : 0 < target + rate * (9 + sizes.dropLast.sum : Nat))
    (s : List Unspent) (hs : s.Subperm unspents) (hmatch : PerfectMatch target rate sizes s) :
    ∃ sel, selectCoins flips shuffle target rate sizes minChange false false unspents = .ok (sel, 0) ∧
      PerfectMatch target rate sizes sel ∧ sel.Subperm unspents := by
  have hperm := pySorted_perm (fun u v : Unspent => decide (v.amount ≤ u.amount)) unspents
  obtain ⟨s', hs', hsub⟩ := hs.trans hperm.symm.subperm
  have heff : effSum rate s' = (s.map fun u => 4 * u.amount - rate * u.vsize4).sum :=
    (hs'.map _).sum_eq
  have hne := bnb_complete flips bnbTries rate
    (4 * (target + (8 + sizes.dropLast.sum + 1 : Nat) * rate)) (4 * (148 * rate + 34 * rate))
    (pySorted (fun u v : Unspent => decide (v.amount ≤ u.amount)) unspents) [] 0 0 s'
    (by
      rw [hperm.length_eq]
      have : 2 ^ (unspents.length + 1) ≤ 2 ^ 19 := Nat.pow_le_pow_right (by norm_num) (by omega)
      unfold bnbTries
      omega)
    (by
      intro u hu
      have := hval u (hperm.mem_iff.mp hu)
      omega)
    hsub
    (by rw [overhead_eq, heff]; have := hmatch.lower; omega)
    (by rw [overhead_eq, range_eq, heff]; have := hmatch.upper; omega)
    (Or.inl (by rw [overhead_eq]; omega))
  obtain ⟨r, hsub2, he, hl, hh⟩ := bnb_sound flips bnbTries rate _ _ _ [] 0 0 hne
  refine ⟨r, ?_, ⟨?_, ?_, ?_⟩, hsub2.subperm.trans hperm.subperm⟩
  · simp only [selectCoins, Bool.false_eq_true, not_false_eq_true, and_self, if_true]
    rw [if_neg hne, he]
    rfl
  · rw [he] at hne; simpa using hne
  · rw [← overhead_eq]; simpa [effSum] using hl
  · rw [← overhead_eq, ← range_eq]; simpa [effSum] using hh

example : PerfectMatch 69600 1 [34, 34] [coin 50000, coin 20000] ∧
    selectCoins (fun _ => false) id 69600 1 [34, 34] 0 false false coins3
      = .ok ([coin 50000, coin 20000], 0) :=
  ⟨⟨by simp, by decide, by decide⟩, by decide +kernel⟩

/-! ## C34 -/

/-- C34. The perfect match search makes at most one million calls plus one per unspent. -/
theorem C34_search_bounded (flips : Nat → Bool) (rate target4 range4 : Int) (unspents : List Unspent) :
    (branchAndBound flips bnbTries rate target4 range4 unspents [] 0 0).2 ≤ 1000000 + unspents.length := by
  have := bnb_calls flips bnbTries rate target4 range4 unspents [] 0 0
  unfold bnbTries at this ⊢
  omega

example : (branchAndBound (fun _ => true) bnbTries 1 1000000 1 coins3 [] 0 0).2 = 15 := by
  decide +kernel

/-! ## C35 -/

/-- C35. When consolidating a nonempty list, all unspents are selected in the given order if they
cover target, minimum change and the fee for all of them, and `InsufficientFunds` is raised
otherwise. -/
theorem C35_consolidate (flips : Nat → Bool) (shuffle : List Unspent → List Unspent)
    (hshuffle : ∀ l, (shuffle l).Perm l) (target fee : Int) (sizes : List Nat) (minChange : Int)
    (absoluteFee : Bool) (unspents : List Unspent) (hne : unspents ≠ []) :
    selectCoins flips shuffle target fee sizes minChange absoluteFee true unspents =
      (if target + minChange + (if absoluteFee then fee else feeFor fee sizes unspents)
          ≤ (unspents.map Unspent.amount).sum then
        .ok (unspents, (unspents.map Unspent.amount).sum - target
          - (if absoluteFee then fee else feeFor fee sizes unspents))
      else .error .insufficientFunds) := by
  have hfee : drawFee fee sizes absoluteFee unspents =
      if absoluteFee then fee else feeFor fee sizes unspents := by
    cases absoluteFee <;> rfl
  rcases selectCoins_cases flips shuffle hshuffle target fee sizes minChange absoluteFee true
    unspents with ⟨s, -, -, h2, -⟩ | ⟨pre, post, h1, h2, h3, h4, h5, -⟩ | ⟨h1, h2, -⟩
  · cases h2
  · have := h5 rfl
    subst this
    simp only [List.append_nil, if_true] at h1
    subst h1
    rw [h3, if_pos, remainder, hfee]
    rw [remainder, hfee] at h4
    omega
  · have h3 := h2 rfl hne
    rw [h1, if_neg (by simpa using hne : ¬ unspents.isEmpty = true), if_neg]
    rw [remainder, hfee] at h3
    omega

example : selectCoins (fun _ => true) id 70000 1 [34, 34] 0 false true coins3
      = .ok (coins3, 9478) ∧
    selectCoins (fun _ => true) id 79600 1 [34, 34] 0 false true coins3
      = .error .insufficientFunds := by decide +kernel

/-! ## C36 -/

/-- C36. Without consolidation, selection from a nonempty list fails only with `InsufficientFunds`,
and then no nonempty prefix of the shuffled list covers target, minimum change and fee; in particular
all unspents together do not. -/
theorem C36_insufficient (flips : Nat → Bool) (shuffle : List Unspent → List Unspent)
    (hshuffle : ∀ l, (shuffle l).Perm l) (target fee : Int) (sizes : List Nat) (minChange : Int)
    (absoluteFee : Bool) (unspents : List Unspent) (hne : unspents ≠ []) (e : PyErr)
    (h : selectCoins flips shuffle target fee sizes minChange absoluteFee false unspents = .error e) :
    e = .insufficientFunds ∧
    (∀ p q, shuffle unspents = p ++ q → p ≠ [] → (p.map Unspent.amount).sum <
      target + minChange + (if absoluteFee then fee else feeFor fee sizes p)) ∧
    (unspents.map Unspent.amount).sum <
      target + minChange + (if absoluteFee then fee else feeFor fee sizes unspents) := by
  have hfee : ∀ l, drawFee fee sizes absoluteFee l =
      if absoluteFee then fee else feeFor fee sizes l := by
    intro l; cases absoluteFee <;> rfl
  rcases selectCoins_cases flips shuffle hshuffle target fee sizes minChange absoluteFee false
    unspents with ⟨s, h1, -⟩ | ⟨pre, post, -, -, h3, -⟩ | ⟨h1, -, h2⟩
  · rw [h1] at h; cases h
  · rw [h3] at h; cases h
  · rw [h1] at h; injection h with h
    have hpre : ∀ p q, shuffle unspents = p ++ q → p ≠ [] → (p.map Unspent.amount).sum <
        target + minChange + (if absoluteFee then fee else feeFor fee sizes p) := by
      intro p q hpq hp
      have := h2 rfl p q hpq hp
      rw [remainder, hfee] at this
      omega
    refine ⟨?_, hpre, ?_⟩
    · rw [← h, if_neg (by simpa using hne)]
    · have hp := hshuffle unspents
      have hne' : shuffle unspents ≠ [] := by
        intro h0
        rw [h0] at hp
        exact hne hp.nil_eq.symm
      have := hpre (shuffle unspents) [] (by simp) hne'
      have e1 : ((shuffle unspents).map Unspent.amount).sum = (unspents.map Unspent.amount).sum :=
        (hp.map _).sum_eq
      have e2 : feeFor fee sizes (shuffle unspents) = feeFor fee sizes unspents := by
        unfold feeFor
        rw [(hp.map Unspent.vsize4).sum_eq, hp.length_eq]
        congr 1
        exact hp.any_eq
      rw [e1, e2] at this
      exact this

example : selectCoins (fun _ => true) List.reverse 80000 1 [34, 34] 0 false false coins3
      = .error .insufficientFunds ∧
    (coins3.map Unspent.amount).sum < 80000 + 0 + feeFor 1 [34, 34] coins3 := by decide +kernel

/-- C36. Conversely, if some nonempty prefix of the shuffled list covers target, minimum change and
fee, selection succeeds. -/
theorem C36_sufficient (flips : Nat → Bool) (shuffle : List Unspent → List Unspent)
    (hshuffle : ∀ l, (shuffle l).Perm l) (target fee : Int) (sizes : List Nat) (minChange : Int)
    (absoluteFee : Bool) (unspents p q : List Unspent) (hpq : shuffle unspents = p ++ q) (hp : p ≠ [])
    (h : target + minChange + (if absoluteFee then fee else feeFor fee sizes p)
      ≤ (p.map Unspent.amount).sum) :
    ∃ sel change, selectCoins flips shuffle target fee sizes minChange absoluteFee false unspents
      = .ok (sel, change) := by
  cases hs : selectCoins flips shuffle target fee sizes minChange absoluteFee false unspents with
  | ok r => exact ⟨r.1, r.2, rfl⟩
  | error e =>
    have hne : unspents ≠ [] := by
      intro h0
      have := (hshuffle unspents).length_eq
      rw [hpq, h0] at this
      cases p
      · exact hp rfl
      · simp at this
    have := (C36_insufficient flips shuffle hshuffle target fee sizes minChange absoluteFee unspents hne
      e hs).2.1 p q hpq hp
    omega

/-- A coin worth 1 that costs 298 bytes to spend. -/
def dust : Unspent := mkUnspent 1 1 [] [] 0 "p2sh".toList 0 none 4294967295

/-- C36 (limitation). `InsufficientFunds` may be raised although a sub-collection suffices, whatever
the coin tosses: here one coin pays for everything, but the other one, drawn first, costs more than it
is worth. -/
theorem C36_subset_would_suffice :
    ∃ (target rate : Int) (sizes : List Nat) (unspents s : List Unspent), s.Subperm unspents ∧
      target + feeFor rate sizes s ≤ (s.map Unspent.amount).sum ∧
      ∀ flips, selectCoins flips id target rate sizes 0 false false unspents
        = .error .insufficientFunds := by
  refine ⟨10000, 10, [34, 34], [dust, coin 13731], [coin 13731],
    (List.sublist_cons_self dust [coin 13731]).subperm, by decide, ?_⟩
  intro flips
  have hsort : pySorted (fun u v : Unspent => decide (v.amount ≤ u.amount)) [dust, coin 13731]
      = [coin 13731, dust] := by decide
  have hnone : (branchAndBound flips bnbTries 10
      (4 * (10000 + (8 + ([34, 34] : List Nat).dropLast.sum + 1 : Nat) * 10)) (4 * (148 * 10 + 34 * 10))
      (pySorted (fun u v : Unspent => decide (v.amount ≤ u.amount)) [dust, coin 13731]) [] 0 0).1 = [] := by
    by_contra h
    obtain ⟨s, hs, -, hl, hh⟩ := bnb_sound flips bnbTries 10 _ _ _ _ _ _ h
    rw [hsort] at hs
    have hall : ∀ s ∈ ([coin 13731, dust] : List Unspent).sublists,
        ¬ (41720 ≤ 0 + effSum 10 s ∧ 0 + effSum 10 s ≤ 41720 + 7280) := by decide
    exact hall s (List.mem_sublists.mpr hs) ⟨by simpa using hl, by simpa using hh⟩
  simp only [selectCoins, Bool.false_eq_true, not_false_eq_true, and_self, if_true]
  rw [if_pos hnone]
  decide

end Bit
