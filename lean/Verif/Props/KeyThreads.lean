import Verif.Model.KeyThreads
import Mathlib.Data.List.Basic
/-
C103: one key object used by several threads at the same time.
-/
namespace Bit

variable {Raw α : Type}

/-- The call has done all it does to the list. -/
def RefreshPhase.Past : RefreshPhase α → Prop
  | .sum _ _ | .store _ | .done _ => True
  | _ => False

/-- The call has not yet changed the list, or has raised. -/
def RefreshPhase.Before : RefreshPhase α → Prop
  | .start | .assign _ | .done (.error _) => True
  | _ => False

/-- The item was in the list at the beginning, or it was reported to one of the calls. -/
def KeyWorld.Reported (list0 : List α) (log : List (RefreshEvent α)) (u : α) : Prop :=
  u ∈ list0 ∨ ∃ i l, (.first i l ∈ log ∨ .second i l ∈ log) ∧ u ∈ l

theorem KeyWorld.Reported.mono {list0 : List α} {log log' : List (RefreshEvent α)} {u : α}
    (h : KeyWorld.Reported list0 log u) (hl : ∀ e ∈ log, e ∈ log') : KeyWorld.Reported list0 log' u := by
  rcases h with h | ⟨i, l, h1 | h1, h2⟩
  · exact .inl h
  · exact .inr ⟨i, l, .inl (hl _ h1), h2⟩
  · exact .inr ⟨i, l, .inr (hl _ h1), h2⟩

/-- what the list is made of -/
def KeyWorld.Made (list0 : List α) (w : KeyWorld α) : Prop :=
  (w.list = list0 ∧ ∀ i, (w.phase i).Before) ∨
  ∃ j base, ∃ K : List (Nat × List α), .first j base ∈ w.log ∧ w.list = base ++ K.flatMap Prod.snd ∧
    (K.map Prod.fst).Nodup ∧ (∀ p ∈ K, .second p.1 p.2 ∈ w.log ∧ (w.phase p.1).Past) ∧
    ((w.phase j).Past → ∀ l, .second j l ∈ w.log → (j, l) ∈ K)

/-- what is known of every call from the log -/
structure KeyWorld.Known (w : KeyWorld α) : Prop where
  returned : ∀ i r, .returned i r ∈ w.log ↔ w.phase i = .done r
  assign : ∀ i l, w.phase i = .assign l → .first i l ∈ w.log
  extend : ∀ i l, w.phase i = .extend l → .second i l ∈ w.log
  first : ∀ i l, .first i l ∈ w.log → w.phase i ≠ .start
  second : ∀ i l, .second i l ∈ w.log → w.phase i = .extend l ∨ (w.phase i).Past

theorem KeyWorld.known_init (list : List α) (b : Int) : (KeyWorld.init list b).Known := by
  constructor <;> intro i <;> simp [KeyWorld.init]


namespace KeyWorld

/-- one step of the call `i`: what the list, the phase and the log become -/
theorem known_step {w w' : KeyWorld α} (hw : w.Known) (i : Nat) (p : RefreshPhase α) (es : List (RefreshEvent α))
    (hp : w'.phase = fun j => if j = i then p else w.phase j) (hl : w'.log = es ++ w.log)
    (hnd : ∀ r, w.phase i ≠ .done r)
    (hes : ∀ e ∈ es, (∃ l, e = .first i l ∧ w.phase i = .start ∧ p = .assign l) ∨
      (∃ l, e = .second i l ∧ w.phase i = .second ∧ p = .extend l) ∨ (∃ r, e = .returned i r ∧ p = .done r))
    (h1 : ∀ r, p = .done r → .returned i r ∈ es) (h2 : ∀ l, p = .assign l → .first i l ∈ es)
    (h3 : ∀ l, p = .extend l → .second i l ∈ es) (h4 : p ≠ .start)
    (h5 : w.phase i = .start ∨ w.phase i = .second ∨ (∃ l, w.phase i = .assign l) ∨ p.Past) : w'.Known := by
  constructor
  · intro j r
    rw [hl, hp, List.mem_append, hw.returned j r]
    by_cases hj : j = i
    · subst hj
      simp only [if_true]
      constructor
      · rintro (h | h)
        · rcases hes _ h with ⟨l, h, _⟩ | ⟨l, h, _⟩ | ⟨r', h, h'⟩
          · cases h
          · cases h
          · cases h; exact h'
        · exact absurd h (hnd r)
      · intro h; exact .inl (h1 r h)
    · simp only [hj, if_false]
      constructor
      · rintro (h | h)
        · rcases hes _ h with ⟨l, h, _⟩ | ⟨l, h, _⟩ | ⟨r', h, h'⟩ <;> cases h
          exact absurd rfl hj
        · exact h
      · exact .inr
  · intro j l h
    rw [hp] at h
    rw [hl, List.mem_append]
    by_cases hj : j = i
    · subst hj; simp only [if_true] at h; exact .inl (h2 l h)
    · simp only [hj, if_false] at h; exact .inr (hw.assign j l h)
  · intro j l h
    rw [hp] at h
    rw [hl, List.mem_append]
    by_cases hj : j = i
    · subst hj; simp only [if_true] at h; exact .inl (h3 l h)
    · simp only [hj, if_false] at h; exact .inr (hw.extend j l h)
  · intro j l h
    rw [hl, List.mem_append] at h
    rw [hp]
    by_cases hj : j = i
    · subst hj; simp only [if_true]; exact h4
    · simp only [hj, if_false]
      rcases h with h | h
      · rcases hes _ h with ⟨l, h, _⟩ | ⟨l, h, _⟩ | ⟨r', h, h'⟩ <;> cases h
        exact absurd rfl hj
      · exact hw.first j l h
  · intro j l h
    rw [hl, List.mem_append] at h
    rw [hp]
    by_cases hj : j = i
    · subst hj
      simp only [if_true]
      rcases h with h | h
      · rcases hes _ h with ⟨l, h, _⟩ | ⟨l, h, _, h'⟩ | ⟨r', h, h'⟩ <;> cases h
        exact .inl h'
      · rcases hw.second j l h with hx | hx
        · rcases h5 with h5 | h5 | ⟨l', h5⟩ | h5
          · rw [h5] at hx; cases hx
          · rw [h5] at hx; cases hx
          · rw [h5] at hx; cases hx
          · exact .inr h5
        · rcases h5 with h5 | h5 | ⟨l', h5⟩ | h5
          · rw [h5] at hx; exact hx.elim
          · rw [h5] at hx; exact hx.elim
          · rw [h5] at hx; exact hx.elim
          · exact .inr h5
    · simp only [hj, if_false]
      rcases h with h | h
      · rcases hes _ h with ⟨l, h, _⟩ | ⟨l, h, _⟩ | ⟨r', h, h'⟩ <;> cases h
        exact absurd rfl hj
      · exact hw.second j l h

/-- The possible steps of a call. -/
inductive Step (R : Refresh Raw α) (w : KeyWorld α) (i : Nat) : KeyWorld α → Prop
  | firstFailed (e) (h : w.phase i = .start) : Step R w i (w.finish i (.error e))
  | first (l) (h : w.phase i = .start) : Step R w i ((w.goto i (.assign l)).see (.first i l))
  | assign (l) (h : w.phase i = .assign l) : Step R w i ({ w with list := l }.goto i .second)
  | secondFailed (e) (h : w.phase i = .second) : Step R w i (w.finish i (.error e))
  | second (l) (h : w.phase i = .second) : Step R w i ((w.goto i (.extend l)).see (.second i l))
  | none (p) (es) (h : w.phase i = .second) (hno : R.second = .none) (hp : p.Past) (hr : ∀ r, p = .done r → r = .ok () ∧ es = [.returned i r])
      (hes : es = [] ∨ ∃ r, p = .done r ∧ es = [.returned i r]) (hs : ∀ k t, p = .sum k t → k = 0 ∧ t = 0)
      (hst : ∀ t, p ≠ .store t) :
      Step R w i { w.goto i p with log := es ++ w.log }
  | extend (l) (p) (es) (h : w.phase i = .extend l) (hp : p.Past) (hr : ∀ r, p = .done r → r = .ok () ∧ es = [.returned i r])
      (hes : es = [] ∨ ∃ r, p = .done r ∧ es = [.returned i r]) (hs : ∀ k t, p = .sum k t → k = 0 ∧ t = 0)
      (hst : ∀ t, p ≠ .store t) :
      Step R w i { { w with list := w.list ++ l }.goto i p with log := es ++ w.log }
  | sum (k) (t) (u) (amount) (h : w.phase i = .sum k t) (hu : w.list[k]? = some u) (ha : R.amount = some amount) :
      Step R w i (w.goto i (.sum (k + 1) (t + amount u)))
  | summed (k) (t) (h : w.phase i = .sum k t) : Step R w i (w.goto i (.store t))
  | store (t) (h : w.phase i = .store t) : Step R w i ({ w with balance := t }.finish i (.ok ()))
  | done (r) (h : w.phase i = .done r) : Step R w i w

theorem move_step (R : Refresh Raw α) (w : KeyWorld α) (i : Nat) (raw : Raw) : Step R w i (w.move R i raw) := by
  unfold move
  cases h : w.phase i with
  | start =>
    simp only
    cases R.first raw with
    | error e => exact .firstFailed e h
    | ok l => exact .first l h
  | assign l => exact .assign l h
  | second =>
    simp only
    cases h2 : R.second with
    | none =>
      unfold listed
      cases R.amount with
      | some a => exact .none (.sum 0 0) [] h h2 trivial (by simp) (.inl rfl) (by simp) (by simp)
      | none => exact .none (.done (.ok ())) [.returned i (.ok ())] h h2 trivial (by simp) (.inr ⟨_, rfl, rfl⟩) (by simp) (by simp)
    | some f =>
      simp only
      cases f raw with
      | error e => exact .secondFailed e h
      | ok l => exact .second l h
  | extend l =>
    simp only
    unfold listed
    cases R.amount with
    | some a => exact .extend l (.sum 0 0) [] h trivial (by simp) (.inl rfl) (by simp) (by simp)
    | none => exact .extend l (.done (.ok ())) [.returned i (.ok ())] h trivial (by simp) (.inr ⟨_, rfl, rfl⟩) (by simp) (by simp)
  | sum k t =>
    simp only
    split
    · next u a hu ha => exact .sum k t u a h hu ha
    · exact .summed k t h
  | store t => exact .store t h
  | done r => exact .done r h

theorem known_move {R : Refresh Raw α} {w w' : KeyWorld α} {i : Nat} (hw : w.Known) (h : Step R w i w') : w'.Known := by
  cases h with
  | firstFailed e h =>
    exact known_step hw i (.done (.error e)) [.returned i (.error e)] rfl rfl (by simp [h]) (by simp) (by simp) (by simp)
      (by simp) (by simp) (.inl h)
  | first l h =>
    exact known_step hw i (.assign l) [.first i l] rfl rfl (by simp [h]) (by simp [h]) (by simp) (by simp)
      (by simp) (by simp) (.inl h)
  | assign l h =>
    exact known_step hw i .second [] rfl rfl (by simp [h]) (by simp) (by simp) (by simp)
      (by simp) (by simp) (.inr (.inr (.inl ⟨l, h⟩)))
  | secondFailed e h =>
    exact known_step hw i (.done (.error e)) [.returned i (.error e)] rfl rfl (by simp [h]) (by simp) (by simp) (by simp)
      (by simp) (by simp) (.inr (.inl h))
  | second l h =>
    exact known_step hw i (.extend l) [.second i l] rfl rfl (by simp [h]) (by simp [h]) (by simp) (by simp)
      (by simp) (by simp) (.inr (.inl h))
  | none p es h hno hp hr hes hs hst =>
    refine known_step hw i p es rfl rfl (by simp [h]) ?_ ?_ ?_ ?_ ?_ (.inr (.inl h))
    · intro e he
      rcases hes with rfl | ⟨r, h1, rfl⟩
      · cases he
      · simp only [List.mem_singleton] at he
        exact .inr (.inr ⟨r, he, h1⟩)
    · intro r h1; rw [(hr r h1).2]; simp
    · rintro l rfl; exact hp.elim
    · rintro l rfl; exact hp.elim
    · rintro rfl; exact hp.elim
  | extend l p es h hp hr hes hs hst =>
    refine known_step hw i p es rfl rfl (by simp [h]) ?_ ?_ ?_ ?_ ?_ (.inr (.inr (.inr hp)))
    · intro e he
      rcases hes with rfl | ⟨r, h1, rfl⟩
      · cases he
      · simp only [List.mem_singleton] at he
        exact .inr (.inr ⟨r, he, h1⟩)
    · intro r h1; rw [(hr r h1).2]; simp
    · rintro l rfl; exact hp.elim
    · rintro l rfl; exact hp.elim
    · rintro rfl; exact hp.elim
  | sum k t u a h hu ha =>
    exact known_step hw i (.sum (k + 1) (t + a u)) [] rfl rfl (by simp [h]) (by simp) (by simp) (by simp)
      (by simp) (by simp) (.inr (.inr (.inr trivial)))
  | summed k t h =>
    exact known_step hw i (.store t) [] rfl rfl (by simp [h]) (by simp) (by simp) (by simp)
      (by simp) (by simp) (.inr (.inr (.inr trivial)))
  | store t h =>
    exact known_step hw i (.done (.ok ())) [.returned i (.ok ())] rfl rfl (by simp [h]) (by simp) (by simp) (by simp)
      (by simp) (by simp) (.inr (.inr (.inr trivial)))
  | done r h => exact hw

/-- a step that leaves the list alone -/
theorem made_keep {list0 : List α} {w w' : KeyWorld α} (hm : w.Made list0) (i : Nat) (p : RefreshPhase α)
    (es : List (RefreshEvent α)) (hlist : w'.list = w.list)
    (hp : w'.phase = fun j => if j = i then p else w.phase j) (hl : w'.log = es ++ w.log)
    (hb : (w.phase i).Before → p.Before) (hpast : (w.phase i).Past → p.Past)
    (hnew : p.Past → ¬ (w.phase i).Past → ∀ l, .second i l ∉ w'.log)
    (hes : ∀ j l, .second j l ∈ es → j = i ∧ ¬ p.Past) : w'.Made list0 := by
  rcases hm with ⟨h1, h2⟩ | ⟨j, base, K, h1, h2, h3, h4, h5⟩
  · refine .inl ⟨by rw [hlist, h1], fun j => ?_⟩
    rw [hp]
    by_cases hj : j = i
    · subst hj; simpa using hb (h2 j)
    · simpa [hj] using h2 j
  · refine .inr ⟨j, base, K, by rw [hl]; simp [h1], by rw [hlist, h2], h3, ?_, ?_⟩
    · intro q hq
      refine ⟨by rw [hl]; simp [(h4 q hq).1], ?_⟩
      rw [hp]
      by_cases hj : q.1 = i
      · simpa [hj] using hpast (hj ▸ (h4 q hq).2)
      · simpa [hj] using (h4 q hq).2
    · intro hx l hlg
      rw [hp] at hx
      by_cases hj : j = i
      · subst hj
        simp only [if_true] at hx
        by_cases hb : (w.phase j).Past
        · rw [hl, List.mem_append] at hlg
          rcases hlg with hlg | hlg
          · exact absurd hx (hes j l hlg).2
          · exact h5 hb l hlg
        · exact absurd hlg (hnew hx hb l)
      · simp only [hj, if_false] at hx
        rw [hl, List.mem_append] at hlg
        rcases hlg with hlg | hlg
        · exact absurd (hes j l hlg).1 hj
        · exact h5 hx l hlg

theorem made_move {R : Refresh Raw α} {list0 : List α} {w w' : KeyWorld α} {i : Nat} (hk : w.Known)
    (hm : w.Made list0) (h : Step R w i w') : w'.Made list0 := by
  cases h with
  | firstFailed e h =>
    refine made_keep hm i (.done (.error e)) [.returned i (.error e)] rfl rfl rfl (fun _ => trivial) (fun _ => trivial) ?_ (by simp)
    intro _ _ l hl
    have hl : .second i l ∈ w.log := by simpa [finish, see, goto] using hl
    rcases hk.second i l hl with hx | hx <;> rw [h] at hx
    · cases hx
    · exact hx.elim
  | first l h =>
    exact made_keep hm i (.assign l) [.first i l] rfl rfl rfl (fun _ => trivial) (by rw [h]; exact fun h => h.elim)
      (fun h => h.elim) (by simp)
  | assign l h =>
    refine .inr ⟨i, l, [], ?_, by simp [goto], by simp, by simp, ?_⟩
    · exact hk.assign i l h
    · simp [goto, RefreshPhase.Past]
  | secondFailed e h =>
    refine made_keep hm i (.done (.error e)) [.returned i (.error e)] rfl rfl rfl (fun _ => trivial) (fun _ => trivial) ?_ (by simp)
    intro _ _ l hl
    have hl : .second i l ∈ w.log := by simpa [finish, see, goto] using hl
    rcases hk.second i l hl with hx | hx <;> rw [h] at hx
    · cases hx
    · exact hx.elim
  | second l h =>
    refine made_keep hm i (.extend l) [.second i l] rfl rfl rfl (by rw [h]; exact fun h => h.elim)
      (by rw [h]; exact fun h => h.elim) (fun h => h.elim) ?_
    intro j l' hj
    simp only [List.mem_singleton, RefreshEvent.second.injEq] at hj
    exact ⟨hj.1, fun h => h⟩
  | none p es h hno hp hr hes hs hst =>
    refine made_keep hm i p es rfl rfl rfl (by rw [h]; exact fun h => h.elim) (fun _ => hp) ?_ ?_
    · intro _ _ l hl
      have hl : .second i l ∈ w.log := by
        rcases hes with rfl | ⟨r, -, rfl⟩ <;> simpa using hl
      rcases hk.second i l hl with hx | hx <;> rw [h] at hx
      · cases hx
      · exact hx.elim
    · intro j l hj
      rcases hes with rfl | ⟨r, -, rfl⟩ <;> simp at hj
  | extend l p es h hp hr hes hs hst =>
    rcases hm with ⟨h1, h2⟩ | ⟨j, base, K, h1, h2, h3, h4, h5⟩
    · have := h2 i; rw [h] at this; exact this.elim
    · have hiK : i ∉ K.map Prod.fst := by
        intro hi
        obtain ⟨q, hq, rfl⟩ := List.mem_map.mp hi
        have := (h4 q hq).2
        rw [h] at this; exact this.elim
      have hlog : ∀ (j' : Nat) (l' : List α), .second j' l' ∈ es ++ w.log ↔ .second j' l' ∈ w.log := by
        intro j' l'
        rcases hes with rfl | ⟨r, -, rfl⟩ <;> simp
      refine .inr ⟨j, base, K ++ [(i, l)], by simp [h1], by simp [goto, h2], ?_, ?_, ?_⟩
      · rw [List.map_append, List.nodup_append]
        refine ⟨h3, by simp, ?_⟩
        intro a ha b hb
        simp only [List.map_cons, List.map_nil, List.mem_singleton] at hb
        rintro rfl
        exact hiK (hb ▸ ha)
      · intro q hq
        rcases List.mem_append.mp hq with hq | hq
        · refine ⟨(hlog _ _).mpr (h4 q hq).1, ?_⟩
          show RefreshPhase.Past (if q.1 = i then p else w.phase q.1)
          split
          · exact hp
          · exact (h4 q hq).2
        · simp only [List.mem_singleton] at hq
          subst hq
          refine ⟨(hlog _ _).mpr (hk.extend i l h), ?_⟩
          show RefreshPhase.Past (if i = i then p else w.phase i)
          rw [if_pos rfl]; exact hp
      · intro hx l' hl'
        have hl2 : .second j l' ∈ w.log := (hlog _ _).mp hl'
        replace hx : RefreshPhase.Past (if j = i then p else w.phase j) := hx
        by_cases hj : j = i
        · subst hj
          rcases hk.second j l' hl2 with hy | hy <;> rw [h] at hy
          · cases hy; simp
          · exact hy.elim
        · rw [if_neg hj] at hx
          exact List.mem_append_left _ (h5 hx l' hl2)
  | sum k t u a h hu ha =>
    exact made_keep hm i (.sum (k + 1) (t + a u)) [] rfl rfl rfl (by rw [h]; exact fun h => h.elim) (fun _ => trivial)
      (by rw [h]; exact fun _ h => absurd trivial h) (by simp)
  | summed k t h =>
    exact made_keep hm i (.store t) [] rfl rfl rfl (by rw [h]; exact fun h => h.elim) (fun _ => trivial)
      (by rw [h]; exact fun _ h => absurd trivial h) (by simp)
  | store t h =>
    exact made_keep hm i (.done (.ok ())) [.returned i (.ok ())] rfl rfl rfl (by rw [h]; exact fun h => h.elim) (fun _ => trivial)
      (by rw [h]; exact fun _ h => absurd trivial h) (by simp)
  | done r h => exact hm

theorem run_made (R : Refresh Raw α) {list0 : List α} (schedule : List (Nat × Raw)) {w : KeyWorld α} (hk : w.Known)
    (hm : w.Made list0) : (w.run R schedule).Known ∧ (w.run R schedule).Made list0 := by
  induction schedule generalizing w with
  | nil => exact ⟨hk, hm⟩
  | cons a s ih =>
    have hs := move_step R w a.1 a.2
    exact ih (known_move hk hs) (made_move hk hm hs)

end KeyWorld

/-- C103. Threads refresh one object in any interleaving. As long as no call has returned without an exception the list
may be the old one. Otherwise it begins with what was reported for the address to one call `j`, and what follows is what was
reported for the segwit address to some of the calls, to each at most once, and to `j` among them if it has returned. -/
theorem C103_list (R : Refresh Raw α) (list : List α) (balance : Int) (schedule : List (Nat × Raw)) :
    let w := (KeyWorld.init list balance).run R schedule
    (w.list = list ∧ ∀ i, .returned i (.ok ()) ∉ w.log) ∨
    ∃ j l, ∃ parts : List (Nat × List α), .first j l ∈ w.log ∧ w.list = l ++ parts.flatMap Prod.snd ∧
      (parts.map Prod.fst).Nodup ∧ (∀ p ∈ parts, .second p.1 p.2 ∈ w.log) ∧
      ∀ r s, .returned j r ∈ w.log → .second j s ∈ w.log → (j, s) ∈ parts := by
  obtain ⟨hk, hm⟩ := KeyWorld.run_made R (list0 := list) schedule (KeyWorld.known_init list balance)
    (.inl ⟨rfl, fun _ => trivial⟩)
  rcases hm with ⟨h1, h2⟩ | ⟨j, base, K, h1, h2, h3, h4, h5⟩
  · refine .inl ⟨h1, fun i hi => ?_⟩
    have := h2 i
    rw [(hk.returned i _).mp hi] at this
    exact this
  · refine .inr ⟨j, base, K, h1, h2, h3, fun p hp => (h4 p hp).1, fun r s hr hs => h5 ?_ s hs⟩
    rw [(hk.returned j r).mp hr]; trivial


namespace KeyWorld

/-- a call that has not raised and is beyond the first question, or beyond the second, got its answers -/
def AnswersSeen (R : Refresh Raw α) (w : KeyWorld α) : Prop :=
  ∀ i, (w.phase i = .second ∨ (∃ l, w.phase i = .extend l) ∨ ((w.phase i).Past ∧ ∀ e, w.phase i ≠ .done (.error e)) →
      ∃ l, .first i l ∈ w.log) ∧
    ((w.phase i).Past ∧ (∀ e, w.phase i ≠ .done (.error e)) → R.second.isSome → ∃ l, .second i l ∈ w.log)

theorem answers_keep {R : Refresh Raw α} {w w' : KeyWorld α} (hw : w.AnswersSeen R) (i : Nat) (p : RefreshPhase α)
    (es : List (RefreshEvent α)) (hp : w'.phase = fun j => if j = i then p else w.phase j) (hl : w'.log = es ++ w.log)
    (h1 : (p = .second ∨ (∃ l, p = .extend l) ∨ (p.Past ∧ ∀ e, p ≠ .done (.error e))) → ∃ l, .first i l ∈ w.log)
    (h2 : (p.Past ∧ ∀ e, p ≠ .done (.error e)) → R.second.isSome → ∃ l, .second i l ∈ w.log) : w'.AnswersSeen R := by
  intro j
  rw [hp, hl]
  by_cases hj : j = i
  · subst hj
    simp only [if_true]
    refine ⟨fun h => ?_, fun h h' => ?_⟩
    · obtain ⟨l, hl⟩ := h1 h; exact ⟨l, List.mem_append_right _ hl⟩
    · obtain ⟨l, hl⟩ := h2 h h'; exact ⟨l, List.mem_append_right _ hl⟩
  · simp only [hj, if_false]
    refine ⟨fun h => ?_, fun h h' => ?_⟩
    · obtain ⟨l, hl⟩ := (hw j).1 h; exact ⟨l, List.mem_append_right _ hl⟩
    · obtain ⟨l, hl⟩ := (hw j).2 h h'; exact ⟨l, List.mem_append_right _ hl⟩

theorem answers_move {R : Refresh Raw α} {w w' : KeyWorld α} {i : Nat} (hk : w.Known) (hw : w.AnswersSeen R)
    (h : Step R w i w') : w'.AnswersSeen R := by
  have past : ∀ {q : RefreshPhase α}, w.phase i = q → q.Past → (∀ e, q ≠ .done (.error e)) →
      (∃ l, .first i l ∈ w.log) ∧ (R.second.isSome → ∃ l, .second i l ∈ w.log) := by
    rintro q rfl h1 h2
    exact ⟨(hw i).1 (.inr (.inr ⟨h1, h2⟩)), (hw i).2 ⟨h1, h2⟩⟩
  cases h with
  | firstFailed e h =>
    exact answers_keep hw i (.done (.error e)) [.returned i (.error e)] rfl rfl (by simp [RefreshPhase.Past]) (by simp [RefreshPhase.Past])
  | first l h =>
    exact answers_keep hw i (.assign l) [.first i l] rfl rfl (by simp [RefreshPhase.Past]) (by simp [RefreshPhase.Past])
  | assign l h =>
    exact answers_keep hw i .second [] rfl rfl (fun _ => ⟨l, hk.assign i l h⟩) (by simp [RefreshPhase.Past])
  | secondFailed e h =>
    exact answers_keep hw i (.done (.error e)) [.returned i (.error e)] rfl rfl (by simp [RefreshPhase.Past]) (by simp [RefreshPhase.Past])
  | second l h =>
    exact answers_keep hw i (.extend l) [.second i l] rfl rfl (fun _ => (hw i).1 (.inl h)) (by simp [RefreshPhase.Past])
  | none p es h hno hp hr hes hs hst =>
    exact answers_keep hw i p es rfl rfl (fun _ => (hw i).1 (.inl h)) (by rw [hno]; simp)
  | extend l p es h hp hr hes hs hst =>
    exact answers_keep hw i p es rfl rfl (fun _ => (hw i).1 (.inr (.inl ⟨l, h⟩))) (fun _ _ => ⟨l, hk.extend i l h⟩)
  | sum k t u a h hu ha =>
    have := past h trivial (by simp)
    exact answers_keep hw i (.sum (k + 1) (t + a u)) [] rfl rfl (fun _ => this.1) (fun _ => this.2)
  | summed k t h =>
    have := past h trivial (by simp)
    exact answers_keep hw i (.store t) [] rfl rfl (fun _ => this.1) (fun _ => this.2)
  | store t h =>
    have := past h trivial (by simp)
    exact answers_keep hw i (.done (.ok ())) [.returned i (.ok ())] rfl rfl (fun _ => this.1) (fun _ => this.2)
  | done r h => exact hw

theorem run_answers (R : Refresh Raw α) (schedule : List (Nat × Raw)) {w : KeyWorld α} (hk : w.Known)
    (hw : w.AnswersSeen R) : (w.run R schedule).AnswersSeen R := by
  induction schedule generalizing w with
  | nil => exact hw
  | cons a s ih =>
    have hs := move_step R w a.1 a.2
    exact ih (known_move hk hs) (answers_move hk hw hs)

theorem made_reported {list0 : List α} {w : KeyWorld α} (hm : w.Made list0) : ∀ u ∈ w.list, Reported list0 w.log u := by
  intro u hu
  rcases hm with ⟨h1, h2⟩ | ⟨j, base, K, h1, h2, h3, h4, h5⟩
  · exact .inl (h1 ▸ hu)
  · rw [h2, List.mem_append] at hu
    rcases hu with hu | hu
    · exact .inr ⟨j, base, .inl h1, hu⟩
    · obtain ⟨p, hp, hu⟩ := List.mem_flatMap.mp hu
      exact .inr ⟨p.1, p.2, .inr (h4 p hp).1, hu⟩

/-- the number is a sum of amounts of items that were reported -/
def SumOf (amount : α → Int) (list0 : List α) (log : List (RefreshEvent α)) (t : Int) : Prop :=
  ∃ us : List α, t = (us.map amount).sum ∧ ∀ u ∈ us, Reported list0 log u

theorem SumOf.mono {amount : α → Int} {list0 : List α} {log log' : List (RefreshEvent α)} {t : Int}
    (h : SumOf amount list0 log t) (hl : ∀ e ∈ log, e ∈ log') : SumOf amount list0 log' t := by
  obtain ⟨us, h1, h2⟩ := h
  exact ⟨us, h1, fun u hu => (h2 u hu).mono hl⟩

/-- what the sums under way and the balance consist of -/
def Counted (amount : α → Int) (list0 : List α) (balance0 : Int) (w : KeyWorld α) : Prop :=
  (∀ i k t, w.phase i = .sum k t → SumOf amount list0 w.log t) ∧ (∀ i t, w.phase i = .store t → SumOf amount list0 w.log t) ∧
  (w.balance = balance0 ∨ SumOf amount list0 w.log w.balance)

theorem counted_keep {amount : α → Int} {list0 : List α} {balance0 : Int} {w w' : KeyWorld α}
    (hw : w.Counted amount list0 balance0) (i : Nat) (p : RefreshPhase α) (es : List (RefreshEvent α))
    (hp : w'.phase = fun j => if j = i then p else w.phase j) (hl : w'.log = es ++ w.log)
    (h1 : ∀ k t, p = .sum k t → SumOf amount list0 w.log t) (h2 : ∀ t, p = .store t → SumOf amount list0 w.log t)
    (h3 : w'.balance = w.balance ∨ SumOf amount list0 w.log w'.balance) : w'.Counted amount list0 balance0 := by
  have mono : ∀ {t}, SumOf amount list0 w.log t → SumOf amount list0 w'.log t :=
    fun h => h.mono (fun e he => by rw [hl]; exact List.mem_append_right _ he)
  refine ⟨fun j k t h => ?_, fun j t h => ?_, ?_⟩
  · rw [hp] at h
    by_cases hj : j = i
    · subst hj; simp only [if_true] at h; exact mono (h1 k t h)
    · simp only [hj, if_false] at h; exact mono (hw.1 j k t h)
  · rw [hp] at h
    by_cases hj : j = i
    · subst hj; simp only [if_true] at h; exact mono (h2 t h)
    · simp only [hj, if_false] at h; exact mono (hw.2.1 j t h)
  · rcases h3 with h3 | h3
    · rw [h3]
      rcases hw.2.2 with h | h
      · exact .inl h
      · exact .inr (mono h)
    · exact .inr (mono h3)

theorem counted_move {R : Refresh Raw α} {amount : α → Int} (hR : R.amount = some amount) {list0 : List α} {balance0 : Int}
    {w w' : KeyWorld α} {i : Nat} (hm : w.Made list0) (hw : w.Counted amount list0 balance0) (h : Step R w i w') :
    w'.Counted amount list0 balance0 := by
  have zero : SumOf amount list0 w.log 0 := ⟨[], by simp, by simp⟩
  cases h with
  | firstFailed e h => exact counted_keep hw i (.done (.error e)) [.returned i (.error e)] rfl rfl (by simp) (by simp) (.inl rfl)
  | first l h => exact counted_keep hw i (.assign l) [.first i l] rfl rfl (by simp) (by simp) (.inl rfl)
  | assign l h => exact counted_keep hw i .second [] rfl rfl (by simp) (by simp) (.inl rfl)
  | secondFailed e h => exact counted_keep hw i (.done (.error e)) [.returned i (.error e)] rfl rfl (by simp) (by simp) (.inl rfl)
  | second l h => exact counted_keep hw i (.extend l) [.second i l] rfl rfl (by simp) (by simp) (.inl rfl)
  | none p es h hno hp hr hes hs hst =>
    exact counted_keep hw i p es rfl rfl (fun k t h => by rw [(hs k t h).2]; exact zero) (fun t h => absurd h (hst t)) (.inl rfl)
  | extend l p es h hp hr hes hs hst =>
    exact counted_keep hw i p es rfl rfl (fun k t h => by rw [(hs k t h).2]; exact zero) (fun t h => absurd h (hst t)) (.inl rfl)
  | sum k t u a h hu ha =>
    rw [hR] at ha
    cases ha
    refine counted_keep hw i (.sum (k + 1) (t + amount u)) [] rfl rfl ?_ (by simp) (.inl rfl)
    intro k' t' he
    cases he
    obtain ⟨us, h1, h2⟩ := hw.1 i k t h
    refine ⟨us ++ [u], by simp [h1], ?_⟩
    intro v hv
    rcases List.mem_append.mp hv with hv | hv
    · exact h2 v hv
    · simp only [List.mem_singleton] at hv
      subst hv
      exact made_reported hm v (List.mem_of_getElem? hu)
  | summed k t h =>
    refine counted_keep hw i (.store t) [] rfl rfl (by simp) ?_ (.inl rfl)
    intro t' he
    cases he
    exact hw.1 i k t h
  | store t h =>
    exact counted_keep hw i (.done (.ok ())) [.returned i (.ok ())] rfl rfl (by simp) (by simp) (.inr (hw.2.1 i t h))
  | done r h => exact hw

theorem run_counted {R : Refresh Raw α} {amount : α → Int} (hR : R.amount = some amount) {list0 : List α} {balance0 : Int}
    (schedule : List (Nat × Raw)) {w : KeyWorld α} (hk : w.Known) (hm : w.Made list0)
    (hw : w.Counted amount list0 balance0) : (w.run R schedule).Counted amount list0 balance0 := by
  induction schedule generalizing w with
  | nil => exact hw
  | cons a s ih =>
    have hs := move_step R w a.1 a.2
    exact ih (known_move hk hs) (made_move hk hm hs) (counted_move hR hm hw hs)

end KeyWorld

/-- C103. A call that has returned without an exception got an answer for the address, and for the segwit address if
there is one. -/
theorem C103_answered (R : Refresh Raw α) (list : List α) (balance : Int) (schedule : List (Nat × Raw)) (i : Nat)
    (h : .returned i (.ok ()) ∈ ((KeyWorld.init list balance).run R schedule).log) :
    (∃ l, .first i l ∈ ((KeyWorld.init list balance).run R schedule).log) ∧
    (R.second.isSome → ∃ l, .second i l ∈ ((KeyWorld.init list balance).run R schedule).log) := by
  have hk := (KeyWorld.run_made R (list0 := list) schedule (KeyWorld.known_init list balance)
    (.inl ⟨rfl, fun _ => trivial⟩)).1
  have ha := KeyWorld.run_answers R schedule (KeyWorld.known_init list balance) (by
    intro j; simp [KeyWorld.init, RefreshPhase.Past])
  have hp := (hk.returned i _).mp h
  have : ((((KeyWorld.init list balance).run R schedule).phase i).Past ∧
      ∀ e, ((KeyWorld.init list balance).run R schedule).phase i ≠ .done (.error e)) := by
    rw [hp]; exact ⟨trivial, by simp⟩
  exact ⟨(ha i).1 (.inr (.inr this)), (ha i).2 this⟩

/-- C103. Nothing is invented: at all times every item of the list was there at the beginning or was reported to one of
the calls, and the balance is the one of the beginning or a sum of amounts of such items. -/
theorem C103_reported (R : Refresh Raw α) (amount : α → Int) (hR : R.amount = some amount) (list : List α) (balance : Int)
    (schedule : List (Nat × Raw)) :
    let w := (KeyWorld.init list balance).run R schedule
    let Reported := fun u => u ∈ list ∨ ∃ i l, (.first i l ∈ w.log ∨ .second i l ∈ w.log) ∧ u ∈ l
    (∀ u ∈ w.list, Reported u) ∧
    (w.balance = balance ∨ ∃ us : List α, w.balance = (us.map amount).sum ∧ ∀ u ∈ us, Reported u) := by
  have h0 : (KeyWorld.init list balance).Made list := .inl ⟨rfl, fun _ => trivial⟩
  have hm := (KeyWorld.run_made R schedule (KeyWorld.known_init list balance) h0).2
  have hc := KeyWorld.run_counted hR (balance0 := balance) schedule (KeyWorld.known_init list balance) h0
    ⟨by simp [KeyWorld.init], by simp [KeyWorld.init], .inl rfl⟩
  exact ⟨KeyWorld.made_reported hm, hc.2.2⟩


namespace KeyWorld

theorem run_append (R : Refresh Raw α) (w : KeyWorld α) (s t : List (Nat × Raw)) :
    w.run R (s ++ t) = (w.run R s).run R t := List.foldl_append

theorem run_cons (R : Refresh Raw α) (w : KeyWorld α) (a : Nat × Raw) (t : List (Nat × Raw)) :
    w.run R (a :: t) = (w.move R a.1 a.2).run R t := rfl

theorem goto_goto (w : KeyWorld α) (i : Nat) (p q : RefreshPhase α) : (w.goto i p).goto i q = w.goto i q := by
  unfold goto
  congr 1
  funext j
  by_cases hj : j = i <;> simp [hj]

theorem goto_self (w : KeyWorld α) (i : Nat) (p : RefreshPhase α) : (w.goto i p).phase i = p := by simp [goto]

theorem goto_other (w : KeyWorld α) (i j : Nat) (p : RefreshPhase α) (h : j ≠ i) : (w.goto i p).phase j = w.phase j := by
  simp [goto, h]

theorem run_done (R : Refresh Raw α) {w : KeyWorld α} {i : Nat} {r : Py Unit} (h : w.phase i = .done r) (n : Nat) (raw : Raw) :
    w.run R (List.replicate n (i, raw)) = w := by
  induction n with
  | zero => rfl
  | succ n ih =>
    rw [List.replicate_succ, run_cons]
    have : w.move R i raw = w := by unfold move; rw [h]
    rw [this]; exact ih

theorem run_sum (R : Refresh Raw α) {amount : α → Int} (hR : R.amount = some amount) (i : Nat) (raw : Raw) (m : Nat)
    (suf : List α) : ∀ (w : KeyWorld α) (pre : List α) (t : Int), w.phase i = .sum pre.length t → w.list = pre ++ suf →
    w.run R (List.replicate (suf.length + 2 + m) (i, raw)) =
      ({ w with balance := t + (suf.map amount).sum } : KeyWorld α).finish i (.ok ()) := by
  induction suf with
  | nil =>
    intro w pre t h hl
    have e : ([] : List α).length + 2 + m = (m + 1) + 1 := by simp; omega
    rw [e, List.replicate_succ, run_cons]
    have h1 : w.move R i raw = w.goto i (.store t) := by
      unfold move
      rw [h, hl]
      simp
    rw [h1, List.replicate_succ, run_cons]
    have h2 : (w.goto i (.store t)).move R i raw = ({ w with balance := t + 0 } : KeyWorld α).finish i (.ok ()) := by
      unfold move
      rw [goto_self]
      simp only
      unfold finish
      rw [show ({ w.goto i (.store t) with balance := t } : KeyWorld α) = ({ w with balance := t } : KeyWorld α).goto i (.store t) from rfl,
        goto_goto]
      simp
    rw [h2]
    rw [run_done R (r := .ok ()) (by unfold finish see; exact goto_self _ _ _)]
    simp
  | cons u suf ih =>
    intro w pre t h hl
    have e : (u :: suf).length + 2 + m = (suf.length + 2 + m) + 1 := by simp; omega
    rw [e, List.replicate_succ, run_cons]
    have h1 : w.move R i raw = w.goto i (.sum (pre ++ [u]).length (t + amount u)) := by
      unfold move
      rw [h, hl]
      simp [hR]
    rw [h1, ih _ (pre ++ [u]) (t + amount u) (goto_self _ _ _) (by simp [goto, hl])]
    unfold finish
    rw [show ({ w.goto i (.sum (pre ++ [u]).length (t + amount u)) with balance := t + amount u + (suf.map amount).sum } : KeyWorld α)
      = ({ w with balance := t + amount u + (suf.map amount).sum } : KeyWorld α).goto i (.sum (pre ++ [u]).length (t + amount u)) from rfl,
        goto_goto]
    simp [Int.add_assoc]

/-- the whole of an undisturbed call after the assignment of the first answer -/
theorem run_alone (R : Refresh Raw α) {w : KeyWorld α} {i : Nat} (h : w.phase i = .start) {raw : Raw} {l : List α}
    (hl : R.first raw = .ok l) (t : List (Nat × Raw)) :
    ∃ w1 : KeyWorld α, w1.list = l ∧ w1.balance = w.balance ∧ w1.phase i = .second ∧
      (∀ j, j ≠ i → w1.phase j = w.phase j) ∧ w.run R ((i, raw) :: (i, raw) :: t) = w1.run R t := by
  have h1 : w.move R i raw = (w.goto i (.assign l)).see (.first i l) := by
    unfold move; rw [h]; simp only; rw [hl]
  have h2 : ((w.goto i (.assign l)).see (.first i l)).move R i raw =
      ({ ((w.goto i (.assign l)).see (.first i l)) with list := l } : KeyWorld α).goto i .second := by
    unfold move
    rw [show ((w.goto i (.assign l)).see (.first i l)).phase i = .assign l from goto_self _ _ _]
  refine ⟨_, ?_, ?_, ?_, ?_, by rw [run_cons, run_cons, h1, h2]⟩
  · rfl
  · rfl
  · exact goto_self _ _ _
  · intro j hj
    rw [goto_other _ _ _ _ hj]
    show (w.goto i (.assign l)).phase j = _
    rw [goto_other _ _ _ _ hj]

theorem run_failed (R : Refresh Raw α) {w : KeyWorld α} {i : Nat} {raw raw' : Raw} {e : PyErr}
    (h : w.move R i raw = w.finish i (.error e)) (n : Nat) :
    w.run R ((i, raw) :: List.replicate n (i, raw')) = w.finish i (.error e) := by
  rw [run_cons, h, run_done R (r := .error e) (by unfold finish see; exact goto_self _ _ _)]

theorem run_rest (R : Refresh Raw α) {amount : α → Int} (hR : R.amount = some amount) {w : KeyWorld α} {i : Nat}
    (h : w.phase i = .second) (raw : Raw) {l : List α}
    (hl : (R.second = none ∧ l = []) ∨ ∃ f, R.second = some f ∧ f raw = .ok l) (m : Nat) :
    ∃ w1 : KeyWorld α, w1.list = w.list ++ l ∧ w1.balance = ((w.list ++ l).map amount).sum ∧
      .returned i (.ok ()) ∈ w1.log ∧ w1.phase i = .done (.ok ()) ∧ (∀ j, j ≠ i → w1.phase j = w.phase j) ∧
      w.run R (List.replicate ((w.list ++ l).length + 4 + m) (i, raw)) = w1 := by
  rcases hl with ⟨h0, rfl⟩ | ⟨f, h0, hf⟩
  · have e : (w.list ++ []).length + 4 + m = (w.list.length + 2 + (m + 1)) + 1 := by simp; omega
    have h1 : w.move R i raw = w.goto i (.sum 0 0) := by
      unfold move; rw [h]; simp only; rw [h0]; simp only [listed, hR]
    rw [e, List.replicate_succ, run_cons, h1,
      run_sum R hR i raw (m + 1) w.list (w.goto i (.sum 0 0)) [] 0 (goto_self _ _ _) (by simp [goto])]
    refine ⟨_, by simp [finish, see, goto], by simp [finish, see, goto], by simp [finish, see], by
      unfold finish see; exact goto_self _ _ _, ?_, rfl⟩
    intro j hj
    simp [finish, see, goto, hj]
  · have e : (w.list ++ l).length + 4 + m = ((w.list ++ l).length + 2 + m) + 1 + 1 := by omega
    have h1 : w.move R i raw = (w.goto i (.extend l)).see (.second i l) := by
      unfold move; rw [h]; simp only; rw [h0]; simp only; rw [hf]
    obtain ⟨w2, h2, d1, d2, d3⟩ : ∃ w2, ((w.goto i (.extend l)).see (.second i l)).move R i raw = w2 ∧
        w2.list = w.list ++ l ∧ w2.phase i = .sum 0 0 ∧ ∀ j, j ≠ i → w2.phase j = w.phase j := by
      refine ⟨_, rfl, ?_⟩
      unfold move
      rw [show ((w.goto i (.extend l)).see (.second i l)).phase i = .extend l from goto_self _ _ _]
      simp only [listed, hR]
      refine ⟨rfl, goto_self _ _ _, fun j hj => ?_⟩
      rw [goto_other _ _ _ _ hj]
      exact goto_other _ _ _ _ hj
    rw [e, List.replicate_succ, run_cons, h1, List.replicate_succ, run_cons, h2,
      run_sum R hR i raw m (w.list ++ l) w2 [] 0 d2 (by simp [d1])]
    refine ⟨_, by simp [finish, see, goto, d1], by simp [finish, see, goto], by simp [finish, see], by
      unfold finish see; exact goto_self _ _ _, ?_, rfl⟩
    intro j hj
    simp [finish, see, goto, hj, d3]

theorem run_to_store (R : Refresh Raw α) {amount : α → Int} (hR : R.amount = some amount) (i : Nat) (raw : Raw)
    (suf : List α) : ∀ (w : KeyWorld α) (pre : List α) (t : Int), w.phase i = .sum pre.length t → w.list = pre ++ suf →
    w.run R (List.replicate (suf.length + 1) (i, raw)) = w.goto i (.store (t + (suf.map amount).sum)) := by
  induction suf with
  | nil =>
    intro w pre t h hl
    show w.move R i raw = _
    unfold move
    rw [h, hl]
    simp
  | cons u suf ih =>
    intro w pre t h hl
    rw [show (u :: suf).length + 1 = (suf.length + 1) + 1 by simp, List.replicate_succ, run_cons]
    have h1 : w.move R i raw = w.goto i (.sum (pre ++ [u]).length (t + amount u)) := by
      unfold move
      rw [h, hl]
      simp [hR]
    rw [h1, ih _ (pre ++ [u]) (t + amount u) (goto_self _ _ _) (by simp [goto, hl]), goto_goto]
    simp [Int.add_assoc]

end KeyWorld

/-- C103. A call of `get_unspents` that no other thread interrupts does what the model of a single thread says, whatever
the other threads have left behind: the list, the balance and the result are those of C61 and C90. `n` is any number of
steps that is large enough. -/
theorem C103_alone (C : Crypto) (ask : Ask) (key : Wallet) (legacy segwit : Str × Nat) (address : Str) (second : Option Str)
    (hk : key.signer.kinds C = .ok (legacy, segwit)) (ha : key.signer.address C = .ok address)
    (hs : key.signer.segwitAddress C = .ok second) (w : KeyWorld Unspent) (hl : w.list = key.unspents)
    (hb : w.balance = key.balance) (i : Nat) (hi : w.phase i = .start) (n : Nat)
    (hn : (key.getUnspents C ask).1.unspents.length + 4 ≤ n) :
    let w' := w.run (refreshUnspents legacy segwit second)
      ((i, ask address) :: (i, ask address) :: List.replicate n (i, ask (second.getD [])))
    w'.list = (key.getUnspents C ask).1.unspents ∧ w'.balance = (key.getUnspents C ask).1.balance ∧
      .returned i ((key.getUnspents C ask).2.map fun _ => ()) ∈ w'.log ∧ ∀ j, j ≠ i → w'.phase j = w.phase j := by
  unfold Wallet.getUnspents at hn ⊢
  rw [hk] at hn ⊢
  simp only [ha] at hn ⊢
  cases h1 : retype legacy (ask address) with
  | error e =>
    have hm : w.move (refreshUnspents legacy segwit second) i (ask address) = w.finish i (.error e) := by
      unfold KeyWorld.move; rw [hi]; simp only [refreshUnspents]; rw [h1]
    have hr := KeyWorld.run_failed (refreshUnspents legacy segwit second) hm 0 (raw' := ask address)
    rw [KeyWorld.run_cons, hm, KeyWorld.run_cons]
    have hd : (w.finish i (.error e)).phase i = .done (.error e) := by
      unfold KeyWorld.finish KeyWorld.see; exact KeyWorld.goto_self _ _ _
    rw [show (w.finish i (.error e)).move (refreshUnspents legacy segwit second) i (ask address) = w.finish i (.error e) by
      unfold KeyWorld.move; rw [hd], KeyWorld.run_done _ hd]
    refine ⟨hl, hb, List.mem_cons_self, fun j hj => ?_⟩
    simp [KeyWorld.finish, KeyWorld.see, KeyWorld.goto, hj]
  | ok us =>
    rw [h1] at hn
    simp only [hs] at hn ⊢
    obtain ⟨w1, b1, b2, b3, b4, b5⟩ := KeyWorld.run_alone (refreshUnspents legacy segwit second) hi (raw := ask address)
      (l := us) (by simpa [refreshUnspents] using h1) (List.replicate n (i, ask (second.getD [])))
    rw [b5]
    cases second with
    | none =>
      simp only at hn ⊢
      obtain ⟨w2, c1, c2, c3, c4, c5, c6⟩ := KeyWorld.run_rest (refreshUnspents legacy segwit none) (amount := Unspent.amount)
        rfl b3 (ask ((none : Option Str).getD [])) (l := []) (.inl ⟨rfl, rfl⟩) (n - (us.length + 4))
      rw [b1] at c6
      rw [show (us ++ ([] : List Unspent)).length + 4 + (n - (us.length + 4)) = n by simp; omega] at c6
      rw [c6]
      refine ⟨by rw [c1, b1, List.append_nil], by rw [c2, b1, List.append_nil], c3, fun j hj => by rw [c5 j hj, b4 j hj]⟩
    | some sa =>
      simp only at hn ⊢
      cases h2 : retype segwit (ask sa) with
      | error e =>
        have hm : w1.move (refreshUnspents legacy segwit (some sa)) i (ask sa) = w1.finish i (.error e) := by
          unfold KeyWorld.move; rw [b3]; simp only [refreshUnspents, Option.map_some]; rw [h2]
        rw [h2] at hn
        simp only at hn ⊢
        obtain ⟨n, rfl⟩ : ∃ k, n = k + 1 := ⟨n - 1, by omega⟩
        rw [List.replicate_succ, Option.getD_some, KeyWorld.run_failed _ hm]
        refine ⟨b1, by show w1.balance = _; rw [b2, hb], List.mem_cons_self, fun j hj => ?_⟩
        show (w1.goto i _).phase j = _
        rw [KeyWorld.goto_other _ _ _ _ hj, b4 j hj]
      | ok us' =>
        rw [h2] at hn
        simp only at hn ⊢
        obtain ⟨w2, c1, c2, c3, c4, c5, c6⟩ := KeyWorld.run_rest (refreshUnspents legacy segwit (some sa))
          (amount := Unspent.amount) rfl b3 (ask sa) (l := us') (.inr ⟨retype segwit, rfl, h2⟩)
          (n - ((us ++ us').length + 4))
        rw [b1] at c6
        rw [show (us ++ us').length + 4 + (n - ((us ++ us').length + 4)) = n by omega] at c6
        rw [Option.getD_some, c6]
        refine ⟨by rw [c1, b1], by rw [c2, b1], c3, fun j hj => by rw [c5 j hj, b4 j hj]⟩

/-- C103 (a fault). Two threads refresh an object with a segwit address at the same time and get the same answers. There is
a schedule after which both calls have returned and every coin of the segwit address is listed twice and counted twice in
the balance. -/
theorem C103_twice (R : Refresh Raw α) (amount : α → Int) (hR : R.amount = some amount) (f : Raw → Py (List α))
    (hf : R.second = some f) (raw raw' : Raw) (l s : List α) (h1 : R.first raw = .ok l) (h2 : f raw' = .ok s)
    (list : List α) (balance : Int) :
    ∃ schedule : List (Nat × Raw), (∀ p ∈ schedule, (p.1 = 0 ∨ p.1 = 1) ∧ (p.2 = raw ∨ p.2 = raw')) ∧
      let w := (KeyWorld.init list balance).run R schedule
      .returned 0 (.ok ()) ∈ w.log ∧ .returned 1 (.ok ()) ∈ w.log ∧
      w.list = l ++ s ++ s ∧ w.balance = (l.map amount).sum + 2 * (s.map amount).sum := by
  obtain ⟨w8, hw8, a1, a2, a3⟩ : ∃ w8 : KeyWorld α,
      (KeyWorld.init list balance).run R [(0, raw), (1, raw), (0, raw), (1, raw), (0, raw'), (1, raw'), (0, raw'), (1, raw')] = w8 ∧
      w8.list = l ++ s ++ s ∧ w8.phase 0 = .sum 0 0 ∧ w8.phase 1 = .sum 0 0 := by
    refine ⟨_, rfl, ?_, ?_, ?_⟩ <;>
    simp [KeyWorld.run, KeyWorld.move, KeyWorld.init, KeyWorld.goto, KeyWorld.see, KeyWorld.listed, h1, hf, h2, hR]
  have s1 := KeyWorld.run_sum R hR 0 raw' 0 (l ++ s ++ s) w8 [] 0 a2 (by simpa using a1)
  have s2 := KeyWorld.run_sum R hR 1 raw' 0 (l ++ s ++ s) (w8.run R (List.replicate ((l ++ s ++ s).length + 2 + 0) (0, raw'))) [] 0
    (by rw [s1]; simp [KeyWorld.finish, KeyWorld.see, KeyWorld.goto, a3])
    (by rw [s1]; simp [KeyWorld.finish, KeyWorld.see, KeyWorld.goto, a1])
  refine ⟨[(0, raw), (1, raw), (0, raw), (1, raw), (0, raw'), (1, raw'), (0, raw'), (1, raw')] ++
    (List.replicate ((l ++ s ++ s).length + 2 + 0) (0, raw') ++ List.replicate ((l ++ s ++ s).length + 2 + 0) (1, raw')), ?_, ?_⟩
  · intro p hp
    simp only [List.mem_append, List.mem_replicate, List.mem_cons, List.not_mem_nil, or_false] at hp
    rcases hp with (rfl | rfl | rfl | rfl | rfl | rfl | rfl | rfl) | ⟨_, rfl⟩ | ⟨_, rfl⟩ <;> simp
  · rw [KeyWorld.run_append, KeyWorld.run_append, hw8, s2]
    rw [s1]
    refine ⟨by simp [KeyWorld.finish, KeyWorld.see, KeyWorld.goto], by simp [KeyWorld.finish, KeyWorld.see, KeyWorld.goto],
      by simp [KeyWorld.finish, KeyWorld.see, KeyWorld.goto, a1], ?_⟩
    simp [KeyWorld.finish, KeyWorld.see, KeyWorld.goto]
    omega

/-- C103 (a fault). A call that is slow to store its sum overwrites the balance of a later call: both calls have returned,
the list is what was reported to the later call, and the balance is that of the earlier one. -/
theorem C103_stale (R : Refresh Raw α) (amount : α → Int) (hR : R.amount = some amount) (f : Raw → Py (List α))
    (hf : R.second = some f) (early early' late late' : Raw) (l s l' s' : List α) (h1 : R.first early = .ok l)
    (h2 : f early' = .ok s) (h3 : R.first late = .ok l') (h4 : f late' = .ok s') (list : List α) (balance : Int) :
    ∃ schedule : List (Nat × Raw),
      (∀ p ∈ schedule, (p.1 = 0 ∧ (p.2 = early ∨ p.2 = early')) ∨ (p.1 = 1 ∧ (p.2 = late ∨ p.2 = late'))) ∧
      let w := (KeyWorld.init list balance).run R schedule
      .returned 0 (.ok ()) ∈ w.log ∧ .returned 1 (.ok ()) ∈ w.log ∧
      w.list = l' ++ s' ∧ w.balance = ((l ++ s).map amount).sum := by
  obtain ⟨w4, hw4, a1, a2, a3⟩ : ∃ w4 : KeyWorld α,
      (KeyWorld.init list balance).run R [(0, early), (0, early), (0, early'), (0, early')] = w4 ∧
      w4.list = l ++ s ∧ w4.phase 0 = .sum 0 0 ∧ w4.phase 1 = .start := by
    refine ⟨_, rfl, ?_, ?_, ?_⟩ <;>
    simp [KeyWorld.run, KeyWorld.move, KeyWorld.init, KeyWorld.goto, KeyWorld.see, KeyWorld.listed, h1, hf, h2, hR]
  have s1 := KeyWorld.run_to_store R hR 0 early' (l ++ s) w4 [] 0 a2 (by simpa using a1)
  obtain ⟨w5, b1, b2, b3, b4, b5⟩ := KeyWorld.run_alone R (w := w4.goto 0 (.store (0 + ((l ++ s).map amount).sum))) (i := 1)
    (by rw [KeyWorld.goto_other _ _ _ _ (by decide)]; exact a3) h3
    (List.replicate ((l' ++ s').length + 4 + 0) (1, late'))
  obtain ⟨w6, c1, c2, c3, c4, c5, c6⟩ := KeyWorld.run_rest R hR b3 late' (l := s') (.inr ⟨f, hf, h4⟩) 0
  rw [b1] at c1 c6
  have p0 : w6.phase 0 = .store (0 + ((l ++ s).map amount).sum) := by
    rw [c5 0 (by decide), b4 0 (by decide)]; exact KeyWorld.goto_self _ _ _
  refine ⟨[(0, early), (0, early), (0, early'), (0, early')] ++ (List.replicate ((l ++ s).length + 1) (0, early') ++
    (((1, late) :: (1, late) :: List.replicate ((l' ++ s').length + 4 + 0) (1, late')) ++ [(0, early')])), ?_, ?_⟩
  · intro p hp
    simp only [List.mem_append, List.mem_replicate, List.mem_cons, List.not_mem_nil, or_false] at hp
    rcases hp with (rfl | rfl | rfl | rfl) | ⟨_, rfl⟩ | (rfl | rfl | ⟨_, rfl⟩) | rfl <;> simp
  · rw [KeyWorld.run_append, hw4, KeyWorld.run_append, s1, KeyWorld.run_append, b5, c6]
    have hm : w6.run R [(0, early')] =
        ({ w6 with balance := 0 + ((l ++ s).map amount).sum } : KeyWorld α).finish 0 (.ok ()) := by
      show w6.move R 0 early' = _
      unfold KeyWorld.move; rw [p0]
    rw [hm]
    refine ⟨List.mem_cons_self, List.mem_cons_of_mem _ c3, c1, ?_⟩
    show 0 + ((l ++ s).map amount).sum = _
    omega

/-- C103. A call of `get_transactions` that no other thread interrupts does what the model of a single thread says. -/
theorem C103_alone_transactions (C : Crypto) (ask : Str → Py (List Str)) (s : Signer) (address : Str) (second : Option Str)
    (ha : s.address C = .ok address) (hs : s.segwitAddress C = .ok second) (w : KeyWorld Str) (i : Nat)
    (hi : w.phase i = .start) (n : Nat) (hn : 2 ≤ n) :
    let w' := w.run (refreshTransactions second)
      ((i, ask address) :: (i, ask address) :: List.replicate n (i, ask (second.getD [])))
    w'.list = (s.getTransactions C ask w.list).1 ∧
      .returned i ((s.getTransactions C ask w.list).2.map fun _ => ()) ∈ w'.log ∧ ∀ j, j ≠ i → w'.phase j = w.phase j := by
  unfold Signer.getTransactions
  rw [ha]
  simp only
  obtain ⟨n, rfl⟩ : ∃ k, n = k + 1 + 1 := ⟨n - 2, by omega⟩
  have fin : ∀ (w2 : KeyWorld Str) (r : Py Unit), (w2.finish i r).phase i = .done r := by
    intro w2 r; unfold KeyWorld.finish KeyWorld.see; exact KeyWorld.goto_self _ _ _
  cases h1 : ask address with
  | error e =>
    have hm : w.move (refreshTransactions second) i (.error e) = w.finish i (.error e) := by
      unfold KeyWorld.move; rw [hi]; rfl
    rw [KeyWorld.run_cons, hm, KeyWorld.run_cons]
    rw [show (w.finish i (.error e)).move (refreshTransactions second) i (.error e) = w.finish i (.error e) by
      unfold KeyWorld.move; rw [fin], KeyWorld.run_done _ (fin _ _)]
    refine ⟨rfl, List.mem_cons_self, fun j hj => ?_⟩
    simp [KeyWorld.finish, KeyWorld.see, KeyWorld.goto, hj]
  | ok txs =>
    simp only [hs]
    obtain ⟨w1, b1, b2, b3, b4, b5⟩ := KeyWorld.run_alone (refreshTransactions second) hi (raw := .ok txs) (l := txs) rfl
      (List.replicate (n + 1 + 1) (i, ask (second.getD [])))
    rw [b5]
    have other : ∀ (w2 : KeyWorld Str) (r : Py Unit) (j : Nat), j ≠ i → (w2.finish i r).phase j = w2.phase j := by
      intro w2 r j hj; exact KeyWorld.goto_other _ _ _ _ hj
    cases second with
    | none =>
      have hm : w1.move (refreshTransactions none) i (ask ((none : Option Str).getD [])) = w1.finish i (.ok ()) := by
        unfold KeyWorld.move; rw [b3]; rfl
      rw [List.replicate_succ, KeyWorld.run_cons, hm, KeyWorld.run_done _ (fin _ _)]
      exact ⟨b1, List.mem_cons_self, fun j hj => by rw [other _ _ _ hj, b4 j hj]⟩
    | some sa =>
      simp only [Option.getD_some]
      cases h2 : ask sa with
      | error e =>
        have hm : w1.move (refreshTransactions (some sa)) i (.error e) = w1.finish i (.error e) := by
          unfold KeyWorld.move; rw [b3]; rfl
        rw [List.replicate_succ, KeyWorld.run_cons, hm, KeyWorld.run_done _ (fin _ _)]
        exact ⟨b1, List.mem_cons_self, fun j hj => by rw [other _ _ _ hj, b4 j hj]⟩
      | ok txs' =>
        have hm : w1.move (refreshTransactions (some sa)) i (.ok txs') = (w1.goto i (.extend txs')).see (.second i txs') := by
          unfold KeyWorld.move; rw [b3]; rfl
        have hm2 : ((w1.goto i (.extend txs')).see (.second i txs')).move (refreshTransactions (some sa)) i (.ok txs') =
            ({ ((w1.goto i (.extend txs')).see (.second i txs')) with list := w1.list ++ txs' } : KeyWorld Str).finish i (.ok ()) := by
          unfold KeyWorld.move
          rw [show ((w1.goto i (.extend txs')).see (.second i txs')).phase i = .extend txs' from KeyWorld.goto_self _ _ _]
          rfl
        rw [List.replicate_succ, KeyWorld.run_cons, hm, List.replicate_succ, KeyWorld.run_cons, hm2,
          KeyWorld.run_done _ (fin _ _)]
        refine ⟨by show w1.list ++ txs' = _; rw [b1], List.mem_cons_self, fun j hj => ?_⟩
        rw [other _ _ _ hj]
        show (w1.goto i (.extend txs')).phase j = _
        rw [KeyWorld.goto_other _ _ _ _ hj, b4 j hj]

/-- C103 (a fault). Two threads that ask for the transactions at the same time can leave every transaction of the segwit
address twice in the list. -/
theorem C103_twice_transactions (sa : Str) (l s list : List Str) :
    ∃ schedule : List (Nat × Py (List Str)), (∀ p ∈ schedule, (p.1 = 0 ∨ p.1 = 1) ∧ (p.2 = .ok l ∨ p.2 = .ok s)) ∧
      let w := (KeyWorld.init list 0).run (refreshTransactions (some sa)) schedule
      .returned 0 (.ok ()) ∈ w.log ∧ .returned 1 (.ok ()) ∈ w.log ∧ w.list = l ++ s ++ s := by
  refine ⟨[(0, .ok l), (1, .ok l), (0, .ok l), (1, .ok l), (0, .ok s), (1, .ok s), (0, .ok s), (1, .ok s)], by simp, ?_⟩
  simp [KeyWorld.run, KeyWorld.move, KeyWorld.init, KeyWorld.goto, KeyWorld.see, KeyWorld.listed, KeyWorld.finish,
    refreshTransactions]

end Bit
