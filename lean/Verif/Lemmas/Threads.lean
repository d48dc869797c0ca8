import Verif.Spec.Threads
/-
Invariants of the threads that share a cache.
-/
namespace Bit
namespace Threads

/-- The call an event is about. -/
def about : Event → Option Nat
  | .began i => some i
  | .answered i _ => some i
  | .failed i _ => some i
  | .returned i _ => some i
  | .configured _ => none

set_option linter.unusedSectionVars false

variable {κ : Type} [DecidableEq κ] {key : Nat → κ} {caught : PyErr → Bool} {default : κ → Int}

/-- The events of a call, the latest first. -/
def evs (w : World κ) (i : Nat) : List (Int × Event) := w.trace.filter fun x => about x.2 = some i

/-- The events of a call are known from where it stands. -/
def Local (caught : PyErr → Bool) (i : Nat) (p : Phase) (l : List (Int × Event)) : Prop :=
  match p with
  | .start => l = []
  | .test n => l = [(n, .began i)]
  | .age n => l = [(n, .began i)]
  | .ask n => l = [(n, .began i)]
  | .store n v => ∃ t, l = [(t, .answered i v), (n, .began i)]
  | .stamp n => ∃ t v, l = [(t, .answered i v), (n, .began i)]
  | .check n => ∃ t e, caught e = true ∧ l = [(t, .failed i e), (n, .began i)]
  | .read n .hit => l = [(n, .began i)]
  | .read n .own => ∃ t v, l = [(t, .answered i v), (n, .began i)]
  | .read n .fallback => ∃ t e, caught e = true ∧ l = [(t, .failed i e), (n, .began i)]
  | .done n .hit r => ∃ t x, r = .ok x ∧ l = [(t, .returned i r), (n, .began i)]
  | .done n .own r => ∃ t t' v x, r = .ok x ∧ l = [(t, .returned i r), (t', .answered i v), (n, .began i)]
  | .done n .fallback r => ∃ t t' e, l = [(t, .returned i r), (t', .failed i e), (n, .began i)] ∧
      (caught e = true ∧ (∃ x, r = .ok x) ∨ caught e = false ∧ r = .error e)

theorem evs_goto (w : World κ) (i j : Nat) (p : Phase) : evs (w.goto i p) j = evs w j := rfl

theorem evs_setCell (w : World κ) (k : κ) (c : Cell) (j : Nat) : evs (w.setCell k c) j = evs w j := rfl

theorem evs_see (w : World κ) (e : Event) (j : Nat) :
    evs (w.see e) j = if about e = some j then (w.clock, e) :: evs w j else evs w j := by
  unfold evs World.see
  rw [List.filter_cons]
  dsimp only
  by_cases h : about e = some j <;> simp [h]

theorem phase_goto (w : World κ) (i j : Nat) (p : Phase) :
    (w.goto i p).phase j = if j = i then p else w.phase j := rfl

theorem phase_see (w : World κ) (e : Event) : (w.see e).phase = w.phase := rfl

theorem phase_setCell (w : World κ) (k : κ) (c : Cell) : (w.setCell k c).phase = w.phase := rfl

theorem clock_goto (w : World κ) (i : Nat) (p : Phase) : (w.goto i p).clock = w.clock := rfl

theorem clock_see (w : World κ) (e : Event) : (w.see e).clock = w.clock := rfl

theorem clock_setCell (w : World κ) (k : κ) (c : Cell) : (w.setCell k c).clock = w.clock := rfl

theorem evs_see_self {w : World κ} {e : Event} {j : Nat} (h : about e = some j) :
    evs (w.see e) j = (w.clock, e) :: evs w j := by rw [evs_see, if_pos h]

/-- The steps of a call, one by one. -/
inductive Moved (key : Nat → κ) (caught : PyErr → Bool) (default : κ → Int) (w : World κ) (i : Nat) : World κ → Prop
  | begin : w.phase i = .start → Moved key caught default w i ((w.goto i (.test w.clock)).see (.began i))
  | missing {n} : w.phase i = .test n → (w.cells (key i)).value = none → Moved key caught default w i (w.goto i (.ask n))
  | zero {n} : w.phase i = .test n → (w.cells (key i)).value = some 0 → Moved key caught default w i (w.goto i (.ask n))
  | nonzero {n v} : w.phase i = .test n → (w.cells (key i)).value = some v → v ≠ 0 → Moved key caught default w i (w.goto i (.age n))
  | old {n} : w.phase i = .age n → Moved key caught default w i (w.goto i (.ask n))
  | fresh {n} : w.phase i = .age n → n - (w.cells (key i)).lastUpdate ≤ w.limit →
      Moved key caught default w i (w.goto i (.read n .hit))
  | answer {n} (v) : w.phase i = .ask n → Moved key caught default w i ((w.goto i (.store n v)).see (.answered i v))
  | fail {n e} : w.phase i = .ask n → caught e = true →
      Moved key caught default w i ((w.goto i (.check n)).see (.failed i e))
  | raise {n e} : w.phase i = .ask n → caught e = false → Moved key caught default w i
      (((w.goto i (.done n .fallback (.error e))).see (.failed i e)).see (.returned i (.error e)))
  | store {n v} : w.phase i = .store n v → Moved key caught default w i
      ((w.goto i (.stamp n)).setCell (key i) { w.cells (key i) with value := some v })
  | stamp {n} : w.phase i = .stamp n → Moved key caught default w i
      ((w.goto i (.read n .own)).setCell (key i) { w.cells (key i) with lastUpdate := n })
  | default {n} : w.phase i = .check n → (w.cells (key i)).value = none → Moved key caught default w i
      ((w.goto i (.done n .fallback (.ok (some (default (key i)))))).see (.returned i (.ok (some (default (key i))))))
  | last {n v} : w.phase i = .check n → (w.cells (key i)).value = some v → Moved key caught default w i (w.goto i (.read n .fallback))
  | read {n why} : w.phase i = .read n why → Moved key caught default w i
      ((w.goto i (.done n why (.ok (w.cells (key i)).value))).see (.returned i (.ok (w.cells (key i)).value)))
  | over {n why r} : w.phase i = .done n why r → Moved key caught default w i w

theorem moved (w : World κ) (i : Nat) (answer : Py Int) :
    Moved key caught default w i (w.move key caught default i answer) := by
  unfold World.move
  cases hp : w.phase i with
  | start => exact .begin hp
  | test n =>
    dsimp only
    split
    · exact .missing hp (by assumption)
    · rename_i v hv
      split
      · rename_i h0; subst h0; exact .zero hp hv
      · exact .nonzero hp hv (by assumption)
  | age n =>
    dsimp only
    split
    · exact .old hp
    · exact .fresh hp (by omega)
  | ask n =>
    dsimp only
    split
    · exact .answer _ hp
    · split
      · exact .fail hp (by assumption)
      · rename_i h; exact .raise hp (by simpa using h)
  | store n v => exact .store hp
  | stamp n => exact .stamp hp
  | check n =>
    dsimp only
    split
    · exact .default hp (by assumption)
    · exact .last hp (by assumption)
  | read n why => exact .read hp
  | done n why r => exact .over hp

/-- The others stay where they are. -/
theorem Moved.others {w w' : World κ} {i j : Nat} (h : Moved key caught default w i w') (hj : j ≠ i) :
    w'.phase j = w.phase j ∧ evs w' j = evs w j := by
  have hij : ¬ i = j := fun h => hj h.symm
  cases h <;> simp [evs_see, evs_goto, evs_setCell, phase_see, phase_goto, phase_setCell, about, hj, hij]

theorem Moved.clock {w w' : World κ} {i : Nat} (h : Moved key caught default w i w') : w'.clock = w.clock := by
  cases h <;> rfl

theorem Moved.limit {w w' : World κ} {i : Nat} (h : Moved key caught default w i w') : w'.limit = w.limit := by
  cases h <;> rfl

theorem local_moved {w w' : World κ} {i : Nat} (hm : Moved key caught default w i w')
    (h : ∀ j, Local caught j (w.phase j) (evs w j)) : ∀ j, Local caught j (w'.phase j) (evs w' j) := by
  intro j
  by_cases hji : j = i
  · subst hji
    have hj := h j
    cases hm with
    | begin hp =>
      rw [hp] at hj
      rw [evs_see_self rfl, evs_goto, phase_see, phase_goto, if_pos rfl, show evs w j = [] from hj]
      rfl
    | missing hp _ => rw [hp] at hj; rw [evs_goto, phase_goto, if_pos rfl]; exact hj
    | zero hp _ => rw [hp] at hj; rw [evs_goto, phase_goto, if_pos rfl]; exact hj
    | nonzero hp _ _ => rw [hp] at hj; rw [evs_goto, phase_goto, if_pos rfl]; exact hj
    | old hp => rw [hp] at hj; rw [evs_goto, phase_goto, if_pos rfl]; exact hj
    | fresh hp _ => rw [hp] at hj; rw [evs_goto, phase_goto, if_pos rfl]; exact hj
    | answer v hp =>
      rw [hp] at hj
      rw [evs_see_self rfl, evs_goto, phase_see, phase_goto, if_pos rfl, show evs w j = _ from hj]
      exact ⟨_, rfl⟩
    | fail hp hc =>
      rw [hp] at hj
      rw [evs_see_self rfl, evs_goto, phase_see, phase_goto, if_pos rfl, show evs w j = _ from hj]
      exact ⟨_, _, hc, rfl⟩
    | raise hp hc =>
      rw [hp] at hj
      rw [evs_see_self rfl, evs_see_self rfl, evs_goto, phase_see, phase_see, phase_goto, if_pos rfl,
        show evs w j = _ from hj]
      exact ⟨_, _, _, rfl, .inr ⟨hc, rfl⟩⟩
    | store hp =>
      rw [hp] at hj
      obtain ⟨t, ht⟩ := hj
      rw [evs_setCell, evs_goto, phase_setCell, phase_goto, if_pos rfl]
      exact ⟨t, _, ht⟩
    | stamp hp => rw [hp] at hj; rw [evs_setCell, evs_goto, phase_setCell, phase_goto, if_pos rfl]; exact hj
    | default hp _ =>
      rw [hp] at hj
      obtain ⟨t, e, hc, ht⟩ := hj
      rw [evs_see_self rfl, evs_goto, phase_see, phase_goto, if_pos rfl, ht]
      exact ⟨_, _, e, rfl, .inl ⟨hc, _, rfl⟩⟩
    | last hp _ => rw [hp] at hj; rw [evs_goto, phase_goto, if_pos rfl]; exact hj
    | @read n why hp =>
      rw [hp] at hj
      rw [evs_see_self rfl, evs_goto, phase_see, phase_goto, if_pos rfl]
      cases why with
      | hit => rw [show evs w j = _ from hj]; exact ⟨_, _, rfl, rfl⟩
      | own => obtain ⟨t, v, ht⟩ := hj; rw [ht]; exact ⟨_, _, _, _, rfl, rfl⟩
      | fallback => obtain ⟨t, e, hc, ht⟩ := hj; rw [ht]; exact ⟨_, _, e, rfl, .inl ⟨hc, _, rfl⟩⟩
    | over hp => exact hj
  · rw [(hm.others hji).1, (hm.others hji).2]
    exact h j

theorem mem_evs {w : World κ} {i : Nat} {t : Int} {e : Event} (he : about e = some i) :
    (t, e) ∈ w.trace ↔ (t, e) ∈ evs w i := by
  unfold evs
  rw [List.mem_filter]
  simp [he]

/-- The time at which a call began. -/
def phaseNow : Phase → Option Int
  | .start => none
  | .test n => n
  | .age n => n
  | .ask n => n
  | .store n _ => n
  | .stamp n => n
  | .check n => n
  | .read n _ => n
  | .done n _ _ => n

/-- The call has stored its answer. -/
def Stored : Phase → Prop
  | .stamp _ => True
  | .read _ .own => True
  | .done _ .own _ => True
  | _ => False

/-- The call has not seen a stored value that is still of use to it, and has not stored one. -/
def Untouched : Phase → Prop
  | .age _ => False
  | .stamp _ => False
  | .read _ _ => False
  | .done _ .hit _ => False
  | .done _ .own _ => False
  | _ => True

/-- How old the stored value may be for a call that is about to use it: `s` is the time it was stored. -/
def Bound (L : Int) : Phase → Int → Prop
  | .stamp n, s => n ≤ s
  | .read n .own, s => n ≤ s
  | .read n .hit, s => n - L ≤ s
  | _, _ => True

/-- The value was an answer to a call that has stored it and has not returned before `s`. -/
def Held (key : Nat → κ) (w : World κ) (k : κ) (v s : Int) : Prop :=
  ∃ j, key j = k ∧ (∃ t, (t, .answered j v) ∈ w.trace) ∧ Stored (w.phase j) ∧
    ∀ t r, (t, .returned j r) ∈ w.trace → s ≤ t

/-- What a finished call has got. -/
def Claim (key : Nat → κ) (default : κ → Int) (L : Int) (w : World κ) (i : Nat) (n : Int) (why : Why) (v : Int) : Prop :=
  (∃ s, Held key w (key i) v s ∧ s ≤ w.clock ∧ (why = .hit → n - L ≤ s) ∧ (why = .own → n ≤ s)) ∨
  (why = .fallback ∧ v = default (key i) ∧ ∃ tf e, (tf, .failed i e) ∈ w.trace ∧
    ∀ j u t t' r, key j = key i → (t, .answered j u) ∈ w.trace → (t', .returned j r) ∈ w.trace → tf ≤ t')

structure Inv (key : Nat → κ) (caught : PyErr → Bool) (default : κ → Int) (L : Int) (w : World κ) : Prop where
  evs : ∀ j, Local caught j (w.phase j) (evs w j)
  past : ∀ x ∈ w.trace, x.1 ≤ w.clock
  limit : w.limit ≤ L
  now : ∀ i n, phaseNow (w.phase i) = some n → n ≤ w.clock
  last : ∀ k, (w.cells k).lastUpdate ≤ w.clock
  empty : ∀ k, (w.cells k).value = none → ∀ i, key i = k → Untouched (w.phase i)
  full : ∀ k v, (w.cells k).value = some v → ∃ s, Held key w k v s ∧ s ≤ w.clock ∧ (w.cells k).lastUpdate ≤ s ∧
    ∀ i, key i = k → Bound L (w.phase i) s
  done : ∀ i n why x, w.phase i = .done n why (.ok x) → ∃ v, x = some v ∧ Claim key default L w i n why v

theorem Moved.trace {w w' : World κ} {i : Nat} (h : Moved key caught default w i w') :
    (∀ x ∈ w.trace, x ∈ w'.trace) ∧ ∀ x ∈ w'.trace, x ∈ w.trace ∨ x.1 = w.clock := by
  cases h <;> simp +contextual [World.see, World.goto, World.setCell]

theorem Moved.stored {w w' : World κ} {i j : Nat} (h : Moved key caught default w i w') (hs : Stored (w.phase j)) :
    Stored (w'.phase j) := by
  by_cases hj : j = i
  · subst hj
    cases h with
    | begin hp => rw [hp] at hs; exact hs.elim
    | missing hp _ => rw [hp] at hs; exact hs.elim
    | zero hp _ => rw [hp] at hs; exact hs.elim
    | nonzero hp _ _ => rw [hp] at hs; exact hs.elim
    | old hp => rw [hp] at hs; exact hs.elim
    | fresh hp _ => rw [hp] at hs; exact hs.elim
    | answer v hp => rw [hp] at hs; exact hs.elim
    | fail hp hc => rw [hp] at hs; exact hs.elim
    | raise hp hc => rw [hp] at hs; exact hs.elim
    | store hp => rw [hp] at hs; exact hs.elim
    | stamp hp => rw [phase_setCell, phase_goto, if_pos rfl]; trivial
    | default hp _ => rw [hp] at hs; exact hs.elim
    | last hp _ => rw [hp] at hs; exact hs.elim
    | @read n why hp =>
      rw [hp] at hs
      rw [phase_see, phase_goto, if_pos rfl]
      cases why with
      | hit => exact hs.elim
      | own => trivial
      | fallback => exact hs.elim
    | over hp => exact hs
  · rw [(h.others hj).1]; exact hs

theorem Held.step {w w' : World κ} {i : Nat} (h : Moved key caught default w i w') {k : κ} {v s : Int}
    (hs : s ≤ w.clock) (hh : Held key w k v s) : Held key w' k v s := by
  obtain ⟨j, h1, ⟨t, h2⟩, h3, h4⟩ := hh
  refine ⟨j, h1, ⟨t, h.trace.1 _ h2⟩, h.stored h3, ?_⟩
  intro t r hr
  rcases h.trace.2 _ hr with h5 | h5
  · exact h4 _ _ h5
  · rw [show t = w.clock from h5]; exact hs

theorem returned_done {w : World κ} (he : ∀ j, Local caught j (w.phase j) (evs w j)) {t : Int} {j : Nat}
    {r : Py (Option Int)} (h : (t, .returned j r) ∈ w.trace) : ∃ n why, w.phase j = .done n why r := by
  have hl := he j
  have hm := (mem_evs (e := .returned j r) rfl).1 h
  cases hp : w.phase j with
  | start => rw [hp] at hl; rw [show evs w j = _ from hl] at hm; simp at hm
  | test n => rw [hp] at hl; rw [show evs w j = _ from hl] at hm; simp at hm
  | age n => rw [hp] at hl; rw [show evs w j = _ from hl] at hm; simp at hm
  | ask n => rw [hp] at hl; rw [show evs w j = _ from hl] at hm; simp at hm
  | store n v => rw [hp] at hl; obtain ⟨t, ht⟩ := hl; rw [ht] at hm; simp at hm
  | stamp n => rw [hp] at hl; obtain ⟨t, v, ht⟩ := hl; rw [ht] at hm; simp at hm
  | check n => rw [hp] at hl; obtain ⟨t, e, _, ht⟩ := hl; rw [ht] at hm; simp at hm
  | read n why =>
    rw [hp] at hl
    cases why with
    | hit => rw [show evs w j = _ from hl] at hm; simp at hm
    | own => obtain ⟨t, v, ht⟩ := hl; rw [ht] at hm; simp at hm
    | fallback => obtain ⟨t, e, _, ht⟩ := hl; rw [ht] at hm; simp at hm
  | done n why r' =>
    rw [hp] at hl
    refine ⟨n, why, ?_⟩
    cases why with
    | hit => obtain ⟨t, x, -, ht⟩ := hl; rw [ht] at hm; simp at hm; rw [hm.2]
    | own => obtain ⟨t, t', v, x, -, ht⟩ := hl; rw [ht] at hm; simp at hm; rw [hm.2]
    | fallback => obtain ⟨t, t', e, ht, -⟩ := hl; rw [ht] at hm; simp at hm; rw [hm.2]

/-- A call that is over does not move. -/
theorem Moved.over_same {w w' : World κ} {i j : Nat} (h : Moved key caught default w i w') {n : Int} {why : Why}
    {r : Py (Option Int)} (hp : w.phase j = .done n why r) : w'.phase j = w.phase j ∧ Threads.evs w' j = Threads.evs w j := by
  by_cases hj : j = i
  · subst hj
    cases h with
    | over _ => exact ⟨rfl, rfl⟩
    | _ => simp_all
  · exact h.others hj

theorem Claim.step {w w' : World κ} {i j : Nat} (he : ∀ j, Local caught j (w.phase j) (evs w j))
    (hpast : ∀ x ∈ w.trace, x.1 ≤ w.clock)
    (h : Moved key caught default w j w') {L n : Int} {why : Why} {v : Int}
    (hc : Claim key default L w i n why v) : Claim key default L w' i n why v := by
  rcases hc with ⟨s, h1, h2, h3, h4⟩ | ⟨h1, h2, tf, e, h3, h4⟩
  · exact .inl ⟨s, h1.step h h2, by rw [h.clock]; exact h2, h3, h4⟩
  · refine .inr ⟨h1, h2, tf, e, h.trace.1 _ h3, ?_⟩
    intro l u t t' r hk ha hr
    rcases h.trace.2 _ hr with hr' | hr'
    · obtain ⟨m, y, hp⟩ := returned_done he hr'
      have := (h.over_same hp).2
      refine h4 l u t t' r hk ?_ hr'
      rw [mem_evs (i := l) rfl, ← this, ← mem_evs rfl]
      exact ha
    · rw [show t' = w.clock from hr']
      exact hpast _ h3

theorem answered_own {w : World κ} (he : ∀ j, Local caught j (w.phase j) (evs w j)) {t : Int} {j : Nat} {u n : Int} {why : Why}
    {r : Py (Option Int)} (hp : w.phase j = .done n why r) (h : (t, .answered j u) ∈ w.trace) : why = .own := by
  have hl := he j
  have hm := (mem_evs (e := .answered j u) rfl).1 h
  rw [hp] at hl
  cases why with
  | hit => obtain ⟨t, x, -, ht⟩ := hl; rw [ht] at hm; simp at hm
  | own => rfl
  | fallback => obtain ⟨t, t', e, ht, -⟩ := hl; rw [ht] at hm; simp at hm

theorem cells_goto (w : World κ) (i : Nat) (p : Phase) : (w.goto i p).cells = w.cells := rfl

theorem cells_see (w : World κ) (e : Event) : (w.see e).cells = w.cells := rfl

theorem cells_setCell (w : World κ) (k x : κ) (c : Cell) : (w.setCell k c).cells x = if x = k then c else w.cells x := rfl

/-- All but the store and the stamp leave the cells alone. -/
theorem Moved.cells {w w' : World κ} {i : Nat} (h : Moved key caught default w i w') :
    (w'.cells = w.cells ∧ ∀ n v, w.phase i ≠ .store n v) ∨ (∃ n v, w.phase i = .store n v ∧ w'.phase i = .stamp n ∧
      ∀ x, w'.cells x = if x = key i then { w.cells (key i) with value := some v } else w.cells x) ∨
    ∃ n, w.phase i = .stamp n ∧ w'.phase i = .read n .own ∧
      ∀ x, w'.cells x = if x = key i then { w.cells (key i) with lastUpdate := n } else w.cells x := by
  cases h with
  | store hp =>
    refine .inr (.inl ⟨_, _, hp, ?_, fun x => rfl⟩)
    rw [phase_setCell, phase_goto, if_pos rfl]
  | stamp hp =>
    refine .inr (.inr ⟨_, hp, ?_, fun x => rfl⟩)
    rw [phase_setCell, phase_goto, if_pos rfl]
  | _ => exact .inl ⟨rfl, by simp_all⟩

theorem Moved.now {w w' : World κ} {i : Nat} (h : Moved key caught default w i w')
    (hn : ∀ i n, phaseNow (w.phase i) = some n → n ≤ w.clock) :
    ∀ j n, phaseNow (w'.phase j) = some n → n ≤ w'.clock := by
  intro j n hj
  rw [h.clock]
  by_cases hji : j = i
  · subst hji
    have := hn j
    cases h <;> simp_all [phase_see, phase_setCell, phase_goto, phaseNow]
  · rw [(h.others hji).1] at hj
    exact hn j n hj

theorem empty_moved {L : Int} {w w' : World κ} {i : Nat} (hi : Inv key caught default L w)
    (h : Moved key caught default w i w') :
    ∀ k, (w'.cells k).value = none → ∀ j, key j = k → Untouched (w'.phase j) := by
  rintro _ hk j rfl
  by_cases hji : j = i
  · subst hji
    have he := hi.empty (key j)
    cases h with
    | begin hp => rw [phase_see, phase_goto, if_pos rfl]; trivial
    | missing hp _ => rw [phase_goto, if_pos rfl]; trivial
    | zero hp _ => rw [phase_goto, if_pos rfl]; trivial
    | nonzero hp hv _ => rw [cells_goto, hv] at hk; cases hk
    | old hp => rw [phase_goto, if_pos rfl]; trivial
    | fresh hp _ => have := he hk j rfl; rw [hp] at this; exact this.elim
    | answer v hp => rw [phase_see, phase_goto, if_pos rfl]; trivial
    | fail hp hc => rw [phase_see, phase_goto, if_pos rfl]; trivial
    | raise hp hc => rw [phase_see, phase_see, phase_goto, if_pos rfl]; trivial
    | store hp => rw [cells_setCell, if_pos rfl] at hk; cases hk
    | stamp hp =>
      rw [cells_setCell, if_pos rfl] at hk
      have := he hk j rfl
      rw [hp] at this
      exact this.elim
    | default hp _ => rw [phase_see, phase_goto, if_pos rfl]; trivial
    | last hp hv => rw [cells_goto, hv] at hk; cases hk
    | read hp => have := he hk j rfl; rw [hp] at this; exact this.elim
    | over hp => exact he hk j rfl
  · rw [(h.others hji).1]
    refine hi.empty (key j) ?_ j rfl
    rcases h.cells with ⟨h1, -⟩ | ⟨n, v, _, _, h1⟩ | ⟨n, _, _, h1⟩
    · rw [← h1]; exact hk
    · rw [h1] at hk
      split at hk
      · cases hk
      · exact hk
    · rw [h1] at hk
      split at hk
      · rename_i he; rw [he]; exact hk
      · exact hk

theorem bound_moved {L : Int} {w w' : World κ} {i : Nat} (hi : Inv key caught default L w)
    (h : Moved key caught default w i w') (hns : ∀ n v, w.phase i ≠ .store n v) {s : Int}
    (hl : (w.cells (key i)).lastUpdate ≤ s) (hb : Bound L (w.phase i) s) : Bound L (w'.phase i) s := by
  have hlim := hi.limit
  cases h with
  | begin hp => rw [phase_see, phase_goto, if_pos rfl]; trivial
  | missing hp _ => rw [phase_goto, if_pos rfl]; trivial
  | zero hp _ => rw [phase_goto, if_pos rfl]; trivial
  | nonzero hp hv _ => rw [phase_goto, if_pos rfl]; trivial
  | old hp => rw [phase_goto, if_pos rfl]; trivial
  | fresh hp hf => rw [phase_goto, if_pos rfl]; unfold Bound; omega
  | answer v hp => rw [phase_see, phase_goto, if_pos rfl]; trivial
  | fail hp hc => rw [phase_see, phase_goto, if_pos rfl]; trivial
  | raise hp hc => rw [phase_see, phase_see, phase_goto, if_pos rfl]; trivial
  | store hp => exact absurd hp (hns _ _)
  | stamp hp => rw [phase_setCell, phase_goto, if_pos rfl]; rw [hp] at hb; exact hb
  | default hp _ => rw [phase_see, phase_goto, if_pos rfl]; trivial
  | last hp hv => rw [phase_goto, if_pos rfl]; trivial
  | read hp => rw [phase_see, phase_goto, if_pos rfl]; trivial
  | over hp => exact hb

theorem held_new {w : World κ} (he : ∀ j, Local caught j (w.phase j) (evs w j)) {i : Nat} {n v s t : Int}
    (hp : w.phase i = .stamp n) (ha : (t, .answered i v) ∈ w.trace) : Held key w (key i) v s := by
  refine ⟨i, rfl, ⟨t, ha⟩, by rw [hp]; trivial, ?_⟩
  intro t r hr
  obtain ⟨m, y, h⟩ := returned_done he hr
  rw [hp] at h
  cases h

theorem full_moved {L : Int} {w w' : World κ} {i : Nat} (hi : Inv key caught default L w)
    (h : Moved key caught default w i w') :
    ∀ k v, (w'.cells k).value = some v → ∃ s, Held key w' k v s ∧ s ≤ w'.clock ∧ (w'.cells k).lastUpdate ≤ s ∧
      ∀ j, key j = k → Bound L (w'.phase j) s := by
  intro k v hv
  rw [h.clock]
  have others : ∀ s, (∀ j, key j = k → Bound L (w.phase j) s) → ∀ j, key j = k → j ≠ i → Bound L (w'.phase j) s := by
    intro s hb j hj hji
    rw [(h.others hji).1]
    exact hb j hj
  rcases h.cells with ⟨h1, hns⟩ | ⟨n, u, hp, hp', h1⟩ | ⟨n, hp, hp', h1⟩
  · rw [h1] at hv
    obtain ⟨s, h2, h3, h4, h5⟩ := hi.full k v hv
    refine ⟨s, h2.step h h3, h3, by rw [h1]; exact h4, ?_⟩
    intro j hj
    by_cases hji : j = i
    · subst hji; subst hj
      exact bound_moved hi h hns h4 (h5 j rfl)
    · exact others s h5 j hj hji
  · by_cases hk : k = key i
    · subst hk
      rw [h1, if_pos rfl] at hv
      have hvu : u = v := Option.some.inj hv
      subst hvu
      have hl := hi.evs i
      rw [hp] at hl
      obtain ⟨t, ht⟩ := hl
      have ha : (t, Event.answered i u) ∈ w.trace := by
        rw [mem_evs (i := i) rfl, ht]
        exact List.mem_cons_self
      refine ⟨w.clock, held_new (local_moved h hi.evs) hp' (h.trace.1 _ ha), Int.le_refl _, ?_, ?_⟩
      · rw [h1, if_pos rfl]
        exact hi.last _
      · intro j hj
        by_cases hji : j = i
        · subst hji
          rw [hp']
          exact hi.now j n (by rw [hp]; rfl)
        · rw [(h.others hji).1]
          cases hc : (w.cells (key i)).value with
          | none =>
            have := hi.empty _ hc j hj
            cases hp'' : w.phase j with
            | stamp m => rw [hp''] at this; exact this.elim
            | read m why => rw [hp''] at this; exact this.elim
            | _ => trivial
          | some x =>
            obtain ⟨s, h2, h3, h4, h5⟩ := hi.full _ x hc
            have h6 := h5 j hj
            cases hp'' : w.phase j with
            | stamp m => rw [hp''] at h6; unfold Bound at h6 ⊢; omega
            | read m why =>
              rw [hp''] at h6
              cases why with
              | hit => unfold Bound at h6 ⊢; omega
              | own => unfold Bound at h6 ⊢; omega
              | fallback => trivial
            | _ => trivial
    · rw [h1, if_neg hk] at hv
      obtain ⟨s, h2, h3, h4, h5⟩ := hi.full k v hv
      refine ⟨s, h2.step h h3, h3, by rw [h1, if_neg hk]; exact h4, ?_⟩
      intro j hj
      refine others s h5 j hj ?_
      rintro rfl
      exact hk hj.symm
  · by_cases hk : k = key i
    · subst hk
      rw [h1, if_pos rfl] at hv
      obtain ⟨s, h2, h3, h4, h5⟩ := hi.full _ v hv
      have hb := h5 i rfl
      rw [hp] at hb
      refine ⟨s, h2.step h h3, h3, by rw [h1, if_pos rfl]; exact hb, ?_⟩
      intro j hj
      by_cases hji : j = i
      · subst hji
        rw [hp']
        exact hb
      · exact others s h5 j hj hji
    · rw [h1, if_neg hk] at hv
      obtain ⟨s, h2, h3, h4, h5⟩ := hi.full k v hv
      refine ⟨s, h2.step h h3, h3, by rw [h1, if_neg hk]; exact h4, ?_⟩
      intro j hj
      refine others s h5 j hj ?_
      rintro rfl
      exact hk hj.symm

theorem done_moved {L : Int} {w w' : World κ} {i : Nat} (hi : Inv key caught default L w)
    (h : Moved key caught default w i w') :
    ∀ j n why x, w'.phase j = .done n why (.ok x) → ∃ v, x = some v ∧ Claim key default L w' j n why v := by
  intro j n why x hd
  have old : w.phase j = .done n why (.ok x) → ∃ v, x = some v ∧ Claim key default L w' j n why v := by
    intro hp
    obtain ⟨v, h1, h2⟩ := hi.done j n why x hp
    exact ⟨v, h1, h2.step hi.evs hi.past h⟩
  by_cases hji : j = i
  · subst hji
    have h0 := h
    cases h with
    | begin hp => rw [phase_see, phase_goto, if_pos rfl] at hd; cases hd
    | missing hp _ => rw [phase_goto, if_pos rfl] at hd; cases hd
    | zero hp _ => rw [phase_goto, if_pos rfl] at hd; cases hd
    | nonzero hp hv _ => rw [phase_goto, if_pos rfl] at hd; cases hd
    | old hp => rw [phase_goto, if_pos rfl] at hd; cases hd
    | fresh hp hf => rw [phase_goto, if_pos rfl] at hd; cases hd
    | answer v hp => rw [phase_see, phase_goto, if_pos rfl] at hd; cases hd
    | fail hp hc => rw [phase_see, phase_goto, if_pos rfl] at hd; cases hd
    | raise hp hc => rw [phase_see, phase_see, phase_goto, if_pos rfl] at hd; cases hd
    | store hp => rw [phase_setCell, phase_goto, if_pos rfl] at hd; cases hd
    | stamp hp => rw [phase_setCell, phase_goto, if_pos rfl] at hd; cases hd
    | default hp hv =>
      rw [phase_see, phase_goto, if_pos rfl] at hd
      cases hd
      refine ⟨_, rfl, .inr ⟨rfl, rfl, ?_⟩⟩
      have hl := hi.evs j
      rw [hp] at hl
      obtain ⟨tf, e, hc, ht⟩ := hl
      have hf : (tf, Event.failed j e) ∈ w.trace := by
        rw [mem_evs (i := j) rfl, ht]
        exact List.mem_cons_self
      refine ⟨tf, e, h0.trace.1 _ hf, ?_⟩
      intro l u t t' r hk ha hr
      rcases h0.trace.2 _ hr with hr' | hr'
      · exfalso
        obtain ⟨m, y, hpl⟩ := returned_done hi.evs hr'
        have ha' : (t, Event.answered l u) ∈ w.trace := by
          rw [mem_evs (i := l) rfl, ← (h0.over_same hpl).2, ← mem_evs rfl]
          exact ha
        have hown := answered_own hi.evs hpl ha'
        have := hi.empty _ hv l hk
        rw [hpl, hown] at this
        exact this
      · rw [show t' = w.clock from hr']
        exact hi.past _ hf
    | last hp hv => rw [phase_goto, if_pos rfl] at hd; cases hd
    | read hp =>
      rw [phase_see, phase_goto, if_pos rfl] at hd
      cases hd
      cases hv : (w.cells (key j)).value with
      | none =>
        have := hi.empty _ hv j rfl
        rw [hp] at this
        exact this.elim
      | some v =>
        rw [hv] at h0
        refine ⟨v, rfl, .inl ?_⟩
        obtain ⟨s, h2, h3, h4, h5⟩ := hi.full _ v hv
        have hb := h5 j rfl
        rw [hp] at hb
        refine ⟨s, h2.step h0 h3, h3, ?_, ?_⟩
        · rintro rfl; exact hb
        · rintro rfl; exact hb
    | over hp => exact old hd
  · rw [(h.others hji).1] at hd
    exact old hd

theorem Inv.moved {L : Int} {w w' : World κ} {i : Nat} (hi : Inv key caught default L w)
    (h : Moved key caught default w i w') : Inv key caught default L w' where
  evs := local_moved h hi.evs
  past := by
    intro x hx
    rw [h.clock]
    rcases h.trace.2 x hx with h1 | h1
    · exact hi.past x h1
    · rw [h1]; exact Int.le_refl _
  limit := by rw [h.limit]; exact hi.limit
  now := h.now hi.now
  last := by
    intro k
    rw [h.clock]
    rcases h.cells with ⟨h1, -⟩ | ⟨n, v, _, _, h1⟩ | ⟨n, hp, _, h1⟩
    · rw [h1]; exact hi.last k
    · rw [h1]; split
      · exact hi.last _
      · exact hi.last k
    · rw [h1]; split
      · exact hi.now i n (by rw [hp]; rfl)
      · exact hi.last k
  empty := empty_moved hi h
  full := full_moved hi h
  done := done_moved hi h

theorem Inv.tick {L : Int} {w : World κ} (hi : Inv key caught default L w) (d : Nat) :
    Inv key caught default L { w with clock := w.clock + d } where
  evs := hi.evs
  past := fun x hx => by have := hi.past x hx; dsimp only; omega
  limit := hi.limit
  now := fun i n h => by have := hi.now i n h; dsimp only; omega
  last := fun k => by have := hi.last k; dsimp only; omega
  empty := hi.empty
  full := fun k v h => by
    obtain ⟨s, h1, h2, h3, h4⟩ := hi.full k v h
    exact ⟨s, h1, by dsimp only; omega, h3, h4⟩
  done := fun i n why x h => by
    obtain ⟨v, h1, h2⟩ := hi.done i n why x h
    refine ⟨v, h1, ?_⟩
    rcases h2 with ⟨s, h2, h3, h4, h5⟩ | h2
    · exact .inl ⟨s, h2, by dsimp only; omega, h4, h5⟩
    · exact .inr h2

theorem mem_configure {w : World κ} {l t : Int} {e : Event} {i : Nat} (he : about e = some i) :
    (t, e) ∈ ({ w with limit := l }.see (.configured l)).trace ↔ (t, e) ∈ w.trace := by
  unfold World.see
  rw [List.mem_cons]
  constructor
  · rintro (h | h)
    · cases h; cases he
    · exact h
  · exact .inr

theorem Inv.configure {L l : Int} {w : World κ} (hi : Inv key caught default L w) (hl : l ≤ L) :
    Inv key caught default L ({ w with limit := l }.see (.configured l)) := by
  have held : ∀ k v s, Held key w k v s → Held key ({ w with limit := l }.see (.configured l)) k v s := by
    rintro k v s ⟨j, h1, ⟨t, h2⟩, h3, h4⟩
    exact ⟨j, h1, ⟨t, (mem_configure rfl).2 h2⟩, h3, fun t r hr => h4 t r ((mem_configure rfl).1 hr)⟩
  constructor
  · intro j
    rw [evs_see, if_neg (by unfold about; simp)]
    exact hi.evs j
  · intro x hx
    unfold World.see at hx
    rcases List.mem_cons.1 hx with rfl | hx
    · exact Int.le_refl _
    · exact hi.past x hx
  · exact hl
  · exact hi.now
  · exact hi.last
  · exact hi.empty
  · intro k v h
    obtain ⟨s, h1, h2, h3, h4⟩ := hi.full k v h
    exact ⟨s, held _ _ _ h1, h2, h3, h4⟩
  · intro i n why x h
    obtain ⟨v, h1, h2⟩ := hi.done i n why x h
    refine ⟨v, h1, ?_⟩
    rcases h2 with ⟨s, h2, h3⟩ | ⟨h2, h3, tf, e, h4, h5⟩
    · exact .inl ⟨s, held _ _ _ h2, h3⟩
    · refine .inr ⟨h2, h3, tf, e, (mem_configure rfl).2 h4, ?_⟩
      intro j u t t' r hk ha hr
      exact h5 j u t t' r hk ((mem_configure rfl).1 ha) ((mem_configure rfl).1 hr)

theorem inv_init {L start limit : Int} (h : limit ≤ L) :
    Inv key caught default L (World.init start limit : World κ) where
  evs := fun j => rfl
  past := fun x hx => by cases hx
  limit := h
  now := fun i n h => by cases h
  last := fun k => Int.le_refl _
  empty := fun k _ i _ => trivial
  full := fun k v h => by cases h
  done := fun i n why x h => by cases h

/-- The invariant holds after every schedule that sets no cache time above `L`. -/
theorem inv_run {L : Int} (as : List Action) (hl : ∀ l, .configure l ∈ as → l ≤ L) (w : World κ)
    (hi : Inv key caught default L w) : Inv key caught default L (w.run key caught default as) := by
  induction as generalizing w with
  | nil => exact hi
  | cons a as ih =>
    unfold World.run
    refine ih (fun l h => hl l (List.mem_cons_of_mem _ h)) _ ?_
    cases a with
    | tick d => exact hi.tick d
    | configure l => exact hi.configure (hl l List.mem_cons_self)
    | move i answer => exact hi.moved (moved w i answer)

/-! ## What an observer sees -/

theorem done_evs {w : World κ} (he : ∀ j, Local caught j (w.phase j) (evs w j)) {i : Nat} {n : Int} {why : Why}
    {r : Py (Option Int)} (hp : w.phase i = .done n why r) : Local caught i (.done n why r) (evs w i) := by
  have := he i
  rwa [hp] at this

/-- What a call that has returned a value has got. -/
theorem value_of {L : Int} {w : World κ} (hi : Inv key caught default L w) {i : Nat} {tr : Int} {x : Option Int}
    (h : (tr, .returned i (.ok x)) ∈ w.trace) :
    ∃ n v, (n, .began i) ∈ w.trace ∧ x = some v ∧
      (¬ Spec.Asked w.trace i → Spec.AnswerSince key w.trace (key i) (n - L) v) ∧
      (∀ t u, (t, .answered i u) ∈ w.trace → Spec.AnswerSince key w.trace (key i) n v) ∧
      (∀ t e, (t, .failed i e) ∈ w.trace → caught e = true ∧
        (Spec.AnswerOf key w.trace (key i) v ∨
          v = default (key i) ∧ Spec.NoAnswerBefore key w.trace (key i) t)) := by
  obtain ⟨n, why, hp⟩ := returned_done hi.evs h
  obtain ⟨v, hx, hc⟩ := hi.done i n why x hp
  have hl := done_evs hi.evs hp
  refine ⟨n, v, ?_, hx, ?_, ?_, ?_⟩
  · rw [mem_evs (i := i) rfl]
    cases why with
    | hit => obtain ⟨t, y, -, ht⟩ := hl; rw [ht]; simp
    | own => obtain ⟨t, t', u, y, -, ht⟩ := hl; rw [ht]; simp
    | fallback => obtain ⟨t, t', e, ht, -⟩ := hl; rw [ht]; simp
  · intro hna
    cases why with
    | hit =>
      rcases hc with ⟨s, ⟨j, h1, h2, h3, h4⟩, h5, h6, h7⟩ | ⟨h1, -⟩
      · exact ⟨j, h1, h2, fun t r hr => Int.le_trans (h6 rfl) (h4 t r hr)⟩
      · cases h1
    | own =>
      obtain ⟨t, t', u, y, -, ht⟩ := hl
      refine absurd (.inl ⟨t', u, ?_⟩) hna
      rw [mem_evs (i := i) rfl, ht]; simp
    | fallback =>
      obtain ⟨t, t', e, ht, -⟩ := hl
      refine absurd (.inr ⟨t', e, ?_⟩) hna
      rw [mem_evs (i := i) rfl, ht]; simp
  · intro t u ha
    have hown := answered_own hi.evs hp ha
    subst hown
    rcases hc with ⟨s, ⟨j, h1, h2, h3, h4⟩, h5, h6, h7⟩ | ⟨h1, -⟩
    · exact ⟨j, h1, h2, fun t r hr => Int.le_trans (h7 rfl) (h4 t r hr)⟩
    · cases h1
  · intro t e hf
    rw [mem_evs (i := i) rfl] at hf
    cases why with
    | hit => obtain ⟨t, y, -, ht⟩ := hl; rw [ht] at hf; simp at hf
    | own => obtain ⟨t, t', u, y, -, ht⟩ := hl; rw [ht] at hf; simp at hf
    | fallback =>
      obtain ⟨t1, t2, e', ht, hr⟩ := hl
      have same : ∀ t e, (t, Event.failed i e) ∈ w.trace → t = t2 ∧ e = e' := by
        intro t e h
        rw [mem_evs (i := i) rfl, ht] at h
        simpa using h
      have hf' := hf
      rw [← mem_evs (i := i) rfl] at hf'
      obtain ⟨rfl, rfl⟩ := same t e hf'
      refine ⟨?_, ?_⟩
      · rcases hr with ⟨h1, -⟩ | ⟨-, h1⟩
        · exact h1
        · cases h1
      · rcases hc with ⟨s, ⟨j, h1, h2, h3, h4⟩, h5, h6, h7⟩ | ⟨-, h1, tf, e', h2, h3⟩
        · exact .inl ⟨j, h1, h2⟩
        · obtain ⟨rfl, rfl⟩ := same tf e' h2
          exact .inr ⟨h1, h3⟩

/-- A call makes one request at most. -/
theorem failed_once {w : World κ} (he : ∀ j, Local caught j (w.phase j) (evs w j)) {i : Nat} {t t' : Int} {e e' : PyErr}
    (h : (t, .failed i e) ∈ w.trace) (h' : (t', .failed i e') ∈ w.trace) : e = e' := by
  have hl := he i
  rw [mem_evs (i := i) rfl] at h h'
  cases hp : w.phase i with
  | start => rw [hp] at hl; rw [show evs w i = _ from hl] at h; simp at h
  | test n => rw [hp] at hl; rw [show evs w i = _ from hl] at h; simp at h
  | age n => rw [hp] at hl; rw [show evs w i = _ from hl] at h; simp at h
  | ask n => rw [hp] at hl; rw [show evs w i = _ from hl] at h; simp at h
  | store n v => rw [hp] at hl; obtain ⟨t, ht⟩ := hl; rw [ht] at h; simp at h
  | stamp n => rw [hp] at hl; obtain ⟨t, v, ht⟩ := hl; rw [ht] at h; simp at h
  | check n => rw [hp] at hl; obtain ⟨t, e, _, ht⟩ := hl; rw [ht] at h h'; simp at h h'; rw [h.2, h'.2]
  | read n why =>
    rw [hp] at hl
    cases why with
    | hit => rw [show evs w i = _ from hl] at h; simp at h
    | own => obtain ⟨t, v, ht⟩ := hl; rw [ht] at h; simp at h
    | fallback => obtain ⟨t, e, _, ht⟩ := hl; rw [ht] at h h'; simp at h h'; rw [h.2, h'.2]
  | done n why r =>
    rw [hp] at hl
    cases why with
    | hit => obtain ⟨t, x, -, ht⟩ := hl; rw [ht] at h; simp at h
    | own => obtain ⟨t, t', v, x, -, ht⟩ := hl; rw [ht] at h; simp at h
    | fallback => obtain ⟨t, t', e, ht, -⟩ := hl; rw [ht] at h h'; simp at h h'; rw [h.2, h'.2]

/-- What a call that has raised has met. -/
theorem error_of {w : World κ} (he : ∀ j, Local caught j (w.phase j) (evs w j)) {i : Nat} {tr : Int} {e : PyErr}
    (h : (tr, .returned i (.error e)) ∈ w.trace) : (∃ t, (t, .failed i e) ∈ w.trace) ∧ caught e = false := by
  obtain ⟨n, why, hp⟩ := returned_done he h
  have hl := done_evs he hp
  cases why with
  | hit => obtain ⟨t, y, h1, -⟩ := hl; cases h1
  | own => obtain ⟨t, t', u, y, h1, -⟩ := hl; cases h1
  | fallback =>
    obtain ⟨t, t', e', ht, h1 | h1⟩ := hl
    · obtain ⟨-, y, h1⟩ := h1; cases h1
    · obtain ⟨h1, h2⟩ := h1
      cases h2
      refine ⟨⟨t', ?_⟩, h1⟩
      rw [mem_evs (i := i) rfl, ht]; simp

/-! ## A call alone -/

theorem run_moves (w : World κ) (i k : Nat) (answer : Py Int) :
    w.run key caught default (List.replicate (k + 1) (.move i answer)) =
      (w.move key caught default i answer).run key caught default (List.replicate k (.move i answer)) := rfl

theorem run_done {w : World κ} {i : Nat} {n : Int} {why : Why} {r : Py (Option Int)} (hp : w.phase i = .done n why r)
    (k : Nat) (answer : Py Int) : w.run key caught default (List.replicate k (.move i answer)) = w := by
  induction k with
  | zero => rfl
  | succ k ih =>
    rw [run_moves]
    have : w.move key caught default i answer = w := by unfold World.move; simp only [hp]
    rw [this, ih]

theorem phase_goto_self (w : World κ) (i : Nat) (p : Phase) : (w.goto i p).phase i = p := by rw [phase_goto, if_pos rfl]

/-- The end of a call that only has to read. -/
def readEnd (w : World κ) (i : Nat) (n : Int) (why : Why) (x : Option Int) : World κ :=
  (w.goto i (.done n why (.ok x))).see (.returned i (.ok x))

theorem run_read {w : World κ} {i : Nat} {n : Int} {why : Why} (hp : w.phase i = .read n why)
    (k : Nat) (answer : Py Int) :
    w.run key caught default (List.replicate (k + 1) (.move i answer)) = readEnd w i n why (w.cells (key i)).value := by
  rw [run_moves]
  have : w.move key caught default i answer = readEnd w i n why (w.cells (key i)).value := by
    unfold World.move; simp only [hp]; rfl
  rw [this]
  exact run_done (by unfold readEnd; rw [phase_see, phase_goto_self]) k answer

/-- The end of a call whose request is answered. -/
def answerEnd (key : Nat → κ) (w : World κ) (i : Nat) (n v : Int) : World κ :=
  let w1 := (w.goto i (.store n v)).see (.answered i v)
  let w2 := (w1.goto i (.stamp n)).setCell (key i) { w.cells (key i) with value := some v }
  let w3 := (w2.goto i (.read n .own)).setCell (key i) ⟨some v, n⟩
  readEnd w3 i n .own (some v)

theorem run_answer {w : World κ} {i : Nat} {n v : Int} (hp : w.phase i = .ask n) (k : Nat) :
    w.run key caught default (List.replicate (k + 4) (.move i (.ok v))) = answerEnd key w i n v := by
  rw [run_moves]
  have e1 : w.move key caught default i (.ok v) = (w.goto i (.store n v)).see (.answered i v) := by
    unfold World.move; simp only [hp]
  rw [e1, run_moves]
  have e2 : ((w.goto i (.store n v)).see (.answered i v)).move key caught default i (.ok v) =
      (((w.goto i (.store n v)).see (.answered i v)).goto i (.stamp n)).setCell (key i)
        { w.cells (key i) with value := some v } := by
    rw [World.move.eq_def]; simp only [phase_see, phase_goto_self]; rfl
  rw [e2, run_moves]
  generalize hw : (((w.goto i (.store n v)).see (.answered i v)).goto i (.stamp n)).setCell (key i)
        { w.cells (key i) with value := some v } = w2
  have e3 : w2.move key caught default i (.ok v) = (w2.goto i (.read n .own)).setCell (key i) ⟨some v, n⟩ := by
    have hp2 : w2.phase i = .stamp n := by rw [← hw, phase_setCell, phase_goto_self]
    have hc2 : (w2.cells (key i)).value = some v := by rw [← hw]; unfold World.setCell; simp
    unfold World.move
    simp only [hp2, hc2]
  rw [e3, run_read (n := n) (why := .own) (by rw [phase_setCell, phase_goto_self])]
  unfold answerEnd
  dsimp only
  rw [hw]
  congr 1
  unfold World.setCell
  simp

/-- The end of a call whose request fails. -/
def failEnd (key : Nat → κ) (caught : PyErr → Bool) (default : κ → Int) (w : World κ) (i : Nat) (n : Int) (e : PyErr) :
    World κ :=
  if caught e then
    let w1 := (w.goto i (.check n)).see (.failed i e)
    match (w.cells (key i)).value with
    | none => readEnd w1 i n .fallback (some (default (key i)))
    | some v => readEnd (w1.goto i (.read n .fallback)) i n .fallback (some v)
  else ((w.goto i (.done n .fallback (.error e))).see (.failed i e)).see (.returned i (.error e))

theorem run_fail {w : World κ} {i : Nat} {n : Int} {e : PyErr} (hp : w.phase i = .ask n) (k : Nat) :
    w.run key caught default (List.replicate (k + 4) (.move i (.error e))) = failEnd key caught default w i n e := by
  rw [run_moves]
  unfold failEnd
  cases hc : caught e with
  | false =>
    have e1 : w.move key caught default i (.error e) =
        ((w.goto i (.done n .fallback (.error e))).see (.failed i e)).see (.returned i (.error e)) := by
      unfold World.move; simp only [hp, hc]; rfl
    rw [e1]
    exact run_done (by rw [phase_see, phase_see, phase_goto_self]) _ _
  | true =>
    have e1 : w.move key caught default i (.error e) = (w.goto i (.check n)).see (.failed i e) := by
      unfold World.move; simp only [hp, hc]; rfl
    rw [e1, if_pos rfl, run_moves]
    dsimp only
    generalize hw : (w.goto i (.check n)).see (.failed i e) = w1
    have hp1 : w1.phase i = .check n := by rw [← hw, phase_see, phase_goto_self]
    have hc1 : w1.cells (key i) = w.cells (key i) := by rw [← hw]; rfl
    cases hv : (w.cells (key i)).value with
    | none =>
      have e2 : w1.move key caught default i (.error e) = readEnd w1 i n .fallback (some (default (key i))) := by
        unfold World.move; simp only [hp1, hc1, hv]; rfl
      rw [e2]
      exact run_done (by unfold readEnd; rw [phase_see, phase_goto_self]) _ _
    | some v =>
      have e2 : w1.move key caught default i (.error e) = w1.goto i (.read n .fallback) := by
        unfold World.move; simp only [hp1, hc1, hv]
      rw [e2, run_read (n := n) (why := .fallback) (phase_goto_self ..)]
      have : ((w1.goto i (.read n .fallback)).cells (key i)).value = some v := by
        change (w1.cells (key i)).value = _
        rw [hc1, hv]
      rw [this]

/-- The end of a call that asks. -/
def askEnd (key : Nat → κ) (caught : PyErr → Bool) (default : κ → Int) (w : World κ) (i : Nat) (n : Int) : Py Int → World κ
  | .ok v => answerEnd key w i n v
  | .error e => failEnd key caught default w i n e

theorem run_ask {w : World κ} {i : Nat} {n : Int} (hp : w.phase i = .ask n) (k : Nat) (answer : Py Int) :
    w.run key caught default (List.replicate (k + 4) (.move i answer)) = askEnd key caught default w i n answer := by
  cases answer with
  | ok v => exact run_answer hp k
  | error e => exact run_fail hp k

/-- A whole call without interruption: no request if the stored value is there, not zero and not too old. -/
theorem run_alone (w : World κ) (i : Nat) (answer : Py Int) (hp : w.phase i = .start) :
    ∃ w0 : World κ, w0.cells = w.cells ∧ w0.trace = (w.clock, .began i) :: w.trace ∧ w0.clock = w.clock ∧
      w0.limit = w.limit ∧ (∀ j, j ≠ i → w0.phase j = w.phase j) ∧
      ((∃ v, (w.cells (key i)).value = some v ∧ v ≠ 0 ∧ ¬ w.clock - (w.cells (key i)).lastUpdate > w.limit ∧
          w.run key caught default (List.replicate 7 (.move i answer)) = readEnd w0 i w.clock .hit (some v)) ∨
       ((∀ v, (w.cells (key i)).value = some v → v = 0 ∨ w.clock - (w.cells (key i)).lastUpdate > w.limit) ∧
          w.run key caught default (List.replicate 7 (.move i answer)) =
            askEnd key caught default w0 i w.clock answer)) := by
  rw [run_moves]
  have e1 : w.move key caught default i answer = (w.goto i (.test w.clock)).see (.began i) := by
    unfold World.move; simp only [hp]
  rw [e1, run_moves]
  generalize hw : (w.goto i (.test w.clock)).see (.began i) = w1
  have hp1 : w1.phase i = .test w.clock := by rw [← hw, phase_see, phase_goto_self]
  have hc1 : w1.cells = w.cells := by rw [← hw]; rfl
  have hl1 : w1.limit = w.limit := by rw [← hw]; rfl
  have ht1 : w1.trace = (w.clock, .began i) :: w.trace := by rw [← hw]; rfl
  have hk1 : w1.clock = w.clock := by rw [← hw]; rfl
  have ho : ∀ (p : Phase) j, j ≠ i → (w1.goto i p).phase j = w.phase j := by
    intro p j hj
    rw [phase_goto, if_neg hj, ← hw, phase_see, phase_goto, if_neg hj]
  cases hv : (w.cells (key i)).value with
  | none =>
    refine ⟨w1.goto i (.ask w.clock), hc1, ht1, hk1, hl1, ho _, .inr ⟨fun v h => (by cases h), ?_⟩⟩
    have e2 : w1.move key caught default i answer = w1.goto i (.ask w.clock) := by
      unfold World.move; simp only [hp1, hc1, hv]
    rw [e2]
    exact run_ask (phase_goto_self ..) 1 answer
  | some v =>
    by_cases h0 : v = 0
    · refine ⟨w1.goto i (.ask w.clock), hc1, ht1, hk1, hl1, ho _, .inr ⟨fun u h => .inl (by cases h; exact h0), ?_⟩⟩
      have e2 : w1.move key caught default i answer = w1.goto i (.ask w.clock) := by
        unfold World.move; simp only [hp1, hc1, hv]; rw [if_pos h0]
      rw [e2]
      exact run_ask (phase_goto_self ..) 1 answer
    · have e2 : w1.move key caught default i answer = w1.goto i (.age w.clock) := by
        unfold World.move; simp only [hp1, hc1, hv]; rw [if_neg h0]
      rw [e2, run_moves]
      by_cases h1 : w.clock - (w.cells (key i)).lastUpdate > w.limit
      · refine ⟨(w1.goto i (.age w.clock)).goto i (.ask w.clock), hc1, ht1, hk1, hl1, ?_, .inr ⟨fun u h => .inr h1, ?_⟩⟩
        · intro j hj; rw [phase_goto, if_neg hj, ho _ j hj]
        · have e3 : (w1.goto i (.age w.clock)).move key caught default i answer =
              (w1.goto i (.age w.clock)).goto i (.ask w.clock) := by
            rw [World.move.eq_def]
            simp only [phase_goto_self]
            rw [if_pos (by change w.clock - (w1.cells (key i)).lastUpdate > w1.limit; rw [hc1, hl1]; exact h1)]
          rw [e3]
          exact run_ask (phase_goto_self ..) 0 answer
      · refine ⟨(w1.goto i (.age w.clock)).goto i (.read w.clock .hit), hc1, ht1, hk1, hl1, ?_, .inl ⟨v, rfl, h0, h1, ?_⟩⟩
        · intro j hj; rw [phase_goto, if_neg hj, ho _ j hj]
        · have e3 : (w1.goto i (.age w.clock)).move key caught default i answer =
              (w1.goto i (.age w.clock)).goto i (.read w.clock .hit) := by
            rw [World.move.eq_def]
            simp only [phase_goto_self]
            rw [if_neg (by change ¬ w.clock - (w1.cells (key i)).lastUpdate > w1.limit; rw [hc1, hl1]; exact h1)]
          rw [e3, run_read (n := w.clock) (why := .hit) (phase_goto_self ..)]
          congr 1
          change (w1.cells (key i)).value = some v
          rw [hc1, hv]

/-! ## Every call comes to an end -/

/-- The number of steps a call still has to do at most. -/
def rank : Phase → Nat
  | .start => 7
  | .test _ => 6
  | .age _ => 5
  | .ask _ => 4
  | .store _ _ => 3
  | .stamp _ => 2
  | .check _ => 2
  | .read _ _ => 1
  | .done _ _ _ => 0

theorem Moved.rank {w w' : World κ} {i : Nat} (h : Moved key caught default w i w') :
    rank (w'.phase i) + 1 ≤ Threads.rank (w.phase i) ∨ rank (w'.phase i) = 0 ∧ Threads.rank (w.phase i) = 0 := by
  cases h with
  | begin hp => rw [hp, phase_see, phase_goto, if_pos rfl]; exact .inl (by simp only [Threads.rank]; omega)
  | missing hp _ => rw [hp, phase_goto, if_pos rfl]; exact .inl (by simp only [Threads.rank]; omega)
  | zero hp _ => rw [hp, phase_goto, if_pos rfl]; exact .inl (by simp only [Threads.rank]; omega)
  | nonzero hp _ _ => rw [hp, phase_goto, if_pos rfl]; exact .inl (by simp only [Threads.rank]; omega)
  | old hp => rw [hp, phase_goto, if_pos rfl]; exact .inl (by simp only [Threads.rank]; omega)
  | fresh hp _ => rw [hp, phase_goto, if_pos rfl]; exact .inl (by simp only [Threads.rank]; omega)
  | answer v hp => rw [hp, phase_see, phase_goto, if_pos rfl]; exact .inl (by simp only [Threads.rank]; omega)
  | fail hp _ => rw [hp, phase_see, phase_goto, if_pos rfl]; exact .inl (by simp only [Threads.rank]; omega)
  | raise hp _ => rw [hp, phase_see, phase_see, phase_goto, if_pos rfl]; exact .inl (by simp only [Threads.rank]; omega)
  | store hp => rw [hp, phase_setCell, phase_goto, if_pos rfl]; exact .inl (by simp only [Threads.rank]; omega)
  | stamp hp => rw [hp, phase_setCell, phase_goto, if_pos rfl]; exact .inl (by simp only [Threads.rank]; omega)
  | default hp _ => rw [hp, phase_see, phase_goto, if_pos rfl]; exact .inl (by simp only [Threads.rank]; omega)
  | last hp _ => rw [hp, phase_goto, if_pos rfl]; exact .inl (by simp only [Threads.rank]; omega)
  | read hp => rw [hp, phase_see, phase_goto, if_pos rfl]; exact .inl (by simp only [Threads.rank]; omega)
  | over hp => rw [hp]; exact .inr ⟨rfl, rfl⟩

open Spec (turns)

theorem rank_run (i : Nat) (as : List Action) (w : World κ) :
    rank ((w.run key caught default as).phase i) + turns i as ≤ rank (w.phase i) ∨
      rank ((w.run key caught default as).phase i) = 0 := by
  induction as generalizing w with
  | nil => exact .inl (Nat.le_refl _)
  | cons a as ih =>
    unfold World.run
    cases a with
    | tick d => exact ih _
    | configure l => exact ih _
    | move j answer =>
      have hm := moved (key := key) (caught := caught) (default := default) w j answer
      have := ih (w.move key caught default j answer)
      unfold turns at this ⊢
      rw [List.countP_cons]
      by_cases hj : j = i
      · subst hj
        rw [if_pos (by simp)]
        have hr := hm.rank
        change _ ≤ _ ∨ _ = 0 at this
        rcases this with h | h
        · rcases hr with h1 | ⟨h1, h2⟩
          · left; unfold World.act; dsimp only; omega
          · right; unfold World.act; dsimp only; omega
        · exact .inr h
      · rw [if_neg (by simp [hj])]
        rw [(hm.others (Ne.symm hj)).1] at this
        exact this

/-- A call that has no step left has returned or raised. -/
theorem ended {w : World κ} (he : ∀ j, Local caught j (w.phase j) (evs w j)) {i : Nat} (h : rank (w.phase i) = 0) :
    ∃ t r, (t, .returned i r) ∈ w.trace := by
  cases hp : w.phase i with
  | done n why r =>
    have hl := done_evs he hp
    cases why with
    | hit => obtain ⟨t, y, -, ht⟩ := hl; exact ⟨t, r, by rw [mem_evs (i := i) rfl, ht]; simp⟩
    | own => obtain ⟨t, t', u, y, -, ht⟩ := hl; exact ⟨t, r, by rw [mem_evs (i := i) rfl, ht]; simp⟩
    | fallback => obtain ⟨t, t', e, ht, -⟩ := hl; exact ⟨t, r, by rw [mem_evs (i := i) rfl, ht]; simp⟩
  | _ => rw [hp] at h; cases h

end Threads
end Bit
