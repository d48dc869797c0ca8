import Verif.Lemmas.Threads
import Verif.Props.Caches
/-
C84: the caches of fees and exchange rates when several threads use them at the same time.
-/
namespace Bit
open Spec (turns ConnectionFailure defaultFee Asked AnswerOf AnswerSince NoAnswerBefore)
open Threads

/-- Some number is above all cache times of a schedule. -/
theorem limits (limit : Int) (schedule : List Action) : ∃ L, limit ≤ L ∧ ∀ l, .configure l ∈ schedule → l ≤ L := by
  induction schedule with
  | nil => exact ⟨limit, Int.le_refl _, fun l h => by cases h⟩
  | cons a as ih =>
    obtain ⟨L, h1, h2⟩ := ih
    cases a with
    | configure l =>
      refine ⟨max L l, by omega, fun m hm => ?_⟩
      rcases List.mem_cons.1 hm with hm | hm
      · cases hm; omega
      · have := h2 m hm; omega
    | tick d => exact ⟨L, h1, fun m hm => h2 m (by simpa using hm)⟩
    | move j a => exact ⟨L, h1, fun m hm => h2 m (by simpa using hm)⟩

/-! ## Fees -/

theorem fee_inv (fast : Nat → Bool) (start limit L : Int) (schedule : List Action) (h0 : limit ≤ L)
    (hl : ∀ l, .configure l ∈ schedule → l ≤ L) :
    Inv fast feesIgnored (fun b => if b then 72 else 62) L (feeThreads fast (.init start limit) schedule) :=
  inv_run schedule hl _ (inv_init h0)

/-- C84. Threads call for fees in any interleaving; the cache time may be changed but is never more than `L`. A call that
returns, returns a number. Without a request this number is what the server answered to a call of the same kind that had
not returned before the cache time ago. After a request that was answered, it is what the server answered to a call of the
same kind that had not returned before this call began. After a request that failed, the failure was one of the
connection, and the number is some answer to a call of the same kind, or the default; the default only if no call of this
kind that got an answer had returned before the failure. -/
theorem C84_fees (fast : Nat → Bool) (start limit L : Int) (schedule : List Action) (h0 : limit ≤ L)
    (hl : ∀ l, .configure l ∈ schedule → l ≤ L) (i : Nat) (tr : Int) (x : Option Int)
    (h : (tr, .returned i (.ok x)) ∈ (feeThreads fast (.init start limit) schedule).trace) :
    let log := (feeThreads fast (.init start limit) schedule).trace
    ∃ n v, (n, .began i) ∈ log ∧ x = some v ∧
      (¬ Asked log i → AnswerSince fast log (fast i) (n - L) v) ∧
      (∀ t u, (t, .answered i u) ∈ log → AnswerSince fast log (fast i) n v) ∧
      (∀ t e, (t, .failed i e) ∈ log → ConnectionFailure e ∧
        (AnswerOf fast log (fast i) v ∨ v = defaultFee (fast i) ∧ NoAnswerBefore fast log (fast i) t)) := by
  intro log
  obtain ⟨n, v, h1, h2, h3, h4, h5⟩ := value_of (fee_inv fast start limit L schedule h0 hl) h
  exact ⟨n, v, h1, h2, h3, h4, fun t e hf => ⟨(feesIgnored_iff e).1 (h5 t e hf).1, (h5 t e hf).2⟩⟩

/-- C84. A call for a fee raises only what its own request raised, and no failure of the connection. -/
theorem C84_fee_errors (fast : Nat → Bool) (start limit : Int) (schedule : List Action) (i : Nat) (tr : Int) (e : PyErr)
    (h : (tr, .returned i (.error e)) ∈ (feeThreads fast (.init start limit) schedule).trace) :
    (∃ t, (t, .failed i e) ∈ (feeThreads fast (.init start limit) schedule).trace) ∧ ¬ ConnectionFailure e := by
  obtain ⟨L, hL⟩ := limits limit schedule
  obtain ⟨h1, h2⟩ := error_of (fee_inv fast start limit L schedule hL.1 hL.2).evs h
  refine ⟨h1, fun hc => ?_⟩
  rw [(feesIgnored_iff e).2 hc] at h2
  cases h2

/-- C84. No call waits for another one: whatever the other threads do, a call has returned or raised after seven steps of
its own. -/
theorem C84_fee_ends (fast : Nat → Bool) (start limit : Int) (schedule : List Action) (i : Nat) (h : 7 ≤ turns i schedule) :
    ∃ t r, (t, .returned i r) ∈ (feeThreads fast (.init start limit) schedule).trace := by
  obtain ⟨L, hL⟩ := limits limit schedule
  refine ended (fee_inv fast start limit L schedule hL.1 hL.2).evs ?_
  rcases rank_run (key := fast) (caught := feesIgnored) (default := fun b => if b then 72 else 62) i schedule
    (.init start limit) with h1 | h1
  · have : rank ((World.init start limit : World Bool).phase i) = 7 := rfl
    unfold feeThreads
    omega
  · exact h1

/-- What a call shows when it is alone. -/
def soloLog (i : Nat) (now : Int) (answer : Py Int) (requested : Bool) (result : Py Int) : List (Int × Event) :=
  [(now, .returned i (result.map some))] ++
    (if requested then [(now, match answer with | .ok v => .answered i v | .error e => .failed i e)] else []) ++
    [(now, .began i)]

/-- The variables of a fee cache. -/
def CachedFee.cell (c : CachedFee) : Cell := ⟨c.fee, c.lastUpdate⟩

/-- C84. A call that no other thread interrupts does what the model of a single thread says (C55), in any state the other
threads may have left. -/
theorem C84_fee_alone (fast : Nat → Bool) (w : World Bool) (i : Nat) (answer : Py Int) (h : w.phase i = .start)
    (c : CachedFee) (hc : w.cells (fast i) = c.cell) :
    let alone := feeCached w.limit w.clock (defaultFee (fast i)) answer c
    let w' := feeThreads fast w (List.replicate 7 (.move i answer))
    w'.cells (fast i) = alone.1.cell ∧ w'.cells (!fast i) = w.cells (!fast i) ∧
    w'.trace = soloLog i w.clock answer alone.2.1 alone.2.2 ++ w.trace ∧
    w'.clock = w.clock ∧ w'.limit = w.limit ∧ ∀ j, j ≠ i → w'.phase j = w.phase j := by
  intro alone w'
  obtain ⟨w0, h1, h2, h3, h4, h5, h6⟩ := run_alone (key := fast) (caught := feesIgnored)
    (default := fun b => if b then 72 else 62) w i answer h
  have hother : ∀ (x : World Bool) (c : Cell), (x.setCell (fast i) c).cells (!fast i) = x.cells (!fast i) := by
    intro x c
    unfold World.setCell
    dsimp only
    rw [if_neg (by cases fast i <;> simp)]
  have hself : ∀ (x : World Bool) (c : Cell), (x.setCell (fast i) c).cells (fast i) = c := by
    intro x c
    unfold World.setCell
    dsimp only
    rw [if_pos rfl]
  have hv : (w.cells (fast i)).value = c.fee := by rw [hc]; rfl
  have ht : (w.cells (fast i)).lastUpdate = c.lastUpdate := by rw [hc]; rfl
  have hgoto : ∀ (x : World Bool) p j, j ≠ i → (x.goto i p).phase j = x.phase j := by
    intro x p j hj
    rw [phase_goto, if_neg hj]
  rw [hv, ht] at h6
  rcases h6 with ⟨v, g1, g2, g3, g4⟩ | ⟨g1, g2⟩
  · have e1 : alone = (c, false, .ok v) := by
      change feeCached _ _ _ _ _ = _
      unfold feeCached
      rw [g1]
      dsimp only
      rw [if_neg (by omega)]
    have e2 : w' = _ := g4
    rw [e1, e2]
    refine ⟨?_, ?_, ?_, h3, h4, ?_⟩
    · change w0.cells (fast i) = _
      rw [h1, hc]
    · change w0.cells _ = _
      rw [h1]
    · change (w0.clock, _) :: w0.trace = _
      rw [h2, h3]
      rfl
    · intro j hj
      change (w0.goto _ _).phase j = _
      rw [hgoto _ _ j hj, h5 j hj]
  · have e2 : w' = _ := g2
    cases answer with
    | ok v =>
      have e1 : alone = (⟨some v, w.clock⟩, true, .ok v) := by
        change feeCached _ _ _ _ _ = _
        unfold feeCached
        dsimp only
        split
        · rfl
        · rename_i f hf
          rw [if_pos (by rcases g1 f hf with h | h <;> omega)]
      rw [e1, e2]
      unfold askEnd answerEnd
      dsimp only
      refine ⟨?_, ?_, ?_, h3, h4, ?_⟩
      · exact hself _ _
      · refine (hother _ _).trans ((hother _ _).trans ?_)
        change w0.cells _ = _
        rw [h1]
      · change (w0.clock, _) :: (w0.clock, _) :: w0.trace = _
        rw [h2, h3]
        rfl
      · intro j hj
        exact (hgoto _ _ j hj).trans ((hgoto _ _ j hj).trans ((hgoto _ _ j hj).trans ((hgoto _ _ j hj).trans (h5 j hj))))
    | error e =>
      have e1 : alone = (c, true, if feesIgnored e then .ok (c.fee.getD (defaultFee (fast i))) else .error e) := by
        change feeCached _ _ _ _ _ = _
        unfold feeCached
        dsimp only
        split
        · rename_i hf
          rw [hf]
          cases feesIgnored e <;> rfl
        · rename_i f hf
          rw [if_pos (by rcases g1 f hf with h | h <;> omega), hf]
          cases feesIgnored e <;> rfl
      rw [e1, e2]
      unfold askEnd failEnd
      dsimp only
      rw [h1, hv]
      cases he : feesIgnored e with
      | false =>
        rw [if_neg (by decide), if_neg (by decide)]
        refine ⟨?_, ?_, ?_, h3, h4, ?_⟩
        · change w0.cells (fast i) = _
          rw [h1, hc]
        · change w0.cells _ = _
          rw [h1]
        · change (w0.clock, _) :: (w0.clock, _) :: w0.trace = _
          rw [h2, h3]
          rfl
        · intro j hj
          exact (hgoto _ _ j hj).trans (h5 j hj)
      | true =>
        rw [if_pos rfl, if_pos rfl]
        cases hf : c.fee with
        | none =>
          refine ⟨?_, ?_, ?_, h3, h4, ?_⟩
          · change w0.cells (fast i) = _
            rw [h1, hc]
          · change w0.cells _ = _
            rw [h1]
          · change (w0.clock, _) :: (w0.clock, _) :: w0.trace = _
            rw [h2, h3]
            rfl
          · intro j hj
            exact (hgoto _ _ j hj).trans ((hgoto _ _ j hj).trans (h5 j hj))
        | some v =>
          refine ⟨?_, ?_, ?_, h3, h4, ?_⟩
          · change w0.cells (fast i) = _
            rw [h1, hc]
          · change w0.cells _ = _
            rw [h1]
          · change (w0.clock, _) :: (w0.clock, _) :: w0.trace = _
            rw [h2, h3]
            rfl
          · intro j hj
            exact (hgoto _ _ j hj).trans ((hgoto _ _ j hj).trans ((hgoto _ _ j hj).trans (h5 j hj)))

/-- A schedule for fast fees: call 0 is answered at time 0 and then left waiting. Call 1 begins at 999, is answered at
1000 and stores the answer. Call 0 comes back, stores its old answer over it and returns; call 1 then notes its own time
and returns. Call 2 begins at 1599. -/
def crossing : List Action :=
  List.replicate 3 (.move 0 (.ok 5)) ++ [.tick 999] ++ List.replicate 2 (.move 1 (.ok 9)) ++ [.tick 1] ++
  List.replicate 2 (.move 1 (.ok 9)) ++ List.replicate 3 (.move 0 (.ok 5)) ++ List.replicate 2 (.move 1 (.ok 9)) ++
  [.tick 599] ++ List.replicate 7 (.move 2 (.ok 11))

/-- C84. The bound cannot be improved to the time of the answer: with the cache time of ten minutes a call can get, without
a request, an answer that the server gave almost half an hour before. And a call whose request was answered can return
another answer than its own. -/
theorem C84_crossing :
    ∃ (schedule : List Action) (n v : Int), (∀ l, .configure l ∉ schedule) ∧
      let log := (feeThreads (fun _ => true) (.init 0 600) schedule).trace
      (∃ t, (t, .returned 2 (.ok (some v))) ∈ log) ∧ (n, .began 2) ∈ log ∧ ¬ Asked log 2 ∧
      (∀ j t, (t, .answered j v) ∈ log → n - t > 1500) ∧
      (∃ t, (t, .answered 1 9) ∈ log) ∧ ∃ t, (t, .returned 1 (.ok (some 5))) ∈ log := by
  refine ⟨crossing, 1599, 5, ?_, ?_⟩
  · intro l
    simp [crossing]
  · have : (feeThreads (fun _ => true) (.init 0 600) crossing).trace =
        [(1599, .returned 2 (.ok (some 5))), (1599, .began 2), (1000, .returned 1 (.ok (some 5))),
         (1000, .returned 0 (.ok (some 5))), (1000, .answered 1 9), (999, .began 1), (0, .answered 0 5),
         (0, .began 0)] := rfl
    rw [this]
    simp [Asked]

/-- A case for `C84_fees`: a call hits the cache, the cache expires and is refreshed, then the server is down. The hourly
fee is unknown and the default is returned. -/
example : (feeThreads (fun i => i != 3) (.init 0 600)
    (List.replicate 7 (.move 0 (.ok 5)) ++ [.tick 600] ++ List.replicate 7 (.move 1 (.ok 9)) ++ [.tick 1] ++
     List.replicate 7 (.move 2 (.ok 9)) ++ List.replicate 7 (.move 3 (.error .requestsTimeout)) ++ [.configure 0, .tick 1] ++
     List.replicate 7 (.move 4 (.error .requestsHTTP)) ++ List.replicate 7 (.move 5 (.error .keyError)))).trace =
    [(602, .returned 5 (.error .keyError)), (602, .failed 5 .keyError), (602, .began 5),
     (602, .returned 4 (.ok (some 9))), (602, .failed 4 .requestsHTTP), (602, .began 4), (601, .configured 0),
     (601, .returned 3 (.ok (some 62))), (601, .failed 3 .requestsTimeout), (601, .began 3),
     (601, .returned 2 (.ok (some 9))), (601, .answered 2 9), (601, .began 2),
     (600, .returned 1 (.ok (some 5))), (600, .began 1),
     (0, .returned 0 (.ok (some 5))), (0, .answered 0 5), (0, .began 0)] := rfl

/-! ## Rates -/

theorem rate_inv (currency : Nat → Str) (start limit L : Int) (schedule : List Action) (h0 : limit ≤ L)
    (hl : ∀ l, .configure l ∈ schedule → l ≤ L) :
    Inv currency (fun _ => false) (fun _ => 0) L (rateThreads currency (.init start limit) schedule) :=
  inv_run schedule hl _ (inv_init h0)

/-- C84. Threads convert amounts of currencies in any interleaving; the cache time is never more than `L`. A call that
gets as far as the conversion converts with a rate of the same currency: one that the services gave to a call that had not
returned before the cache time ago, or, if it asked itself, before this call began. Its own question was then answered. -/
theorem C84_rates (currency : Nat → Str) (start limit L : Int) (schedule : List Action) (h0 : limit ≤ L)
    (hl : ∀ l, .configure l ∈ schedule → l ≤ L) (i : Nat) (tr : Int) (x : Option Int)
    (h : (tr, .returned i (.ok x)) ∈ (rateThreads currency (.init start limit) schedule).trace) :
    let log := (rateThreads currency (.init start limit) schedule).trace
    ∃ n v, (n, .began i) ∈ log ∧
      (¬ Asked log i → AnswerSince currency log (currency i) (n - L) v) ∧
      (Asked log i → AnswerSince currency log (currency i) n v ∧ ∃ t u, (t, .answered i u) ∈ log) ∧
      ∀ prec amount (q : ℚ), 1 ≤ prec → Spec.Number amount q → Spec.Fits prec (v * q) →
        rateResult prec amount x = .ok (Spec.trunc (v * q)) := by
  intro log
  obtain ⟨n, v, h1, h2, h3, h4, h5⟩ := value_of (rate_inv currency start limit L schedule h0 hl) h
  refine ⟨n, v, h1, h3, ?_, ?_⟩
  · rintro (⟨t, u, hu⟩ | ⟨t, e, he⟩)
    · exact ⟨h4 t u hu, t, u, hu⟩
    · cases (h5 t e he).1
  · intro prec amount q hp hq hf
    subst h2
    exact timesAmount_exact prec hp v amount q hq hf

/-- C84. A call for a conversion raises before the conversion only what its own question for the rate raised, and then
always. -/
theorem C84_rate_errors (currency : Nat → Str) (start limit : Int) (schedule : List Action) (i : Nat) (tr t : Int)
    (r : Py (Option Int)) (e : PyErr)
    (h : (tr, .returned i r) ∈ (rateThreads currency (.init start limit) schedule).trace) :
    (r = .error e → ∃ t, (t, .failed i e) ∈ (rateThreads currency (.init start limit) schedule).trace) ∧
    ((t, .failed i e) ∈ (rateThreads currency (.init start limit) schedule).trace → r = .error e) := by
  obtain ⟨L, hL⟩ := limits limit schedule
  have hi := rate_inv currency start limit L schedule hL.1 hL.2
  constructor
  · rintro rfl
    exact (error_of hi.evs h).1
  · intro hf
    cases r with
    | ok x =>
      obtain ⟨n, v, h1, h2, h3, h4, h5⟩ := value_of hi h
      cases (h5 t e hf).1
    | error e' =>
      obtain ⟨⟨t', h'⟩, -⟩ := error_of hi.evs h
      rw [failed_once hi.evs hf h']

/-- C84. No call waits for another one: whatever the other threads do, a call has returned or raised after seven steps of
its own. -/
theorem C84_rate_ends (currency : Nat → Str) (start limit : Int) (schedule : List Action) (i : Nat)
    (h : 7 ≤ turns i schedule) :
    ∃ t r, (t, .returned i r) ∈ (rateThreads currency (.init start limit) schedule).trace := by
  obtain ⟨L, hL⟩ := limits limit schedule
  refine ended (rate_inv currency start limit L schedule hL.1 hL.2).evs ?_
  rcases rank_run (key := currency) (caught := fun _ => false) (default := fun _ => 0) i schedule
    (.init start limit) with h1 | h1
  · have : rank ((World.init start limit : World Str).phase i) = 7 := rfl
    unfold rateThreads
    omega
  · exact h1

/-- A case: two threads ask for dollars at the same time and one for euros; the second thread gets the rate of the first
one, which answers later. -/
example : (rateThreads (fun i => if i = 2 then "eur".toList else "usd".toList) (.init 0 60)
    (List.replicate 3 (.move 0 (.ok 1500)) ++ List.replicate 5 (.move 1 (.ok 1600)) ++ [.tick 2] ++
     List.replicate 2 (.move 0 (.ok 1500)) ++ List.replicate 7 (.move 2 (.ok 1700)) ++
     List.replicate 2 (.move 1 (.ok 1600)) ++ List.replicate 2 (.move 0 (.ok 1500)))).trace =
    [(2, .returned 0 (.ok (some 1500))), (2, .returned 1 (.ok (some 1500))), (2, .returned 2 (.ok (some 1700))),
     (2, .answered 2 1700), (2, .began 2), (0, .answered 1 1600), (0, .began 1), (0, .answered 0 1500),
     (0, .began 0)] := rfl

example : rateResult 28 "0.5".toList (some 1500) = .ok 750 := by decide +kernel

end Bit
