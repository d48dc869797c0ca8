import Verif.Model.Rates
import Verif.Model.Fees
import Verif.Spec.Caches
import Verif.Props.Rates
/-
C55: the fee cache. C56: the cache of exchange rates.
-/
namespace Bit
open Spec (FeeCall RateCall lastFee lastRate defaultFee ConnectionFailure)

/-! ## Fees -/

/-- One call of `get_fee_cached`. -/
def feeStep (s : FeeCaches) (c : FeeCall) : FeeCaches × Bool × Py Int :=
  getFeeCached c.fast c.limit c.now c.answer s

/-- The state of a process just after the import at time `start`. -/
def feeStart (start : Int) : FeeCaches := ⟨⟨none, start⟩, ⟨none, start⟩⟩

/-- A history of calls: what each call showed, and the caches at the end. -/
def feeRun (s : FeeCaches) : List FeeCall → List (FeeCall × Bool × Py Int) × FeeCaches
  | [] => ([], s)
  | c :: cs =>
    let (s', requested, result) := feeStep s c
    let (seen, final) := feeRun s' cs
    ((c, requested, result) :: seen, final)

/-- What the calls showed, without results. -/
def requests (seen : List (FeeCall × Bool × Py Int)) : List (FeeCall × Bool) := seen.map fun x => (x.1, x.2.1)

/-- The cache of one kind. -/
def FeeCaches.of (s : FeeCaches) (fast : Bool) : CachedFee := if fast then s.fast else s.hour

theorem feesIgnored_iff (e : PyErr) : feesIgnored e = true ↔ ConnectionFailure e := by
  unfold ConnectionFailure
  cases e <;> simp [feesIgnored]

theorem feeStep_of (s : FeeCaches) (c : FeeCall) :
    feeStep s c = (
      { fast := if c.fast then (feeCached c.limit c.now (defaultFee c.fast) c.answer (s.of c.fast)).1 else s.fast
        hour := if c.fast then s.hour else (feeCached c.limit c.now (defaultFee c.fast) c.answer (s.of c.fast)).1 },
      (feeCached c.limit c.now (defaultFee c.fast) c.answer (s.of c.fast)).2) := by
  unfold feeStep getFeeCached FeeCaches.of defaultFee
  cases c.fast <;> simp

/-- What one call does to the cache of its kind. -/
theorem feeCached_cases (limit now default : Int) (answer : Py Int) (c : CachedFee) :
    (∃ f, c.fee = some f ∧ f ≠ 0 ∧ now - c.lastUpdate ≤ limit ∧
      feeCached limit now default answer c = (c, false, .ok f)) ∨
    ((∀ f, c.fee = some f → f = 0 ∨ ¬ now - c.lastUpdate ≤ limit) ∧
      ((∃ f, answer = .ok f ∧ feeCached limit now default answer c = (⟨some f, now⟩, true, .ok f)) ∨
       (∃ e, answer = .error e ∧ feeCached limit now default answer c =
          (c, true, if feesIgnored e then .ok (c.fee.getD default) else .error e)))) := by
  unfold feeCached
  obtain ⟨fee, last⟩ := c
  cases fee with
  | none =>
    right
    refine ⟨by simp, ?_⟩
    cases answer with
    | ok f => left; exact ⟨f, rfl, rfl⟩
    | error e => right; refine ⟨e, rfl, ?_⟩; dsimp only; cases feesIgnored e <;> rfl
  | some f =>
    dsimp only
    by_cases h : f = 0 ∨ now - last > limit
    · right
      refine ⟨fun g hg => ?_, ?_⟩
      · simp only [Option.some.injEq] at hg
        subst hg
        omega
      · rw [if_pos h]
        cases answer with
        | ok f => left; exact ⟨f, rfl, rfl⟩
        | error e => right; refine ⟨e, rfl, ?_⟩; dsimp only; cases feesIgnored e <;> rfl
    · left
      exact ⟨f, rfl, by omega, by omega, by rw [if_neg h]⟩

/-- The caches hold the last answers of the server, whatever the history. -/
theorem feeRun_last (s : FeeCaches) (past : List FeeCall) (fast : Bool) :
    ((feeRun s past).2.of fast) =
      match lastFee fast (requests (feeRun s past).1) with
      | some (f, t) => ⟨some f, t⟩
      | none => s.of fast := by
  induction past generalizing s with
  | nil => rfl
  | cons c cs ih =>
    have hrun : feeRun s (c :: cs) =
        ((c, (feeStep s c).2) :: (feeRun (feeStep s c).1 cs).1, (feeRun (feeStep s c).1 cs).2) := rfl
    rw [hrun]
    dsimp only
    rw [ih]
    have hreq : requests ((c, (feeStep s c).2) :: (feeRun (feeStep s c).1 cs).1) =
        (c, (feeStep s c).2.1) :: requests (feeRun (feeStep s c).1 cs).1 := rfl
    rw [hreq]
    generalize requests (feeRun (feeStep s c).1 cs).1 = tail
    cases h : lastFee fast tail with
    | some x =>
      have : lastFee fast ((c, (feeStep s c).2.1) :: tail) = some x := by
        unfold lastFee; rw [h]
      rw [this]
    | none =>
      dsimp only
      rw [feeStep_of]
      dsimp only
      by_cases hk : c.fast = fast
      · subst hk
        have hof : FeeCaches.of
          { fast := if c.fast then (feeCached c.limit c.now (defaultFee c.fast) c.answer (s.of c.fast)).1 else s.fast
            hour := if c.fast then s.hour else (feeCached c.limit c.now (defaultFee c.fast) c.answer (s.of c.fast)).1 }
            c.fast = (feeCached c.limit c.now (defaultFee c.fast) c.answer (s.of c.fast)).1 := by
          cases c.fast <;> rfl
        rw [hof]
        rcases feeCached_cases c.limit c.now (defaultFee c.fast) c.answer (s.of c.fast) with
          ⟨f, h1, h2, h3, h4⟩ | ⟨h1, ⟨f, h2, h3⟩ | ⟨e, h2, h3⟩⟩
        · rw [h4]
          unfold lastFee
          rw [h]
          cases c.answer <;> simp
        · rw [h3]
          unfold lastFee
          rw [h, h2]
          simp
        · rw [h3]
          unfold lastFee
          rw [h, h2]
      · have hof : ∀ x, FeeCaches.of
          { fast := if c.fast then x else s.fast, hour := if c.fast then s.hour else x } fast = s.of fast := by
          intro x
          unfold FeeCaches.of
          revert hk
          cases c.fast <;> cases fast <;> simp
        rw [hof]
        unfold lastFee
        rw [h]
        cases c.answer <;> simp [hk]

/-- C55. After any history of calls: no request is made exactly when the server has given a fee of the
kind asked for, the last such fee is not zero and it is not older than the cache time. Then that fee is
returned. Otherwise the server is asked; its answer is returned, and on a connection failure the last fee
of that kind or else the default; any other failure reaches the caller. -/
theorem C55_fee_cache (start : Int) (past : List FeeCall) (c : FeeCall) :
    let history := feeRun (feeStart start) past
    let last := lastFee c.fast (requests history.1)
    let requested := (feeStep history.2 c).2.1
    let result := (feeStep history.2 c).2.2
    (requested = false ↔ ∃ f t, last = some (f, t) ∧ f ≠ 0 ∧ c.now - t ≤ c.limit) ∧
    (requested = false → ∀ f t, last = some (f, t) → result = .ok f) ∧
    (requested = true → ∀ f, c.answer = .ok f → result = .ok f) ∧
    (requested = true → ∀ e, c.answer = .error e → ConnectionFailure e →
      (∀ f t, last = some (f, t) → result = .ok f) ∧ (last = none → result = .ok (defaultFee c.fast))) ∧
    (requested = true → ∀ e, c.answer = .error e → ¬ ConnectionFailure e → result = .error e) := by
  intro history last requested result
  have hlast := feeRun_last (feeStart start) past c.fast
  have hstart : (feeStart start).of c.fast = ⟨none, start⟩ := by
    unfold FeeCaches.of feeStart; cases c.fast <;> rfl
  rw [hstart] at hlast
  have hobs : (feeStep history.2 c).2 =
      (feeCached c.limit c.now (defaultFee c.fast) c.answer (history.2.of c.fast)).2 := by rw [feeStep_of]
  have hfee : ∀ f, (history.2.of c.fast).fee = some f → last = some (f, (history.2.of c.fast).lastUpdate) := by
    intro f hf
    change (feeRun (feeStart start) past).2.of c.fast = _ at hlast
    change ((feeRun (feeStart start) past).2.of c.fast).fee = some f at hf
    change last = some (f, ((feeRun (feeStart start) past).2.of c.fast).lastUpdate)
    rw [hlast] at hf ⊢
    change (match last with | some (f, t) => (⟨some f, t⟩ : CachedFee) | none => ⟨none, start⟩).fee = some f at hf
    change last = some (f, (match last with | some (f, t) => (⟨some f, t⟩ : CachedFee) | none => ⟨none, start⟩).lastUpdate)
    revert hf
    rcases last with _ | ⟨g, t⟩
    · intro hf; cases hf
    · intro hf; simp only [Option.some.injEq] at hf; rw [hf]
  have hnone : ∀ f t, last = some (f, t) → (history.2.of c.fast) = ⟨some f, t⟩ := by
    intro f t h
    change (feeRun (feeStart start) past).2.of c.fast = _ at hlast
    change (feeRun (feeStart start) past).2.of c.fast = _
    rw [hlast]
    change (match last with | some (f, t) => (⟨some f, t⟩ : CachedFee) | none => ⟨none, start⟩) = _
    rw [h]
  have hno : last = none → (history.2.of c.fast).fee = none := by
    intro h
    cases hc : (history.2.of c.fast).fee with
    | none => rfl
    | some f => rw [hfee f hc] at h; cases h
  change (requested = false ↔ _) ∧ _
  have hreq : requested = (feeStep history.2 c).2.1 := rfl
  have hres : result = (feeStep history.2 c).2.2 := rfl
  rw [hobs] at hreq hres
  rcases feeCached_cases c.limit c.now (defaultFee c.fast) c.answer (history.2.of c.fast) with
    ⟨f, h1, h2, h3, h4⟩ | ⟨h1, h2⟩
  · rw [h4] at hreq hres
    have hl := hfee f h1
    refine ⟨⟨fun _ => ⟨f, _, hl, h2, h3⟩, fun _ => hreq⟩, fun _ g t hg => ?_, fun h => ?_, fun h => ?_, fun h => ?_⟩
    · rw [hl] at hg
      simp only [Option.some.injEq, Prod.mk.injEq] at hg
      rw [hres, hg.1]
    all_goals (rw [hreq] at h; cases h)
  · have hr : requested = true := by
      rcases h2 with ⟨f, h2, h3⟩ | ⟨e, h2, h3⟩ <;> rw [h3] at hreq <;> exact hreq
    have hnot : ¬ ∃ f t, last = some (f, t) ∧ f ≠ 0 ∧ c.now - t ≤ c.limit := by
      rintro ⟨f, t, hl, hf, ht⟩
      have := hnone f t hl
      rw [this] at h1
      rcases h1 f rfl with h | h
      · exact hf h
      · exact h ht
    refine ⟨⟨fun h => ?_, fun h => (hnot h).elim⟩, fun h => ?_, fun _ f hf => ?_, fun _ e he hc => ?_, fun _ e he hc => ?_⟩
    · rw [hr] at h; cases h
    · rw [hr] at h; cases h
    · rcases h2 with ⟨g, h2, h3⟩ | ⟨e, h2, h3⟩
      · rw [h3] at hres
        rw [h2] at hf
        simp only [Except.ok.injEq] at hf
        rw [hres, hf]
      · rw [h2] at hf; cases hf
    · rcases h2 with ⟨g, h2, h3⟩ | ⟨e', h2, h3⟩
      · rw [h2] at he; cases he
      · rw [h2] at he
        simp only [Except.error.injEq] at he
        subst he
        rw [h3, (feesIgnored_iff e').mpr hc] at hres
        refine ⟨fun f t hl => ?_, fun hl => ?_⟩
        · rw [hres, hnone f t hl]; rfl
        · rw [hres]
          dsimp only
          rw [hno hl]; rfl
    · rcases h2 with ⟨g, h2, h3⟩ | ⟨e', h2, h3⟩
      · rw [h2] at he; cases he
      · rw [h2] at he
        simp only [Except.error.injEq] at he
        subst he
        have : feesIgnored e' = false := by
          cases hh : feesIgnored e' with
          | false => rfl
          | true => exact (hc ((feesIgnored_iff e').mp hh)).elim
        rw [h3, this] at hres
        exact hres

theorem feeRun_filter (s s' : FeeCaches) (fast : Bool) (hs : s.of fast = s'.of fast) (calls : List FeeCall) :
    (feeRun s calls).1.filter (fun x => x.1.fast == fast) =
      (feeRun s' (calls.filter fun c => c.fast == fast)).1 := by
  induction calls generalizing s s' with
  | nil => rfl
  | cons c cs ih =>
    have hrun : ∀ s, (feeRun s (c :: cs)).1 = (c, (feeStep s c).2) :: (feeRun (feeStep s c).1 cs).1 := fun _ => rfl
    rw [hrun]
    by_cases hk : c.fast = fast
    · subst hk
      rw [List.filter_cons_of_pos (by simp), List.filter_cons_of_pos (by simp)]
      have hrun' : ∀ (s : FeeCaches) l, (feeRun s (c :: l)).1 = (c, (feeStep s c).2) :: (feeRun (feeStep s c).1 l).1 := fun _ _ => rfl
      rw [hrun']
      have e : (feeStep s c).2 = (feeStep s' c).2 := by rw [feeStep_of, feeStep_of, hs]
      rw [e]
      congr 1
      apply ih
      rw [feeStep_of, feeStep_of, hs]
      unfold FeeCaches.of
      cases c.fast <;> rfl
    · rw [List.filter_cons_of_neg (by simpa using hk), List.filter_cons_of_neg (by simpa using hk)]
      apply ih
      rw [← hs, feeStep_of]
      unfold FeeCaches.of
      revert hk
      cases c.fast <;> cases fast <;> simp

/-- C55. Fast and hourly fees never affect each other: what the calls of one kind show is the same as if
the calls of the other kind had not been made. -/
theorem C55_kinds_independent (start : Int) (calls : List FeeCall) (fast : Bool) :
    (feeRun (feeStart start) calls).1.filter (fun x => x.1.fast == fast) =
      (feeRun (feeStart start) (calls.filter fun c => c.fast == fast)).1 :=
  feeRun_filter _ _ fast rfl calls

/-- A case: an answer, a hit, an outage after expiry, a call of the other kind, a failure that is not a
connection failure. -/
example : (feeRun (feeStart 0)
    [⟨true, 10, 600, .ok 20⟩, ⟨true, 500, 600, .ok 25⟩, ⟨true, 700, 600, .error .requestsTimeout⟩,
     ⟨false, 701, 600, .error .requestsHTTP⟩, ⟨true, 702, 600, .error .keyError⟩]).1.map (·.2) =
    [(true, .ok 20), (false, .ok 20), (true, .ok 20), (true, .ok 62), (true, .error .keyError)] := by decide

/-! ## Exchange rates -/

/-- One call of `currency_to_satoshi_cached`. -/
def rateStep (prec : Nat) (s : RateCaches) (c : RateCall) : RateCaches × Bool × Py Int :=
  currencyToSatoshiCached prec c.limit c.now c.answers c.amount c.currency s

/-- The rate that a call gets if it asks for it. -/
def rateOf (c : RateCall) : Py Int := exchangeRate c.answers c.currency

/-- The state of a process just after the import at time `start`. -/
def rateStart (start : Int) : RateCaches := fun _ => ⟨none, start⟩

/-- A history of calls: what each call showed, and the caches at the end. -/
def rateRun (prec : Nat) (s : RateCaches) : List RateCall → List (RateCall × Bool × Py Int) × RateCaches
  | [] => ([], s)
  | c :: cs =>
    let (s', asked, result) := rateStep prec s c
    let (seen, final) := rateRun prec s' cs
    ((c, asked, result) :: seen, final)

/-- What the calls showed, without results. -/
def asks (seen : List (RateCall × Bool × Py Int)) : List (RateCall × Bool) := seen.map fun x => (x.1, x.2.1)

theorem hit_iff (c : CachedRate) (now limit r : Int) :
    c.hit now limit = some r ↔ c.satoshis = some r ∧ r ≠ 0 ∧ now - c.lastUpdate ≤ limit := by
  unfold CachedRate.hit
  obtain ⟨s, t⟩ := c
  cases s with
  | none => simp
  | some x =>
    dsimp only
    by_cases h : x = 0
    · rw [if_pos h]
      simp only [reduceCtorEq, Option.some.injEq, false_iff, not_and]
      intro h1 h2
      omega
    · rw [if_neg h]
      by_cases h2 : now - t > limit
      · rw [if_pos h2]
        simp only [reduceCtorEq, Option.some.injEq, false_iff, not_and]
        intro _ _
        omega
      · rw [if_neg h2]
        simp only [Option.some.injEq]
        constructor
        · rintro rfl; exact ⟨rfl, h, by omega⟩
        · exact fun h => h.1

theorem rateOf_supported (c : RateCall) (r : Int) (h : rateOf c = .ok r) : (precisionOf c.currency).isSome = true := by
  unfold rateOf exchangeRate at h
  cases hp : precisionOf c.currency with
  | none => rw [hp] at h; cases h
  | some p => rfl

/-- What one call does. -/
theorem rateStep_cases (prec : Nat) (s : RateCaches) (c : RateCall) :
    (precisionOf c.currency = none ∧ rateStep prec s c = (s, false, .error .keyError)) ∨
    ((precisionOf c.currency).isSome ∧ ∃ r, (s c.currency).hit c.now c.limit = some r ∧
      rateStep prec s c = (s, false, timesAmount prec r c.amount)) ∨
    ((precisionOf c.currency).isSome ∧ (s c.currency).hit c.now c.limit = none ∧
      ((∃ e, rateOf c = .error e ∧ rateStep prec s c = (s, true, .error e)) ∨
       (∃ r, rateOf c = .ok r ∧ rateStep prec s c =
          (fun x => if x = c.currency then ⟨some r, c.now⟩ else s x, true, timesAmount prec r c.amount)))) := by
  unfold rateStep currencyToSatoshiCached rateOf
  cases hp : precisionOf c.currency with
  | none => left; exact ⟨rfl, rfl⟩
  | some p =>
    right
    dsimp only
    cases hh : (s c.currency).hit c.now c.limit with
    | some r => left; exact ⟨rfl, r, rfl, rfl⟩
    | none =>
      right
      refine ⟨rfl, rfl, ?_⟩
      cases exchangeRate c.answers c.currency with
      | error e => left; exact ⟨e, rfl, rfl⟩
      | ok r => right; exact ⟨r, rfl, rfl⟩

theorem rateRun_last (prec : Nat) (s : RateCaches) (past : List RateCall) (currency : Str) :
    (rateRun prec s past).2 currency =
      match lastRate rateOf currency (asks (rateRun prec s past).1) with
      | some (r, t) => ⟨some r, t⟩
      | none => s currency := by
  induction past generalizing s with
  | nil => rfl
  | cons c cs ih =>
    have hrun : rateRun prec s (c :: cs) =
        ((c, (rateStep prec s c).2) :: (rateRun prec (rateStep prec s c).1 cs).1,
          (rateRun prec (rateStep prec s c).1 cs).2) := rfl
    rw [hrun]
    dsimp only
    rw [ih]
    have hreq : asks ((c, (rateStep prec s c).2) :: (rateRun prec (rateStep prec s c).1 cs).1) =
        (c, (rateStep prec s c).2.1) :: asks (rateRun prec (rateStep prec s c).1 cs).1 := rfl
    rw [hreq]
    generalize asks (rateRun prec (rateStep prec s c).1 cs).1 = tail
    cases h : lastRate rateOf currency tail with
    | some x =>
      have : lastRate rateOf currency ((c, (rateStep prec s c).2.1) :: tail) = some x := by
        unfold lastRate; rw [h]
      rw [this]
    | none =>
      dsimp only
      unfold lastRate
      rw [h]
      rcases rateStep_cases prec s c with ⟨hp, h1⟩ | ⟨hp, r, hr, h1⟩ | ⟨hp, hn, ⟨e, he, h1⟩ | ⟨r, hr, h1⟩⟩
      · rw [h1]
        cases rateOf c <;> simp
      · rw [h1]
        cases rateOf c <;> simp
      · rw [h1, he]
      · rw [h1, hr]
        by_cases hc : c.currency = currency
        · simp [hc]
        · have hc' : ¬ currency = c.currency := fun h => hc h.symm
          simp [hc, hc']

/-- After any history of calls, for a supported currency: the rate is not asked for exactly when one
of that currency has been obtained, the last such rate is not zero and it is not older than the cache
time. Then that rate is used. Otherwise the rate is asked for once and the new rate is used, or the
failure reaches the caller. -/
theorem rate_cache (prec : Nat) (start : Int) (past : List RateCall) (c : RateCall)
    (hsupported : (precisionOf c.currency).isSome) :
    let history := rateRun prec (rateStart start) past
    let last := lastRate rateOf c.currency (asks history.1)
    let asked := (rateStep prec history.2 c).2.1
    let result := (rateStep prec history.2 c).2.2
    (asked = false ↔ ∃ r t, last = some (r, t) ∧ r ≠ 0 ∧ c.now - t ≤ c.limit) ∧
    (asked = false → ∀ r t, last = some (r, t) → result = timesAmount prec r c.amount) ∧
    (asked = true → ∀ r, rateOf c = .ok r → result = timesAmount prec r c.amount) ∧
    (asked = true → ∀ e, rateOf c = .error e → result = .error e ∧ (rateStep prec history.2 c).1 = history.2) := by
  intro history last asked result
  have hlast : history.2 c.currency = match last with
      | some (r, t) => (⟨some r, t⟩ : CachedRate)
      | none => ⟨none, start⟩ := rateRun_last prec (rateStart start) past c.currency
  have hhit : ∀ r, (history.2 c.currency).hit c.now c.limit = some r ↔
      ∃ t, last = some (r, t) ∧ r ≠ 0 ∧ c.now - t ≤ c.limit := by
    intro r
    rw [hit_iff, hlast]
    rcases last with _ | ⟨g, t⟩
    · simp
    · simp only [Option.some.injEq, Prod.mk.injEq]
      constructor
      · rintro ⟨rfl, h2, h3⟩; exact ⟨t, ⟨rfl, rfl⟩, h2, h3⟩
      · rintro ⟨t', ⟨rfl, rfl⟩, h2, h3⟩; exact ⟨rfl, h2, h3⟩
  have hasked : asked = (rateStep prec history.2 c).2.1 := rfl
  have hresult : result = (rateStep prec history.2 c).2.2 := rfl
  rcases rateStep_cases prec history.2 c with ⟨hp, h1⟩ | ⟨hp, r, hr, h1⟩ | ⟨hp, hn, h⟩
  · rw [hp] at hsupported; cases hsupported
  · rw [h1] at hasked hresult
    obtain ⟨t, ht⟩ := (hhit r).mp hr
    refine ⟨⟨fun _ => ⟨r, t, ht⟩, fun _ => hasked⟩, fun _ r' t' h' => ?_, fun h => ?_, fun h => ?_⟩
    · rw [ht.1] at h'
      simp only [Option.some.injEq, Prod.mk.injEq] at h'
      rw [hresult, h'.1]
    all_goals (rw [hasked] at h; cases h)
  · have ha : asked = true := by
      rcases h with ⟨e, _, h1⟩ | ⟨r, _, h1⟩ <;> rw [h1] at hasked <;> exact hasked
    refine ⟨⟨fun h' => ?_, fun ⟨r, t, h'⟩ => ?_⟩, fun h' => ?_, fun _ r hr => ?_, fun _ e he => ?_⟩
    · rw [ha] at h'; cases h'
    · rw [(hhit r).mpr ⟨t, h'⟩] at hn; cases hn
    · rw [ha] at h'; cases h'
    · rcases h with ⟨e, he, h1⟩ | ⟨r', hr', h1⟩
      · rw [he] at hr; cases hr
      · rw [hr'] at hr
        simp only [Except.ok.injEq] at hr
        rw [hresult, h1, hr]
    · rcases h with ⟨e', he', h1⟩ | ⟨r', hr', h1⟩
      · rw [he'] at he
        simp only [Except.error.injEq] at he
        subst he
        rw [hresult, h1]
        exact ⟨rfl, rfl⟩
      · rw [hr'] at he; cases he

/-- C56. After any history of calls, for a supported currency: the rate is not asked for exactly when one
of that currency has been obtained, the last such rate is not zero and it is not older than the cache
time. Then that rate is used: the amount is converted to the integer part of its product with it, provided that
product fits the precision. Otherwise the rate is asked for once and the new rate is used, or the
failure reaches the caller. -/
theorem C56_rate_cache (prec : Nat) (hprec : 1 ≤ prec) (start : Int) (past : List RateCall) (c : RateCall)
    (hsupported : (Spec.places c.currency).isSome) (q : ℚ) (hq : Spec.Number c.amount q) :
    let history := rateRun prec (rateStart start) past
    let last := lastRate rateOf c.currency (asks history.1)
    let asked := (rateStep prec history.2 c).2.1
    let result := (rateStep prec history.2 c).2.2
    (asked = false ↔ ∃ r t, last = some (r, t) ∧ r ≠ 0 ∧ c.now - t ≤ c.limit) ∧
    (asked = false → ∀ r t, last = some (r, t) → Spec.Fits prec (r * q) → result = .ok (Spec.trunc (r * q))) ∧
    (asked = true → ∀ r, rateOf c = .ok r → Spec.Fits prec (r * q) → result = .ok (Spec.trunc (r * q))) ∧
    (asked = true → ∀ e, rateOf c = .error e → result = .error e ∧ (rateStep prec history.2 c).1 = history.2) := by
  rw [← C57_places] at hsupported
  intro history last asked result
  obtain ⟨h1, h2, h3, h4⟩ := rate_cache prec start past c hsupported
  refine ⟨h1, fun ha r t hl hf => ?_, fun ha r hr hf => ?_, h4⟩
  · exact (h2 ha r t hl).trans (timesAmount_exact prec hprec r c.amount q hq hf)
  · exact (h3 ha r hr).trans (timesAmount_exact prec hprec r c.amount q hq hf)

/-- C56. An unknown currency is a `KeyError`; nothing is asked and the caches stay as they are. -/
theorem C56_unknown_currency (prec : Nat) (s : RateCaches) (c : RateCall) (h : Spec.places c.currency = none) :
    rateStep prec s c = (s, false, .error .keyError) := by
  rw [← C57_places] at h
  rcases rateStep_cases prec s c with ⟨_, h1⟩ | ⟨hp, _⟩ | ⟨hp, _⟩
  · exact h1
  · rw [h] at hp; cases hp
  · rw [h] at hp; cases hp

theorem rateRun_filter (prec : Nat) (s s' : RateCaches) (currency : Str) (hs : s currency = s' currency)
    (calls : List RateCall) :
    (rateRun prec s calls).1.filter (fun x => decide (x.1.currency = currency)) =
      (rateRun prec s' (calls.filter fun c => decide (c.currency = currency))).1 := by
  induction calls generalizing s s' with
  | nil => rfl
  | cons c cs ih =>
    have hrun : ∀ (s : RateCaches) l, (rateRun prec s (c :: l)).1 =
        (c, (rateStep prec s c).2) :: (rateRun prec (rateStep prec s c).1 l).1 := fun _ _ => rfl
    rw [hrun]
    by_cases hk : c.currency = currency
    · subst hk
      rw [List.filter_cons_of_pos (by simp), List.filter_cons_of_pos (by simp), hrun]
      have e : (rateStep prec s c).2 = (rateStep prec s' c).2 ∧
          (rateStep prec s c).1 c.currency = (rateStep prec s' c).1 c.currency := by
        rcases rateStep_cases prec s c with ⟨hp, h1⟩ | ⟨hp, r, hr, h1⟩ | ⟨hp, hn, h⟩ <;>
        rcases rateStep_cases prec s' c with ⟨hp', h1'⟩ | ⟨hp', r', hr', h1'⟩ | ⟨hp', hn', h'⟩
        · rw [h1, h1']; exact ⟨rfl, hs⟩
        · rw [hp] at hp'; cases hp'
        · rw [hp] at hp'; cases hp'
        · rw [hp'] at hp; cases hp
        · rw [hs, hr'] at hr
          simp only [Option.some.injEq] at hr
          rw [h1, h1', hr]; exact ⟨rfl, hs⟩
        · rw [hs, hn'] at hr; cases hr
        · rw [hp'] at hp; cases hp
        · rw [hs, hr'] at hn; cases hn
        · rcases h with ⟨e, he, h1⟩ | ⟨r, hr, h1⟩ <;> rcases h' with ⟨e', he', h1'⟩ | ⟨r', hr', h1'⟩
          · rw [he] at he'
            simp only [Except.error.injEq] at he'
            rw [h1, h1', he']; exact ⟨rfl, hs⟩
          · rw [he] at hr'; cases hr'
          · rw [hr] at he'; cases he'
          · rw [hr] at hr'
            simp only [Except.ok.injEq] at hr'
            rw [h1, h1', hr']; exact ⟨rfl, by simp⟩
      rw [e.1]
      congr 1
      exact ih _ _ e.2
    · rw [List.filter_cons_of_neg (by simpa using hk), List.filter_cons_of_neg (by simpa using hk)]
      apply ih
      rw [← hs]
      have hk' : ¬ currency = c.currency := fun h => hk h.symm
      rcases rateStep_cases prec s c with ⟨hp, h1⟩ | ⟨hp, r, hr, h1⟩ | ⟨hp, hn, ⟨e, he, h1⟩ | ⟨r, hr, h1⟩⟩ <;>
        rw [h1]
      simp [hk']

/-- C56. Currencies never affect each other: what the calls for one currency show is the same as if the
calls for all others had not been made. -/
theorem C56_currencies_independent (prec : Nat) (start : Int) (calls : List RateCall) (currency : Str) :
    (rateRun prec (rateStart start) calls).1.filter (fun x => decide (x.1.currency = currency)) =
      (rateRun prec (rateStart start) (calls.filter fun c => decide (c.currency = currency))).1 :=
  rateRun_filter prec _ _ currency rfl calls

/-- A case: a rate is obtained from the second service, served from the cache, served to a call with an
amount that is no number, expires, and cannot be refreshed; another currency in between. -/
example : (rateRun 28 (rateStart 0)
    [⟨"2".toList, "usd".toList, 10, 60, [.error .requestsTimeout, .ok 1500]⟩,
     ⟨"3".toList, "usd".toList, 70, 60, [.ok 1600]⟩,
     ⟨"1".toList, "eur".toList, 70, 60, [.ok 1700]⟩,
     ⟨"x".toList, "usd".toList, 70, 60, [.ok 1600]⟩,
     ⟨"3".toList, "usd".toList, 71, 60, [.error .requestsHTTP, .error .requestsConnection]⟩]).1.map (·.2) =
    [(true, .ok 3000), (false, .ok 4500), (true, .ok 1700), (false, .error .invalidOperation),
     (true, .error .connectionError)] := by decide +kernel

end Bit
