import Verif.Model.Fees
import Verif.Model.Rates
/-
The caches of bit/network/fees.py and bit/network/rates.py when several threads use them at the same time. There are no
locks in the code. Each call is taken apart into the accesses to the shared variables, in the order of the source, and
another thread may run between any two of them.
-/
namespace Bit

/-- The two shared variables of one cache: `cached_fee_fast` and `fast_last_update`, `cached_fee_hour` and
`hour_last_update` (bit/network/fees.py:37-40), or the two slots of a `CachedRate` (bit/network/rates.py:598-603). -/
structure Cell where
  value : Option Int
  lastUpdate : Int
  deriving DecidableEq, Repr

/-- How a call has come to its last use of the stored value. -/
inductive Why
  /-- without a request -/
  | hit
  /-- after its own request was answered -/
  | own
  /-- after its own request failed -/
  | fallback
  deriving DecidableEq, Repr

/-- Where a call stands; `now` is its local variable of this name (bit/network/fees.py:44, bit/network/rates.py:613). -/
inductive Phase
  /-- not begun -/
  | start
  /-- before `not cached_fee_fast` (fees.py:50, 74) or `not cached_rate.satoshis` (rates.py:617) -/
  | test (now : Int)
  /-- before the other operand of `or` -/
  | age (now : Int)
  /-- before the request (fees.py:52-56, 76-80) or `EXCHANGE_RATES[currency]()` (rates.py:618) -/
  | ask (now : Int)
  /-- before the assignment of the answer (fees.py:56, 80, rates.py:618) -/
  | store (now v : Int)
  /-- before the assignment of the time (fees.py:57, 81, rates.py:619) -/
  | stamp (now : Int)
  /-- before `cached_fee_fast is None` in the `except` clause (fees.py:59, 83) -/
  | check (now : Int)
  /-- before the last use of the stored value (fees.py:66, 68, 90, 92, rates.py:621) -/
  | read (now : Int) (why : Why)
  /-- the call is over; `none` is Python's `None` -/
  | done (now : Int) (why : Why) (r : Py (Option Int))
  deriving Repr

/-- What can be seen of the calls from outside. -/
inductive Event
  /-- the call begins -/
  | began (i : Nat)
  /-- the server answers its request -/
  | answered (i : Nat) (v : Int)
  /-- its request fails -/
  | failed (i : Nat) (e : PyErr)
  /-- it returns a value, or raises -/
  | returned (i : Nat) (r : Py (Option Int))
  /-- `set_fee_cache_time` (fees.py:15-17) or `set_rate_cache_time` (rates.py:77-79) -/
  | configured (limit : Int)

/-- All shared variables, the calls, and what has been seen so far with the times, the latest first. `κ` are the
kinds of values, each with its own variables: fast and hourly fees, or currencies. -/
structure World (κ : Type) where
  clock : Int
  limit : Int
  cells : κ → Cell
  phase : Nat → Phase
  trace : List (Int × Event)

/-- What may happen next: time passes, the cache time is set, or a call does its next step; `answer` is what the server
answers should this step be the request. -/
inductive Action
  | tick (d : Nat)
  | configure (limit : Int)
  | move (i : Nat) (answer : Py Int)

section
variable {κ : Type} [DecidableEq κ]
-- Which kind a call is for; which failures of the request are caught; and the default values.
variable (key : Nat → κ) (caught : PyErr → Bool) (default : κ → Int)

namespace World

/-- The call `i` goes on at `p`. -/
def goto (w : World κ) (i : Nat) (p : Phase) : World κ := { w with phase := fun j => if j = i then p else w.phase j }

/-- Something is seen. -/
def see (w : World κ) (e : Event) : World κ := { w with trace := (w.clock, e) :: w.trace }

/-- Assignment to the shared variables of a kind. -/
def setCell (w : World κ) (k : κ) (c : Cell) : World κ := { w with cells := fun x => if x = k then c else w.cells x }

/-- The next step of the call `i`: bit/network/fees.py:44-92 and bit/network/rates.py:613-621. -/
def move (w : World κ) (i : Nat) (answer : Py Int) : World κ :=
  let c := w.cells (key i)
  match w.phase i with
  | .start => (w.goto i (.test w.clock)).see (.began i)
  | .test now =>
    match c.value with
    | none => w.goto i (.ask now)
    | some v => if v = 0 then w.goto i (.ask now) else w.goto i (.age now)
  | .age now => if now - c.lastUpdate > w.limit then w.goto i (.ask now) else w.goto i (.read now .hit)
  | .ask now =>
    match answer with
    | .ok v => (w.goto i (.store now v)).see (.answered i v)
    | .error e =>
      if caught e then (w.goto i (.check now)).see (.failed i e)
      else ((w.goto i (.done now .fallback (.error e))).see (.failed i e)).see (.returned i (.error e))
  | .store now v => (w.goto i (.stamp now)).setCell (key i) { c with value := some v }
  | .stamp now => (w.goto i (.read now .own)).setCell (key i) { c with lastUpdate := now }
  | .check now =>
    match c.value with
    | none => (w.goto i (.done now .fallback (.ok (some (default (key i)))))).see (.returned i (.ok (some (default (key i)))))
    | some _ => w.goto i (.read now .fallback)
  | .read now why => (w.goto i (.done now why (.ok c.value))).see (.returned i (.ok c.value))
  | .done _ _ _ => w

/-- One action. -/
def act (w : World κ) : Action → World κ
  | .tick d => { w with clock := w.clock + d }
  | .configure l => { w with limit := l }.see (.configured l)
  | .move i answer => w.move key caught default i answer

/-- A schedule: any actions in any order. -/
def run (w : World κ) : List Action → World κ
  | [] => w
  | a :: as => (w.act key caught default a).run as

/-- A process just after the import at time `start`, with the cache time `limit` (bit/network/fees.py:37-40,
bit/network/rates.py:607-609). -/
def init (start limit : Int) : World κ :=
  { clock := start, limit := limit, cells := fun _ => ⟨none, start⟩, phase := fun _ => .start, trace := [] }

end World
end

/-- The threads that call `get_fee_cached`; `fast i` is the argument of the call `i`. -/
def feeThreads (fast : Nat → Bool) (w : World Bool) (schedule : List Action) : World Bool :=
  w.run fast feesIgnored (fun b => if b then 72 else 62) schedule

/-- The threads that call `currency_to_satoshi_cached` with the supported currencies `currency i`, up to the last use of
the rate: no failure is caught (bit/network/rates.py:617-619). -/
def rateThreads (currency : Nat → Str) (w : World Str) (schedule : List Action) : World Str :=
  w.run currency (fun _ => false) (fun _ => 0) schedule

/-- `int(cached_rate.satoshis * Decimal(amount))` with the rate as it was read (bit/network/rates.py:621); `None` cannot
be multiplied. -/
def rateResult (prec : Nat) (amount : Str) : Option Int → Py Int
  | none => .error .typeError
  | some v => timesAmount prec v amount

end Bit
