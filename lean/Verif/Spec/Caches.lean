import Verif.Model.Basic
/-
Specification of the caches in terms of what a user can see: the calls made so far, whether each one
contacted a service, and what came back.
-/
namespace Bit.Spec

/-- A call for a fee: the kind asked for, the clock, the cache time in force, and what the server would
answer to a request at this moment. -/
structure FeeCall where
  fast : Bool
  now : Int
  limit : Int
  answer : Py Int

/-- The failures of a connection. -/
def ConnectionFailure (e : PyErr) : Prop :=
  e = .requestsConnection ∨ e = .requestsHTTP ∨ e = .requestsTimeout

/-- The last fee of a kind that the server gave, and when, in a history of calls (oldest first) with
whether each made a request. -/
def lastFee (fast : Bool) : List (FeeCall × Bool) → Option (Int × Int)
  | [] => none
  | (c, requested) :: rest =>
    match lastFee fast rest, c.answer with
    | some x, _ => some x
    | none, .ok f => if c.fast = fast ∧ requested then some (f, c.now) else none
    | none, .error _ => none

/-- The default fees. -/
def defaultFee (fast : Bool) : Int := if fast then 72 else 62

/-- A call for a conversion: amount, currency, clock, cache time in force, and what the rate services
would answer at this moment. -/
structure RateCall where
  amount : Str
  currency : Str
  now : Int
  limit : Int
  answers : List (Py Int)

/-- The last rate of a currency that was obtained, and when, in a history of calls (oldest first) with
whether each asked for the rate. `rateOf` is the rate that a call gets if it asks. -/
def lastRate (rateOf : RateCall → Py Int) (currency : Str) : List (RateCall × Bool) → Option (Int × Int)
  | [] => none
  | (c, asked) :: rest =>
    match lastRate rateOf currency rest, rateOf c with
    | some x, _ => some x
    | none, .ok r => if c.currency = currency ∧ asked then some (r, c.now) else none
    | none, .error _ => none

end Bit.Spec
