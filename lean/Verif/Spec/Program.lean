import Verif.Model.Program
import Verif.Spec.Digits
import Verif.Props.Rates
/-
What C97 speaks about: amounts of bitcoin that a program can express exactly, and what it was told on the web.
-/
namespace Bit.Spec

/-- The calls of a history that have to do with services and rates. -/
def threadCalls (calls : List ProgramCall) : List ThreadCall :=
  calls.filterMap fun c => match c with
    | .thread c => some c
    | _ => none

/-- The digits the program calculates with (see `CalculatesWith`). -/
def ProgramDigits (calls : List ProgramCall) (P : Nat) : Prop := CalculatesWith (threadCalls calls) P

/-- The amount, a text with a bitcoin unit, is `n` satoshi (and perhaps part of one more), with no more than `P` digits. -/
def AmountIs (P : Nat) (amount : Str × Str) (n : Int) : Prop :=
  ∃ k q, (amount.2, k) ∈ bitcoinUnits ∧ Number amount.1 q ∧ Fits P (10 ^ k * q) ∧ n = trunc (10 ^ k * q)

/-- A call that, at the time `t`, needs the rate of a currency, and would ask the services on `web` for it. -/
def Needs (currency : Str) (web : Web) (t : Int) : ProgramCall → Prop
  | .thread (.toSatoshiCached web' t' _ c) => c = currency ∧ web' = web ∧ t' = t
  | .thread (.toCurrencyCached web' t' _ c) => c = currency ∧ web' = web ∧ t' = t
  | .create _ args _ world => ∃ i o, args.outputs[i]? = some o ∧ o.2.2 = currency ∧ world.rates i = (web, t)
  | _ => False

/-- A call of the history got the rate `r` for the currency from the services, at the time `t`. -/
def RateQuoted (calls : List ProgramCall) (currency : Str) (r t : Int) : Prop :=
  ∃ before call rest web P, calls = before ++ call :: rest ∧ Needs currency web t call ∧ ProgramDigits before P ∧
    exchangeRate (rateAnswers P web currency) currency = .ok r

/-- How long a rate may be used: the last time set with `set_rate_cache_time`, or a minute. -/
def rateTime (calls : List ProgramCall) : Int :=
  (calls.filterMap fun c => match c with
    | .thread (.setCacheTime seconds) => some seconds
    | _ => none).getLastD 60

/-- How long a fee may be used: the last time set with `set_fee_cache_time`, or ten minutes. -/
def feeTime (calls : List ProgramCall) : Int :=
  (calls.filterMap fun c => match c with
    | .setFeeCacheTime seconds => some seconds
    | _ => none).getLastD 600

/-- What the payment with number `j` of a call becomes after a history: `n` satoshi, the whole part of the product with a rate. The
rate was got before and is not too old, or is got in this call, for this payment or an earlier one in
the same currency. -/
def Converted (calls : List ProgramCall) (P : Nat) (world : Surround) (outputs : List (Str × Str × Str)) (j : Nat)
    (amount currency : Str) (n : Int) : Prop :=
  ∃ rate : Int, (∀ q, Number amount q → Fits P (rate * q) → n = trunc (rate * q)) ∧
    ((rate ≠ 0 ∧ ∃ t, RateQuoted calls currency rate t ∧ (world.rates j).2 - t ≤ rateTime calls) ∨
      ∃ i o, i ≤ j ∧ outputs[i]? = some o ∧ o.2.2 = currency ∧
        exchangeRate (rateAnswers P (world.rates i).1 currency) currency = .ok rate ∧
        (i = j ∨ (world.rates j).2 - (world.rates i).2 ≤ rateTime calls))

/-- A call of the history was told the fee `f` at the time `t`. -/
def FeeQuoted (calls : List ProgramCall) (f t : Int) : Prop :=
  ∃ call ∈ calls, ∃ web, feeAnswer web true = .ok f ∧
    match call with
    | .fee fast web' t' => fast = true ∧ web' = web ∧ t' = t
    | .create _ _ _ world => world.feeWeb = web ∧ world.feeTime = t
    | _ => False

/-- The fee that a call uses after a history: the one given (not 0); or what the server recommends now; or what it
recommended not too long ago; and if it cannot be reached, any fee that it recommended, or 72. -/
def FeeUsed (calls : List ProgramCall) (world : Surround) (given : Option Int) (f : Int) : Prop :=
  (given = some f ∧ f ≠ 0) ∨
  ((given = none ∨ given = some 0) ∧
    (feeAnswer world.feeWeb true = .ok f ∨
      (f ≠ 0 ∧ ∃ t, FeeQuoted calls f t ∧ world.feeTime - t ≤ feeTime calls) ∨
      ∃ e, feeAnswer world.feeWeb true = .error e ∧ feesIgnored e = true ∧ ((∃ t, FeeQuoted calls f t) ∨ f = 72)))

end Bit.Spec
