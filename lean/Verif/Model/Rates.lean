import Verif.Model.Decimal
import Verif.Model.Failover
/-
Exchange rates and conversion of amounts (bit/network/rates.py).
-/
namespace Bit

/-- `CURRENCY_PRECISION`, bit/network/rates.py:48-74. Its keys are those of `EXCHANGE_RATES`,
bit/network/rates.py:555-581. -/
def currencyPrecision : List (Str × Nat) :=
  [("satoshi".toList, 0), ("ubtc".toList, 2), ("mbtc".toList, 5), ("btc".toList, 8), ("usd".toList, 2),
   ("eur".toList, 2), ("gbp".toList, 2), ("jpy".toList, 0), ("cny".toList, 2), ("cad".toList, 2),
   ("aud".toList, 2), ("nzd".toList, 2), ("rub".toList, 2), ("brl".toList, 2), ("chf".toList, 2),
   ("sek".toList, 2), ("dkk".toList, 2), ("isk".toList, 2), ("pln".toList, 2), ("hkd".toList, 2),
   ("krw".toList, 0), ("sgd".toList, 2), ("thb".toList, 2), ("twd".toList, 2), ("clp".toList, 0)]

/-- `CURRENCY_PRECISION[currency]`. -/
def precisionOf (currency : Str) : Option Nat := currencyPrecision.lookup currency

/-- The units with a fixed rate, bit/network/rates.py:82-95 and bit/constants.py:48-51. -/
def unitRates : List (Str × Int) :=
  [("satoshi".toList, 1), ("ubtc".toList, 10 ^ 2), ("mbtc".toList, 10 ^ 5), ("btc".toList, 10 ^ 8)]

/-- `RatesAPI.IGNORED_ERRORS`, bit/network/rates.py:299. -/
def ratesIgnored : PyErr → Bool
  | .requestsConnection | .requestsHTTP | .requestsTimeout => true
  | _ => false

/-- `EXCHANGE_RATES[currency]()`, bit/network/rates.py:322-581. `answers` lists what the rate services
would answer for this currency, in their order. -/
def exchangeRate (answers : List (Py Int)) (currency : Str) : Py Int :=
  match precisionOf currency with
  | none => .error .keyError
  | some _ =>
    match unitRates.lookup currency with
    | some r => .ok r
    | none => (firstAnswer ratesIgnored answers).2

/-- `int(satoshis * Decimal(amount))`, bit/network/rates.py:595, 621. The amount is the text
`str(amount)`; `prec` is the precision of the decimal context. -/
def timesAmount (prec : Nat) (satoshis : Int) (amount : Str) : Py Int :=
  match Dec.parse amount with
  | .error e => .error e
  | .ok d => .ok (Dec.mul prec (Dec.ofInt satoshis) d).toInt

/-- `currency_to_satoshi(amount, currency)`, bit/network/rates.py:584-595. -/
def currencyToSatoshi (prec : Nat) (answers : List (Py Int)) (amount currency : Str) : Py Int :=
  match exchangeRate answers currency with
  | .error e => .error e
  | .ok satoshis => timesAmount prec satoshis amount

/-- `'{:f}'.format(Decimal(num / Decimal(rate)).quantize(…, rounding=ROUND_DOWN).normalize())`,
bit/network/rates.py:655-659, 673-677. `Decimal(x)` around the quotient goes through the text of `x` and
back, which gives `x`; the model leaves it out. -/
def formatAmount (prec : Nat) (num rate : Int) (places : Nat) : Py Str :=
  match Dec.div prec (Dec.ofInt num) (Dec.ofInt rate) with
  | .error e => .error e
  | .ok d =>
    match d.quantizeDown prec places with
    | .error e => .error e
    | .ok d => .ok (d.normalize prec).format

/-- `satoshi_to_currency(num, currency)`, bit/network/rates.py:645-659. -/
def satoshiToCurrency (prec : Nat) (answers : List (Py Int)) (num : Int) (currency : Str) : Py Str :=
  match exchangeRate answers currency with
  | .error e => .error e
  | .ok rate =>
    match precisionOf currency with
    | none => .error .keyError
    | some places => formatAmount prec num rate places

/-- `CachedRate`, bit/network/rates.py:598-603. Times are integers (Python: floats). -/
structure CachedRate where
  satoshis : Option Int
  lastUpdate : Int
  deriving DecidableEq, Repr

/-- `cached_rates`, bit/network/rates.py:609. -/
abbrev RateCaches := Str → CachedRate

/-- A cache hit: `not (not satoshis or now - last_update > DEFAULT_CACHE_TIME)`,
bit/network/rates.py:617. -/
def CachedRate.hit (c : CachedRate) (now limit : Int) : Option Int :=
  match c.satoshis with
  | none => none
  | some r => if r = 0 then none else if now - c.lastUpdate > limit then none else some r

/-- `currency_to_satoshi_cached(amount, currency)`, bit/network/rates.py:612-621, 642: the caches
afterwards, whether `EXCHANGE_RATES[currency]()` was called, and the result. `limit` is
`DEFAULT_CACHE_TIME`. -/
def currencyToSatoshiCached (prec : Nat) (limit now : Int) (answers : List (Py Int))
    (amount currency : Str) (caches : RateCaches) : RateCaches × Bool × Py Int :=
  match precisionOf currency with
  | none => (caches, false, .error .keyError)
  | some _ =>
    match (caches currency).hit now limit with
    | some r => (caches, false, timesAmount prec r amount)
    | none =>
      match exchangeRate answers currency with
      | .error e => (caches, true, .error e)
      | .ok r =>
        (fun c => if c = currency then { satoshis := some r, lastUpdate := now } else caches c, true,
          timesAmount prec r amount)

/-- `satoshi_to_currency_cached(num, currency)`, bit/network/rates.py:662-677. -/
def satoshiToCurrencyCached (prec : Nat) (limit now : Int) (answers : List (Py Int)) (num : Int)
    (currency : Str) (caches : RateCaches) : RateCaches × Bool × Py Str :=
  match currencyToSatoshiCached prec limit now answers ['1'] currency caches with
  | (caches, b, .error e) => (caches, b, .error e)
  | (caches, b, .ok rate) =>
    (caches, b,
      match precisionOf currency with
      | none => .error .keyError
      | some places => formatAmount prec num rate places)

end Bit
