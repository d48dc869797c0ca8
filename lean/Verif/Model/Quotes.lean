import Verif.Model.Rates
import Verif.Model.Fees
import Verif.Model.Web
/-
The requests for exchange rates and for the recommended fee (bit/network/rates.py, bit/network/fees.py).
-/
namespace Bit

/-- `BitpayRates.currency_to_satoshi`, bit/network/rates.py:104-112. `ONE / Decimal(rate) * BTC` is computed from the
left; `prec` is the precision of the decimal context. The headers of the request are left out. -/
def bitpayRate (prec : Nat) (web : Web) (currency : Str) : Py Int := do
  let r ← web (.get ("https://bitpay.com/rates/BTC/".toList ++ currency) [])
  raiseForStatus r
  let j ← r.json
  let rate ← j.path ["data".toList, "rate".toList]
  let text ← rate.numberText
  let d ← Dec.parse text
  let d ← Dec.div prec (Dec.ofInt 1) d
  .ok (d.mul prec (Dec.ofInt (10 ^ 8))).toInt

/-- `BlockchainRates.currency_to_satoshi`, bit/network/rates.py:200-207. -/
def blockchainRate (prec : Nat) (web : Web) (currency : Str) : Py Int := do
  let r ← web (.get ("https://blockchain.info/tobtc?currency=".toList ++ currency ++ "&value=1".toList) [])
  raiseForStatus r
  let d ← Dec.parse r.text
  .ok (d.mul prec (Dec.ofInt (10 ^ 8))).toInt

/-- The codes of the currencies for Bitpay and Blockchain.info: the texts in the methods of bit/network/rates.py:114-196
and 209-291 and the lists `USD_RATES` and so on of bit/network/rates.py:301-321. -/
def rateCodes : List (Str × Str × Str) :=
  [("usd".toList, "usd".toList, "USD".toList), ("eur".toList, "eur".toList, "EUR".toList),
   ("gbp".toList, "gbp".toList, "GBP".toList), ("jpy".toList, "jpy".toList, "JPY".toList),
   ("cny".toList, "cny".toList, "CNY".toList), ("hkd".toList, "hkd".toList, "HKD".toList),
   ("cad".toList, "cad".toList, "CAD".toList), ("aud".toList, "aud".toList, "AUD".toList),
   ("nzd".toList, "nzd".toList, "NZD".toList), ("rub".toList, "rub".toList, "RUB".toList),
   ("brl".toList, "brl".toList, "BRL".toList), ("chf".toList, "chf".toList, "CHF".toList),
   ("sek".toList, "sek".toList, "SEK".toList), ("dkk".toList, "dkk".toList, "DKK".toList),
   ("isk".toList, "isk".toList, "ISK".toList), ("pln".toList, "pln".toList, "PLN".toList),
   ("krw".toList, "krw".toList, "KRW".toList), ("clp".toList, "clp".toList, "CLP".toList),
   ("sgd".toList, "sgd".toList, "SGD".toList), ("thb".toList, "thb".toList, "THB".toList),
   ("twd".toList, "twd".toList, "TWD".toList)]

/-- What the two services answer for a currency, in their order, bit/network/rates.py:301-321. -/
def rateAnswers (prec : Nat) (web : Web) (currency : Str) : List (Py Int) :=
  match rateCodes.lookup currency with
  | none => []
  | some (lower, upper) => [bitpayRate prec web lower, blockchainRate prec web upper]

/-- The request for the fees, bit/network/fees.py:12, 52-56, 76-80: `requests.get(URL)`, `raise_for_status()`,
`json()['fastestFee']` or `json()['hourFee']`. -/
def feeAnswer (web : Web) (fast : Bool) : Py Int := do
  let r ← web (.get "https://mempool.space/api/v1/fees/recommended".toList [])
  raiseForStatus r
  let j ← r.json
  let fee ← j.get (if fast then "fastestFee".toList else "hourFee".toList)
  fee.asInt

/-- `get_fee(fast)`, bit/network/fees.py:20-32: without a cache, and without a look at the status. -/
def getFee (web : Web) (fast : Bool) : Py Int := do
  let r ← web (.get "https://mempool.space/api/v1/fees/recommended".toList [])
  let j ← r.json
  let fee ← j.get (if fast then "fastestFee".toList else "hourFee".toList)
  fee.asInt

end Bit
