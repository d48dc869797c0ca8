import Verif.Spec.Web
/-
Specification of the servers for exchange rates and fees: what they say if they tell the truth.
-/
namespace Bit.Spec

/-- The currencies that are not units of bitcoin. -/
def currencies : List Str :=
  ["usd", "eur", "gbp", "jpy", "cny", "hkd", "cad", "aud", "nzd", "rub", "brl", "chf", "sek", "dkk", "isk", "pln", "krw",
   "clp", "sgd", "thb", "twd"].map String.toList

/-- A number in a reply: an integer, a float, or a text. -/
def JsonNumber (j : Json) (q : ℚ) : Prop :=
  (∃ n : Nat, j = .int n ∧ q = n) ∨ (∃ f, j = .float f ∧ Number f.repr q) ∨ ∃ s, j = .str s ∧ Number s q

/-- A status for which `raise_for_status` raises. -/
def ErrorStatus (status : Nat) : Prop := 400 ≤ status ∧ status < 600

/-- Bitpay gives the price of one bitcoin in the currency; or, unless it is up, it fails. -/
def BitpayPrice (up : Bool) (web : Web) (currency : Str) (price : ℚ) : Prop :=
  Answers up ErrorStatus (web (.get ("https://bitpay.com/rates/BTC/".toList ++ currency) [])) fun j =>
    ∃ v, At j [name "data", name "rate"] v ∧ JsonNumber v price

/-- Blockchain.info gives what one unit of the currency is worth in bitcoin, as a text; or, unless it is up, it fails. It
is asked with the name in capitals. -/
def BlockchainWorth (up : Bool) (web : Web) (currency : Str) (worth : ℚ) : Prop :=
  (∃ text j, web (.get ("https://blockchain.info/tobtc?currency=".toList ++ currency.map Char.toUpper ++
      "&value=1".toList) []) = .ok { status := 200, text := text, json := j } ∧ Number text worth) ∨
  up = false ∧ ((∃ e, web (.get ("https://blockchain.info/tobtc?currency=".toList ++ currency.map Char.toUpper ++
      "&value=1".toList) []) = .error e) ∨
    ∃ reply, web (.get ("https://blockchain.info/tobtc?currency=".toList ++ currency.map Char.toUpper ++
      "&value=1".toList) []) = .ok reply ∧ ErrorStatus reply.status)

/-- The server for fees gives the two recommended fees; or, unless it is up, it fails. -/
def FeeServer (up : Bool) (web : Web) (recommended : Bool → Int) : Prop :=
  Answers up ErrorStatus (web (.get "https://mempool.space/api/v1/fees/recommended".toList [])) fun j =>
    At j [name "fastestFee"] (.int (recommended true)) ∧ At j [name "hourFee"] (.int (recommended false))

end Bit.Spec
