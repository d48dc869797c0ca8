import Verif.Model.Quotes
/-
A thread of a program that asks the network and converts amounts, one call after the other. The calls share the
lists of services, the cached rates, and the precision of the decimal context of the thread: `RPCHost.get_balance`
sets that to `len(str(BTC))`, and nothing sets it back. Other threads are left out (for the caches see
`Model/Threads`); they share the lists and the rates, not the precision.
-/
namespace Bit

/-- What the calls share: the lists of `NetworkAPI` (bit/network/services.py:956-1017), `getcontext().prec` of the
thread (bit/network/services.py:34), `cached_rates` (bit/network/rates.py:609) and `DEFAULT_CACHE_TIME`
(bit/network/rates.py:11). -/
structure ThreadState where
  lists : Lists
  prec : Nat
  caches : RateCaches
  limit : Int

/-- The state when the package has been imported: 28 is the precision of the default context of the module `decimal`;
no rate is known (bit/network/rates.py:607-609). -/
def ThreadState.start (now : Int) : ThreadState := ⟨initialLists, 28, fun _ => ⟨none, now⟩, 60⟩

/-- A call, with what it meets outside and the time. Amounts are given as texts, as in `Model/Rates`. -/
inductive ThreadCall
  /-- `NetworkAPI.connect_to_node(…, testnet)`, bit/network/services.py:1020-1058 -/
  | connect (n : Nat) (testnet : Bool)
  /-- `NetworkAPI.get_balance(address)` or `get_balance_testnet`, bit/network/services.py:1061-1094 -/
  | balance (o : Outside) (net : Net) (address : Str)
  /-- `NetworkAPI.get_unspent(address)` or `get_unspent_testnet`, bit/network/services.py:1170-1204 -/
  | unspent (o : Outside) (net : Net) (fuel : Nat) (address : Str)
  /-- `currency_to_satoshi(amount, currency)`, bit/network/rates.py:584-595 -/
  | toSatoshi (web : Web) (amount currency : Str)
  /-- `satoshi_to_currency(num, currency)`, bit/network/rates.py:645-659 -/
  | toCurrency (web : Web) (num : Int) (currency : Str)
  /-- `currency_to_satoshi_cached(amount, currency)`, bit/network/rates.py:631-642 -/
  | toSatoshiCached (web : Web) (now : Int) (amount currency : Str)
  /-- `satoshi_to_currency_cached(num, currency)`, bit/network/rates.py:662-677 -/
  | toCurrencyCached (web : Web) (now : Int) (num : Int) (currency : Str)
  /-- `set_rate_cache_time(seconds)`, bit/network/rates.py:77-79 -/
  | setCacheTime (seconds : Int)

/-- What a call gives. -/
inductive ThreadResult
  | done
  | number (r : Py Int)
  | coins (r : Option (Py (Option (List Unspent))))
  | text (r : Py Str)
  deriving DecidableEq

/-- Is the service a node? Only nodes are asked by `RPCHost`, bit/network/services.py:21-80. -/
def Service.isNode : Service → Bool
  | .node _ => true
  | _ => false

/-- A call: the state afterwards, and what the call gives. `get_balance` asks the services in the list one after the
other until one answers (bit/network/services.py:1068-1076); a node among those asked sets the precision to 9
(bit/network/services.py:34, `len(str(10 ** 8))`), before it is known whether it answers. The rates that
`currency_to_satoshi` asks for are computed with the precision of the thread. -/
def ThreadState.call (C : Crypto) (s : ThreadState) : ThreadCall → ThreadState × ThreadResult
  | .connect n testnet => ({ s with lists := connectToNode s.lists n testnet }, .done)
  | .balance o net address =>
    let asked := (s.lists net .balance).take (ask s.lists net .balance (serviceBalance o net address)).1
    ({ s with prec := if asked.any Service.isNode then 9 else s.prec }, .number (networkBalance o s.lists net address))
  | .unspent o net fuel address => (s, .coins (networkUnspent C s.prec o s.lists net fuel address))
  | .toSatoshi web amount currency =>
    (s, .number (currencyToSatoshi s.prec (rateAnswers s.prec web currency) amount currency))
  | .toCurrency web num currency =>
    (s, .text (satoshiToCurrency s.prec (rateAnswers s.prec web currency) num currency))
  | .toSatoshiCached web now amount currency =>
    let r := currencyToSatoshiCached s.prec s.limit now (rateAnswers s.prec web currency) amount currency s.caches
    ({ s with caches := r.1 }, .number r.2.2)
  | .toCurrencyCached web now num currency =>
    let r := satoshiToCurrencyCached s.prec s.limit now (rateAnswers s.prec web currency) num currency s.caches
    ({ s with caches := r.1 }, .text r.2.2)
  | .setCacheTime seconds => ({ s with limit := seconds }, .done)

/-- The state after a number of calls. -/
def ThreadState.after (C : Crypto) (s : ThreadState) (calls : List ThreadCall) : ThreadState :=
  calls.foldl (fun s c => (s.call C c).1) s

end Bit
