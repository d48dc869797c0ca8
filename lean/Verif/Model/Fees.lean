import Verif.Model.Basic
/-
The recommended fee and its cache (bit/network/fees.py).
-/
namespace Bit

/-- A cached fee and the time it was stored: the pairs `cached_fee_fast`, `fast_last_update` and
`cached_fee_hour`, `hour_last_update` of bit/network/fees.py:37-40. Times are integers (Python:
floats). -/
structure CachedFee where
  fee : Option Int
  lastUpdate : Int
  deriving DecidableEq, Repr

/-- The state of the decorator `get_fee_local_cache`, bit/network/fees.py:35-40. -/
structure FeeCaches where
  fast : CachedFee
  hour : CachedFee
  deriving DecidableEq, Repr

/-- `except (ConnectionError, HTTPError, Timeout)`, bit/network/fees.py:58, 82, with the names imported
from `requests.exceptions` in bit/network/fees.py:6. -/
def feesIgnored : PyErr → Bool
  | .requestsConnection | .requestsHTTP | .requestsTimeout => true
  | _ => false

/-- One branch of `wrapper`, bit/network/fees.py:46-68 and 70-92: the cache afterwards, whether a request
was made, and the result. `answer` is what `requests.get(URL)`, `raise_for_status()` and
`json()[key]` would give; fees are integers (the code takes any JSON value). -/
def feeCached (limit now default : Int) (answer : Py Int) (c : CachedFee) : CachedFee × Bool × Py Int :=
  let refresh : CachedFee × Bool × Py Int :=
    match answer with
    | .ok f => ({ fee := some f, lastUpdate := now }, true, .ok f)
    | .error e =>
      if feesIgnored e then
        match c.fee with
        | none => (c, true, .ok default)
        | some f => (c, true, .ok f)
      else (c, true, .error e)
  match c.fee with
  | none => refresh
  | some f => if f = 0 ∨ now - c.lastUpdate > limit then refresh else (c, false, .ok f)

/-- `get_fee_cached(fast)`, bit/network/fees.py:43-94, 97-116. `limit` is `DEFAULT_CACHE_TIME`; the
defaults are those of bit/network/fees.py:9-10. -/
def getFeeCached (fast : Bool) (limit now : Int) (answer : Py Int) (s : FeeCaches) :
    FeeCaches × Bool × Py Int :=
  if fast then
    let (c, b, r) := feeCached limit now 72 answer s.fast
    ({ s with fast := c }, b, r)
  else
    let (c, b, r) := feeCached limit now 62 answer s.hour
    ({ s with hour := c }, b, r)

end Bit
