import Verif.Model.Basic
/-
Trying one service after the other (bit/network/rates.py, bit/network/services.py).
-/
namespace Bit

/-- The loop
`for api_call in CALLS: try: return api_call() / except IGNORED_ERRORS: pass / raise ConnectionError(...)`
of bit/network/rates.py:323-332 (and the methods after it) and bit/network/services.py:1070-1076 (and the methods after it, up to line 1204).
`outcomes` lists what each call would give if it was made. The result carries the number of calls made. -/
def firstAnswer {α : Type} (ignored : PyErr → Bool) : List (Py α) → Nat × Py α
  | [] => (0, .error .connectionError)
  | .ok a :: _ => (1, .ok a)
  | .error e :: rest =>
    if ignored e then let (n, r) := firstAnswer ignored rest; (n + 1, r) else (1, .error e)

end Bit
