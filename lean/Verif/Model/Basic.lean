/-
Common vocabulary of the model: Python values and exceptions.
-/
namespace Bit

/-- Python `bytes`. -/
abbrev Bytes := List UInt8

/-- Python `str` (a list of code points; lone surrogates, which Lean's `Char` excludes, are not
modelled). -/
abbrev Str := List Char

/-- The Python exception classes that the modelled code can raise. -/
inductive PyErr
  | valueError
  | typeError
  | keyError
  | indexError
  | overflowError
  | attributeError
  | unboundLocalError
  | assertionError
  | invalidOperation      -- decimal.InvalidOperation
  | insufficientFunds     -- bit.exceptions.InsufficientFunds
  | connectionError       -- builtins.ConnectionError
  | excessiveAddress      -- bit.exceptions.ExcessiveAddress
  | nodeException         -- bit.exceptions.BitcoinNodeException
  | requestsConnection    -- requests.exceptions.ConnectionError
  | requestsTimeout       -- requests.exceptions.Timeout (with ReadTimeout)
  | requestsHTTP          -- requests.exceptions.HTTPError
  deriving DecidableEq, Repr

/-- Result of a Python call: a value or an exception. -/
abbrev Py (α : Type) := Except PyErr α

instance {ε α : Type} [DecidableEq ε] [DecidableEq α] : DecidableEq (Except ε α)
  | .ok a, .ok b => if h : a = b then isTrue (by rw [h]) else isFalse (by simp [h])
  | .error a, .error b => if h : a = b then isTrue (by rw [h]) else isFalse (by simp [h])
  | .ok _, .error _ => isFalse (by simp)
  | .error _, .ok _ => isFalse (by simp)

/-- `int.from_bytes(b, 'little')`. -/
def leNat : Bytes → Nat
  | [] => 0
  | b :: bs => b.toNat + 256 * leNat bs

/-- `int.from_bytes(b, 'big')`. -/
def beNat (b : Bytes) : Nat := leNat b.reverse

/-- The `len` low-order base-256 digits of `n`, least significant first. -/
def leBytes : Nat → Nat → Bytes
  | 0, _ => []
  | len + 1, n => UInt8.ofNat (n % 256) :: leBytes len (n / 256)

/-- `n.to_bytes(len, 'little')`: raises `OverflowError` for negative or too large `n`. -/
def toBytesLE (n : Int) (len : Nat) : Py Bytes :=
  if 0 ≤ n ∧ n < (256 ^ len : Nat) then .ok (leBytes len n.toNat) else .error .overflowError

/-- `n.to_bytes(len, 'big')`. -/
def toBytesBE (n : Int) (len : Nat) : Py Bytes :=
  if 0 ≤ n ∧ n < (256 ^ len : Nat) then .ok (leBytes len n.toNat).reverse
  else .error .overflowError

/-- `n.bit_length()` for `n ≥ 0`. -/
def bitLength (n : Nat) : Nat := if n = 0 then 0 else n.log2 + 1

/-- `s[:-k]` -/
def dropLast' {α : Type} (s : List α) (k : Nat) : List α := s.take (s.length - k)

/-- `s[-k:]` for `k > 0` -/
def takeLast {α : Type} (s : List α) (k : Nat) : List α := s.drop (s.length - k)

end Bit
