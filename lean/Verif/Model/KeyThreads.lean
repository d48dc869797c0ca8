import Verif.Model.Send
/-
One key or contract object used by several threads. `get_unspents` and `get_transactions` change lists of the object in
several steps, and there are no locks in the code. Each call is taken apart into its questions to the services and its
accesses to the attributes of the object, in the order of the source, and another thread may run between any two of them.
A single operation on a list is indivisible, as under the interpreter lock. The attribute always names the same list
(`[:] =` and `+=` change it in place), and an iterator over it works by index, so it sees what other threads do.
-/
namespace Bit

/-- What differs between the methods. `Raw` is what a service returns, or its exception. -/
structure Refresh (Raw α : Type) where
  /-- what becomes of the answer for the address -/
  first : Raw → Py (List α)
  /-- what becomes of the answer for the segwit address, if there is one -/
  second : Option (Raw → Py (List α))
  /-- what is summed up in `self.balance` at the end; nothing in `get_transactions` -/
  amount : Option (α → Int)

/-- Where a call stands. -/
inductive RefreshPhase (α : Type)
  /-- before the question for the address (bit/wallet.py:235-239, 250) -/
  | start
  /-- before `self.unspents[:] = …` (234), `self.transactions[:] = …` (250) -/
  | assign (l : List α)
  /-- before the question for the segwit address (240-241, 251-252) -/
  | second
  /-- before `self.unspents += …` (241), `self.transactions += …` (252) -/
  | extend (l : List α)
  /-- in `sum(unspent.amount for unspent in self.unspents)` (242), before the item with this index -/
  | sum (index : Nat) (total : Int)
  /-- before `self.balance = …` (242) -/
  | store (total : Int)
  /-- the call is over; if it did not raise, its result is the list of the object itself (243, 253) -/
  | done (r : Py Unit)

/-- What can be seen of the calls from outside. -/
inductive RefreshEvent (α : Type)
  /-- the coins or transactions reported to the call `i` for the address -/
  | first (i : Nat) (l : List α)
  /-- the ones reported for the segwit address -/
  | second (i : Nat) (l : List α)
  /-- the call returns, or raises -/
  | returned (i : Nat) (r : Py Unit)

/-- The attributes of the object (`unspents` and `balance`, or `transactions`), the calls, and what has been seen so far,
the latest first. -/
structure KeyWorld (α : Type) where
  list : List α
  balance : Int
  phase : Nat → RefreshPhase α
  log : List (RefreshEvent α)

namespace KeyWorld

variable {Raw α : Type}

/-- An object before any call. -/
def init (list : List α) (balance : Int) : KeyWorld α := { list, balance, phase := fun _ => .start, log := [] }

/-- The call `i` goes on at `p`. -/
def goto (w : KeyWorld α) (i : Nat) (p : RefreshPhase α) : KeyWorld α :=
  { w with phase := fun j => if j = i then p else w.phase j }

/-- Something is seen. -/
def see (w : KeyWorld α) (e : RefreshEvent α) : KeyWorld α := { w with log := e :: w.log }

/-- The call `i` ends. -/
def finish (w : KeyWorld α) (i : Nat) (r : Py Unit) : KeyWorld α := (w.goto i (.done r)).see (.returned i r)

/-- The call `i` goes on after its list is complete: with the sum (bit/wallet.py:242), or to its end (253). -/
def listed (R : Refresh Raw α) (w : KeyWorld α) (i : Nat) : KeyWorld α :=
  match R.amount with
  | some _ => w.goto i (.sum 0 0)
  | none => w.finish i (.ok ())

/-- The next step of the call `i`: bit/wallet.py:234-243, 250-253 (and 631-642, 649-652, 1072-1078, 1085-1088, 1395-1406,
1413-1416). `raw` is what the service returns should this step be a question. -/
def move (R : Refresh Raw α) (w : KeyWorld α) (i : Nat) (raw : Raw) : KeyWorld α :=
  match w.phase i with
  | .start =>
    match R.first raw with
    | .error e => w.finish i (.error e)
    | .ok l => (w.goto i (.assign l)).see (.first i l)
  | .assign l => { w with list := l }.goto i .second
  | .second =>
    match R.second with
    | none => w.listed R i
    | some f =>
      match f raw with
      | .error e => w.finish i (.error e)
      | .ok l => (w.goto i (.extend l)).see (.second i l)
  | .extend l => { w with list := w.list ++ l }.listed R i
  | .sum k total =>
    match w.list[k]?, R.amount with
    | some u, some amount => w.goto i (.sum (k + 1) (total + amount u))
    | _, _ => w.goto i (.store total)
  | .store total => { w with balance := total }.finish i (.ok ())
  | .done _ => w

/-- A schedule: which call does its next step, and what the service returns should this be a question. -/
def run (R : Refresh Raw α) (w : KeyWorld α) (schedule : List (Nat × Raw)) : KeyWorld α :=
  schedule.foldl (fun w a => w.move R a.1 a.2) w

end KeyWorld

/-- `get_unspents` of an object whose attributes `address` and `segwit_address` and kinds of coins can be computed
(bit/wallet.py:229-243, 626-642, 1060-1078, 1383-1406). -/
def refreshUnspents (legacy segwit : Str × Nat) (segwitAddress : Option Str) :
    Refresh (Py (Option (List Unspent))) Unspent where
  first := retype legacy
  second := segwitAddress.map fun _ => retype segwit
  amount := some Unspent.amount

/-- `get_transactions` (bit/wallet.py:245-253, 644-652, 1080-1088, 1408-1416). -/
def refreshTransactions (segwitAddress : Option Str) : Refresh (Py (List Str)) Str where
  first := id
  second := segwitAddress.map fun _ => id
  amount := none

end Bit
