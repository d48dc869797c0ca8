import Verif.Model.Services
/-
Threads that use the services of `NetworkAPI` while other threads connect it to nodes. The lists of calls are attributes
of the class. `connect_to_node` replaces five of them, one after the other and without a lock; a question takes the list
from the attribute once, when its loop begins, and goes on with that list. Another thread may run between any two steps.
A single assignment to an attribute is indivisible, as under the interpreter lock.
-/
namespace Bit

/-- What a thread does. -/
inductive NodeJob
  /-- `NetworkAPI.connect_to_node(…, testnet=testnet)`; `n` names the new node -/
  | connect (n : Nat) (testnet : Bool)
  /-- one of the questions -/
  | ask (net : Net) (q : Query)
  /-- `NetworkAPI.broadcast_tx` or `broadcast_tx_testnet` -/
  | broadcast (net : Net)

/-- Where a thread stands. -/
inductive NodePhase (α : Type)
  | start
  /-- before the assignments to the attributes for `todo`, or before the `return` (bit/network/services.py:1045-1058) -/
  | connecting (n : Nat) (net : Net) (todo : List Query)
  /-- in the loop of a question (1070-1076 and the like), before the call to the first of `rest` -/
  | asking (rest : List Service)
  /-- the question is about to return or raise -/
  | answer (r : Py α)
  /-- in the loop of a broadcast (1216-1223), before the call to the first of `rest` -/
  | sending (rest : List Service) (success : Option Bool)
  /-- the broadcast is about to return or raise -/
  | sent (r : BroadcastEnd)
  | over

/-- What can be seen of the threads from outside. -/
inductive NodeEvent (α : Type)
  /-- `connect_to_node` begins, in the thread `i` -/
  | connecting (i n : Nat) (net : Net)
  /-- it returns -/
  | connected (i n : Nat) (net : Net)
  /-- a question or a broadcast begins -/
  | began (i : Nat) (net : Net) (q : Query)
  /-- a service is asked and returns or raises -/
  | asked (i : Nat) (s : Service) (r : Py α)
  /-- a service is given the transaction and returns or raises -/
  | given (i : Nat) (s : Service) (r : Py Bool)
  /-- a question returns or raises -/
  | answered (i : Nat) (r : Py α)
  /-- a broadcast returns or raises -/
  | finished (i : Nat) (r : BroadcastEnd)

/-- The attributes of the class, the threads, and what has been seen so far, the latest first. -/
structure NodeWorld (α : Type) where
  lists : Lists
  phase : Nat → NodePhase α
  log : List (NodeEvent α)

/-- One assignment `cls.… = [node.…]`, bit/network/services.py:1046-1056. -/
def assignList (lists : Lists) (net : Net) (q : Query) (l : List Service) : Lists :=
  fun net' q' => if net' = net ∧ q' = q then l else lists net' q'

namespace NodeWorld

variable {α : Type}

/-- The lists before any thread has begun. -/
def init (lists : Lists) : NodeWorld α := { lists, phase := fun _ => .start, log := [] }

/-- The thread `i` goes on at `p`. -/
def goto (w : NodeWorld α) (i : Nat) (p : NodePhase α) : NodeWorld α :=
  { w with phase := fun j => if j = i then p else w.phase j }

/-- Something is seen. -/
def see (w : NodeWorld α) (e : NodeEvent α) : NodeWorld α := { w with log := e :: w.log }

/-- The next step of the thread `i`. Should this be a call to a service, it gives `r`, or `b` if it is a broadcast.
`connect_to_node` is bit/network/services.py:1042-1058, a question 1070-1076 (and the methods after it, up to line 1204),
a broadcast 1214-1228 (1238-1252). -/
def move (job : Nat → NodeJob) (w : NodeWorld α) (i : Nat) (r : Py α) (b : Py Bool) : NodeWorld α :=
  match w.phase i with
  | .start =>
    match job i with
    | .connect n testnet =>
      let net := if testnet = false then Net.main else Net.test
      (w.goto i (.connecting n net [.balance, .transactions, .transactionById, .unspent, .broadcast])).see
        (.connecting i n net)
    | .ask net q => (w.goto i (.asking (w.lists net q))).see (.began i net q)
    | .broadcast net => (w.goto i (.sending (w.lists net .broadcast) none)).see (.began i net .broadcast)
  | .connecting n net (q :: todo) =>
    { w with lists := assignList w.lists net q [.node n] }.goto i (.connecting n net todo)
  | .connecting n net [] => (w.goto i .over).see (.connected i n net)
  | .asking [] => w.goto i (.answer (.error .connectionError))
  | .asking (s :: rest) =>
    match r with
    | .ok a => (w.goto i (.answer (.ok a))).see (.asked i s (.ok a))
    | .error e =>
      if networkIgnored e then (w.goto i (.asking rest)).see (.asked i s (.error e))
      else (w.goto i (.answer (.error e))).see (.asked i s (.error e))
  | .answer r => (w.goto i .over).see (.answered i r)
  | .sending [] success => w.goto i (.sent (if success = some false then .failed else .unreachable))
  | .sending (s :: rest) success =>
    match b with
    | .ok true => (w.goto i (.sent .accepted)).see (.given i s (.ok true))
    | .ok false => (w.goto i (.sending rest (some false))).see (.given i s (.ok false))
    | .error e =>
      if networkIgnored e then (w.goto i (.sending rest success)).see (.given i s (.error e))
      else (w.goto i (.sent (.raised e))).see (.given i s (.error e))
  | .sent r => (w.goto i .over).see (.finished i r)
  | .over => w

/-- A schedule: which thread does its next step, and what the service gives should this be a call to one. -/
def run (job : Nat → NodeJob) (w : NodeWorld α) (schedule : List (Nat × Py α × Py Bool)) : NodeWorld α :=
  schedule.foldl (fun w a => w.move job a.1 a.2.1 a.2.2) w

end NodeWorld

end Bit
