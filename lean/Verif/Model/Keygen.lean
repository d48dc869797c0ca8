import Verif.Model.Keys
/-
Model of /repo/bit/keygen.py: the search for an address with a given prefix by several processes.

The processes are modelled as a transition system. One step is one action on shared data (the counter, its
lock, the event, the queue) of one process, or the choice of a random key; the order of the steps is
arbitrary. Not modelled: the text written while waiting, the passing of time (the main process may look at
the counter at any time), and processes that crash.
-/
namespace Bit

/-- bit/keygen.py:12-15 `generate_key_address_pair` for the random secret `secret`. -/
def generateKeyAddressPair (C : Crypto) (secret : Bytes) : Py (Str × Str) :=
  match publicKeyToAddress C (C.pubkey secret true) .main with
  | .error e => .error e
  | .ok address => .ok (bytesToWif C secret .main false, address)

/-- The argument `cores`: `'all'`, something that `int` reads as a number, or something it refuses. -/
inductive Cores
  | all
  | number (n : Int)
  | other

/-- What `generate_matching_address` does next: return a pair at once, or search with a number of
worker processes. -/
inductive Search
  | pair
  | start (pre : Str) (workers : Nat)
  deriving DecidableEq, Repr

/-- bit/keygen.py:20-44: the check of the prefix and the number of workers. -/
def searchPlan (pre : Str) (cores : Cores) (available : Nat) : Py Search :=
  if pre.any (fun c => !b58Alphabet.contains c) then .error .valueError
  else if pre = [] then .ok .pair
  else
    let pre' := if pre.head? = some '1' then pre else '1' :: pre
    match cores with
    | .all => .ok (.start pre' available)
    | .number n => .ok (.start pre' (if 0 < n ∧ n ≤ available then n.toNat else 1))
    | .other => .error .valueError

/-- The value kept by a C `int` of 32 bits, `Value('i')`. -/
def cInt (n : Int) : Int := (n + 2 ^ 31) % 2 ^ 32 - 2 ^ 31

/-- Where a worker is in bit/keygen.py:66-83 `generate_key_address_pairs`. -/
inductive WorkerAt
  | check                                     -- line 71, before `match.is_set()`
  | lock                                      -- line 74, before taking the lock of the counter
  | read                                      -- line 75, before reading the counter, with the lock
  | write (v : Int)                           -- line 75, before writing `v + 1`, with the lock
  | generate                                  -- line 77
  | found (secret : Bytes) (address : Str)    -- line 81, before `match.set()`
  | put (secret : Bytes) (address : Str)      -- line 82, before `put_nowait`
  | done                                      -- returned
  deriving DecidableEq, Repr

/-- Where the main process is in bit/keygen.py:49-63. -/
inductive MainAt
  | waiting (keysGenerated : Int)             -- line 51
  | getting                                   -- line 62
  | reported (secret : Bytes) (address : Str) -- line 63
  deriving DecidableEq, Repr

/-- State of the search. The queue is the collection of entries put and not yet taken; entries from
different processes arrive in any order. -/
structure VanityState where
  workers : List WorkerAt
  counter : Int
  locked : Bool
  matched : Bool
  queue : List (Bytes × Str)
  main : MainAt
  deriving DecidableEq, Repr

/-- bit/keygen.py:38-49: the state when the workers have been started. -/
def vanityInit (workers : Nat) : VanityState where
  workers := List.replicate workers .check
  counter := 0
  locked := false
  matched := false
  queue := []
  main := .waiting 0

/-- A step of the search. -/
inductive VanityStep
  | work (i : Nat)                    -- worker `i` proceeds by one action
  | draw (i : Nat) (secret : Bytes)   -- worker `i` gets the random key `secret`
  | look                              -- the main process reads the counter
  | get (j : Nat)                     -- the main process takes entry `j` of the queue
  deriving DecidableEq, Repr

/-- Worker `i` is now at `w`. -/
def VanityState.moved (st : VanityState) (i : Nat) (w : WorkerAt) : VanityState :=
  { st with workers := st.workers.set i w }

/-- bit/keygen.py:70-83: an action of worker `i`, which is at `w`; `none` if it is blocked. -/
def workStep (st : VanityState) (i : Nat) : WorkerAt → Option VanityState
  | .check => some (st.moved i (if st.matched then .done else .lock))
  | .lock => if st.locked then none else some ({ st with locked := true }.moved i .read)
  | .read => some (st.moved i (.write st.counter))
  | .write v => some ({ st with counter := cInt (v + 1), locked := false }.moved i .generate)
  | .generate => none
  | .found secret address => some ({ st with matched := true }.moved i (.put secret address))
  | .put secret address => some ({ st with queue := st.queue ++ [(secret, address)] }.moved i .done)
  | .done => none

/-- bit/keygen.py:77-80: worker `i` gets a random key; only secrets of 32 bytes in the range of
the group occur. -/
def drawStep (C : Crypto) (pre : Str) (st : VanityState) (i : Nat) (secret : Bytes) : WorkerAt → Option VanityState
  | .generate =>
    if ecPrivateKey secret = .ok secret then
      let address := b58encodeCheck C (0x00 :: C.hash160 (C.pubkey secret true))
      some (st.moved i (if pre.isPrefixOf address then .found secret address else .check))
    else none
  | _ => none

/-- bit/keygen.py:51-57: the main process looks at the counter, which takes the lock for a moment. -/
def lookStep (st : VanityState) : Option VanityState :=
  match st.main with
  | .waiting keys =>
    if st.locked then none
    else if st.counter = keys then
      if st.counter = 0 then some st else some { st with main := .getting }
    else some { st with main := .waiting st.counter }
  | _ => none

/-- bit/keygen.py:62: the main process takes an entry; it is blocked while there is none. -/
def getStep (st : VanityState) (j : Nat) : Option VanityState :=
  match st.main with
  | .getting =>
    match st.queue[j]? with
    | none => none
    | some (secret, address) => some { st with queue := st.queue.eraseIdx j, main := .reported secret address }
  | _ => none

/-- One step; `none` if it is not possible in this state. -/
def vanityStep (C : Crypto) (pre : Str) (st : VanityState) : VanityStep → Option VanityState
  | .work i =>
    match st.workers[i]? with
    | none => none
    | some w => workStep st i w
  | .draw i secret =>
    match st.workers[i]? with
    | none => none
    | some w => drawStep C pre st i secret w
  | .look => lookStep st
  | .get j => getStep st j

/-- A sequence of steps; `none` if one of them is not possible. -/
def vanityRun (C : Crypto) (pre : Str) : VanityState → List VanityStep → Option VanityState
  | st, [] => some st
  | st, e :: es =>
    match vanityStep C pre st e with
    | none => none
    | some st' => vanityRun C pre st' es

/-- bit/keygen.py:63: the text of the WIF that is printed for a secret. -/
def reportedWif (C : Crypto) (secret : Bytes) : Str := bytesToWif C secret .main false

end Bit
