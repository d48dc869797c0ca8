import Verif.Model.Wallet
/-
Lists and coins as Python objects. `Model/Wallet` treats lists of unspents as values. In Python the list given to
`create_transaction` or `prepare_transaction` is changed in place (`unspents[:] = ...`, bit/transaction.py:427), the list
that `get_unspents` returns is the attribute of the key itself (bit/wallet.py:234-243), and `replace_by_fee` writes into
the unspents (bit/transaction.py:437-439). Here unspents and lists are objects with numbers for their identity.
-/
namespace Bit

section
variable (coin : Nat → Unspent)

/-- bit/transaction.py:237-295 `branch_and_bound` on objects: `branchAndBound` of `Model/CoinSelect` with the objects in
place of their contents. -/
def refBranchAndBound (flips : Nat → Bool) (tries : Nat) (fee target4 range4 : Int) :
    List Nat → List Nat → Int → Nat → List Nat × Nat
  | rest, selected, eff4, used =>
    if eff4 > target4 + range4 then ([], used + 1)
    else if eff4 ≥ target4 then (selected, used + 1)
    else if tries ≤ used + 1 then ([], used + 1)
    else
      match rest with
      | [] => ([], used + 1)
      | u :: rest =>
        let eff4' := eff4 + 4 * (coin u).amount - fee * (coin u).vsize4
        if flips (used + 1) then
          let withThis := refBranchAndBound flips tries fee target4 range4 rest (selected ++ [u]) eff4' (used + 1)
          if withThis.1 ≠ [] then withThis
          else refBranchAndBound flips tries fee target4 range4 rest selected eff4 withThis.2
        else
          let withoutThis := refBranchAndBound flips tries fee target4 range4 rest selected eff4 (used + 1)
          if withoutThis.1 ≠ [] then withoutThis
          else refBranchAndBound flips tries fee target4 range4 rest (selected ++ [u]) eff4' withoutThis.2

/-- bit/transaction.py:316-329, the `while ... else` loop on objects. -/
def refDrawLoop (target fee : Int) (outputSize : List Nat) (minChange : Int)
    (absoluteFee consolidate : Bool) : List Nat → List Nat → Py (List Nat × Int)
  | [], selected => if selected.isEmpty then .error .unboundLocalError else .error .insufficientFunds
  | u :: unspents, selected =>
    let selected := selected ++ [u]
    let remaining := sumAmount (selected.map coin) - target - drawFee fee outputSize absoluteFee (selected.map coin)
    if remaining ≥ minChange ∧ (¬ consolidate ∨ unspents.length = 0) then .ok (selected, remaining)
    else refDrawLoop target fee outputSize minChange absoluteFee consolidate unspents selected

/-- bit/transaction.py:202-331 `select_coins` on objects. -/
def refSelectCoins (flips : Nat → Bool) (shuffle : List Nat → List Nat) (target fee : Int)
    (outputSize : List Nat) (minChange : Int) (absoluteFee consolidate : Bool)
    (unspents : List Nat) : Py (List Nat × Int) :=
  let costOfOverhead : Int := (8 + outputSize.dropLast.sum + 1 : Nat) * fee
  let sortedUnspents := pySorted (fun u v => (coin v).amount ≤ (coin u).amount) unspents
  let selected :=
    if ¬ consolidate ∧ ¬ absoluteFee then
      (refBranchAndBound coin flips bnbTries fee (4 * (target + costOfOverhead)) (4 * (148 * fee + 34 * fee))
        sortedUnspents [] 0 0).1
    else []
  if selected = [] then
    refDrawLoop coin target fee outputSize minChange absoluteFee consolidate
      (if consolidate then unspents else shuffle unspents) []
  else .ok (selected, 0)

end

/-- A key object: what signs, which list object its attribute `unspents` is, and `balance`. -/
structure KeyObj where
  signer : Signer
  list : Nat
  balance : Int

/-- All objects of a program: the unspents (the numbers below `coins` are in use), the lists of unspents, and the keys. -/
structure Session where
  coin : Nat → Unspent
  coins : Nat
  list : Nat → List Nat
  key : Nat → KeyObj

/-- As `Env`; the shuffle acts on the objects. -/
structure RefEnv (Amount : Type) where
  conv : Amount → Py Int
  feeCached : Int
  flips : Nat → Bool
  shuffle : List Nat → List Nat

namespace Session

/-- The contents of a list. -/
def contents (s : Session) (l : Nat) : List Unspent := (s.list l).map s.coin

/-- New unspents; their numbers are `s.coins`, `s.coins + 1`, ... -/
def alloc (s : Session) (us : List Unspent) : Session :=
  { s with coin := fun r => if h : s.coins ≤ r ∧ r - s.coins < us.length then us[r - s.coins]'h.2 else s.coin r
           coins := s.coins + us.length }

/-- `l[:] = refs` -/
def setList (s : Session) (l : Nat) (refs : List Nat) : Session :=
  { s with list := fun x => if x = l then refs else s.list x }

/-- Assignment to a key object. -/
def setKey (s : Session) (k : Nat) (o : KeyObj) : Session := { s with key := fun x => if x = k then o else s.key x }

/-- `get_unspents` (bit/wallet.py:229-243, 626-642, 1060-1078, 1383-1406): the answers are new objects; the list of the
key is filled in place and is the result. -/
def getUnspents (C : Crypto) (ask : Ask) (s : Session) (k : Nat) : Session × Py Nat :=
  let o := s.key k
  match o.signer.kinds C with
  | .error e => (s, .error e)
  | .ok (legacy, segwit) =>
    match o.signer.address C with
    | .error e => (s, .error e)
    | .ok address =>
      match retype legacy (ask address) with
      | .error e => (s, .error e)
      | .ok us =>
        let s₁ := (s.alloc us).setList o.list (List.range' s.coins us.length)
        match o.signer.segwitAddress C with
        | .error e => (s₁, .error e)
        | .ok none => (s₁.setKey k { o with balance := (us.map Unspent.amount).sum }, .ok o.list)
        | .ok (some address) =>
          match retype segwit (ask address) with
          | .error e => (s₁, .error e)
          | .ok us' =>
            let s₂ := (s₁.alloc us').setList o.list (s₁.list o.list ++ List.range' s₁.coins us'.length)
            (s₂.setKey k { o with balance := ((s₂.contents o.list).map Unspent.amount).sum }, .ok o.list)

section
variable {Amount : Type} (C : Crypto) (env : RefEnv Amount) (args : TxArgs Amount)

/-- `fee or get_fee_cached()` (bit/wallet.py:312, 446). -/
def feeOf : Int :=
  match args.fee with
  | some fee => if fee ≠ 0 then fee else env.feeCached
  | none => env.feeCached

/-- `unspent.opt_in_for_RBF()` for all objects of a list (bit/transaction.py:437-439). -/
def optIn (s : Session) (refs : List Nat) : Session :=
  { s with coin := fun r => if r ∈ refs then (s.coin r).optInForRBF else s.coin r }

/-- bit/transaction.py:378-456 `sanitize_tx_data` for the list object `l`: all objects afterwards, and the outputs. The
first result of the Python function is the list `l` itself. -/
def sanitize (s : Session) (l : Nat) (leftover : Option Str) (version : Net) : Session × Py (List (Dest × Int)) :=
  match convertOutputs env.conv args.outputs with
  | .error e => (s, .error e)
  | .ok outputs =>
    if (s.list l).isEmpty then (s, .error .valueError)
    else
      match messageChunks args.message args.messageIsHex with
      | .error e => (s, .error e)
      | .ok chunks =>
        match outputSizes C outputs with
        | .error e => (s, .error e)
        | .ok sizes =>
          match leftover with
          | none => (s, .error .typeError)
          | some leftover =>
            match outputSizeOf C leftover with
            | .error e => (s, .error e)
            | .ok leftoverSize =>
              match refSelectCoins s.coin env.flips env.shuffle (outputs.map Prod.snd).sum (feeOf env args)
                  (sizes ++ [chunks.length * (80 + 9)] ++ [leftoverSize]) 0 args.absoluteFee args.combine (s.list l) with
              | .error e => (s, .error e)
              | .ok (sel, remaining) =>
                let s := s.setList l sel
                let s := if args.replaceByFee then s.optIn (s.list l) else s
                let outputs := if remaining > 0 then outputs ++ [(leftover, remaining)] else outputs
                match checkVersions C version outputs with
                | .error e => (s, .error e)
                | .ok () => (s, .ok (outputs.map (fun o => (.str o.1, o.2)) ++ chunks.map (fun c => (c, 0))))

/-- bit/wallet.py:301-304: `unspents or self.get_unspents()`; `none` is `None`. -/
def source (ask : Ask) (s : Session) (k : Nat) (given : Option Nat) : Session × Py Nat :=
  match given with
  | none => s.getUnspents C ask k
  | some l => if (s.list l).isEmpty then s.getUnspents C ask k else (s, .ok l)

/-- `create_transaction` (bit/wallet.py:255-322, 654-721, 1090-1157, 1418-1485) of the key `k` with the list object
`given` as `unspents`. -/
def create (ask : Ask) (s : Session) (k : Nat) (given : Option Nat) : Session × Py Str :=
  match s.source C ask k given with
  | (s, .error e) => (s, .error e)
  | (s, .ok l) =>
    match returnAddress C (s.key k).signer (s.contents l) with
    | .error e => (s, .error e)
    | .ok default =>
      match s.sanitize C env args l (leftoverOf args default) (s.key k).signer.net with
      | (s, .error e) => (s, .error e)
      | (s, .ok outs) => (s, createNewTransaction C (s.key k).signer (s.contents l) outs)

/-- The objects after `prepare_transaction` (bit/wallet.py:390-458, 789-857, 1160-1228, 1488-1556) with the list object
`given`; its result is left to `prepareTransaction` of `Model/Wallet`. Unspents fetched from the network are in no list of
the program (bit/wallet.py:444). -/
def prepare (s : Session) (net : Net) (address : Str) (given : Option Nat) : Session :=
  match given with
  | none => s
  | some l => if (s.list l).isEmpty then s else (s.sanitize C env args l (leftoverOf args (some address)) net).1

end

/-- One step of a program that uses the package. -/
inductive Step (Amount : Type)
  /-- `Unspent(...)` -/
  | newCoin (u : Unspent)
  /-- a list is made or filled -/
  | newList (l : Nat) (refs : List Nat)
  /-- `key.unspents = l` -/
  | assign (k l : Nat)
  /-- `key.get_unspents()` -/
  | refresh (k : Nat) (ask : Ask)
  /-- `key.create_transaction(..., unspents=l)` -/
  | create (k : Nat) (env : RefEnv Amount) (args : TxArgs Amount) (ask : Ask) (l : Option Nat)
  /-- `Key.prepare_transaction(address, ..., unspents=l)` -/
  | prepare (net : Net) (address : Str) (env : RefEnv Amount) (args : TxArgs Amount) (l : Option Nat)

/-- The objects after a step. -/
def step {Amount : Type} (C : Crypto) (s : Session) : Step Amount → Session
  | .newCoin u => s.alloc [u]
  | .newList l refs => s.setList l refs
  | .assign k l => s.setKey k { s.key k with list := l }
  | .refresh k ask => (s.getUnspents C ask k).1
  | .create k env args ask l => (s.create C env args ask k l).1
  | .prepare net address env args l => s.prepare C env args net address l

/-- The objects after a history. -/
def run {Amount : Type} (C : Crypto) (s : Session) : List (Step Amount) → Session
  | [] => s
  | c :: cs => (s.step C c).run C cs

end Session
end Bit
