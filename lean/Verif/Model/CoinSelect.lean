import Verif.Model.Unspent
import Verif.Model.Tx
import Verif.Model.Keys
/-
Model of `select_coins` (/repo/bit/transaction.py:202-331).

Numbers: amounts, target and fee rate are integers. Sizes are multiples of 1/4 (floats in Python), so
the model computes effective values multiplied by four; this is exact as long as Python's floats are
(below 2^51). The outcome of `randint(0, 1)` in the k-th call of `branch_and_bound` is `flips k`; the
outcome of `shuffle` is a function `shuffle` on lists.
-/
namespace Bit

/-- bit/transaction.py:232. -/
def bnbTries : Nat := 1000000

/-- bit/transaction.py:237-295 `branch_and_bound`. `rest` is `sorted_unspents[d:]`, `eff4` is four
times `effective_value`, `target4` four times `target_to_match` and `range4` four times `match_range`;
`used` is the number of earlier calls (`BNB_TRIES` is `tries - used`). The result carries the number
of calls made. Python's recursion limit is not modelled. -/
def branchAndBound (flips : Nat → Bool) (tries : Nat) (fee target4 range4 : Int) :
    List Unspent → List Unspent → Int → Nat → List Unspent × Nat
  | rest, selected, eff4, used =>
    if eff4 > target4 + range4 then ([], used + 1)
    else if eff4 ≥ target4 then (selected, used + 1)
    else if tries ≤ used + 1 then ([], used + 1)
    else
      match rest with
      | [] => ([], used + 1)
      | u :: rest =>
        let eff4' := eff4 + 4 * u.amount - fee * u.vsize4
        if flips (used + 1) then
          let withThis := branchAndBound flips tries fee target4 range4 rest (selected ++ [u]) eff4'
            (used + 1)
          if withThis.1 ≠ [] then withThis
          else branchAndBound flips tries fee target4 range4 rest selected eff4 withThis.2
        else
          let withoutThis := branchAndBound flips tries fee target4 range4 rest selected eff4 (used + 1)
          if withoutThis.1 ≠ [] then withoutThis
          else branchAndBound flips tries fee target4 range4 rest (selected ++ [u]) eff4' withoutThis.2

/-- `sum(u.amount for u in coins)` -/
def sumAmount (coins : List Unspent) : Int := (coins.map Unspent.amount).sum

/-- four times `sum(u.vsize for u in coins)` -/
def sumVsize4 (coins : List Unspent) : Nat := (coins.map Unspent.vsize4).sum

/-- bit/transaction.py:318-321: the fee for the coins selected so far. -/
def drawFee (fee : Int) (outputSize : List Nat) (absoluteFee : Bool) (coins : List Unspent) : Int :=
  let estimated := estimateTxFee (sumVsize4 coins) coins.length outputSize.sum outputSize.length fee
    (coins.any fun u => u.segwit = some true)
  if absoluteFee then fee else estimated

/-- bit/transaction.py:316-329, the `while ... else` loop. The exception message computes
`target + min_change + estimated_fee`; `estimated_fee` is unbound if the loop body never ran. -/
def drawLoop (target fee : Int) (outputSize : List Nat) (minChange : Int)
    (absoluteFee consolidate : Bool) : List Unspent → List Unspent → Py (List Unspent × Int)
  | [], selected => if selected.isEmpty then .error .unboundLocalError else .error .insufficientFunds
  | u :: unspents, selected =>
    let selected := selected ++ [u]
    let remaining := sumAmount selected - target - drawFee fee outputSize absoluteFee selected
    if remaining ≥ minChange ∧ (¬ consolidate ∨ unspents.length = 0) then .ok (selected, remaining)
    else drawLoop target fee outputSize minChange absoluteFee consolidate unspents selected

/-- bit/transaction.py:202-331 `select_coins`. Line 235: `COST_OF_OVERHEAD` leaves out the last output
size. Lines 303-309: Branch-and-Bound; 311-329: fallback. -/
def selectCoins (flips : Nat → Bool) (shuffle : List Unspent → List Unspent) (target fee : Int)
    (outputSize : List Nat) (minChange : Int) (absoluteFee consolidate : Bool)
    (unspents : List Unspent) : Py (List Unspent × Int) :=
  let costOfOverhead : Int := (8 + outputSize.dropLast.sum + 1 : Nat) * fee
  let sortedUnspents := pySorted (fun u v => v.amount ≤ u.amount) unspents
  let selected :=
    if ¬ consolidate ∧ ¬ absoluteFee then
      (branchAndBound flips bnbTries fee (4 * (target + costOfOverhead)) (4 * (148 * fee + 34 * fee))
        sortedUnspents [] 0 0).1
    else []
  if selected = [] then
    drawLoop target fee outputSize minChange absoluteFee consolidate
      (if consolidate then unspents else shuffle unspents) []
  else .ok (selected, 0)

end Bit
