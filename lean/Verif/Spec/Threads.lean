import Verif.Model.Threads
/-
What the calls of several threads show to an observer: when each call begins, the answers and failures of its requests,
and when it returns. Nothing here mentions the variables of the caches.
-/
namespace Bit.Spec

/-- What was seen in a run, with the times. -/
abbrev Log := List (Int × Event)

/-- The call `i` has asked the server. -/
def Asked (log : Log) (i : Nat) : Prop :=
  (∃ t v, (t, .answered i v) ∈ log) ∨ ∃ t e, (t, .failed i e) ∈ log

/-- `v` is what the server answered to a call of the kind `k`. -/
def AnswerOf {κ : Type} (kind : Nat → κ) (log : Log) (k : κ) (v : Int) : Prop :=
  ∃ j, kind j = k ∧ ∃ t, (t, .answered j v) ∈ log

/-- `v` is what the server answered to a call of the kind `k` that had not returned before the time `s`. -/
def AnswerSince {κ : Type} (kind : Nat → κ) (log : Log) (k : κ) (s v : Int) : Prop :=
  ∃ j, kind j = k ∧ (∃ t, (t, .answered j v) ∈ log) ∧ ∀ t r, (t, .returned j r) ∈ log → s ≤ t

/-- No call of the kind `k` that had got an answer has returned before the time `s`. -/
def NoAnswerBefore {κ : Type} (kind : Nat → κ) (log : Log) (k : κ) (s : Int) : Prop :=
  ∀ j v t t' r, kind j = k → (t, .answered j v) ∈ log → (t', .returned j r) ∈ log → s ≤ t'

/-- The number of steps that a schedule gives to the call `i`. -/
def turns (i : Nat) (schedule : List Action) : Nat :=
  schedule.countP fun a => match a with | .move j _ => decide (j = i) | _ => false

end Bit.Spec
