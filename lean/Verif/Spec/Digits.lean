import Verif.Model.Digits
/-
What C94 speaks about: what happened in a thread, and how many digits its decimal numbers have.
-/
namespace Bit.Spec

/-- The network that `connect_to_node(…, testnet)` is for. -/
def netOf (testnet : Bool) : Net := if testnet then .test else .main

/-- At some point a balance was asked for on a network that a node had been connected for before. -/
def NodeBalance (calls : List ThreadCall) : Prop :=
  ∃ before n testnet between o address rest,
    calls = before ++ .connect n testnet :: (between ++ .balance o (netOf testnet) address :: rest)

/-- The digits the thread calculates with: nine after such a query, 28 without one. -/
def CalculatesWith (calls : List ThreadCall) (P : Nat) : Prop := (NodeBalance calls ∧ P = 9) ∨ (¬ NodeBalance calls ∧ P = 28)

/-- The last node connected for the network has the number `n`. -/
def ConnectedTo (net : Net) (n : Nat) (calls : List ThreadCall) : Prop :=
  ∃ before testnet rest, calls = before ++ .connect n testnet :: rest ∧ netOf testnet = net ∧
    ∀ m t, ThreadCall.connect m t ∈ rest → netOf t ≠ net

end Bit.Spec
