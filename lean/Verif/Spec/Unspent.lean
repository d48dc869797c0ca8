import Verif.Model.Unspent
/-
Specification of the kinds of unspents: name, witness flag and default size (in quarters of a virtual
byte), and of what a history of calls asks for.
-/
namespace Bit.Spec

/-- The eight kinds. -/
def kinds : List (Str × Option Bool × Nat) :=
  [("unknown".toList, none, 720), ("p2pkh-uncompressed".toList, some false, 720),
   ("p2pkh".toList, some false, 592), ("p2sh".toList, some false, 1192),
   ("np2wkh".toList, some true, 364), ("np2wsh".toList, some true, 560),
   ("p2wkh".toList, some true, 272), ("p2wsh".toList, some true, 420)]

/-- The kind meant by a name: an unheard-of name means the first one, `unknown`. -/
def kindOf (name : Str) : Str × Option Bool × Nat :=
  (kinds.find? fun k => k.1 = name).getD ("unknown".toList, none, 720)

/-- A call that changes an unspent. -/
inductive Call
  | setType (name : Str) (vsize4 : Nat)
  | optInForRBF
  deriving DecidableEq

/-- The last requested name and size, starting from those of the constructor. -/
def lastRequest (first : Str × Nat) : List Call → Str × Nat
  | [] => first
  | .setType name vsize4 :: calls => lastRequest (name, vsize4) calls
  | .optInForRBF :: calls => lastRequest first calls

/-- The sequence number after the calls. -/
def lastSequence (first : Int) (calls : List Call) : Int :=
  if Call.optInForRBF ∈ calls then min first 4294967293 else first

/-- Type, flag and size agree. -/
structure Consistent (u : Unspent) : Prop where
  kind : ∃ size, (u.type, u.segwit, size) ∈ kinds
  size : u.vsize4 ≠ 0

end Bit.Spec
