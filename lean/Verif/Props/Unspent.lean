import Verif.Spec.Unspent
import Mathlib.Order.Lattice
import Mathlib.Order.MinMax
/-
C50: dictionaries of unspents, and consistency of type, witness flag and size.
-/
namespace Bit
open Spec (Call kindOf lastRequest lastSequence Consistent)

/-- The effect of one call. -/
def applyCall (u : Unspent) : Call → Unspent
  | .setType name vsize4 => u.setType name vsize4
  | .optInForRBF => u.optInForRBF

/-- The kinds table of the model is the one of the specification. -/
theorem withType_spec (u : Unspent) (name : Str) (v : Nat) :
    u.withType name v = { u with
      type := (kindOf name).1, segwit := (kindOf name).2.1
      vsize4 := if v ≠ 0 then v else (kindOf name).2.2 } := by
  by_cases h1 : name = "unknown".toList
  · subst h1; rfl
  by_cases h2 : name = "p2pkh-uncompressed".toList
  · subst h2; rfl
  by_cases h3 : name = "p2pkh".toList
  · subst h3; rfl
  by_cases h4 : name = "p2sh".toList
  · subst h4; rfl
  by_cases h5 : name = "np2wkh".toList
  · subst h5; rfl
  by_cases h6 : name = "np2wsh".toList
  · subst h6; rfl
  by_cases h7 : name = "p2wkh".toList
  · subst h7; rfl
  by_cases h8 : name = "p2wsh".toList
  · subst h8; rfl
  have e1 : unspentTypes name = none := by
    unfold unspentTypes
    rw [if_neg h1, if_neg h2, if_neg h3, if_neg h4, if_neg h5, if_neg h6, if_neg h7, if_neg h8]
  have e2 : kindOf name = ("unknown".toList, none, 720) := by
    have : (Spec.kinds.find? fun k => k.1 = name) = none := by
      rw [List.find?_eq_none]
      intro k hk he
      have he : k.1 = name := of_decide_eq_true he
      unfold Spec.kinds at hk
      rw [List.mem_cons, List.mem_cons, List.mem_cons, List.mem_cons, List.mem_cons, List.mem_cons,
        List.mem_cons, List.mem_cons] at hk
      rcases hk with h | h | h | h | h | h | h | h | h
      · exact h1 (by rw [← he, h])
      · exact h2 (by rw [← he, h])
      · exact h3 (by rw [← he, h])
      · exact h4 (by rw [← he, h])
      · exact h5 (by rw [← he, h])
      · exact h6 (by rw [← he, h])
      · exact h7 (by rw [← he, h])
      · exact h8 (by rw [← he, h])
      · cases h
    unfold kindOf
    rw [this]
    rfl
  rw [e2]
  unfold Unspent.withType
  rw [e1]

theorem kindOf_mem (name : Str) : ((kindOf name).1, (kindOf name).2.1, (kindOf name).2.2) ∈ Spec.kinds := by
  unfold kindOf
  cases h : Spec.kinds.find? fun k => k.1 = name with
  | none => exact List.mem_cons_self
  | some k => exact List.mem_of_find?_eq_some h

theorem kinds_size : ∀ k ∈ Spec.kinds, k.2.2 ≠ 0 := by decide

theorem kinds_self : ∀ k ∈ Spec.kinds, kindOf k.1 = k := by decide

/-- C50. After construction and any history of re-typing and replace-by-fee calls: the kind is the one
last asked for, `unknown` if there is no such kind; the witness flag is the one of that kind; the size
is the one last given or, if none (or zero) was given with the last request, the default of the kind;
the sequence number is capped once replace-by-fee was asked for; nothing else changes. -/
theorem C50_history (amount confirmations : Int) (script txid : Str) (txindex : Int) (type : Str)
    (vsize4 : Nat) (segwit : Option Bool) (sequence : Int) (calls : List Call) :
    calls.foldl applyCall
        (mkUnspent amount confirmations script txid txindex type vsize4 segwit sequence) =
      { amount := amount, confirmations := confirmations, script := script, txid := txid,
        txindex := txindex
        type := (kindOf (lastRequest (type, vsize4) calls).1).1
        segwit := (kindOf (lastRequest (type, vsize4) calls).1).2.1
        vsize4 := if (lastRequest (type, vsize4) calls).2 ≠ 0 then (lastRequest (type, vsize4) calls).2
          else (kindOf (lastRequest (type, vsize4) calls).1).2.2
        sequence := lastSequence sequence calls } := by
  induction calls generalizing type vsize4 sequence with
  | nil =>
    rw [List.foldl_nil, mkUnspent, withType_spec]
    rfl
  | cons c calls ih =>
    cases c with
    | setType name v =>
      have e : applyCall (mkUnspent amount confirmations script txid txindex type vsize4 segwit sequence)
          (.setType name v) = mkUnspent amount confirmations script txid txindex name v segwit sequence := by
        simp only [applyCall, Unspent.setType, mkUnspent, withType_spec]
      rw [List.foldl_cons, e, ih]
      have : lastSequence sequence (.setType name v :: calls) = lastSequence sequence calls := by
        unfold lastSequence; simp
      rw [this]
      rfl
    | optInForRBF =>
      have e : applyCall (mkUnspent amount confirmations script txid txindex type vsize4 segwit sequence)
          .optInForRBF = mkUnspent amount confirmations script txid txindex type vsize4 segwit
            (min sequence 4294967293) := by
        simp only [applyCall, Unspent.optInForRBF, mkUnspent, withType_spec]
        split
        · rw [min_eq_right (by omega)]
        · rw [min_eq_left (by omega)]
      rw [List.foldl_cons, e, ih]
      have : lastSequence sequence (.optInForRBF :: calls) =
          lastSequence (min sequence 4294967293) calls := by
        unfold lastSequence; simp
      rw [this]
      rfl

/-- C50. Type, flag and size are consistent after every history. -/
theorem C50_consistent (amount confirmations : Int) (script txid : Str) (txindex : Int) (type : Str)
    (vsize4 : Nat) (segwit : Option Bool) (sequence : Int) (calls : List Call) :
    Consistent (calls.foldl applyCall
      (mkUnspent amount confirmations script txid txindex type vsize4 segwit sequence)) := by
  rw [C50_history]
  refine ⟨⟨_, kindOf_mem _⟩, ?_⟩
  dsimp only
  split
  · assumption
  · exact kinds_size _ (kindOf_mem _)

example : ([.setType "np2wkh".toList 0, .optInForRBF, .setType "p2tr".toList 0] : List Call).foldl applyCall
      (mkUnspent 5 1 [] [] 0 "p2sh".toList 77 none 4294967295) =
    { amount := 5, confirmations := 1, script := [], txid := [], txindex := 0
      type := "unknown".toList, vsize4 := 720, segwit := none, sequence := 4294967293 } := by decide

theorem mkUnspent_self {u : Unspent} (h : Consistent u) :
    mkUnspent u.amount u.confirmations u.script u.txid u.txindex u.type u.vsize4 u.segwit u.sequence = u := by
  obtain ⟨size, hk⟩ := h.kind
  rw [mkUnspent, withType_spec, kinds_self _ hk, if_pos h.size]

/-- C50. A dictionary with the nine attributes of a consistent unspent, in any order and with any
other entries, makes that unspent. -/
theorem C50_from_dict (u : Unspent) (h : Consistent u) (d : List (String × DictVal))
    (hd : ∀ attr ∈ ["amount", "confirmations", "script", "txid", "txindex", "type", "vsize", "segwit",
      "sequence"], d.lookup attr = u.toDict.lookup attr) :
    Unspent.fromDict d = .ok u := by
  unfold Unspent.fromDict
  rw [hd "amount" (by decide), hd "confirmations" (by decide), hd "script" (by decide),
    hd "txid" (by decide), hd "txindex" (by decide), hd "type" (by decide), hd "vsize" (by decide),
    hd "segwit" (by decide), hd "sequence" (by decide)]
  exact congrArg Except.ok (mkUnspent_self h)

/-- C50. Turning an unspent into a dictionary and back gives the same unspent, whatever happened to it
before. -/
theorem C50_roundtrip (amount confirmations : Int) (script txid : Str) (txindex : Int) (type : Str)
    (vsize4 : Nat) (segwit : Option Bool) (sequence : Int) (calls : List Call) (u : Unspent)
    (hu : u = calls.foldl applyCall
      (mkUnspent amount confirmations script txid txindex type vsize4 segwit sequence)) :
    Unspent.fromDict u.toDict = .ok u := by
  subst hu
  exact C50_from_dict _ (C50_consistent ..) _ (fun _ _ => rfl)

/-- C50. A missing attribute is a `KeyError`. -/
theorem C50_missing (d : List (String × DictVal)) (attr : String)
    (hattr : attr ∈ ["amount", "confirmations", "script", "txid", "txindex", "type", "vsize", "segwit",
      "sequence"]) (h : d.lookup attr = none) : Unspent.fromDict d = .error .keyError := by
  unfold Unspent.fromDict
  simp only [List.mem_cons, List.not_mem_nil, or_false] at hattr
  rcases hattr with rfl | rfl | rfl | rfl | rfl | rfl | rfl | rfl | rfl <;> rw [h] <;>
    (split <;> simp_all)

example : Unspent.fromDict (mkUnspent 5 1 [] [] 0 "p2sh".toList 77 none 4294967295).toDict.tail
    = .error .keyError := by decide

/-- C50. The flag is never taken from the dictionary: it is the one of the type. -/
theorem C50_flag_from_type (d : List (String × DictVal)) (u : Unspent) (h : Unspent.fromDict d = .ok u) :
    Consistent u ∧ ∃ name, d.lookup "type" = some (.str name) ∧ u.type = (kindOf name).1 ∧
      u.segwit = (kindOf name).2.1 := by
  unfold Unspent.fromDict at h
  split at h
  · rename_i a c s t i y v f q _ _ _ _ _ hy _ _ _
    injection h with h
    have e := C50_history a c s t i y v f q []
    have hc := C50_consistent a c s t i y v f q []
    simp only [List.foldl_nil] at e hc
    rw [h] at e hc
    refine ⟨hc, y, hy, ?_, ?_⟩
    · rw [e]; rfl
    · rw [e]; rfl
  · cases h
  · cases h

example : ∃ u, Unspent.fromDict [("amount", .int 1), ("confirmations", .int 1), ("script", .str []),
    ("txid", .str []), ("txindex", .int 0), ("type", .str "p2pkh".toList), ("vsize", .size 0),
    ("segwit", .flag (some true)), ("sequence", .int 0)] = .ok u ∧ u.segwit = some false := by
  refine ⟨_, rfl, rfl⟩

/-- C50. Two unspents are equal exactly when they agree on everything but the confirmations, the kind and the size. -/
theorem C50_equal (u v : Unspent) : u.eq v = true ↔
    { u with confirmations := v.confirmations, type := v.type, vsize4 := v.vsize4 } = v := by
  obtain ⟨a, c, s, t, i, y, z, f, q⟩ := u
  obtain ⟨a', c', s', t', i', y', z', f', q'⟩ := v
  simp only [Unspent.eq, Unspent.mk.injEq, decide_eq_true_eq, true_and]

example : (mkUnspent 5 1 [] [] 0 "p2pkh".toList 0 none 4294967295).eq
      (mkUnspent 5 9 [] [] 0 "p2sh".toList 40 none 4294967295) = true ∧
    (mkUnspent 5 1 [] [] 0 "p2pkh".toList 0 none 4294967295).eq
      (mkUnspent 5 1 [] [] 0 "p2pkh".toList 0 none 4294967293) = false := by decide

/-- C50 (limitation). An unspent whose flag was assigned by hand does not survive the round trip. -/
theorem C50_assigned_flag_lost : ∃ u v : Unspent, Unspent.fromDict u.toDict = .ok v ∧
    u.segwit = some true ∧ v.segwit = some false ∧ v.eq u = false := by
  refine ⟨{ mkUnspent 5 1 [] [] 0 "p2pkh".toList 0 none 4294967295 with segwit := some true },
    mkUnspent 5 1 [] [] 0 "p2pkh".toList 0 none 4294967295, ?_⟩
  decide

end Bit
