import Verif.Spec.Interp
import Verif.Lemmas.Bytes
import Mathlib.Data.List.Forall2
/-
Helper lemmas: the declarative description of a spending input (`Spec.Spends`) implies that the script
interpreter (`Spec.accepts`) accepts it.
-/
namespace Spec

/-! ## The loop of OP_CHECKMULTISIG -/

theorem matchSigs_tail_cons (check : List UInt8 → List UInt8 → Bool) : ∀ (keys : List (List UInt8)),
    (∀ sig sigs, matchSigs check keys (sig :: sigs) = true → matchSigs check keys sigs = true) ∧
    (∀ key sigs, matchSigs check keys sigs = true → matchSigs check (key :: keys) sigs = true) := by
  intro keys
  induction keys with
  | nil =>
    refine ⟨fun sig sigs h => by simp [matchSigs] at h, ?_⟩
    intro key sigs h
    cases sigs with
    | nil => simp [matchSigs]
    | cons sig sigs => simp [matchSigs] at h
  | cons k keys ih =>
    have A : ∀ sig sigs, matchSigs check (k :: keys) (sig :: sigs) = true →
        matchSigs check (k :: keys) sigs = true := by
      intro sig sigs h
      rw [matchSigs] at h
      apply ih.2
      split at h
      · exact h
      · exact ih.1 _ _ h
    refine ⟨A, ?_⟩
    intro key sigs h
    cases sigs with
    | nil => simp [matchSigs]
    | cons sig sigs =>
      rw [matchSigs]
      split
      · exact A _ _ h
      · exact h

theorem matchSigs_of_forall {check : List UInt8 → List UInt8 → Bool} {used keys : List (List UInt8)}
    (hsub : used.Sublist keys) : ∀ {sigs : List (List UInt8)},
    List.Forall₂ (fun sig key => check sig key = true) sigs used → matchSigs check keys sigs = true := by
  induction hsub with
  | slnil =>
    intro sigs h
    cases h
    rfl
  | cons key _ ih =>
    intro sigs h
    exact (matchSigs_tail_cons check _).2 _ _ (ih h)
  | cons_cons key _ ih =>
    intro sigs h
    cases h with
    | cons h1 h2 =>
      rw [matchSigs, if_pos h1]
      exact ih h2

theorem checkSig_of_ok {H : Hashing} {message sig key : List UInt8} (h : SigOk H message sig key) :
    checkSig H message sig key = true := by
  obtain ⟨der, rfl, -, hv⟩ := h
  simp [checkSig, hv]

theorem SigOk.length_le {H : Hashing} {message sig key : List UInt8} (h : SigOk H message sig key) :
    sig.length ≤ 73 := by
  obtain ⟨der, rfl, hl, -⟩ := h
  simp
  omega

theorem sigs_length_le {H : Hashing} {message : List UInt8} {sigs used : List (List UInt8)}
    (h : List.Forall₂ (fun sig key => SigOk H message sig key) sigs used) : ∀ sig ∈ sigs, sig.length ≤ 73 := by
  induction h with
  | nil => simp
  | cons h1 _ ih =>
    intro sig hs
    rcases List.mem_cons.mp hs with rfl | hs
    · exact h1.length_le
    · exact ih sig hs

/-! ## Pushes -/

theorem splitOff_some {n : Nat} {s d rest : List UInt8} (h : splitOff n s = some (d, rest)) :
    s = d ++ rest ∧ d.length = n := by
  unfold splitOff at h
  split at h
  · simp only [Option.some.injEq, Prod.mk.injEq] at h
    obtain ⟨rfl, rfl⟩ := h
    refine ⟨(List.take_append_drop _ _).symm, ?_⟩
    rw [List.length_take]
    omega
  · cases h

theorem parsePush_length {s d rest : List UInt8} (h : parsePush s = some (d, rest)) :
    d.length + rest.length + 1 ≤ s.length := by
  cases s with
  | nil => simp [parsePush] at h
  | cons op s =>
    rw [parsePush] at h
    have key : ∀ k, ((splitOff k s).bind fun (l, s) => splitOff (leValue l) s) = some (d, rest) →
        d.length + rest.length + 1 ≤ (op :: s).length := by
      intro k hk
      rw [Option.bind_eq_some_iff] at hk
      obtain ⟨⟨l, s'⟩, h1, h2⟩ := hk
      obtain ⟨rfl, -⟩ := splitOff_some h1
      obtain ⟨rfl, -⟩ := splitOff_some h2
      simp only [List.length_append, List.length_cons]
      omega
    split at h
    · obtain ⟨rfl, -⟩ := splitOff_some h
      simp
    · split at h
      · exact key _ h
      · split at h
        · exact key _ h
        · split at h
          · exact key _ h
          · cases h

theorem parsePushes_length : ∀ (n : Nat) {s rest : List UInt8} {ds : List (List UInt8)},
    parsePushes n s = (ds, rest) → ds.length + rest.length ≤ s.length
  | 0, s, rest, ds, h => by
    simp only [parsePushes, Prod.mk.injEq] at h
    obtain ⟨rfl, rfl⟩ := h
    simp
  | n + 1, s, rest, ds, h => by
    rw [parsePushes] at h
    cases hp : parsePush s with
    | none =>
      rw [hp] at h
      simp only [Prod.mk.injEq] at h
      obtain ⟨rfl, rfl⟩ := h
      simp
    | some p =>
      obtain ⟨d, r⟩ := p
      rw [hp] at h
      cases hq : parsePushes n r with
      | mk ds' rest' =>
        simp only [hq, Prod.mk.injEq] at h
        obtain ⟨rfl, rfl⟩ := h
        have h1 := parsePush_length hp
        have h2 := parsePushes_length n hq
        rw [List.length_cons]
        omega

theorem parsePushes_item_length : ∀ (n : Nat) {s rest : List UInt8} {ds : List (List UInt8)},
    parsePushes n s = (ds, rest) → ∀ d ∈ ds, d.length ≤ s.length
  | 0, s, rest, ds, h => by
    simp only [parsePushes, Prod.mk.injEq] at h
    obtain ⟨rfl, rfl⟩ := h
    simp
  | n + 1, s, rest, ds, h => by
    rw [parsePushes] at h
    cases hp : parsePush s with
    | none =>
      rw [hp] at h
      simp only [Prod.mk.injEq] at h
      obtain ⟨rfl, rfl⟩ := h
      simp
    | some p =>
      obtain ⟨d, r⟩ := p
      rw [hp] at h
      cases hq : parsePushes n r with
      | mk ds' rest' =>
        simp only [hq, Prod.mk.injEq] at h
        obtain ⟨rfl, rfl⟩ := h
        have h1 := parsePush_length hp
        intro x hx
        rcases List.mem_cons.mp hx with rfl | hx
        · omega
        · have := parsePushes_item_length n hq x hx
          omega

/-- A push takes at most five bytes besides the item. -/
theorem parsePush_size {s d rest : List UInt8} (h : parsePush s = some (d, rest)) :
    s.length ≤ d.length + rest.length + 5 := by
  cases s with
  | nil => simp [parsePush] at h
  | cons op s =>
    rw [parsePush] at h
    have key : ∀ k, k ≤ 4 → ((splitOff k s).bind fun (l, s) => splitOff (leValue l) s) = some (d, rest) →
        (op :: s).length ≤ d.length + rest.length + 5 := by
      intro k hk4 hk
      rw [Option.bind_eq_some_iff] at hk
      obtain ⟨⟨l, s'⟩, h1, h2⟩ := hk
      obtain ⟨rfl, hl⟩ := splitOff_some h1
      obtain ⟨rfl, -⟩ := splitOff_some h2
      simp only [List.length_append, List.length_cons]
      omega
    split at h
    · obtain ⟨rfl, -⟩ := splitOff_some h
      simp
    · split at h
      · exact key _ (by omega) h
      · split at h
        · exact key _ (by omega) h
        · split at h
          · exact key _ (by omega) h
          · cases h

theorem parsePushes_size {b : Nat} : ∀ (n : Nat) {s rest : List UInt8} {ds : List (List UInt8)},
    parsePushes n s = (ds, rest) → (∀ d ∈ ds, d.length ≤ b) → s.length ≤ ds.length * (b + 5) + rest.length
  | 0, s, rest, ds, h, _ => by
    simp only [parsePushes, Prod.mk.injEq] at h
    obtain ⟨rfl, rfl⟩ := h
    simp
  | n + 1, s, rest, ds, h, hb => by
    rw [parsePushes] at h
    cases hp : parsePush s with
    | none =>
      rw [hp] at h
      simp only [Prod.mk.injEq] at h
      obtain ⟨rfl, rfl⟩ := h
      simp
    | some p =>
      obtain ⟨d, r⟩ := p
      rw [hp] at h
      cases hq : parsePushes n r with
      | mk ds' rest' =>
        simp only [hq, Prod.mk.injEq] at h
        obtain ⟨rfl, rfl⟩ := h
        have h1 := parsePush_size hp
        have h2 := parsePushes_size n hq fun d hd => hb d (List.mem_cons_of_mem _ hd)
        have h3 := hb d List.mem_cons_self
        rw [List.length_cons, Nat.add_mul]
        omega

theorem evalSteps_pushes (H : Hashing) (check : List UInt8 → List UInt8 → Bool) :
    ∀ (n : Nat) {s rest : List UInt8} {ds : List (List UInt8)} (fuel ops : Nat) (stack : List (List UInt8)),
    parsePushes n s = (ds, rest) → (∀ d ∈ ds, d.length ≤ 520) → stack.length + ds.length ≤ 1000 →
    evalSteps H check (fuel + ds.length) s ops stack = evalSteps H check fuel rest ops (ds.reverse ++ stack)
  | 0, s, rest, ds, fuel, ops, stack, h, _, _ => by
    simp only [parsePushes, Prod.mk.injEq] at h
    obtain ⟨rfl, rfl⟩ := h
    simp
  | n + 1, s, rest, ds, fuel, ops, stack, h, hl, hd => by
    rw [parsePushes] at h
    cases hp : parsePush s with
    | none =>
      rw [hp] at h
      simp only [Prod.mk.injEq] at h
      obtain ⟨rfl, rfl⟩ := h
      simp
    | some p =>
      obtain ⟨d, r⟩ := p
      rw [hp] at h
      cases hq : parsePushes n r with
      | mk ds' rest' =>
        simp only [hq, Prod.mk.injEq] at h
        obtain ⟨rfl, rfl⟩ := h
        cases s with
        | nil => simp [parsePush] at hp
        | cons op s =>
          rw [List.length_cons] at hd
          rw [List.length_cons, ← Nat.add_assoc, evalSteps, hp]
          dsimp only
          rw [if_pos ⟨hl d List.mem_cons_self, by omega⟩,
            evalSteps_pushes H check n fuel ops (d :: stack) hq (fun x hx => hl x (List.mem_cons_of_mem _ hx))
              (by rw [List.length_cons]; omega)]
          simp

theorem evalSteps_pushes_or (H : Hashing) (check : List UInt8 → List UInt8 → Bool) :
    ∀ (n : Nat) {s rest : List UInt8} {ds : List (List UInt8)} (fuel ops : Nat) (stack : List (List UInt8)),
    parsePushes n s = (ds, rest) →
    evalSteps H check (fuel + ds.length) s ops stack = none ∨
    evalSteps H check (fuel + ds.length) s ops stack = evalSteps H check fuel rest ops (ds.reverse ++ stack)
  | 0, s, rest, ds, fuel, ops, stack, h => by
    simp only [parsePushes, Prod.mk.injEq] at h
    obtain ⟨rfl, rfl⟩ := h
    simp
  | n + 1, s, rest, ds, fuel, ops, stack, h => by
    rw [parsePushes] at h
    cases hp : parsePush s with
    | none =>
      rw [hp] at h
      simp only [Prod.mk.injEq] at h
      obtain ⟨rfl, rfl⟩ := h
      simp
    | some p =>
      obtain ⟨d, r⟩ := p
      rw [hp] at h
      cases hq : parsePushes n r with
      | mk ds' rest' =>
        simp only [hq, Prod.mk.injEq] at h
        obtain ⟨rfl, rfl⟩ := h
        cases s with
        | nil => simp [parsePush] at hp
        | cons op s =>
          rw [List.length_cons, ← Nat.add_assoc, evalSteps, hp]
          dsimp only
          by_cases hc : d.length ≤ 520 ∧ stack.length + 1 ≤ 1000
          · rw [if_pos hc]
            have := evalSteps_pushes_or H check n fuel ops (d :: stack) hq
            simpa using this
          · exact Or.inl (if_neg hc)

theorem pushOnly_pushes : ∀ (n : Nat) {s : List UInt8} {ds : List (List UInt8)} (fuel : Nat),
    parsePushes n s = (ds, []) → ds.length ≤ fuel → pushOnly fuel s = true
  | 0, s, ds, fuel, h, _ => by
    simp only [parsePushes, Prod.mk.injEq] at h
    obtain ⟨rfl, rfl⟩ := h
    cases fuel <;> rfl
  | n + 1, s, ds, fuel, h, hf => by
    rw [parsePushes] at h
    cases hp : parsePush s with
    | none =>
      rw [hp] at h
      simp only [Prod.mk.injEq] at h
      obtain ⟨rfl, rfl⟩ := h
      cases fuel <;> rfl
    | some p =>
      obtain ⟨d, r⟩ := p
      rw [hp] at h
      cases hq : parsePushes n r with
      | mk ds' rest' =>
        simp only [hq, Prod.mk.injEq] at h
        obtain ⟨rfl, rfl⟩ := h
        cases s with
        | nil => simp [parsePush] at hp
        | cons op s =>
          cases fuel with
          | zero => simp at hf
          | succ fuel =>
            rw [pushOnly, hp]
            exact pushOnly_pushes n fuel hq (by simpa using hf)

/-- A script that consists of data pushes leaves its items on the stack, the last one on top. -/
theorem evalScript_only_pushes (H : Hashing) (check : List UInt8 → List UInt8 → Bool) {n : Nat} {s : List UInt8}
    {ds : List (List UInt8)} (h : parsePushes n s = (ds, [])) (hl : ∀ d ∈ ds, d.length ≤ 520)
    (hn : ds.length ≤ 19) : evalScript H check s [] = some (ds.reverse ++ []) := by
  have hsize := parsePushes_size n h hl
  rw [List.length_nil, Nat.add_zero] at hsize
  rw [evalScript, if_pos (by omega)]
  have hlen := parsePushes_length n h
  rw [List.length_nil, Nat.add_zero] at hlen
  obtain ⟨k, hk⟩ := Nat.exists_eq_add_of_le' hlen
  rw [hk, evalSteps_pushes H check n k 0 [] h hl (by rw [List.length_nil]; omega)]
  cases k <;> rfl

theorem evalScript_only_pushes_or (H : Hashing) (check : List UInt8 → List UInt8 → Bool) {n : Nat} {s : List UInt8}
    {ds : List (List UInt8)} (h : parsePushes n s = (ds, [])) :
    evalScript H check s [] = none ∨ evalScript H check s [] = some (ds.reverse ++ []) := by
  rw [evalScript]
  split
  · have hlen := parsePushes_length n h
    rw [List.length_nil, Nat.add_zero] at hlen
    obtain ⟨k, hk⟩ := Nat.exists_eq_add_of_le' hlen
    rw [hk]
    refine (evalSteps_pushes_or H check n k 0 [] h).imp id ?_
    intro h
    rw [h]
    cases k <;> rfl
  · exact Or.inl rfl

theorem toNat_ofNat {n : Nat} (h : n < 256) : (UInt8.ofNat n).toNat = n := by
  simp
  omega

theorem parsePush_direct {d rest : List UInt8} (h : d.length ≤ 75) :
    parsePush (UInt8.ofNat d.length :: (d ++ rest)) = some (d, rest) := by
  rw [parsePush, toNat_ofNat (by omega), if_pos h, splitOff, if_pos (by simp)]
  simp

/-! ## The scripts -/

theorem eval_p2pkh (H : Hashing) (check : List UInt8 → List UInt8 → Bool) {sig key hash : List UInt8}
    (hh : H.hash160 key = hash) (h20 : hash.length = 20) (hc : check sig key = true) :
    evalScript H check (p2pkhScript hash) [key, sig] = some [[1]] := by
  have hl : (p2pkhScript hash).length = 21 + 1 + 1 + 1 + 1 := by simp [p2pkhScript, h20]
  have e : p2pkhScript hash = 0x76 :: 0xa9 :: UInt8.ofNat hash.length :: (hash ++ [0x88, 0xac]) := by
    simp [p2pkhScript]
  have p1 : ∀ s, parsePush (0x76 :: s) = none := fun s => rfl
  have p2 : ∀ s, parsePush (0xa9 :: s) = none := fun s => rfl
  have p3 : ∀ s, parsePush (0x88 :: s) = none := fun s => rfl
  have p4 : ∀ s, parsePush (0xac :: s) = none := fun s => rfl
  have c1 : ∀ s, opCost 0x76 s = 1 := fun s => rfl
  have c2 : ∀ s, opCost 0xa9 s = 1 := fun s => rfl
  have c3 : ∀ s, opCost 0x88 s = 1 := fun s => rfl
  have c4 : ∀ s, opCost 0xac s = 1 := fun s => rfl
  rw [evalScript, if_pos (by omega), hl, e, evalSteps, p1, c1]
  simp only [evalOp, if_true]
  rw [if_pos (by decide), if_pos (by simp), evalSteps, p2, c2]
  simp only [evalOp, if_true, if_neg (show ¬ ((0xa9 : UInt8) = 0x76) by decide)]
  rw [if_pos (by decide), if_pos (by simp), evalSteps, parsePush_direct (by omega)]
  dsimp only
  rw [if_pos ⟨by omega, by simp⟩, evalSteps, p3, c3]
  simp only [evalOp, if_true, if_neg (show ¬ ((0x88 : UInt8) = 0x76) by decide),
    if_neg (show ¬ ((0x88 : UInt8) = 0xa9) by decide), if_neg (show ¬ ((0x88 : UInt8) = 0x87) by decide),
    if_pos hh.symm]
  rw [if_pos (by decide), if_pos (by simp), evalSteps, p4, c4]
  simp only [evalOp, if_true, if_neg (show ¬ ((0xac : UInt8) = 0x76) by decide),
    if_neg (show ¬ ((0xac : UInt8) = 0xa9) by decide), if_neg (show ¬ ((0xac : UInt8) = 0x87) by decide),
    if_neg (show ¬ ((0xac : UInt8) = 0x88) by decide), hc, boolItem]
  rfl

theorem eval_p2sh (H : Hashing) (check : List UInt8 → List UInt8 → Bool) {redeem hash : List UInt8}
    (hh : H.hash160 redeem = hash) (h20 : hash.length = 20) (stack : List (List UInt8)) (hst : stack.length ≤ 900) :
    evalScript H check (p2shScript hash) (redeem :: stack) = some ([1] :: stack) := by
  have hl : (p2shScript hash).length = 20 + 1 + 1 + 1 := by simp [p2shScript, h20]
  have e : p2shScript hash = 0xa9 :: UInt8.ofNat hash.length :: (hash ++ [0x87]) := by
    simp [p2shScript]
  have p2 : ∀ s, parsePush (0xa9 :: s) = none := fun s => rfl
  have p3 : ∀ s, parsePush (0x87 :: s) = none := fun s => rfl
  have c2 : ∀ s, opCost 0xa9 s = 1 := fun s => rfl
  have c3 : ∀ s, opCost 0x87 s = 1 := fun s => rfl
  rw [evalScript, if_pos (by omega), hl, e, evalSteps, p2, c2]
  simp only [evalOp, if_true, if_neg (show ¬ ((0xa9 : UInt8) = 0x76) by decide)]
  rw [if_pos (by decide), if_pos (by rw [List.length_cons]; omega), evalSteps, parsePush_direct (by omega)]
  dsimp only
  rw [if_pos ⟨by omega, by rw [List.length_cons]; omega⟩, evalSteps, p3, c3]
  simp only [evalOp, if_true, if_neg (show ¬ ((0x87 : UInt8) = 0x76) by decide),
    if_neg (show ¬ ((0x87 : UInt8) = 0xa9) by decide), hh, beq_self_eq_true, boolItem]
  rw [if_pos (by decide), if_pos (by rw [List.length_cons]; omega)]
  rfl

theorem smallInt_some {op : UInt8} {m : Nat} (h : smallInt op = some m) :
    0x51 ≤ op.toNat ∧ op.toNat ≤ 0x60 ∧ m = op.toNat - 0x50 := by
  unfold smallInt at h
  split at h
  · rename_i h'
    injection h with h
    exact ⟨h'.1, h'.2, h.symm⟩
  · cases h

theorem step_smallInt (H : Hashing) (check : List UInt8 → List UInt8 → Bool) {op : UInt8} {m : Nat}
    (h : smallInt op = some m) (fuel : Nat) (s : List UInt8) (ops : Nat) (hops : ops ≤ 201)
    (stack : List (List UInt8)) (hst : stack.length + 1 ≤ 1000) :
    evalSteps H check (fuel + 1) (op :: s) ops stack = evalSteps H check fuel s ops ([UInt8.ofNat m] :: stack) := by
  obtain ⟨h1, h2, -⟩ := smallInt_some h
  have ne : ∀ b : UInt8, (b.toNat < 0x51 ∨ 0x60 < b.toNat) → op ≠ b := by
    intro b hb he
    subst he
    omega
  have hp : parsePush (op :: s) = none := by
    rw [parsePush, if_neg (by omega), if_neg (ne _ (by decide)), if_neg (ne _ (by decide)),
      if_neg (ne _ (by decide))]
  have hcost : opCost op stack = 0 := by rw [opCost.eq_def, if_pos h2]
  rw [evalSteps, hp]
  dsimp only
  rw [hcost, Nat.add_zero, if_pos hops]
  have he : evalOp H check op stack = some ([UInt8.ofNat m] :: stack) := by
    unfold evalOp
    rw [if_neg (ne _ (by decide)), if_neg (ne _ (by decide)), if_neg (ne _ (by decide)),
      if_neg (ne _ (by decide)), if_neg (ne _ (by decide)), if_neg (ne _ (by decide)), h]
    rfl
  rw [he]
  dsimp only
  rw [if_pos (by rw [List.length_cons]; omega)]

theorem step_smallInt_or (H : Hashing) (check : List UInt8 → List UInt8 → Bool) {op : UInt8} {m : Nat}
    (h : smallInt op = some m) (fuel : Nat) (s : List UInt8) (ops : Nat) (hops : ops ≤ 201)
    (stack : List (List UInt8)) :
    evalSteps H check (fuel + 1) (op :: s) ops stack = none ∨
    evalSteps H check (fuel + 1) (op :: s) ops stack = evalSteps H check fuel s ops ([UInt8.ofNat m] :: stack) := by
  obtain ⟨h1, h2, -⟩ := smallInt_some h
  have ne : ∀ b : UInt8, (b.toNat < 0x51 ∨ 0x60 < b.toNat) → op ≠ b := by
    intro b hb he
    subst he
    omega
  have hp : parsePush (op :: s) = none := by
    rw [parsePush, if_neg (by omega), if_neg (ne _ (by decide)), if_neg (ne _ (by decide)),
      if_neg (ne _ (by decide))]
  have hcost : opCost op stack = 0 := by rw [opCost.eq_def, if_pos h2]
  rw [evalSteps, hp]
  dsimp only
  rw [hcost, Nat.add_zero, if_pos hops]
  have he : evalOp H check op stack = some ([UInt8.ofNat m] :: stack) := by
    unfold evalOp
    rw [if_neg (ne _ (by decide)), if_neg (ne _ (by decide)), if_neg (ne _ (by decide)),
      if_neg (ne _ (by decide)), if_neg (ne _ (by decide)), if_neg (ne _ (by decide)), h]
    rfl
  rw [he]
  dsimp only
  split
  · exact Or.inr rfl
  · exact Or.inl rfl

theorem countItem_small {op : UInt8} {m : Nat} (h : smallInt op = some m) :
    countItem [UInt8.ofNat m] = some m := by
  obtain ⟨h1, h2, h3⟩ := smallInt_some h
  rw [countItem, toNat_ofNat (by omega), if_pos (by omega)]

theorem popItems_append (a b : List (List UInt8)) : popItems a.length (a ++ b) = some (a, b) := by
  rw [popItems, if_pos (by simp)]
  simp

theorem parseMultisig_some {redeem : List UInt8} {m n : Nat} {keys : List (List UInt8)}
    (h : parseMultisig redeem = some (m, keys, n)) : ∃ op s opn, redeem = op :: s ∧ smallInt op = some m ∧
      parsePushes s.length s = (keys, [opn, 0xae]) ∧ smallInt opn = some n := by
  cases redeem with
  | nil => cases h
  | cons op s =>
    rw [parseMultisig] at h
    split at h
    · rename_i m' keys' opn chk h1 h2
      split at h
      · rename_i n' h3
        split at h
        · rename_i h4
          simp only [Option.some.injEq, Prod.mk.injEq] at h
          obtain ⟨rfl, rfl, rfl⟩ := h
          exact ⟨op, s, opn, rfl, h1, by rw [h2, h4], h3⟩
        · cases h
      · cases h
    · cases h

theorem eval_multisig (H : Hashing) (check : List UInt8 → List UInt8 → Bool) {redeem : List UInt8} {m n : Nat}
    {keys sigs used : List (List UInt8)} (h : parseMultisig redeem = some (m, keys, n)) (hn : n = keys.length)
    (hm : sigs.length = m) (hl : redeem.length ≤ 520) (hsub : used.Sublist keys)
    (hs : List.Forall₂ (fun sig key => check sig key = true) sigs used) :
    evalScript H check redeem (sigs.reverse ++ [[]]) = some [[1]] := by
  obtain ⟨op, s, opn, rfl, h1, h2, h3⟩ := parseMultisig_some h
  have hlen := parsePushes_length _ h2
  have hitem := parsePushes_item_length _ h2
  have hmn : m ≤ n := by
    rw [hn, ← hm, hs.length_eq]
    exact hsub.length_le
  have hn16 : n ≤ 16 := by have := (smallInt_some h3); omega
  rw [List.length_cons] at hl
  rw [evalScript, if_pos (by rw [List.length_cons]; omega), List.length_cons,
    step_smallInt H check h1 _ _ _ (by omega) _ (by simp; omega)]
  simp only [List.length_cons, List.length_nil] at hlen
  obtain ⟨k, hk⟩ := Nat.exists_eq_add_of_le' hlen
  have hcost : ∀ st, opCost 0xae ([UInt8.ofNat n] :: st) = 1 + n := by
    intro st
    rw [opCost.eq_def, if_neg (by decide), if_pos rfl]
    show 1 + (countItem [UInt8.ofNat n]).getD 0 = 1 + n
    rw [countItem_small h3]
    rfl
  rw [show s.length = k + 1 + 1 + keys.length by omega,
    evalSteps_pushes H check _ (k + 1 + 1) _ _ h2 (fun d hd => le_trans (hitem d hd) (by omega)) (by simp; omega),
    step_smallInt H check h3 _ _ _ (by omega) _ (by simp; omega), evalSteps, show parsePush [0xae] = none from rfl]
  dsimp only
  rw [hcost, if_pos (by omega)]
  have he : evalOp H check 0xae ([UInt8.ofNat n] :: (keys.reverse ++ [UInt8.ofNat m] :: (sigs.reverse ++ [[]]))) =
      some [boolItem (matchSigs check keys.reverse sigs.reverse)] := by
    simp only [evalOp, if_true, if_neg (show ¬ ((0xae : UInt8) = 0x76) by decide),
      if_neg (show ¬ ((0xae : UInt8) = 0xa9) by decide), if_neg (show ¬ ((0xae : UInt8) = 0x87) by decide),
      if_neg (show ¬ ((0xae : UInt8) = 0x88) by decide), if_neg (show ¬ ((0xae : UInt8) = 0xac) by decide)]
    rw [countItem_small h3, Option.bind_some, show n = keys.reverse.length by simp [hn], popItems_append,
      Option.bind_some]
    dsimp only
    rw [countItem_small h1, Option.bind_some, if_neg (by rw [List.length_reverse]; omega),
      show m = sigs.reverse.length by simp [hm], popItems_append, Option.bind_some]
    simp
  rw [he, matchSigs_of_forall (List.reverse_sublist.mpr hsub) (List.forall₂_reverse_iff.mpr hs)]
  cases k <;> rfl

/-! ## Spending implies acceptance -/

theorem witnessProgram_program {hash : List UInt8} (h : hash.length = 20 ∨ hash.length = 32) :
    witnessProgram (witnessScript 0 hash) = some (0, hash) := by
  rw [witnessScript, if_pos rfl]
  show witnessProgram (0x00 :: UInt8.ofNat hash.length :: hash) = _
  rw [witnessProgram, toNat_ofNat (by omega), if_pos (by omega), if_pos rfl]

theorem p2pkh_no_program {hash : List UInt8} (h : hash.length = 20) : witnessProgram (p2pkhScript hash) = none := by
  show witnessProgram (0x76 :: 0xa9 :: (UInt8.ofNat hash.length :: hash ++ [0x88, 0xac])) = none
  rw [witnessProgram, if_neg (by simp [h])]

theorem p2sh_no_program {hash : List UInt8} (h : hash.length = 20) : witnessProgram (p2shScript hash) = none := by
  show witnessProgram (0xa9 :: UInt8.ofNat hash.length :: (hash ++ [0x87])) = none
  rw [witnessProgram, toNat_ofNat (by omega), if_neg (by simp)]

theorem p2pkh_not_p2sh {hash : List UInt8} (h : hash.length = 20) : isP2SH (p2pkhScript hash) = false := by
  simp [isP2SH, p2pkhScript, h]

theorem p2sh_is_p2sh {hash : List UInt8} (h : hash.length = 20) : isP2SH (p2shScript hash) = true := by
  have : ([0xa9, UInt8.ofNat hash.length] ++ hash ++ [0x87]).drop 22 = [0x87] := by
    rw [List.drop_append_of_le_length (by simp [h])]
    rw [List.drop_eq_nil_of_le (by simp [h])]
    rfl
  unfold isP2SH p2shScript
  rw [this, h]
  simp [h]

/-- The script of a multi-signature contract is not a witness program. -/
theorem multisig_no_program {redeem : List UInt8} {m n : Nat} {keys : List (List UInt8)}
    (h : parseMultisig redeem = some (m, keys, n)) : witnessProgram redeem = none := by
  obtain ⟨op, s, opn, rfl, h1, h2, h3⟩ := parseMultisig_some h
  cases s with
  | nil => simp [parsePushes] at h2
  | cons b program =>
    rw [witnessProgram]
    split
    · rename_i hb
      exfalso
      have hp : parsePush (b :: program) = some (program, []) := by
        rw [parsePush, if_pos (by omega), splitOff, if_pos (by omega), hb.1]
        simp
      rw [List.length_cons, parsePushes, hp] at h2
      dsimp only at h2
      cases hl : program.length with
      | zero => omega
      | succ k =>
        rw [hl] at h2
        simp [parsePushes, parsePush] at h2
    · rfl

theorem accepts_of_spends {H : Hashing} (h20 : ∀ b, (H.ripemd160 b).length = 20)
    (h32 : ∀ b, (H.sha256 b).length = 32) {t : Tx} {index : Nat} {i : TxInput} {script : List UInt8} {value : Nat}
    (h : Spends H t index i script value) : accepts H t index i script value = true := by
  have g20 : ∀ b, (H.hash160 b).length = 20 := fun b => h20 _
  rcases h with ⟨sig, key, hp, rfl, hk, hs, hw⟩ | ⟨sig, key, program, hp, rfl, rfl, hw, hk, hs⟩ |
    ⟨sigs, redeem, hp, rfl, ⟨m, keys, n, used, hq, hn, hm, hl, hsub, hs⟩, hw⟩ |
    ⟨sigs, redeem, program, hp, rfl, rfl, hw, ⟨m, keys, n, used, hq, hn, hm, hl, hsub, hs⟩⟩
  · have hls := hs.length_le
    have he := evalScript_only_pushes H (checkSig H (legacyMessage t index i.script)) hp (by
      intro d hd
      simp only [List.mem_cons, List.not_mem_nil, or_false] at hd
      rcases hd with rfl | rfl <;> omega) (by simp)
    unfold accepts
    dsimp only
    rw [he]
    dsimp only
    rw [p2pkh_no_program (g20 _)]
    dsimp only
    rw [p2pkh_not_p2sh (g20 _), if_neg Bool.false_ne_true]
    rw [show [sig, key].reverse ++ [] = [key, sig] from rfl,
      eval_p2pkh H _ rfl (g20 _) (checkSig_of_ok hs), hw]
    rfl
  · have hpl : (witnessScript 0 (H.hash160 key)).length = 22 := by simp [witnessScript, g20]
    have hpp : parsePushes 1 i.script = ([witnessScript 0 (H.hash160 key)], []) := by
      have := parsePush_direct (d := witnessScript 0 (H.hash160 key)) (rest := []) (by omega)
      rw [List.append_nil] at this
      rw [hp, parsePushes, this]
      rfl
    have he := evalScript_only_pushes H (checkSig H (legacyMessage t index i.script)) hpp (by
      intro d hd
      rw [List.mem_singleton] at hd
      subst hd
      omega) (by simp)
    have hpo := pushOnly_pushes 1 i.script.length hpp (by rw [hp]; simp)
    have hls := hs.length_le
    unfold accepts
    dsimp only
    rw [he]
    dsimp only
    rw [p2sh_no_program (g20 _)]
    dsimp only
    rw [p2sh_is_p2sh (g20 _), if_pos rfl, hpo]
    rw [show [witnessScript 0 (H.hash160 key)].reverse ++ [] = [witnessScript 0 (H.hash160 key)] from rfl,
      eval_p2sh H _ rfl (g20 _) _ (by simp)]
    dsimp only
    rw [witnessProgram_program (Or.inl (g20 _))]
    dsimp only
    rw [hp]
    unfold acceptsWitness
    dsimp only
    rw [if_neg (by simp), if_pos (g20 _), hw]
    rw [show [sig, key].reverse = [key, sig] from rfl, eval_p2pkh H _ rfl (g20 _) (checkSig_of_ok hs)]
    simp [topTrue, cleanTrue, truthy, hk]
    omega
  · have hs' : List.Forall₂ (fun sig key => checkSig H (legacyMessage t index redeem) sig key = true) sigs used :=
      hs.imp fun _ _ h => checkSig_of_ok h
    have hls := sigs_length_le hs
    have hm16 : m ≤ 16 := by
      obtain ⟨_, _, _, -, h1, -, -⟩ := parseMultisig_some hq
      have := smallInt_some h1
      omega
    have he := evalScript_only_pushes H (checkSig H (legacyMessage t index i.script)) hp (by
      intro d hd
      simp only [List.cons_append, List.mem_cons, List.mem_append, List.not_mem_nil, or_false] at hd
      rcases hd with rfl | hd | rfl
      · simp
      · have := hls d hd; omega
      · exact hl) (by simp; omega)
    have hpo := pushOnly_pushes _ i.script.length hp (by
      have := parsePushes_length _ hp
      simpa using this)
    unfold accepts
    dsimp only
    rw [he]
    dsimp only
    rw [p2sh_no_program (g20 _)]
    dsimp only
    rw [p2sh_is_p2sh (g20 _), if_pos rfl, hpo]
    rw [show ([] :: sigs ++ [redeem]).reverse ++ [] = redeem :: (sigs.reverse ++ [[]]) by simp,
      eval_p2sh H _ rfl (g20 _) _ (by simp; omega)]
    dsimp only
    rw [multisig_no_program hq]
    dsimp only
    rw [eval_multisig H _ hq hn hm hl hsub hs', hw]
    rfl
  · have hs' : List.Forall₂ (fun sig key => checkSig H
        (segwitMessage (fun b => H.sha256 (H.sha256 b)) t i redeem value) sig key = true) sigs used :=
      hs.imp fun _ _ h => checkSig_of_ok h
    have hls := sigs_length_le hs
    have hpl : (witnessScript 0 (H.sha256 redeem)).length = 34 := by simp [witnessScript, h32]
    have hpp : parsePushes 1 i.script = ([witnessScript 0 (H.sha256 redeem)], []) := by
      have := parsePush_direct (d := witnessScript 0 (H.sha256 redeem)) (rest := []) (by omega)
      rw [List.append_nil] at this
      rw [hp, parsePushes, this]
      rfl
    have he := evalScript_only_pushes H (checkSig H (legacyMessage t index i.script)) hpp (by
      intro d hd
      rw [List.mem_singleton] at hd
      subst hd
      omega) (by simp)
    have hpo := pushOnly_pushes 1 i.script.length hpp (by rw [hp]; simp)
    unfold accepts
    dsimp only
    rw [he]
    dsimp only
    rw [p2sh_no_program (g20 _)]
    dsimp only
    rw [p2sh_is_p2sh (g20 _), if_pos rfl, hpo]
    rw [show [witnessScript 0 (H.sha256 redeem)].reverse ++ [] = [witnessScript 0 (H.sha256 redeem)] from rfl,
      eval_p2sh H _ rfl (g20 _) _ (by simp)]
    dsimp only
    rw [witnessProgram_program (Or.inr (h32 _))]
    dsimp only
    rw [hp]
    unfold acceptsWitness
    dsimp only
    rw [if_neg (by simp), if_neg (by rw [h32]; decide), if_pos (h32 _), hw]
    rw [show ([] :: sigs ++ [redeem]).reverse = redeem :: (sigs.reverse ++ [[]]) by simp]
    dsimp only
    rw [eval_multisig H _ hq hn hm hl hsub hs']
    simp only [beq_self_eq_true, topTrue, cleanTrue, truthy]
    simp only [show (decide ((1 : UInt8) ≠ 0) && decide ((1 : UInt8) ≠ 0x80)) = true by decide, Bool.and_true,
      Bool.true_and, List.all_eq_true, List.mem_append, List.mem_reverse, List.mem_singleton, decide_eq_true_eq]
    rintro x (hx | rfl)
    · have := hls x hx; omega
    · simp

end Spec

namespace Spec

/-! ## Too few signatures -/

theorem matchSigs_all {check : List UInt8 → List UInt8 → Bool} : ∀ {keys sigs : List (List UInt8)},
    matchSigs check keys sigs = true → ∀ sig ∈ sigs, ∃ key ∈ keys, check sig key = true
  | _, [], _, sig, hs => by cases hs
  | [], _ :: _, h, _, _ => by simp [matchSigs] at h
  | key :: keys, sig :: sigs, h, x, hx => by
    rw [matchSigs] at h
    split at h
    · rename_i hc
      rcases List.mem_cons.mp hx with rfl | hx
      · exact ⟨key, List.mem_cons_self, hc⟩
      · obtain ⟨k, hk, hck⟩ := matchSigs_all h x hx
        exact ⟨k, List.mem_cons_of_mem _ hk, hck⟩
    · obtain ⟨k, hk, hck⟩ := matchSigs_all h x hx
      exact ⟨k, List.mem_cons_of_mem _ hk, hck⟩

/-- With fewer than `m` items that are not empty a multi-signature script fails. -/
theorem eval_multisig_few (H : Hashing) (check : List UInt8 → List UInt8 → Bool)
    (hc : ∀ key, check [] key = false) {redeem : List UInt8} {m n : Nat}
    {keys stack : List (List UInt8)} (h : parseMultisig redeem = some (m, keys, n)) (hn : n = keys.length)
    (hl : redeem.length ≤ 520) (hfew : (stack.filter fun x => !x.isEmpty).length < m) :
    cleanTrue (evalScript H check redeem stack) = false := by
  obtain ⟨op, s, opn, rfl, h1, h2, h3⟩ := parseMultisig_some h
  have hlen := parsePushes_length _ h2
  rw [List.length_cons] at hl
  rw [evalScript, if_pos (by rw [List.length_cons]; omega), List.length_cons]
  rcases step_smallInt_or H check h1 s.length s 0 (by omega) stack with e1 | e1
  · rw [e1]; rfl
  rw [e1]
  simp only [List.length_cons, List.length_nil] at hlen
  obtain ⟨k, hk⟩ := Nat.exists_eq_add_of_le' hlen
  rw [show s.length = k + 1 + 1 + keys.length by omega]
  rcases evalSteps_pushes_or H check _ (k + 1 + 1) 0 ([UInt8.ofNat m] :: stack) h2 with e2 | e2
  · rw [e2]; rfl
  rw [e2]
  rcases step_smallInt_or H check h3 (k + 1) [0xae] 0 (by omega) (keys.reverse ++ [UInt8.ofNat m] :: stack) with
    e3 | e3
  · rw [e3]; rfl
  rw [e3, evalSteps, show parsePush [0xae] = none from rfl]
  dsimp only
  have he : ∀ st, evalOp H check 0xae ([UInt8.ofNat n] :: (keys.reverse ++ [UInt8.ofNat m] :: stack)) = some st →
      ∃ rest, st = [] :: rest := by
    intro st
    simp only [evalOp, if_true, if_neg (show ¬ ((0xae : UInt8) = 0x76) by decide),
      if_neg (show ¬ ((0xae : UInt8) = 0xa9) by decide), if_neg (show ¬ ((0xae : UInt8) = 0x87) by decide),
      if_neg (show ¬ ((0xae : UInt8) = 0x88) by decide), if_neg (show ¬ ((0xae : UInt8) = 0xac) by decide)]
    rw [countItem_small h3, Option.bind_some, show n = keys.reverse.length by simp [hn], popItems_append,
      Option.bind_some]
    dsimp only
    rw [countItem_small h1, Option.bind_some]
    split
    · intro h; cases h
    · intro hst
      rw [Option.bind_eq_some_iff] at hst
      obtain ⟨⟨sigs, rest⟩, hp, hst⟩ := hst
      unfold popItems at hp
      split at hp
      · rename_i hle
        simp only [Option.some.injEq, Prod.mk.injEq] at hp
        obtain ⟨rfl, rfl⟩ := hp
        have hms : matchSigs check keys.reverse (stack.take m) = false := by
          cases hmm : matchSigs check keys.reverse (stack.take m) with
          | false => rfl
          | true =>
            exfalso
            have hall := matchSigs_all hmm
            have : (stack.take m).filter (fun x => !x.isEmpty) = stack.take m := by
              rw [List.filter_eq_self]
              intro x hx
              obtain ⟨key, -, hk⟩ := hall x hx
              cases x with
              | nil => rw [hc] at hk; cases hk
              | cons _ _ => rfl
            have h4 : ((stack.take m).filter fun x => !x.isEmpty).length ≤
                (stack.filter fun x => !x.isEmpty).length :=
              ((List.take_sublist m stack).filter _).length_le
            rw [this, List.length_take] at h4
            omega
        split at hst
        · cases hst
        · split at hst
          · rw [hms] at hst
            injection hst with hst
            exact ⟨_, hst.symm⟩
          · cases hst
      · cases hp
  split
  · cases hev : evalOp H check 0xae ([UInt8.ofNat n] :: (keys.reverse ++ [UInt8.ofNat m] :: stack)) with
    | none => rfl
    | some st =>
      obtain ⟨rest, rfl⟩ := he st hev
      dsimp only
      split
      · cases k <;> cases rest <;> rfl
      · rfl
  · rfl

theorem checkSig_empty (H : Hashing) (message key : List UInt8) : checkSig H message [] key = false := rfl

/-- A pay-to-script-hash input with too few signatures is refused. -/
theorem p2sh_few_rejected {H : Hashing} (h20 : ∀ b, (H.ripemd160 b).length = 20) {t : Tx} {index : Nat}
    {i : TxInput} {redeem : List UInt8} {value : Nat} {m n k : Nat} {keys items : List (List UInt8)}
    (hq : parseMultisig redeem = some (m, keys, n)) (hn : n = keys.length) (hl : redeem.length ≤ 520)
    (hp : parsePushes k i.script = (items ++ [redeem], []))
    (hfew : (items.filter fun x => !x.isEmpty).length < m) :
    accepts H t index i (p2shScript (H.hash160 redeem)) value = false := by
  have g20 : ∀ b, (H.hash160 b).length = 20 := fun b => h20 _
  unfold accepts
  dsimp only
  rcases evalScript_only_pushes_or H (checkSig H (legacyMessage t index i.script)) hp with he | he
  · rw [he]
  rw [he]
  dsimp only
  rw [p2sh_no_program (g20 _)]
  dsimp only
  rw [p2sh_is_p2sh (g20 _), if_pos rfl]
  rw [show (items ++ [redeem]).reverse ++ [] = redeem :: items.reverse by simp]
  dsimp only
  rw [multisig_no_program hq]
  dsimp only
  rw [eval_multisig_few H _ (checkSig_empty H _) hq hn hl (by rw [List.filter_reverse, List.length_reverse]; exact hfew)]
  simp

/-- A nested witness input with too few signatures is refused. -/
theorem p2wsh_few_rejected {H : Hashing} (h20 : ∀ b, (H.ripemd160 b).length = 20)
    (h32 : ∀ b, (H.sha256 b).length = 32) {t : Tx} {index : Nat}
    {i : TxInput} {redeem : List UInt8} {value : Nat} {m n : Nat} {keys items : List (List UInt8)}
    (hq : parseMultisig redeem = some (m, keys, n)) (hn : n = keys.length) (hl : redeem.length ≤ 520)
    (hp : i.script = UInt8.ofNat (witnessScript 0 (H.sha256 redeem)).length :: witnessScript 0 (H.sha256 redeem))
    (hw : i.witness = items ++ [redeem]) (hfew : (items.filter fun x => !x.isEmpty).length < m) :
    accepts H t index i (p2shScript (H.hash160 (witnessScript 0 (H.sha256 redeem)))) value = false := by
  have g20 : ∀ b, (H.hash160 b).length = 20 := fun b => h20 _
  have hpl : (witnessScript 0 (H.sha256 redeem)).length = 34 := by simp [witnessScript, h32]
  have hpp : parsePushes 1 i.script = ([witnessScript 0 (H.sha256 redeem)], []) := by
    have := parsePush_direct (d := witnessScript 0 (H.sha256 redeem)) (rest := []) (by omega)
    rw [List.append_nil] at this
    rw [hp, parsePushes, this]
    rfl
  have he := evalScript_only_pushes H (checkSig H (legacyMessage t index i.script)) hpp (by
    intro d hd
    rw [List.mem_singleton] at hd
    subst hd
    omega) (by simp)
  unfold accepts
  dsimp only
  rw [he]
  dsimp only
  rw [p2sh_no_program (g20 _)]
  dsimp only
  rw [p2sh_is_p2sh (g20 _), if_pos rfl]
  rw [show [witnessScript 0 (H.sha256 redeem)].reverse ++ [] = [witnessScript 0 (H.sha256 redeem)] from rfl]
  dsimp only
  rw [witnessProgram_program (Or.inr (h32 _))]
  dsimp only
  unfold acceptsWitness
  dsimp only
  rw [if_neg (by simp), if_neg (by rw [h32]; decide), if_pos (h32 _), hw]
  rw [show (items ++ [redeem]).reverse = redeem :: items.reverse by simp]
  dsimp only
  rw [eval_multisig_few H _ (checkSig_empty H _) hq hn hl (by rw [List.filter_reverse, List.length_reverse]; exact hfew)]
  simp

end Spec
