import Verif.Spec.Tamper
import Verif.Lemmas.Commit
import Verif.Lemmas.Interp
import Verif.Lemmas.SignSingle
/-
Helper lemmas: an input that spends an output in one transaction is refused in another one, unless the cryptography
is broken.
-/
namespace Spec

theorem boolItem_truthy {b : Bool} (h : cleanTrue (some [boolItem b]) = true) : b = true := by
  cases b with
  | true => rfl
  | false => simp [cleanTrue, boolItem, truthy] at h

/-- A P2PKH script that ended well has checked the signature. -/
theorem eval_p2pkh_checked (H : Hashing) (check : List UInt8 → List UInt8 → Bool) {sig key hash : List UInt8}
    (h20 : hash.length = 20) (h : cleanTrue (evalScript H check (p2pkhScript hash) [key, sig]) = true) :
    check sig key = true := by
  have hl : (p2pkhScript hash).length = 21 + 1 + 1 + 1 + 1 := by simp [p2pkhScript, h20]
  have e : p2pkhScript hash = 0x76 :: 0xa9 :: UInt8.ofNat hash.length :: (hash ++ [0x88, 0xac]) := by
    simp [p2pkhScript]
  have p1 : ∀ s, parsePush (0x76 :: s) = none := fun s => rfl
  have p2 : ∀ s, parsePush (0xa9 :: s) = none := fun s => rfl
  have p3 : ∀ s, parsePush (0x88 :: s) = none := fun s => rfl
  have p4 : ∀ s, parsePush (0xac :: s) = none := fun s => rfl
  have c1 : ∀ s, opCost 0x76 s = 1 := fun s => rfl
  have c2 : ∀ s, opCost 0xa9 s = 1 := fun s => rfl
  have c3 : ∀ s, opCost 0x88 s = 1 := fun s => rfl
  have c4 : ∀ s, opCost 0xac s = 1 := fun s => rfl
  rw [evalScript, if_pos (by omega), hl, e, evalSteps, p1, c1] at h
  simp only [evalOp, if_true] at h
  rw [if_pos (by decide), if_pos (by simp), evalSteps, p2, c2] at h
  simp only [evalOp, if_true, if_neg (show ¬ ((0xa9 : UInt8) = 0x76) by decide)] at h
  rw [if_pos (by decide), if_pos (by simp), evalSteps, parsePush_direct (by omega)] at h
  dsimp only at h
  rw [if_pos ⟨by omega, by simp⟩, evalSteps, p3, c3] at h
  simp only [evalOp, if_true, if_neg (show ¬ ((0x88 : UInt8) = 0x76) by decide),
    if_neg (show ¬ ((0x88 : UInt8) = 0xa9) by decide), if_neg (show ¬ ((0x88 : UInt8) = 0x87) by decide)] at h
  by_cases hh : hash = H.hash160 key
  · rw [if_pos hh, if_pos (by decide)] at h
    dsimp only at h
    rw [if_pos (by simp), evalSteps, p4, c4] at h
    simp only [evalOp, if_true, if_neg (show ¬ ((0xac : UInt8) = 0x76) by decide),
      if_neg (show ¬ ((0xac : UInt8) = 0xa9) by decide), if_neg (show ¬ ((0xac : UInt8) = 0x87) by decide),
      if_neg (show ¬ ((0xac : UInt8) = 0x88) by decide)] at h
    rw [if_pos (by decide), if_pos (by simp)] at h
    exact boolItem_truthy h
  · rw [if_neg hh, if_pos (by decide)] at h
    cases h

/-- A multi-signature script that ended well has checked every signature. -/
theorem eval_multisig_checked (H : Hashing) (check : List UInt8 → List UInt8 → Bool) {redeem : List UInt8} {m n : Nat}
    {keys sigs : List (List UInt8)} (h : parseMultisig redeem = some (m, keys, n)) (hn : n = keys.length)
    (hm : sigs.length = m) (hl : redeem.length ≤ 520)
    (hr : cleanTrue (evalScript H check redeem (sigs.reverse ++ [[]])) = true) :
    ∀ sig ∈ sigs, ∃ key ∈ keys, check sig key = true := by
  obtain ⟨op, s, opn, rfl, h1, h2, h3⟩ := parseMultisig_some h
  have hlen := parsePushes_length _ h2
  rw [List.length_cons] at hl
  rw [evalScript, if_pos (by rw [List.length_cons]; omega), List.length_cons] at hr
  rcases step_smallInt_or H check h1 s.length s 0 (by omega) (sigs.reverse ++ [[]]) with e1 | e1
  · rw [e1] at hr; cases hr
  rw [e1] at hr
  simp only [List.length_cons, List.length_nil] at hlen
  obtain ⟨k, hk⟩ := Nat.exists_eq_add_of_le' hlen
  rw [show s.length = k + 1 + 1 + keys.length by omega] at hr
  rcases evalSteps_pushes_or H check _ (k + 1 + 1) 0 ([UInt8.ofNat m] :: (sigs.reverse ++ [[]])) h2 with e2 | e2
  · rw [e2] at hr; cases hr
  rw [e2] at hr
  rcases step_smallInt_or H check h3 (k + 1) [0xae] 0 (by omega)
    (keys.reverse ++ [UInt8.ofNat m] :: (sigs.reverse ++ [[]])) with e3 | e3
  · rw [e3] at hr; cases hr
  rw [e3, evalSteps, show parsePush [0xae] = none from rfl] at hr
  dsimp only at hr
  have he : evalOp H check 0xae ([UInt8.ofNat n] :: (keys.reverse ++ [UInt8.ofNat m] :: (sigs.reverse ++ [[]]))) =
      if n < m then none else some [boolItem (matchSigs check keys.reverse sigs.reverse)] := by
    simp only [evalOp, if_true, if_neg (show ¬ ((0xae : UInt8) = 0x76) by decide),
      if_neg (show ¬ ((0xae : UInt8) = 0xa9) by decide), if_neg (show ¬ ((0xae : UInt8) = 0x87) by decide),
      if_neg (show ¬ ((0xae : UInt8) = 0x88) by decide), if_neg (show ¬ ((0xae : UInt8) = 0xac) by decide)]
    rw [countItem_small h3, Option.bind_some, show n = keys.reverse.length by simp [hn], popItems_append,
      Option.bind_some]
    dsimp only
    rw [countItem_small h1, Option.bind_some]
    split
    · rfl
    · rw [show m = sigs.reverse.length by simp [hm], popItems_append, Option.bind_some]
      simp
  rw [he] at hr
  split at hr
  · split at hr
    · cases hr
    · rename_i hst
      split at hst
      · cases hst
      · injection hst with hst
        subst hst
        rw [if_pos (by simp)] at hr
        have hms : matchSigs check keys.reverse sigs.reverse = true := by
          apply boolItem_truthy
          cases k <;> exact hr
        intro sig hsig
        obtain ⟨key, hkey, hc⟩ := matchSigs_all hms sig (List.mem_reverse.mpr hsig)
        exact ⟨key, List.mem_reverse.mp hkey, hc⟩
  · cases hr

theorem checkSig_verify {H : Hashing} {message der key : List UInt8}
    (h : checkSig H message (der ++ [0x01]) key = true) : H.verify der (H.sha256 message) key = true := by
  simpa [checkSig] using h

/-! ## What an input carries -/

theorem parsePush_infix {s d rest : List UInt8} (h : parsePush s = some (d, rest)) : d <:+: s ∧ rest <:+: s := by
  have two : ∀ {a b : List UInt8}, a <:+: a ++ b ∧ b <:+: a ++ b := fun {a b} =>
    ⟨List.infix_append' [] a b, (List.suffix_append a b).isInfix⟩
  cases s with
  | nil => simp [parsePush] at h
  | cons op s =>
    have hs : s <:+: op :: s := (List.suffix_cons op s).isInfix
    rw [parsePush] at h
    have key : ∀ k, ((splitOff k s).bind fun (l, s) => splitOff (leValue l) s) = some (d, rest) →
        d <:+: op :: s ∧ rest <:+: op :: s := by
      intro k hk
      rw [Option.bind_eq_some_iff] at hk
      obtain ⟨⟨l, s'⟩, h1, h2⟩ := hk
      obtain ⟨rfl, -⟩ := splitOff_some h1
      obtain ⟨rfl, -⟩ := splitOff_some h2
      exact ⟨(two.1.trans two.2).trans hs, (two.2.trans two.2).trans hs⟩
    split at h
    · obtain ⟨rfl, -⟩ := splitOff_some h
      exact ⟨two.1.trans hs, two.2.trans hs⟩
    · split at h
      · exact key _ h
      · split at h
        · exact key _ h
        · split at h
          · exact key _ h
          · cases h

theorem parsePushes_infix : ∀ (n : Nat) {s rest : List UInt8} {ds : List (List UInt8)},
    parsePushes n s = (ds, rest) → ∀ d ∈ ds, d <:+: s
  | 0, s, rest, ds, h => by
    simp only [parsePushes, Prod.mk.injEq] at h
    obtain ⟨rfl, rfl⟩ := h
    simp
  | n + 1, s, rest, ds, h => by
    rw [parsePushes] at h
    cases hp : parsePush s with
    | none =>
      rw [hp] at h
      simp only [Prod.mk.injEq] at h
      obtain ⟨rfl, rfl⟩ := h
      simp
    | some p =>
      obtain ⟨d, r⟩ := p
      rw [hp] at h
      cases hq : parsePushes n r with
      | mk ds' rest' =>
        simp only [hq, Prod.mk.injEq] at h
        obtain ⟨rfl, rfl⟩ := h
        obtain ⟨h1, h2⟩ := parsePush_infix hp
        intro x hx
        rcases List.mem_cons.mp hx with rfl | hx
        · exact h1
        · exact (parsePushes_infix n hq x hx).trans h2

theorem multisig_keys_infix {redeem : List UInt8} {m n : Nat} {keys : List (List UInt8)}
    (h : parseMultisig redeem = some (m, keys, n)) : ∀ key ∈ keys, key <:+: redeem := by
  obtain ⟨op, s, opn, rfl, -, h2, -⟩ := parseMultisig_some h
  intro key hk
  exact (parsePushes_infix _ h2 key hk).trans (List.suffix_cons op s).isInfix

theorem multisig_pos {redeem : List UInt8} {m n : Nat} {keys : List (List UInt8)}
    (h : parseMultisig redeem = some (m, keys, n)) : 0 < m ∧ redeem ≠ [] := by
  obtain ⟨op, s, opn, rfl, h1, -, -⟩ := parseMultisig_some h
  have := smallInt_some h1
  exact ⟨by omega, by simp⟩

theorem hash_infix (hash : List UInt8) : hash <:+: witnessScript 0 hash := by
  unfold witnessScript
  exact (List.suffix_append _ _).isInfix

end Spec

namespace Bit

open _root_.Spec

/-- The first signature that fits one of the keys (in the first transaction) and its counterpart. -/
theorem multisig_first {H : Hashing} {m1 : Bytes} {m : Nat} {sigs used keys : List Bytes} (hm : sigs.length = m)
    (hpos : 0 < m) (hsub : used.Sublist keys)
    (hs : List.Forall₂ (fun sig key => SigOk H m1 sig key) sigs used) :
    ∃ der key, der ++ [0x01] ∈ sigs ∧ key ∈ keys ∧ H.verify der (H.sha256 m1) key = true := by
  cases hs with
  | nil => simp at hm; omega
  | cons h1 _ =>
    obtain ⟨der, rfl, -, hv⟩ := h1
    exact ⟨der, _, List.mem_cons_self, hsub.subset List.mem_cons_self, hv⟩

theorem legacy_conclusion {t t2 : Tx} (hwf : t.WF) (hwf2 : t2.WF) {j j2 : Nat} {i i2 : TxInput}
    (hi : t.inputs[j]? = some i) (hi2 : t2.inputs[j2]? = some i2) {code : Bytes} (hc : code.length < 2 ^ 64)
    (hne : code ≠ []) (e : legacyMessage t2 j2 code = legacyMessage t j code) (hw : i.witness = []) {v v2 : Nat} :
    SameSkeleton t t2 ∧ i2.prevTxid = i.prevTxid ∧ i2.prevIndex = i.prevIndex ∧
      (i.witness = [] → j2 = j) ∧ (i.witness ≠ [] → v2 = v) := by
  obtain ⟨h1, rfl, -⟩ := legacyMessage_cancel hwf hwf2 hi hc hc hne e.symm
  obtain ⟨g1, g2, -⟩ := skeleton_get h1 hi hi2
  exact ⟨h1, g1, g2, fun _ => rfl, fun h => absurd hw h⟩

theorem segwit_conclusion {H : Hashing} (h32 : ∀ b, (H.sha256 b).length = 32) {t t2 : Tx} (hwf : t.WF) (hwf2 : t2.WF)
    {script : Bytes} {j j2 : Nat} {i i2 : TxInput} (hi : t.inputs[j]? = some i) (hi2 : t2.inputs[j2]? = some i2)
    {code : Bytes} (hc : code.length < 2 ^ 64) {v v2 : Nat} (hv : v < 2 ^ 64) (hv2 : v2 < 2 ^ 64)
    (hu : Unforged H script t j i v t2 j2 i2 v2)
    (e : segwitMessage (fun b => H.sha256 (H.sha256 b)) t2 i2 code v2 =
      segwitMessage (fun b => H.sha256 (H.sha256 b)) t i code v) (hw : i.witness ≠ []) :
    SameSkeleton t t2 ∧ i2.prevTxid = i.prevTxid ∧ i2.prevIndex = i.prevIndex ∧
      (i.witness = [] → j2 = j) ∧ (i.witness ≠ [] → v2 = v) := by
  obtain ⟨h1, h2, h3, -, h5⟩ := segwitMessage_cancel (fun b => h32 _) hwf hwf2 (List.mem_of_getElem? hi)
    (List.mem_of_getElem? hi2) hc hc hv hv2 hu.outpoints hu.sequences hu.outputs e.symm
  exact ⟨h1, h2, h3, fun h => absurd h hw, fun _ => h5⟩

/-- An input that spends an output in one transaction is accepted for an output with the same script in another
transaction only if the transactions have the same outpoints, sequence numbers, outputs, version and lock time. -/
theorem accepts_unchanged {H : Hashing} (h20 : ∀ b, (H.ripemd160 b).length = 20) (h32 : ∀ b, (H.sha256 b).length = 32)
    {t t2 : Tx} (hwf : t.WF) (hwf2 : t2.WF) {j j2 : Nat} {i i2 : TxInput} (hi : t.inputs[j]? = some i)
    (hi2 : t2.inputs[j2]? = some i2) (hsc : i2.script = i.script) (hwi : i2.witness = i.witness) {script : Bytes}
    {v v2 : Nat} (hv : v < 2 ^ 64) (hv2 : v2 < 2 ^ 64) (h : Spends H t j i script v)
    (h2 : accepts H t2 j2 i2 script v2 = true) (hu : Unforged H script t j i v t2 j2 i2 v2) :
    SameSkeleton t t2 ∧ i2.prevTxid = i.prevTxid ∧ i2.prevIndex = i.prevIndex ∧
      (i.witness = [] → j2 = j) ∧ (i.witness ≠ [] → v2 = v) := by
  have g20 : ∀ b, (H.hash160 b).length = 20 := fun b => h20 _
  rcases h with ⟨sig, key, hp, rfl, hk, hs, hw⟩ | ⟨sig, key, program, hp, rfl, rfl, hw, hk, hs⟩ |
    ⟨sigs, redeem, hp, rfl, ⟨m, keys, n, used, hq, hn, hm, hl, hsub, hs⟩, hw⟩ |
    ⟨sigs, redeem, program, hp, rfl, rfl, hw, ⟨m, keys, n, used, hq, hn, hm, hl, hsub, hs⟩⟩
  · -- pay to public key hash
    unfold accepts at h2
    dsimp only at h2
    rcases evalScript_only_pushes_or H (checkSig H (legacyMessage t2 j2 i2.script)) (hsc ▸ hp) with he | he
    · rw [he] at h2; cases h2
    rw [he] at h2
    dsimp only at h2
    rw [p2pkh_no_program (g20 _)] at h2
    dsimp only at h2
    rw [p2pkh_not_p2sh (g20 _), if_neg Bool.false_ne_true, show [sig, key].reverse ++ [] = [key, sig] from rfl,
      Bool.and_eq_true] at h2
    have hc := eval_p2pkh_checked H _ (g20 _) h2.2
    obtain ⟨der, rfl, -, hver⟩ := hs
    have e := hu.legacy _ (Or.inl rfl) der key key
      (Or.inl (parsePushes_infix _ hp _ (by simp))) (Or.inl (parsePushes_infix _ hp _ (by simp)))
      (Or.inl (parsePushes_infix _ hp _ (by simp))) hver (checkSig_verify hc)
    exact legacy_conclusion hwf hwf2 hi hi2 (by rw [p2pkh_length _ (g20 _)]; norm_num) (by simp [p2pkhScript]) e hw
  · -- nested pay to witness public key hash
    have hpl : (witnessScript 0 (H.hash160 key)).length = 22 := by simp [witnessScript, g20]
    have hpp : parsePushes 1 i2.script = ([witnessScript 0 (H.hash160 key)], []) := by
      have := parsePush_direct (d := witnessScript 0 (H.hash160 key)) (rest := []) (by omega)
      rw [List.append_nil] at this
      rw [hsc, hp, parsePushes, this]
      rfl
    unfold accepts at h2
    dsimp only at h2
    rcases evalScript_only_pushes_or H (checkSig H (legacyMessage t2 j2 i2.script)) hpp with he | he
    · rw [he] at h2; cases h2
    rw [he] at h2
    dsimp only at h2
    rw [p2sh_no_program (g20 _)] at h2
    dsimp only at h2
    rw [p2sh_is_p2sh (g20 _), if_pos rfl,
      show [witnessScript 0 (H.hash160 key)].reverse ++ [] = [witnessScript 0 (H.hash160 key)] from rfl] at h2
    dsimp only at h2
    rw [witnessProgram_program (Or.inl (g20 _))] at h2
    dsimp only at h2
    unfold acceptsWitness at h2
    dsimp only at h2
    rw [if_neg (by simp), if_pos (g20 _), hwi, hw, show [sig, key].reverse = [key, sig] from rfl] at h2
    simp only [Bool.and_eq_true] at h2
    have hc := eval_p2pkh_checked H _ (g20 _) h2.2.2.2.2
    obtain ⟨der, rfl, -, hver⟩ := hs
    have hcar : ∀ x ∈ i.witness, Carries i x := fun x hx => Or.inr ⟨x, hx, List.infix_rfl⟩
    have hhash : Carries i (H.hash160 key) := by
      refine Or.inl ((hash_infix _).trans ?_)
      rw [hp]
      exact (List.suffix_cons _ _).isInfix
    have e := hu.segwit _ (Or.inr (Or.inr ⟨_, hhash, rfl⟩)) der key key (hcar _ (by simp [hw])) (hcar _ (by simp [hw]))
      (hcar _ (by simp [hw])) hver (checkSig_verify hc)
    exact segwit_conclusion h32 hwf hwf2 hi hi2 (by rw [p2pkh_length _ (g20 _)]; norm_num) hv hv2 hu e (by simp [hw])
  · -- pay to script hash
    unfold accepts at h2
    dsimp only at h2
    rcases evalScript_only_pushes_or H (checkSig H (legacyMessage t2 j2 i2.script)) (hsc ▸ hp) with he | he
    · rw [he] at h2; cases h2
    rw [he] at h2
    dsimp only at h2
    rw [p2sh_no_program (g20 _)] at h2
    dsimp only at h2
    rw [p2sh_is_p2sh (g20 _), if_pos rfl,
      show ([] :: sigs ++ [redeem]).reverse ++ [] = redeem :: (sigs.reverse ++ [[]]) by simp] at h2
    dsimp only at h2
    rw [multisig_no_program hq] at h2
    simp only [Bool.and_eq_true] at h2
    have hc := eval_multisig_checked H _ hq hn hm hl h2.2.2
    obtain ⟨hpos, hne⟩ := multisig_pos hq
    obtain ⟨der, key, hder, hkey, hver⟩ := multisig_first hm hpos hsub hs
    obtain ⟨key', hkey', hchk⟩ := hc _ hder
    have hred : redeem <:+: i.script := parsePushes_infix _ hp _ (by simp)
    have e := hu.legacy redeem (Or.inr (Or.inl (Or.inl hred))) der key key'
      (Or.inl (parsePushes_infix _ hp _ (by simp [hder]))) (Or.inl ((multisig_keys_infix hq _ hkey).trans hred))
      (Or.inl ((multisig_keys_infix hq _ hkey').trans hred)) hver (checkSig_verify hchk)
    exact legacy_conclusion hwf hwf2 hi hi2 (lt_of_le_of_lt hl (by norm_num)) hne e hw
  · -- nested pay to witness script hash
    have hpl : (witnessScript 0 (H.sha256 redeem)).length = 34 := by simp [witnessScript, h32]
    have hpp : parsePushes 1 i2.script = ([witnessScript 0 (H.sha256 redeem)], []) := by
      have := parsePush_direct (d := witnessScript 0 (H.sha256 redeem)) (rest := []) (by omega)
      rw [List.append_nil] at this
      rw [hsc, hp, parsePushes, this]
      rfl
    unfold accepts at h2
    dsimp only at h2
    rcases evalScript_only_pushes_or H (checkSig H (legacyMessage t2 j2 i2.script)) hpp with he | he
    · rw [he] at h2; cases h2
    rw [he] at h2
    dsimp only at h2
    rw [p2sh_no_program (g20 _)] at h2
    dsimp only at h2
    rw [p2sh_is_p2sh (g20 _), if_pos rfl,
      show [witnessScript 0 (H.sha256 redeem)].reverse ++ [] = [witnessScript 0 (H.sha256 redeem)] from rfl] at h2
    dsimp only at h2
    rw [witnessProgram_program (Or.inr (h32 _))] at h2
    dsimp only at h2
    unfold acceptsWitness at h2
    dsimp only at h2
    rw [if_neg (by simp), if_neg (by rw [h32]; decide), if_pos (h32 _), hwi, hw,
      show ([] :: sigs ++ [redeem]).reverse = redeem :: (sigs.reverse ++ [[]]) by simp] at h2
    simp only [Bool.and_eq_true] at h2
    have hc := eval_multisig_checked H _ hq hn hm hl h2.2.2.2.2
    obtain ⟨hpos, hne⟩ := multisig_pos hq
    obtain ⟨der, key, hder, hkey, hver⟩ := multisig_first hm hpos hsub hs
    obtain ⟨key', hkey', hchk⟩ := hc _ hder
    have hcar : ∀ x ∈ i.witness, ∀ y, y <:+: x → Carries i y := fun x hx y hy => Or.inr ⟨x, hx, hy⟩
    have hred : redeem ∈ i.witness := by simp [hw]
    have e := hu.segwit redeem (Or.inr (Or.inl (hcar _ hred _ List.infix_rfl))) der key key'
      (hcar _ (by simp [hw, hder]) _ List.infix_rfl) (hcar _ hred _ (multisig_keys_infix hq _ hkey))
      (hcar _ hred _ (multisig_keys_infix hq _ hkey')) hver (checkSig_verify hchk)
    exact segwit_conclusion h32 hwf hwf2 hi hi2 (lt_of_le_of_lt hl (by norm_num)) hv hv2 hu e (by simp [hw])

theorem tied_of_spends {C : Crypto} (hC : C.HashLengths) {t : Tx} (hwf : t.WF) {j : Nat} {i : TxInput}
    (hi : t.inputs[j]? = some i) {script : Bytes} {v : Nat} (hv : v < 2 ^ 64)
    (h : Spends C.hashing t j i script v) : Tied C.hashing t j i script v :=
  fun _ _ _ _ hwf2 hi2 hv2 hsc hwi hu h2 => accepts_unchanged hC.ripemd160_length hC.sha256_length hwf hwf2 hi hi2 hsc hwi
    hv hv2 h h2 hu

/-- Nothing need be assumed about transactions that differ only in scripts and witnesses. -/
theorem unforged_same {H : Hashing} {script : Bytes} {t t2 : Tx} (h : SameSkeleton t t2) {j : Nat} {i i2 : TxInput}
    (h1 : i2.prevTxid = i.prevTxid) (h2 : i2.prevIndex = i.prevIndex) (h3 : i2.sequence = i.sequence) {v : Nat} :
    Unforged H script t j i v t2 j i2 v := by
  have ho := congrArg (List.flatMap fun p : Bytes × Nat × Nat => p.1 ++ leEncode 4 p.2.1) h.inputs
  have hq := congrArg (List.flatMap fun p : Bytes × Nat × Nat => leEncode 4 p.2.2) h.inputs
  rw [List.flatMap_map, List.flatMap_map] at ho hq
  refine ⟨fun code _ _ _ _ _ _ _ _ _ => skeleton_legacy h _ _, fun code _ _ _ _ _ _ _ _ _ => ?_, fun _ => ho.symm,
    fun _ => hq.symm, fun _ => by rw [h.outputs]⟩
  exact skeleton_segwit h h1 h2 h3 _ _

end Bit
