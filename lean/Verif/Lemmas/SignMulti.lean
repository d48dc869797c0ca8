import Verif.Lemmas.SignSingle
import Verif.Props.Multisig
import Verif.Props.Utils
import Mathlib.Data.List.Perm.Subperm
/-
Signing with the co-signers of a multi-signature contract as a function on specified transactions.
-/
namespace Bit

/-! ### reading the signatures back -/

/-- The loop reads length-prefixed items one by one. -/
theorem getSigs_items {isDer : Bytes → Bool} {rest : Bytes} {J : List Bytes} :
    ∀ (items : List Bytes), (∀ b ∈ items, b.length < 2 ^ 64) →
      getSigsLoop isDer rest.length rest = .ok J → ∀ fuel,
      (items.flatMap Spec.varBytes ++ rest).length ≤ fuel →
      getSigsLoop isDer fuel (items.flatMap Spec.varBytes ++ rest) =
        .ok (items.filter (fun b => isDer (dropLast' b 1)) ++ J)
  | [], _, hJ, fuel, hf => by
    rw [List.flatMap_nil, List.nil_append] at hf ⊢
    rw [getSigsLoop_fuel isDer fuel rest.length rest hf le_rfl, hJ]
    rfl
  | b :: items, hb, hJ, fuel, hf => by
    have hne := compact_ne_nil b.length
    have hlen : 1 ≤ (Spec.compact b.length).length := by
      rcases h : Spec.compact b.length with _ | ⟨x, l⟩
      · exact absurd h hne
      · simp
    cases fuel with
    | zero =>
      simp only [List.flatMap_cons, Spec.varBytes, List.length_append] at hf
      omega
    | succ fuel =>
      have e : ((b :: items).flatMap Spec.varBytes ++ rest) =
          Spec.compact b.length ++ (b ++ (items.flatMap Spec.varBytes ++ rest)) := by
        simp [Spec.varBytes]
      rw [e] at hf ⊢
      rw [getSigsLoop, readVarInt_compact (hb b List.mem_cons_self)]
      have hemp : (Spec.compact b.length ++ (b ++ (items.flatMap Spec.varBytes ++ rest))).isEmpty = false := by
        rcases h : Spec.compact b.length with _ | ⟨x, l⟩
        · exact absurd h hne
        · rfl
      rw [if_neg (by rw [hemp]; simp)]
      dsimp only
      rw [readBytes_append b _ rfl]
      dsimp only
      have hf' : (items.flatMap Spec.varBytes ++ rest).length ≤ fuel := by
        rw [List.length_append, List.length_append] at hf
        omega
      rw [getSigs_items items (fun c hc => hb c (List.mem_cons_of_mem _ hc)) hJ fuel hf']
      dsimp only
      rw [List.filter_cons]
      split <;> rfl

/-! ### the dictionary of signatures -/

theorem lookup_dictSet (d : List (Bytes × Bytes)) (a v p : Bytes) :
    (dictSet d a v).lookup p = if p = a then some v else d.lookup p := by
  unfold dictSet
  rw [List.lookup_cons]
  by_cases h : p = a
  · subst h; simp
  · rw [if_neg h]
    have : (p == a) = false := by simpa using h
    rw [this]
    dsimp only
    induction d with
    | nil => rfl
    | cons e d ih =>
      obtain ⟨k, w⟩ := e
      rw [List.filter_cons]
      by_cases hk : k = a
      · subst hk
        simp only [ne_eq, not_true_eq_false, decide_false, Bool.false_eq_true, if_false]
        rw [List.lookup_cons, this]
        exact ih
      · simp only [ne_eq, hk, not_false_eq_true, decide_true, if_true]
        rw [List.lookup_cons, List.lookup_cons, ih]

theorem dictSet_new {d : List (Bytes × Bytes)} {a v : Bytes} (h : ∀ e ∈ d, e.1 ≠ a) :
    dictSet d a v = (a, v) :: d := by
  unfold dictSet
  rw [List.filter_eq_self.mpr]
  intro e he
  simpa using h e he

theorem fold_verify {C : Crypto} {hash sig : Bytes} {p : Bytes} : ∀ (keys : List Bytes)
    (d : List (Bytes × Bytes)), (∀ q ∈ keys, C.verify (dropLast' sig 1) hash q = true ↔ q = p) →
    keys.Nodup → (∀ e ∈ d, e.1 ≠ p) →
    keys.foldl (fun d pub => if C.verify (dropLast' sig 1) hash pub then dictSet d pub sig else d) d =
      if p ∈ keys then (p, sig) :: d else d
  | [], d, _, _, _ => by simp
  | q :: keys, d, hv, hn, hd => by
    rw [List.foldl_cons]
    have hq := hv q List.mem_cons_self
    have hv' : ∀ r ∈ keys, C.verify (dropLast' sig 1) hash r = true ↔ r = p :=
      fun r hr => hv r (List.mem_cons_of_mem _ hr)
    obtain ⟨hqn, hn'⟩ := List.nodup_cons.mp hn
    by_cases he : q = p
    · subst he
      rw [if_pos (hq.mpr rfl), dictSet_new hd]
      have hcheck : ∀ (l : List Bytes) (d : List (Bytes × Bytes)),
          (∀ r ∈ l, C.verify (dropLast' sig 1) hash r = true ↔ r = q) → q ∉ l →
          l.foldl (fun d pub => if C.verify (dropLast' sig 1) hash pub then dictSet d pub sig else d) d = d := by
        intro l
        induction l with
        | nil => intro d _ _; rfl
        | cons r l ih =>
          intro d h1 h2
          rw [List.foldl_cons, if_neg, ih d (fun x hx => h1 x (List.mem_cons_of_mem _ hx))
            (fun h => h2 (List.mem_cons_of_mem _ h))]
          rw [h1 r List.mem_cons_self]
          intro h
          exact h2 (h ▸ List.mem_cons_self)
      rw [hcheck keys _ hv' hqn, if_pos List.mem_cons_self]
    · rw [if_neg (fun h => he (hq.mp h)), fold_verify keys d hv' hn' hd]
      have : p ∈ q :: keys ↔ p ∈ keys := by
        rw [List.mem_cons]
        constructor
        · rintro (h | h)
          · exact absurd h.symm he
          · exact h
        · exact Or.inr
      simp only [this]

theorem matchSigs_eq {C : Crypto} {hash : Bytes} {keys : List Bytes} {g : Bytes → Bytes} (hn : keys.Nodup) :
    ∀ (ps : List Bytes) (d : List (Bytes × Bytes)),
      (∀ p ∈ ps, p ∈ keys ∧ ∀ q ∈ keys, C.verify (dropLast' (g p) 1) hash q = true ↔ q = p) →
      ps.Nodup → (∀ e ∈ d, e.1 ∉ ps) →
      matchSigs C hash keys (ps.map g) d = (ps.map fun p => (p, g p)).reverse ++ d
  | [], d, _, _, _ => rfl
  | p :: ps, d, h, hp, hd => by
    obtain ⟨h1, h2⟩ := h p List.mem_cons_self
    obtain ⟨hpn, hps⟩ := List.nodup_cons.mp hp
    rw [List.map_cons, matchSigs, fold_verify keys d h2 hn
      (fun e he => fun hc => hd e he (hc ▸ List.mem_cons_self)), if_pos h1,
      matchSigs_eq hn ps _ (fun q hq => h q (List.mem_cons_of_mem _ hq)) hps]
    · simp
    · intro e he
      rcases List.mem_cons.mp he with rfl | he
      · exact hpn
      · exact fun hc => hd e he (List.mem_cons_of_mem _ hc)

theorem lookup_map_reverse {g : Bytes → Bytes} (ps : List Bytes) (p : Bytes) :
    ((ps.map fun p => (p, g p)).reverse).lookup p = if p ∈ ps then some (g p) else none := by
  rw [← List.map_reverse]
  have : p ∈ ps ↔ p ∈ ps.reverse := List.mem_reverse.symm
  simp only [this]
  induction ps.reverse with
  | nil => rfl
  | cons q qs ih =>
    rw [List.map_cons, List.lookup_cons]
    by_cases h : p = q
    · subst h; simp
    · have hb : (p == q) = false := by simpa using h
      rw [hb]
      dsimp only
      rw [ih]
      simp [h]

theorem sortedSigs_eq {sg : Bool} {d : List (Bytes × Bytes)} {g : Bytes → Bytes} {P : Bytes → Bool} :
    ∀ (keys : List Bytes), (∀ p ∈ keys, d.lookup p = if P p then some (g p) else none) →
      (∀ p ∈ keys, P p = true → (g p).length ≤ 75) →
      sortedSigs sg d keys = .ok (((keys.filter P).map g).flatMap Spec.varBytes)
  | [], _, _ => rfl
  | p :: keys, h, hl => by
    have ih := sortedSigs_eq (sg := sg) keys (fun q hq => h q (List.mem_cons_of_mem _ hq))
      (fun q hq => hl q (List.mem_cons_of_mem _ hq))
    rw [sortedSigs, h p List.mem_cons_self]
    by_cases hp : P p = true
    · have hlen := hl p List.mem_cons_self hp
      rw [if_pos hp, List.filter_cons_of_pos hp]
      dsimp only
      have e : (if sg = true then intToVarint (g p).length else scriptPush (g p).length) =
          .ok (Spec.compact (g p).length) := by
        cases sg
        · simp only [Bool.false_eq_true, if_false]
          rw [u8_length hlen, compact_small (by omega)]
        · simp only [if_true]
          exact intToVarint_compact (by omega)
      rw [e]
      dsimp only
      rw [ih]
      simp [Spec.varBytes]
    · rw [if_neg hp, List.filter_cons_of_neg hp]
      exact ih

/-! ### contracts and their signers -/

/-- The contract's script is the one built from its keys. -/
structure ContractShape (C : Crypto) (s : MultiSig) : Prop where
  hash : C.HashLengths
  redeem : multisigToRedeemscript s.publicKeys s.m = .ok s.redeemscript

/-- The contract is well formed. -/
structure ContractLaws (C : Crypto) (s : MultiSig) : Prop extends ContractShape C s where
  pos : 1 ≤ s.m
  nodup : s.publicKeys.Nodup
  /-- the keys are points of the curve -/
  points : ∀ p ∈ s.publicKeys, C.isPoint p = true
  /-- only texts beginning with the DER tag are DER signatures -/
  der : ∀ b, C.isDer b = true → b.head? = some 0x30

theorem ContractLaws.noBadPoint {C : Crypto} {s : MultiSig} (h : ContractLaws C s) (sigs : List Bytes) :
    badPoint C s.publicKeys sigs = false := by
  have : (s.publicKeys.any fun p => !C.isPoint p) = false := by
    rw [List.any_eq_false]
    intro p hp
    simp [h.points p hp]
  rw [badPoint, this, Bool.and_false]

/-- The key is one of the contract's, and the external signature code behaves as expected for it. -/
structure SignerLaws (C : Crypto) (s : MultiSig) (k : PrivKey) : Prop where
  mem : k.publicKey C ∈ s.publicKeys
  der : ∀ d, C.isDer (C.sign k.secret d) = true
  len : ∀ d, (C.sign k.secret d).length ≤ 72
  verify : ∀ d, C.verify (C.sign k.secret d) d (k.publicKey C) = true

/-- No signature of one of the keys `ks` on the data `d` verifies under another key of the contract, and no part of
the contract's script is a signature on `d`. -/
def Apart (C : Crypto) (s : MultiSig) (ks : List PrivKey) (d : Bytes) : Prop :=
  (∀ k ∈ ks, ∀ p ∈ s.publicKeys, C.verify (C.sign k.secret d) d p = true → p = k.publicKey C) ∧
  ∀ b, b <:+: s.redeemscript → C.isDer b = true → ∀ p ∈ s.publicKeys, C.verify b d p = false

/-- The signature of the co-signer with public key `p`. -/
def sigOf (C : Crypto) (done : List PrivKey) (d p : Bytes) : Bytes :=
  match done.find? (fun k => k.publicKey C = p) with
  | some k => C.sign k.secret d ++ [0x01]
  | none => []

/-- The signatures of the co-signers in contract order. -/
def sigsFor (C : Crypto) (s : MultiSig) (done : List PrivKey) (d : Bytes) : List Bytes :=
  (s.publicKeys.filter fun p => p ∈ done.map fun k => k.publicKey C).map (sigOf C done d)

theorem find_of_mem {C : Crypto} {done : List PrivKey} {p : Bytes} (h : p ∈ done.map fun k => k.publicKey C) :
    ∃ k ∈ done, k.publicKey C = p ∧ done.find? (fun k => k.publicKey C = p) = some k := by
  induction done with
  | nil => simp at h
  | cons a done ih =>
    by_cases ha : a.publicKey C = p
    · exact ⟨a, List.mem_cons_self, ha, by rw [List.find?_cons_of_pos]; simpa using ha⟩
    · rw [List.map_cons, List.mem_cons] at h
      obtain ⟨k, hk, h1, h2⟩ := ih (h.resolve_left fun h => ha h.symm)
      exact ⟨k, List.mem_cons_of_mem _ hk, h1, by rw [List.find?_cons_of_neg]; exact h2; simpa using ha⟩

theorem sigOf_mem {C : Crypto} {done : List PrivKey} {d p : Bytes}
    (h : p ∈ done.map fun k => k.publicKey C) :
    ∃ k ∈ done, k.publicKey C = p ∧ sigOf C done d p = C.sign k.secret d ++ [0x01] := by
  obtain ⟨k, h1, h2, h3⟩ := find_of_mem h
  exact ⟨k, h1, h2, by rw [sigOf, h3]⟩

theorem dropLast_append_one (a : Bytes) (x : UInt8) : dropLast' (a ++ [x]) 1 = a := by
  unfold dropLast'
  simp

theorem sigsFor_length {C : Crypto} {s : MultiSig} {done : List PrivKey} {d : Bytes} (hn : s.publicKeys.Nodup)
    (hd : (done.map fun k => k.publicKey C).Nodup) (hsub : ∀ k ∈ done, k.publicKey C ∈ s.publicKeys) :
    (sigsFor C s done d).length = done.length := by
  unfold sigsFor
  rw [List.length_map]
  have hp : (s.publicKeys.filter fun p => p ∈ done.map fun k => k.publicKey C).Perm
      (done.map fun k => k.publicKey C) := by
    rw [List.perm_ext_iff_of_nodup (hn.filter _) hd]
    intro p
    rw [List.mem_filter]
    simp only [decide_eq_true_eq]
    constructor
    · exact And.right
    · intro h
      refine ⟨?_, h⟩
      obtain ⟨k, hk, rfl⟩ := List.mem_map.mp h
      exact hsub k hk
  rw [hp.length_eq, List.length_map]

theorem redeem_head {C : Crypto} {s : MultiSig} (h : ContractLaws C s) :
    C.isDer (dropLast' s.redeemscript 1) = false ∧ s.redeemscript.length ≤ 520 ∧ s.m ≤ 15 ∧
      s.publicKeys.length ≤ 15 ∧
      Spec.parseMultisig s.redeemscript = some (s.m.toNat, s.publicKeys, s.publicKeys.length) := by
  obtain ⟨h0, h1, -⟩ := C21_redeemscript s.publicKeys s.m h.pos
  obtain ⟨hp, hl, hn⟩ := h1 _ h.redeem
  have hm := (h0.mp ⟨_, h.redeem⟩).1
  refine ⟨?_, hl, by omega, hn, hp⟩
  by_contra hc
  have hd := h.der _ (by simpa using hc)
  have hcases := redeemscript_cases s.publicKeys s.m (by have := h.pos; omega) (by omega)
  rw [h.redeem] at hcases
  split at hcases
  · injection hcases with hcases
    rw [hcases] at hd
    unfold dropLast' at hd
    have hlen : (UInt8.ofNat (s.m + 80).toNat :: (keyPushes s.publicKeys ++
        [UInt8.ofNat (s.publicKeys.length + 80), 0xae])).length - 1 =
        (keyPushes s.publicKeys).length + 1 + 1 := by
      simp
    rw [hlen, List.take_succ_cons, List.head?_cons] at hd
    have he : UInt8.ofNat (s.m + 80).toNat = 0x30 := by simpa using hd
    have := congrArg UInt8.toNat he
    rw [u8_ofNat_toNat _ (by omega)] at this
    have h48 : (0x30 : UInt8).toNat = 48 := by decide
    have := h.pos
    omega
  · cases hcases

/-- The push prefix of the redeem script. -/
def pushPrefix (n : Nat) : Bytes := match scriptPush n with | .ok p => p | .error _ => []

theorem pushPrefix_eq {n : Nat} (h : n < 2 ^ 32) : scriptPush n = .ok (pushPrefix n) := by
  unfold pushPrefix
  obtain ⟨p, hp, -⟩ := C14_script_push_parses (List.replicate n 0) [] (by simpa using h)
  rw [List.length_replicate] at hp
  rw [hp]

/-! ### bytes of the redeem script that look like signatures -/

/-- Reading a text that ends in `0xae` never fails, and what is found is part of the text. -/
theorem getSigs_total (isDer : Bytes → Bool) : ∀ (fuel : Nat) (script : Bytes),
    (script = [] ∨ ∃ l, script = l ++ [0xae]) →
    ∃ J, getSigsLoop isDer fuel script = .ok J ∧ ∀ b ∈ J, isDer (dropLast' b 1) = true ∧ b <:+: script
  | 0, script, _ => ⟨[], rfl, by simp⟩
  | fuel + 1, [], _ => ⟨[], rfl, by simp⟩
  | fuel + 1, v :: rest, h => by
    have hl : rest = [] ∧ v = 0xae ∨ ∃ l, rest = l ++ [0xae] := by
      rcases h with h | ⟨l, h⟩
      · cases h
      · cases l with
        | nil => exact .inl (by simpa [and_comm] using h)
        | cons a l =>
          rw [List.cons_append] at h
          injection h with h1 h2
          exact .inr ⟨l, h2⟩
    have hread : ∃ n r, readVarInt (v :: rest) = .ok (n, r) ∧ r <:+ rest := by
      unfold readVarInt
      rw [List.take_succ_cons, List.take_zero, List.drop_succ_cons, List.drop_zero, hexInt_eq, if_neg (by simp)]
      dsimp only
      split
      · exact ⟨_, _, rfl, List.suffix_refl _⟩
      · rename_i hv
        rcases hl with ⟨-, rfl⟩ | ⟨l, rfl⟩
        · exact absurd (by decide) hv
        · unfold readAsInt
          have hne : ((l ++ [0xae]).take (2 ^ (beNat [v] - 252))).reverse ≠ [] := by
            intro hc
            rw [List.reverse_eq_nil_iff, List.take_eq_nil_iff] at hc
            rcases hc with hc | hc
            · exact absurd hc (by simp)
            · simp at hc
          rw [hexInt_eq, if_neg hne]
          exact ⟨_, _, rfl, List.drop_suffix _ _⟩
    obtain ⟨n, r, hr, hsuf⟩ := hread
    have hr' : r.drop n = [] ∨ ∃ l, r.drop n = l ++ [0xae] := by
      have hs2 : r.drop n <:+ v :: rest := ((List.drop_suffix n r).trans hsuf).trans (List.suffix_cons v rest)
      rcases h with h | ⟨l, h⟩
      · cases h
      · rcases List.eq_nil_or_concat (r.drop n) with hn | ⟨l', x, hx⟩
        · exact .inl hn
        · right
          refine ⟨l', ?_⟩
          obtain ⟨pre, hpre⟩ := hs2
          rw [hx, h, List.concat_eq_append, ← List.append_assoc] at hpre
          have := List.append_inj_right' hpre (by simp)
          rw [hx, List.concat_eq_append, this]
    obtain ⟨J, hJ, hin⟩ := getSigs_total isDer fuel (r.drop n) hr'
    have hall : ∀ b, b <:+: r → b <:+: v :: rest := fun b hb =>
      hb.trans (hsuf.isInfix.trans (List.suffix_cons v rest).isInfix)
    rw [getSigsLoop, if_neg (by simp), hr]
    dsimp only [readBytes]
    rw [hJ]
    dsimp only
    refine ⟨_, rfl, ?_⟩
    intro b hb
    have hb' : b ∈ J ∨ (isDer (dropLast' (r.take n) 1) = true ∧ b = r.take n) := by
      split at hb
      · rename_i hc
        rcases List.mem_cons.mp hb with hb | hb
        · exact .inr ⟨hc, hb⟩
        · exact .inl hb
      · exact .inl hb
    rcases hb' with hb | ⟨hc, rfl⟩
    · exact ⟨(hin b hb).1, hall _ ((hin b hb).2.trans (List.drop_suffix n r).isInfix)⟩
    · exact ⟨hc, hall _ (List.take_prefix n r).isInfix⟩

/-- What the code takes for signatures when it reads the pushed redeem script. -/
def strays (C : Crypto) (s : MultiSig) : List Bytes :=
  match getSignaturesFromScript C.isDer (0x00 :: (pushPrefix s.redeemscript.length ++ s.redeemscript)) with
  | .ok l => l
  | .error _ => []

theorem even_sum (ks : List Bytes) (h : ∀ k ∈ ks, k.length = 33 ∨ k.length = 65) :
    (ks.map fun k => k.length + 1).sum % 2 = 0 := by
  induction ks with
  | nil => rfl
  | cons k ks ih =>
    have := ih fun a ha => h a (List.mem_cons_of_mem _ ha)
    have := h k List.mem_cons_self
    rw [List.map_cons, List.sum_cons]
    omega

/-- Redeem scripts have odd length and end in `OP_CHECKMULTISIG`. -/
theorem redeem_odd {C : Crypto} {s : MultiSig} (h : ContractLaws C s) :
    s.redeemscript.length % 2 = 1 ∧ ∃ l, s.redeemscript = l ++ [0xae] := by
  obtain ⟨-, -, hm, -⟩ := redeem_head h
  have hcases := redeemscript_cases s.publicKeys s.m (by have := h.pos; omega) (by omega)
  rw [h.redeem] at hcases
  split at hcases
  · rename_i hc
    injection hcases with hcases
    rw [hcases]
    constructor
    · have := even_sum _ hc.2.1
      simp only [List.length_cons, List.length_append, keyPushes_length, List.length_nil]
      omega
    · exact ⟨UInt8.ofNat (s.m + 80).toNat :: (keyPushes s.publicKeys ++ [UInt8.ofNat (s.publicKeys.length + 80)]),
        by simp⟩
  · cases hcases

/-- Reading the pushed redeem script never fails, and what is found are parts of the redeem script. -/
theorem strays_eq {C : Crypto} {s : MultiSig} (h : ContractLaws C s) :
    getSigsLoop C.isDer (pushPrefix s.redeemscript.length ++ s.redeemscript).length
        (pushPrefix s.redeemscript.length ++ s.redeemscript) = .ok (strays C s) ∧
      ∀ b ∈ strays C s, C.isDer (dropLast' b 1) = true ∧ b <:+: s.redeemscript := by
  have key : ∃ J, getSigsLoop C.isDer (pushPrefix s.redeemscript.length ++ s.redeemscript).length
      (pushPrefix s.redeemscript.length ++ s.redeemscript) = .ok J ∧
      ∀ b ∈ J, C.isDer (dropLast' b 1) = true ∧ b <:+: s.redeemscript := by
    obtain ⟨hhead, hl, -⟩ := redeem_head h
    obtain ⟨hodd, l, hl'⟩ := redeem_odd h
    have hdrop : ∀ n, s.redeemscript.drop n = [] ∨ ∃ l, s.redeemscript.drop n = l ++ [0xae] := by
      intro n
      by_cases hn : n < s.redeemscript.length
      · right
        refine ⟨l.drop n, ?_⟩
        rw [hl', List.length_append, List.length_singleton] at hn
        rw [hl', List.drop_append_of_le_length (by omega)]
      · left
        exact List.drop_eq_nil_of_le (by omega)
    have big : ∀ (v x : UInt8) (pre : Bytes), v < 253 → x ≠ 0x30 → pre.length < v.toNat →
        ∃ J, getSigsLoop C.isDer (v :: x :: (pre ++ s.redeemscript)).length (v :: x :: (pre ++ s.redeemscript)) = .ok J ∧
          ∀ b ∈ J, C.isDer (dropLast' b 1) = true ∧ b <:+: s.redeemscript := by
      intro v x pre hv hx hp
      have hv' : v.toNat < 253 := hv
      have hread : readVarInt (v :: x :: (pre ++ s.redeemscript)) = .ok (v.toNat, x :: (pre ++ s.redeemscript)) := by
        unfold readVarInt
        rw [List.take_succ_cons, List.take_zero, List.drop_succ_cons, List.drop_zero, hexInt_eq, if_neg (by simp)]
        have : beNat [v] = v.toNat := by simp [beNat, leNat]
        rw [this]
        dsimp only
        rw [if_pos (by omega)]
      obtain ⟨n, hn⟩ : ∃ n, v.toNat = n + 1 := ⟨v.toNat - 1, by omega⟩
      have hd : (x :: (pre ++ s.redeemscript)).drop v.toNat = s.redeemscript.drop (n - pre.length) := by
        rw [hn, List.drop_succ_cons, List.drop_append, List.drop_eq_nil_of_le (by omega), List.nil_append]
      have hnot : C.isDer (dropLast' ((x :: (pre ++ s.redeemscript)).take v.toNat) 1) = false := by
        by_contra hc
        have := h.der _ (by simpa using hc)
        rw [hn, List.take_succ_cons] at this
        unfold dropLast' at this
        generalize hq : ((x :: (pre ++ s.redeemscript).take n).length - 1) = q at this
        cases q with
        | zero => simp at this
        | succ q => simp at this; exact hx this
      obtain ⟨J, hJ, hin⟩ := getSigs_total C.isDer (x :: (pre ++ s.redeemscript)).length
        (s.redeemscript.drop (n - pre.length)) (hdrop _)
      refine ⟨J, ?_, fun b hb => ⟨(hin b hb).1, (hin b hb).2.trans (List.drop_suffix _ _).isInfix⟩⟩
      rw [List.length_cons, getSigsLoop, if_neg (by simp), hread]
      dsimp only [readBytes]
      rw [hd, hJ, hnot]
      rfl
    by_cases h75 : s.redeemscript.length ≤ 75
    · refine ⟨[], ?_, by simp⟩
      have hp : pushPrefix s.redeemscript.length = Spec.compact s.redeemscript.length := by
        unfold pushPrefix
        rw [u8_length h75, compact_small (by omega)]
      have := getSigs_items (isDer := C.isDer) (rest := []) (J := []) [s.redeemscript] (by
        intro b hb; rw [List.mem_singleton.mp hb]; omega) rfl _ le_rfl
      rw [List.append_nil, List.append_nil, List.filter_cons, hhead] at this
      simpa [Spec.varBytes, hp] using this
    · by_cases h256 : s.redeemscript.length < 256
      · have hp : pushPrefix s.redeemscript.length = [0x4c, UInt8.ofNat s.redeemscript.length] := by
          unfold pushPrefix scriptPush
          rw [if_neg h75, if_pos h256, intToUnknownBytes_lt256 h256]
        rw [hp]
        refine big 0x4c _ [] (by decide) ?_ (by decide)
        intro hc
        have := congrArg UInt8.toNat hc
        rw [u8_ofNat_toNat _ h256] at this
        have h48 : (0x30 : UInt8).toNat = 48 := by decide
        omega
      · have hp : pushPrefix s.redeemscript.length = 0x4d :: leBytes 2 s.redeemscript.length := by
          unfold pushPrefix scriptPush
          rw [if_neg h75, if_neg h256, if_pos (by omega), toBytesLE_ok (by norm_num; omega)]
          rfl
        have hp2 : leBytes 2 s.redeemscript.length =
            [UInt8.ofNat (s.redeemscript.length % 256), UInt8.ofNat (s.redeemscript.length / 256 % 256)] := by
          simp [leBytes]
        rw [hp, hp2]
        refine big 0x4d _ [_] (by decide) ?_ (by rw [List.length_singleton]; decide)
        intro hc
        have := congrArg UInt8.toNat hc
        rw [u8_ofNat_toNat _ (by omega)] at this
        have h48 : (0x30 : UInt8).toNat = 48 := by decide
        omega
  obtain ⟨J, hJ, hin⟩ := key
  have e : strays C s = J := by
    unfold strays getSignaturesFromScript
    rw [List.drop_succ_cons, List.drop_zero, hJ]
  rw [e]
  exact ⟨hJ, hin⟩

/-- Number of empty items that stand for missing signatures in a legacy script. -/
def padding (C : Crypto) (s : MultiSig) (done : Nat) : Nat :=
  if done = 1 then 0 else s.m.toNat - done - (strays C s).length

/-- What an input of the contract holds after the co-signers `done` signed it. -/
def multiInput (C : Crypto) (s : MultiSig) (done : List PrivKey) (t : Spec.Tx) (j : Nat) (u : Unspent)
    (i : Spec.TxInput) : Spec.TxInput :=
  let sigs := sigsFor C s done (digest C t j i s.redeemscript u.isSegwit u.amount.toNat)
  if done = [] then i
  else if u.isSegwit then
    { i with script := [0x22] ++ Spec.witnessScript 0 (C.sha256 s.redeemscript)
             witness := [] :: sigs ++ List.replicate (s.m.toNat - done.length) [] ++ [s.redeemscript] }
  else
    { i with script := [0x00] ++ sigs.flatMap Spec.varBytes ++ List.replicate (padding C s done.length) 0x00
               ++ pushPrefix s.redeemscript.length ++ s.redeemscript
             witness := [] }

/-- The signatures read back from a field with the signatures of `done`. -/
theorem sigs_filter {C : Crypto} {s : MultiSig} {done : List PrivKey} {d : Bytes} (hs : ContractLaws C s)
    (hd : ∀ k ∈ done, SignerLaws C s k) (z : Nat) :
    ((sigsFor C s done d ++ List.replicate z []).filter fun b => C.isDer (dropLast' b 1)) =
      sigsFor C s done d := by
  rw [List.filter_append]
  have h1 : ((sigsFor C s done d).filter fun b => C.isDer (dropLast' b 1)) = sigsFor C s done d := by
    rw [List.filter_eq_self]
    intro b hb
    unfold sigsFor at hb
    obtain ⟨p, hp, rfl⟩ := List.mem_map.mp hb
    rw [List.mem_filter] at hp
    obtain ⟨k, hk, -, he⟩ := sigOf_mem (d := d) (by simpa using hp.2)
    rw [he, dropLast_append_one]
    exact (hd k hk).der d
  have h2 : ((List.replicate z ([] : Bytes)).filter fun b => C.isDer (dropLast' b 1)) = [] := by
    rw [List.filter_eq_nil_iff]
    intro b hb
    rw [List.eq_of_mem_replicate hb]
    intro hc
    have := hs.der _ hc
    simp [dropLast'] at this
  rw [h1, h2, List.append_nil]

theorem sigsFor_item {C : Crypto} {s : MultiSig} {done : List PrivKey} {d : Bytes}
    (hd : ∀ k ∈ done, SignerLaws C s k) : ∀ b ∈ sigsFor C s done d, b.length ≤ 73 := by
  intro b hb
  unfold sigsFor at hb
  obtain ⟨p, hp, rfl⟩ := List.mem_map.mp hb
  rw [List.mem_filter] at hp
  obtain ⟨k, hk, -, he⟩ := sigOf_mem (d := d) (by simpa using hp.2)
  rw [he, List.length_append, List.length_singleton]
  have := (hd k hk).len d
  omega

theorem replicate_zero_flatMap (z : Nat) :
    (List.replicate z ([] : Bytes)).flatMap Spec.varBytes = List.replicate z 0x00 := by
  induction z with
  | zero => rfl
  | succ z ih =>
    rw [List.replicate_succ, List.flatMap_cons, ih, List.replicate_succ]
    rfl

/-- Reading the witness of a segwit input. -/
theorem read_segwit {C : Crypto} {s : MultiSig} {done : List PrivKey} {d : Bytes} (hs : ContractLaws C s)
    (hd : ∀ k ∈ done, SignerLaws C s k) (z : Nat) (hz : (sigsFor C s done d).length + z ≤ 200) :
    getSignaturesFromScript C.isDer (Spec.encodeStack ([] :: sigsFor C s done d ++ List.replicate z []
      ++ [s.redeemscript])) = .ok (sigsFor C s done d) := by
  obtain ⟨hr, hl, -⟩ := redeem_head hs
  unfold Spec.encodeStack
  rw [compact_small (by simp; omega)]
  unfold getSignaturesFromScript
  rw [List.singleton_append, List.drop_succ_cons, List.drop_zero]
  have := getSigs_items (isDer := C.isDer) (rest := []) (J := [])
    ([] :: sigsFor C s done d ++ List.replicate z [] ++ [s.redeemscript]) (by
      intro b hb
      simp only [List.mem_append, List.mem_cons, List.mem_replicate, List.not_mem_nil, or_false] at hb
      rcases hb with ((rfl | hb) | ⟨-, rfl⟩) | rfl
      · simp
      · have := sigsFor_item hd b hb; omega
      · simp
      · omega) rfl
  have := this _ le_rfl
  rw [List.append_nil] at this
  rw [this, List.append_nil, List.filter_append, List.cons_append, List.filter_cons,
    sigs_filter hs hd]
  have h0 : C.isDer (dropLast' ([] : Bytes) 1) = false := by
    by_contra hc
    have := hs.der _ (by simpa using hc)
    simp [dropLast'] at this
  rw [h0, List.filter_cons, hr]
  simp

/-- Reading the script of a legacy input. -/
theorem read_legacy {C : Crypto} {s : MultiSig} {done : List PrivKey} {d : Bytes} (hs : ContractLaws C s)
    (hd : ∀ k ∈ done, SignerLaws C s k) (z : Nat) :
    getSignaturesFromScript C.isDer ([0x00] ++ (sigsFor C s done d).flatMap Spec.varBytes
      ++ List.replicate z 0x00 ++ pushPrefix s.redeemscript.length ++ s.redeemscript) =
      .ok (sigsFor C s done d ++ strays C s) := by
  have hq := (strays_eq hs).1
  unfold getSignaturesFromScript
  have e : ([0x00] ++ (sigsFor C s done d).flatMap Spec.varBytes
      ++ List.replicate z 0x00 ++ pushPrefix s.redeemscript.length ++ s.redeemscript).drop 1 =
      (sigsFor C s done d ++ List.replicate z []).flatMap Spec.varBytes
        ++ (pushPrefix s.redeemscript.length ++ s.redeemscript) := by
    rw [List.flatMap_append, replicate_zero_flatMap]
    simp
  rw [e, getSigs_items _ _ hq _ le_rfl, sigs_filter hs hd]
  intro b hb
  rw [List.mem_append] at hb
  rcases hb with hb | hb
  · have := sigsFor_item hd b hb; omega
  · rw [List.eq_of_mem_replicate hb]; simp

/-! ### one more signature -/

theorem matchSigs_append (C : Crypto) (d : Bytes) (keys : List Bytes) : ∀ (l extra : List Bytes)
    (acc : List (Bytes × Bytes)),
    matchSigs C d keys (l ++ extra) acc = matchSigs C d keys extra (matchSigs C d keys l acc)
  | [], _, _ => rfl
  | b :: l, extra, acc => by
    rw [List.cons_append, matchSigs, matchSigs, matchSigs_append C d keys l]

/-- Texts that verify under none of the keys are left out. -/
theorem matchSigs_none {C : Crypto} {d : Bytes} {keys : List Bytes} : ∀ (extra : List Bytes)
    (acc : List (Bytes × Bytes)), (∀ b ∈ extra, ∀ p ∈ keys, C.verify (dropLast' b 1) d p = false) →
    matchSigs C d keys extra acc = acc
  | [], _, _ => rfl
  | b :: extra, acc, h => by
    have hb := h b List.mem_cons_self
    have hf : ∀ (l : List Bytes) (acc : List (Bytes × Bytes)), (∀ p ∈ l, C.verify (dropLast' b 1) d p = false) →
        l.foldl (fun a pub => if C.verify (dropLast' b 1) d pub then dictSet a pub b else a) acc = acc := by
      intro l
      induction l with
      | nil => intro acc _; rfl
      | cons p l ih =>
        intro acc hl
        rw [List.foldl_cons, hl p List.mem_cons_self, if_neg Bool.false_ne_true]
        exact ih acc fun q hq => hl q (List.mem_cons_of_mem _ hq)
    rw [matchSigs, hf keys acc hb]
    exact matchSigs_none extra acc fun c hc => h c (List.mem_cons_of_mem _ hc)

theorem Apart.strays {C : Crypto} {s : MultiSig} {ks : List PrivKey} {d : Bytes} (hs : ContractLaws C s)
    (h : Apart C s ks d) : ∀ b ∈ strays C s, ∀ p ∈ s.publicKeys, C.verify (dropLast' b 1) d p = false := by
  intro b hb p hp
  obtain ⟨h1, h2⟩ := (strays_eq hs).2 b hb
  exact h.2 _ ((List.take_prefix _ b).isInfix.trans h2) h1 p hp

theorem matchSigs_done {C : Crypto} {s : MultiSig} {done : List PrivKey} {d : Bytes} (hs : ContractLaws C s)
    (hd : ∀ k ∈ done, SignerLaws C s k)
    (hap : ∀ a ∈ done, ∀ p ∈ s.publicKeys, C.verify (C.sign a.secret d) d p = true → p = a.publicKey C) {extra : List Bytes}
    (hextra : ∀ b ∈ extra, ∀ p ∈ s.publicKeys, C.verify (dropLast' b 1) d p = false) :
    matchSigs C d s.publicKeys (sigsFor C s done d ++ extra) [] =
      ((s.publicKeys.filter fun p => p ∈ done.map fun k => k.publicKey C).map
        fun p => (p, sigOf C done d p)).reverse := by
  rw [matchSigs_append, matchSigs_none extra _ hextra]
  unfold sigsFor
  rw [matchSigs_eq hs.nodup _ [] _ (hs.nodup.filter _) (by simp), List.append_nil]
  intro p hp
  rw [List.mem_filter] at hp
  refine ⟨hp.1, ?_⟩
  intro q hq
  obtain ⟨k, hk, hkp, he⟩ := sigOf_mem (d := d) (by simpa using hp.2)
  rw [he, dropLast_append_one, ← hkp]
  exact ⟨hap k hk q hq, fun h => h ▸ (hd k hk).verify d⟩

theorem redeem_push {n : Nat} (sg : Bool) (h : n ≤ 520) :
    (if sg = true then intToVarint n else scriptPush n) =
      .ok (if sg = true then Spec.compact n else pushPrefix n) := by
  have h1 : n < 2 ^ 32 := lt_of_le_of_lt h (by norm_num)
  have h2 : n < 2 ^ 64 := lt_of_le_of_lt h (by norm_num)
  cases sg
  · rw [if_neg Bool.false_ne_true, if_neg Bool.false_ne_true, pushPrefix_eq h1]
  · rw [if_pos rfl, if_pos rfl, intToVarint_compact h2]

theorem count_varint {v : Int} (sg : Bool) (h0 : 0 ≤ v) (h : v ≤ 200) :
    (if sg = true then intToVarintInt v else (.ok [] : Py Bytes)) =
      .ok (if sg = true then Spec.compact v.toNat else []) := by
  have h2 : v.toNat < 2 ^ 64 := lt_of_le_of_lt (show v.toNat ≤ 200 by omega) (by norm_num)
  cases sg
  · rw [if_neg Bool.false_ne_true, if_neg Bool.false_ne_true]
  · rw [if_pos rfl, if_pos rfl, intToVarintInt, if_neg (by omega), intToVarint_compact h2]

/-- Signing a field in which the signatures of `done` are found. -/
theorem signMulti_more {C : Crypto} {s : MultiSig} {done : List PrivKey} {k : PrivKey} {d field : Bytes}
    (hs : ContractLaws C s) (hd : ∀ a ∈ done, SignerLaws C s a)
    (hap : ∀ a ∈ done, ∀ p ∈ s.publicKeys, C.verify (C.sign a.secret d) d p = true → p = a.publicKey C)
    (hk : SignerLaws C s k) (w sg : Bool) (hne : field.isEmpty = false) {extra : List Bytes}
    (hextra : ∀ b ∈ extra, ∀ p ∈ s.publicKeys, C.verify (dropLast' b 1) d p = false)
    (hr : getSignaturesFromScript C.isDer field = .ok (sigsFor C s done d ++ extra)) :
    signMulti C { s with key := k } w sg d field =
      if s.m ≤ (sigsFor C s done d).length then .error .valueError
      else .ok (
        let body := [0x00] ++ (sigsFor C s (k :: done) d).flatMap Spec.varBytes
          ++ List.replicate (s.m - (sigsFor C s done d).length - extra.length - 1).toNat 0x00
        if sg then ([0x22] ++ Spec.witnessScript 0 (C.sha256 s.redeemscript),
          Spec.compact (s.m + 2).toNat ++ body ++ Spec.varBytes s.redeemscript)
        else (body ++ pushPrefix s.redeemscript.length ++ s.redeemscript, if w then [0x00] else [])) := by
  obtain ⟨-, hl, hm15, -⟩ := redeem_head hs
  have hpos := hs.pos
  unfold signMulti
  dsimp only
  rw [hne, if_neg (by simp), hr]
  dsimp only
  rw [hs.noBadPoint, if_neg Bool.false_ne_true, matchSigs_done hs hd hap hextra]
  have hlen : (((s.publicKeys.filter fun p => p ∈ done.map fun k => k.publicKey C).map
        fun p => (p, sigOf C done d p)).reverse).length = (sigsFor C s done d).length := by
    simp [sigsFor]
  rw [hlen]
  by_cases hge : s.m ≤ (sigsFor C s done d).length
  · rw [if_pos hge, if_pos hge]
  · rw [if_neg hge, if_neg hge]
    dsimp only
    have hpad : s.m - ((sigsFor C s done d ++ extra).length : Int) - 1 =
        s.m - (sigsFor C s done d).length - extra.length - 1 := by
      rw [List.length_append]; push_cast; ring
    rw [hpad]
    have hlook : ∀ p ∈ s.publicKeys, (dictSet ((s.publicKeys.filter fun p => p ∈ done.map
        fun k => k.publicKey C).map fun p => (p, sigOf C done d p)).reverse (k.publicKey C)
          (C.sign k.secret d ++ [0x01])).lookup p =
        if decide (p ∈ (k :: done).map fun k => k.publicKey C) = true then some (sigOf C (k :: done) d p)
        else none := by
      intro p hp
      rw [lookup_dictSet, lookup_map_reverse]
      by_cases h : p = k.publicKey C
      · subst h
        simp [sigOf]
      · rw [if_neg h]
        have h' : ¬ (k.publicKey C = p) := fun hc => h hc.symm
        have e : sigOf C (k :: done) d p = sigOf C done d p := by
          unfold sigOf
          rw [List.find?_cons_of_neg]
          simpa using h'
        rw [e]
        simp only [List.mem_filter, hp, true_and, List.map_cons, List.mem_cons, h, false_or]
    rw [sortedSigs_eq (g := sigOf C (k :: done) d)
      (P := fun p => decide (p ∈ (k :: done).map fun k => k.publicKey C)) s.publicKeys hlook]
    · dsimp only
      rw [count_varint sg (by omega) (by omega)]
      dsimp only
      rw [redeem_push sg hl]
      dsimp only
      cases sg
      · simp [sigsFor]
      · have h32 : (C.sha256 s.redeemscript).length = 32 := hs.hash.sha256_length _
        simp [sigsFor, Spec.varBytes, MultiSig.segwitScriptcode, Spec.witnessScript, h32]
    · intro p hp hP
      obtain ⟨a, ha, -, he⟩ := sigOf_mem (d := d) (by simpa using hP : p ∈ (k :: done).map fun k => k.publicKey C)
      rw [he, List.length_append, List.length_singleton]
      have : SignerLaws C s a := by
        rcases List.mem_cons.mp ha with rfl | ha
        · exact hk
        · exact hd a ha
      have := this.len d
      omega

/-- Signing an empty field. -/
theorem signMulti_first {C : Crypto} {s : MultiSig} {k : PrivKey} {d : Bytes}
    (hs : ContractLaws C s) (hk : SignerLaws C s k) (w sg : Bool) :
    signMulti C { s with key := k } w sg d [] = .ok (
        let body := [0x00] ++ (sigsFor C s [k] d).flatMap Spec.varBytes
        if sg then ([0x22] ++ Spec.witnessScript 0 (C.sha256 s.redeemscript),
          Spec.compact 3 ++ body ++ Spec.varBytes s.redeemscript)
        else (body ++ pushPrefix s.redeemscript.length ++ s.redeemscript, if w then [0x00] else [])) := by
  obtain ⟨-, hl, hm15, -⟩ := redeem_head hs
  unfold signMulti
  dsimp only
  rw [List.isEmpty_nil, if_pos rfl]
  dsimp only
  have hlook : ∀ p ∈ s.publicKeys, (dictSet [] (k.publicKey C) (C.sign k.secret d ++ [0x01])).lookup p =
      if decide (p ∈ [k].map fun k => k.publicKey C) = true then some (sigOf C [k] d p) else none := by
    intro p hp
    rw [lookup_dictSet]
    by_cases h : p = k.publicKey C
    · subst h
      simp [sigOf]
    · simp [h]
  rw [sortedSigs_eq (g := sigOf C [k] d)
    (P := fun p => decide (p ∈ [k].map fun k => k.publicKey C)) s.publicKeys hlook]
  · dsimp only
    rw [count_varint sg (by omega) (by omega)]
    dsimp only
    rw [redeem_push sg hl]
    dsimp only
    cases sg
    · simp [sigsFor]
    · have h32 : (C.sha256 s.redeemscript).length = 32 := hs.hash.sha256_length _
      simp [sigsFor, Spec.varBytes, MultiSig.segwitScriptcode, Spec.witnessScript, h32]
  · intro p hp hP
    obtain ⟨a, ha, -, he⟩ := sigOf_mem (d := d) (by simpa using hP : p ∈ [k].map fun k => k.publicKey C)
    rw [List.mem_singleton] at ha
    subst ha
    rw [he, List.length_append, List.length_singleton]
    have := hk.len d
    omega

end Bit
