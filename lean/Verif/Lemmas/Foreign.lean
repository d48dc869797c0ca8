import Verif.Lemmas.SignTwice
/-
Signing inputs of a multi-signature contract that hold any bytes.
-/
namespace Bit

theorem readVarInt_suffix {b r : Bytes} {n : Nat} (h : readVarInt b = .ok (n, r)) : r <:+ b := by
  unfold readVarInt at h
  split at h
  · cases h
  · split at h
    · injection h with h
      rw [Prod.mk.injEq] at h
      rw [← h.2]
      exact List.drop_suffix _ _
    · unfold readAsInt at h
      split at h
      · injection h with h
        rw [Prod.mk.injEq] at h
        rw [← h.2]
        exact (List.drop_suffix _ _).trans (List.drop_suffix _ _)
      · cases h

/-- What is found is part of the text and looks like a signature. -/
theorem getSigs_sound (isDer : Bytes → Bool) : ∀ (fuel : Nat) (script : Bytes) (J : List Bytes),
    getSigsLoop isDer fuel script = .ok J → ∀ b ∈ J, isDer (dropLast' b 1) = true ∧ b <:+: script
  | 0, script, J, h => by
    rw [getSigsLoop] at h
    injection h with h
    subst h
    simp
  | fuel + 1, script, J, h => by
    rw [getSigsLoop] at h
    split at h
    · injection h with h
      subst h
      simp
    · split at h
      · cases h
      · rename_i n r hr
        simp only [readBytes] at h
        split at h
        · cases h
        · rename_i l hl
          have hsuf := readVarInt_suffix hr
          have ih := getSigs_sound isDer fuel _ _ hl
          injection h with h
          have h' : (if isDer (dropLast' (r.take n) 1) = true then r.take n :: l else l) = J := h
          subst h'
          intro b hb
          have hb' : b ∈ l ∨ (isDer (dropLast' (r.take n) 1) = true ∧ b = r.take n) := by
            by_cases hc : isDer (dropLast' (r.take n) 1) = true
            · rw [if_pos hc] at hb
              rcases List.mem_cons.mp hb with hb | hb
              · exact .inr ⟨hc, hb⟩
              · exact .inl hb
            · rw [if_neg hc] at hb
              exact .inl hb
          rcases hb' with hb | ⟨hc, rfl⟩
          · exact ⟨(ih b hb).1, ((ih b hb).2.trans (List.drop_suffix n r).isInfix).trans hsuf.isInfix⟩
          · exact ⟨hc, (List.take_prefix n r).isInfix.trans hsuf.isInfix⟩

theorem mem_of_lookup {d : List (Bytes × Bytes)} {p v : Bytes} (h : d.lookup p = some v) : (p, v) ∈ d := by
  induction d with
  | nil => cases h
  | cons e d ih =>
    obtain ⟨a, w⟩ := e
    rw [List.lookup_cons] at h
    by_cases hp : p = a
    · subst hp
      rw [beq_self_eq_true] at h
      injection h with h
      rw [h]
      exact List.mem_cons_self
    · have : (p == a) = false := by simpa using hp
      rw [this] at h
      exact List.mem_cons_of_mem _ (ih h)

theorem lookup_found {d : List (Bytes × Bytes)} {p v : Bytes} (h : (p, v) ∈ d) : (d.lookup p).isSome = true := by
  induction d with
  | nil => cases h
  | cons e d ih =>
    obtain ⟨a, w⟩ := e
    rw [List.lookup_cons]
    by_cases hp : p = a
    · subst hp
      rw [beq_self_eq_true]
      rfl
    · have : (p == a) = false := by simpa using hp
      rw [this]
      rcases List.mem_cons.mp h with h | h
      · exact absurd (Prod.mk.inj h).1 hp
      · exact ih h

theorem mem_dictSet {d : List (Bytes × Bytes)} {a v : Bytes} {e : Bytes × Bytes} (h : e ∈ dictSet d a v) :
    e = (a, v) ∨ e ∈ d := by
  unfold dictSet at h
  rcases List.mem_cons.mp h with h | h
  · exact .inl h
  · exact .inr (List.mem_of_mem_filter h)

theorem dictSet_length (d : List (Bytes × Bytes)) (a v : Bytes) : (dictSet d a v).length ≤ d.length + 1 := by
  unfold dictSet
  rw [List.length_cons]
  exact Nat.succ_le_succ (List.length_filter_le _ _)

theorem dictSet_keeps {d : List (Bytes × Bytes)} {a v p w : Bytes} (h : (p, w) ∈ d) :
    ∃ w', (p, w') ∈ dictSet d a v := by
  unfold dictSet
  by_cases hp : p = a
  · exact ⟨v, by rw [hp]; exact List.mem_cons_self⟩
  · exact ⟨w, List.mem_cons_of_mem _ (List.mem_filter.mpr ⟨h, by simpa using hp⟩)⟩

section
variable {C : Crypto} {hash : Bytes} {keys : List Bytes}

theorem fold_sound (sig : Bytes) : ∀ (l : List Bytes) (d : List (Bytes × Bytes)),
    ∀ e ∈ l.foldl (fun d pub => if C.verify (dropLast' sig 1) hash pub then dictSet d pub sig else d) d,
      e ∈ d ∨ (e.1 ∈ l ∧ e.2 = sig ∧ C.verify (dropLast' sig 1) hash e.1 = true)
  | [], d, e, he => .inl he
  | q :: l, d, e, he => by
    rw [List.foldl_cons] at he
    rcases fold_sound sig l _ e he with h | ⟨h1, h2, h3⟩
    · by_cases hv : C.verify (dropLast' sig 1) hash q = true
      · rw [if_pos hv] at h
        rcases mem_dictSet h with rfl | h
        · exact .inr ⟨List.mem_cons_self, rfl, hv⟩
        · exact .inl h
      · rw [if_neg hv] at h
        exact .inl h
    · exact .inr ⟨List.mem_cons_of_mem _ h1, h2, h3⟩

/-- What the dictionary holds after matching are signatures found that verify under the key. -/
theorem matchSigs_sound : ∀ (sigs : List Bytes) (d : List (Bytes × Bytes)), ∀ e ∈ matchSigs C hash keys sigs d,
    e ∈ d ∨ (e.1 ∈ keys ∧ e.2 ∈ sigs ∧ C.verify (dropLast' e.2 1) hash e.1 = true)
  | [], d, e, he => .inl he
  | sig :: sigs, d, e, he => by
    rw [matchSigs] at he
    rcases matchSigs_sound sigs _ e he with h | ⟨h1, h2, h3⟩
    · rcases fold_sound sig keys d e h with h | ⟨h1, h2, h3⟩
      · exact .inl h
      · exact .inr ⟨h1, h2 ▸ List.mem_cons_self, h2.symm ▸ h3⟩
    · exact .inr ⟨h1, List.mem_cons_of_mem _ h2, h3⟩

theorem fold_keeps (sig : Bytes) {p : Bytes} : ∀ (l : List Bytes) (d : List (Bytes × Bytes)), (∃ w, (p, w) ∈ d) →
    ∃ w, (p, w) ∈ l.foldl (fun d pub => if C.verify (dropLast' sig 1) hash pub then dictSet d pub sig else d) d
  | [], d, h => h
  | q :: l, d, ⟨w, h⟩ => by
    rw [List.foldl_cons]
    apply fold_keeps sig l
    split
    · exact dictSet_keeps h
    · exact ⟨w, h⟩

theorem fold_adds (sig : Bytes) {p : Bytes} : ∀ (l : List Bytes) (d : List (Bytes × Bytes)), p ∈ l →
    C.verify (dropLast' sig 1) hash p = true →
    ∃ w, (p, w) ∈ l.foldl (fun d pub => if C.verify (dropLast' sig 1) hash pub then dictSet d pub sig else d) d
  | q :: l, d, hp, hv => by
    rw [List.foldl_cons]
    rcases List.mem_cons.mp hp with rfl | hp
    · rw [if_pos hv]
      exact fold_keeps sig l _ ⟨sig, by unfold dictSet; exact List.mem_cons_self⟩
    · exact fold_adds sig l _ hp hv

theorem matchSigs_keeps {p : Bytes} : ∀ (sigs : List Bytes) (d : List (Bytes × Bytes)), (∃ w, (p, w) ∈ d) →
    ∃ w, (p, w) ∈ matchSigs C hash keys sigs d
  | [], _, h => h
  | sig :: sigs, d, h => by
    rw [matchSigs]
    exact matchSigs_keeps sigs _ (fold_keeps sig keys d h)

/-- No signature found that verifies under a key is lost. -/
theorem matchSigs_complete {p : Bytes} (hp : p ∈ keys) : ∀ (sigs : List Bytes) (d : List (Bytes × Bytes)),
    ∀ b ∈ sigs, C.verify (dropLast' b 1) hash p = true → ∃ w, (p, w) ∈ matchSigs C hash keys sigs d
  | sig :: sigs, d, b, hb, hv => by
    rw [matchSigs]
    rcases List.mem_cons.mp hb with rfl | hb
    · exact matchSigs_keeps sigs _ (fold_adds b keys d hp hv)
    · exact matchSigs_complete hp sigs _ b hb hv

theorem fold_length (sig : Bytes) : ∀ (l : List Bytes) (d : List (Bytes × Bytes)), l.Nodup →
    (∀ p ∈ l, ∀ q ∈ l, C.verify (dropLast' sig 1) hash p = true → C.verify (dropLast' sig 1) hash q = true → p = q) →
    (l.foldl (fun d pub => if C.verify (dropLast' sig 1) hash pub then dictSet d pub sig else d) d).length ≤
      d.length + 1
  | [], d, _, _ => Nat.le_succ _
  | q :: l, d, hn, hu => by
    rw [List.foldl_cons]
    obtain ⟨hq, hn'⟩ := List.nodup_cons.mp hn
    by_cases hv : C.verify (dropLast' sig 1) hash q = true
    · rw [if_pos hv]
      have hnone : ∀ (l' : List Bytes) (a : List (Bytes × Bytes)), (∀ p ∈ l', p ∈ l) →
          l'.foldl (fun d pub => if C.verify (dropLast' sig 1) hash pub then dictSet d pub sig else d) a = a := by
        intro l'
        induction l' with
        | nil => intro a _; rfl
        | cons p l' ih =>
          intro a hl
          have hpl := hl p List.mem_cons_self
          rw [List.foldl_cons, if_neg, ih a fun x hx => hl x (List.mem_cons_of_mem _ hx)]
          intro hc
          exact hq (hu q List.mem_cons_self p (List.mem_cons_of_mem _ hpl) hv hc ▸ hpl)
      rw [hnone l _ fun p hp => hp]
      exact dictSet_length _ _ _
    · rw [if_neg hv]
      exact fold_length sig l d hn' fun a ha b hb => hu a (List.mem_cons_of_mem _ ha) b (List.mem_cons_of_mem _ hb)

theorem matchSigs_length (hn : keys.Nodup) : ∀ (sigs : List Bytes) (d : List (Bytes × Bytes)),
    (∀ sig ∈ sigs, ∀ p ∈ keys, ∀ q ∈ keys, C.verify (dropLast' sig 1) hash p = true →
      C.verify (dropLast' sig 1) hash q = true → p = q) →
    (matchSigs C hash keys sigs d).length ≤ d.length + sigs.length
  | [], d, _ => Nat.le_refl _
  | sig :: sigs, d, hu => by
    rw [matchSigs]
    have h1 := matchSigs_length hn sigs
      (keys.foldl (fun d pub => if C.verify (dropLast' sig 1) hash pub then dictSet d pub sig else d) d)
      fun b hb => hu b (List.mem_cons_of_mem _ hb)
    have h2 := fold_length sig keys d hn (hu sig List.mem_cons_self)
    rw [List.length_cons]
    omega

end

theorem dropLast'_eq (b : Bytes) : dropLast' b 1 = b.dropLast := by
  unfold dropLast'
  rw [List.dropLast_eq_take]

/-- What the code finds in a script. -/
def foundIn (C : Crypto) (field : Bytes) : List Bytes :=
  match getSignaturesFromScript C.isDer field with
  | .ok l => l
  | .error _ => []

theorem foundIn_sound {C : Crypto} {field b : Bytes} (h : b ∈ foundIn C field) :
    C.isDer b.dropLast = true ∧ b <:+: field := by
  unfold foundIn at h
  split at h
  · rename_i l hl
    obtain ⟨g1, g2⟩ := getSigs_sound C.isDer _ _ _ hl b h
    rw [dropLast'_eq] at g1
    exact ⟨g1, g2.trans (List.drop_suffix 1 field).isInfix⟩
  · cases h

/-- What is found in a stack. -/
theorem foundIn_stack (C : Crypto) {items : List Bytes} (h : ∀ b ∈ items, b.length < 2 ^ 64) (hl : items.length < 253) :
    foundIn C (Spec.encodeStack items) = items.filter fun b => C.isDer b.dropLast := by
  unfold foundIn getSignaturesFromScript Spec.encodeStack
  rw [compact_small hl, List.cons_append, List.drop_succ_cons, List.drop_zero, List.nil_append]
  have := getSigs_items (isDer := C.isDer) (rest := []) (J := []) items h rfl _ le_rfl
  rw [List.append_nil, List.append_nil] at this
  rw [this]
  simp only [dropLast'_eq]

/-- Signing an input that holds any bytes. -/
theorem signMulti_any {C : Crypto} {s : MultiSig} {k : PrivKey} {w sg : Bool} {d field a wit : Bytes}
    (hs : ContractLaws C s) (hk : SignerLaws C s k)
    (hsize : ∀ b p, C.isDer b = true → C.verify b d p = true → b.length ≤ 72)
    (h : signMulti C { s with key := k } w sg d field = .ok (a, wit)) :
    ∃ (used sigs : List Bytes) (pad count : Nat), used.Sublist s.publicKeys ∧ k.publicKey C ∈ used ∧
      (used.length : Int) ≤ s.m ∧
      List.Forall₂ (fun sig p => (p = k.publicKey C ∧ sig = C.sign k.secret d ++ [0x01]) ∨
        (p ≠ k.publicKey C ∧ sig ∈ foundIn C field ∧ C.verify sig.dropLast d p = true))
        sigs used ∧
      (∀ b ∈ foundIn C field, ∀ p ∈ s.publicKeys, C.verify b.dropLast d p = true → p ∈ used) ∧
      (a, wit) = (let body := [0x00] ++ sigs.flatMap Spec.varBytes ++ List.replicate pad 0x00
        if sg then ([0x22] ++ Spec.witnessScript 0 (C.sha256 s.redeemscript),
          Spec.compact count ++ body ++ Spec.varBytes s.redeemscript)
        else (body ++ pushPrefix s.redeemscript.length ++ s.redeemscript, if w then [0x00] else [])) ∧
      (field ≠ [] → pad = (s.m - (foundIn C field).length - 1).toNat ∧ count = (s.m + 2).toNat) ∧
      ((∀ b, C.isDer b = true → ∀ p ∈ s.publicKeys, ∀ q ∈ s.publicKeys, C.verify b d p = true →
        C.verify b d q = true → p = q) → (used.length : Int) + pad ≤ s.m) := by
  obtain ⟨-, hl, hm15, -⟩ := redeem_head hs
  have hpos := hs.pos
  unfold signMulti at h
  dsimp only at h
  split at h
  · cases h
  · rename_i blob dict0 cnt hpart
    have hp : (∀ e ∈ dict0, e.1 ∈ s.publicKeys ∧ e.2 ∈ foundIn C field ∧
        C.verify e.2.dropLast d e.1 = true) ∧ (dict0.length : Int) < s.m ∧
        (∀ b ∈ foundIn C field, ∀ p ∈ s.publicKeys, C.verify b.dropLast d p = true → ∃ v, (p, v) ∈ dict0) ∧
        3 ≤ cnt ∧ cnt ≤ 17 ∧ ∃ pad : Nat, blob = List.replicate pad 0x00 ∧
          (field ≠ [] → pad = (s.m - (foundIn C field).length - 1).toNat ∧ cnt = s.m + 2) ∧
          ((∀ b, C.isDer b = true → ∀ p ∈ s.publicKeys, ∀ q ∈ s.publicKeys, C.verify b d p = true →
            C.verify b d q = true → p = q) → (dict0.length : Int) + pad + 1 ≤ s.m) := by
      split at hpart
      · rename_i hemp
        have hf : field = [] := by simpa using hemp
        injection hpart with hpart
        simp only [Prod.mk.injEq] at hpart
        obtain ⟨rfl, rfl, rfl⟩ := hpart
        refine ⟨by simp, by rw [List.length_nil]; omega, ?_, by omega, by omega, 0, rfl, fun h => absurd hf h, fun _ => by simpa using hpos⟩
        intro b hb
        rw [hf] at hb
        simp [foundIn, getSignaturesFromScript, getSigsLoop] at hb
      · split at hpart
        · cases hpart
        · rename_i sigList hsl
          split at hpart
          · cases hpart
          · split at hpart
            · cases hpart
            · rename_i hlt
              injection hpart with hpart
              simp only [Prod.mk.injEq] at hpart
              obtain ⟨rfl, rfl, rfl⟩ := hpart
              have hsound := getSigs_sound C.isDer _ _ _ hsl
              have hfound : foundIn C field = sigList := by
                unfold foundIn
                rw [hsl]
              refine ⟨?_, by omega, ?_, by omega, by omega, _, rfl, fun _ => ⟨by rw [hfound], rfl⟩, ?_⟩
              · intro e he
                rcases matchSigs_sound sigList [] e he with h | ⟨h1, h2, h3⟩
                · cases h
                · rw [dropLast'_eq] at h3
                  exact ⟨h1, by rw [hfound]; exact h2, h3⟩
              · intro b hb p hp hv
                rw [hfound] at hb
                rw [← dropLast'_eq] at hv
                exact matchSigs_complete hp sigList [] b hb hv
              · intro hu
                have hlen := matchSigs_length (C := C) (hash := d) hs.nodup sigList [] (by
                  intro b hb p hp q hq h1 h2
                  exact hu _ (hsound b hb).1 p hp q hq h1 h2)
                rw [List.length_nil, Nat.zero_add] at hlen
                omega
    obtain ⟨hdict, hlt, hcomp, hc3, hc17, pad, hblob, hcnt, hpad⟩ := hp
    -- the dictionary with the own signature
    have hmem : ∀ p v, (dictSet dict0 (k.publicKey C) (C.sign k.secret d ++ [0x01])).lookup p = some v →
        (p = k.publicKey C ∧ v = C.sign k.secret d ++ [0x01]) ∨
        (p ≠ k.publicKey C ∧ v ∈ foundIn C field ∧ C.verify v.dropLast d p = true) := by
      intro p v hv
      rw [lookup_dictSet] at hv
      split at hv
      · rename_i hpk
        injection hv with hv
        exact .inl ⟨hpk, hv.symm⟩
      · rename_i hpk
        obtain ⟨-, h2, h3⟩ := hdict _ (mem_of_lookup hv)
        exact .inr ⟨hpk, h2, h3⟩
    generalize hD : dictSet dict0 (k.publicKey C) (C.sign k.secret d ++ [0x01]) = D at h hmem
    have hDlen : D.length ≤ dict0.length + 1 := by rw [← hD]; exact dictSet_length _ _ _
    rw [sortedSigs_eq (g := fun p => (D.lookup p).getD []) (P := fun p => (D.lookup p).isSome) s.publicKeys] at h
    rotate_left
    · intro p _
      cases D.lookup p <;> rfl
    · intro p _ hP
      obtain ⟨v, hv⟩ := Option.isSome_iff_exists.mp hP
      simp only [hv, Option.getD_some]
      rcases hmem p v hv with ⟨-, rfl⟩ | ⟨-, h3, h4⟩
      · have := hk.len d
        rw [List.length_append, List.length_singleton]
        omega
      · have := hsize _ _ (foundIn_sound h3).1 h4
        rw [List.length_dropLast] at this
        omega
    dsimp only at h
    rw [count_varint sg (by omega) (by omega)] at h
    dsimp only at h
    rw [redeem_push sg hl] at h
    dsimp only at h
    have hsub : ((s.publicKeys.filter fun p => (D.lookup p).isSome).length : Int) ≤ D.length := by
      have hnd : (s.publicKeys.filter fun p => (D.lookup p).isSome).Nodup := hs.nodup.filter _
      have hss : (s.publicKeys.filter fun p => (D.lookup p).isSome) ⊆ D.map Prod.fst := by
        intro p hp
        rw [List.mem_filter] at hp
        obtain ⟨v, hv⟩ := Option.isSome_iff_exists.mp hp.2
        exact List.mem_map.mpr ⟨_, mem_of_lookup hv, rfl⟩
      have := (List.subperm_of_subset hnd hss).length_le
      rw [List.length_map] at this
      exact_mod_cast this
    refine ⟨s.publicKeys.filter fun p => (D.lookup p).isSome,
      (s.publicKeys.filter fun p => (D.lookup p).isSome).map fun p => (D.lookup p).getD [], pad,
      cnt.toNat, List.filter_sublist, ?_, by omega, ?_, ?_, ?_, fun hf => ⟨(hcnt hf).1, by rw [(hcnt hf).2]⟩,
      fun hu => by have := hpad hu; omega⟩
    · rw [List.mem_filter]
      refine ⟨hk.mem, ?_⟩
      rw [← hD, lookup_dictSet, if_pos rfl]
      rfl
    · rw [List.forall₂_map_left_iff, List.forall₂_same]
      intro p hp
      rw [List.mem_filter] at hp
      obtain ⟨v, hv⟩ := Option.isSome_iff_exists.mp hp.2
      rw [hv, Option.getD_some]
      exact hmem p v hv
    · intro b hb p hp hv
      obtain ⟨v, hvm⟩ := hcomp b hb p hp hv
      rw [List.mem_filter]
      refine ⟨hp, ?_⟩
      rw [← hD]
      obtain ⟨v', hv'⟩ := dictSet_keeps (a := k.publicKey C) (v := C.sign k.secret d ++ [0x01]) hvm
      exact lookup_found hv'
    · have h32 : (C.sha256 s.redeemscript).length = 32 := hs.hash.sha256_length _
      subst hblob
      cases sg
      · simp only [Bool.false_eq_true, if_false] at h ⊢
        rw [← Except.ok.inj h]
        simp
      · simp only [if_true] at h ⊢
        rw [← Except.ok.inj h]
        simp [Spec.varBytes, MultiSig.segwitScriptcode, Spec.witnessScript, h32]

end Bit
