import Verif.Lemmas.Polymod
import Mathlib.Logic.Function.Iterate
import Mathlib.Data.List.Nodup
/-
Error detection of the Bech32 checksum: reduction of "no error pattern of weight at most four has
syndrome zero" to a finite table check, and soundness of that check. The table itself is in
`Lemmas/Bech32Table.lean` (generated); the check is run by the kernel.
-/
namespace Bit

/-- Syndrome of an error vector given last symbol first. -/
def synR : List Nat → Nat
  | [] => 0
  | x :: xs => x ^^^ pmF (synR xs)

theorem pmFrom_zero_eq (e : List Nat) : pmFrom 0 e = synR e.reverse := by
  have : ∀ r : List Nat, pmFrom 0 r.reverse = synR r := by
    intro r
    induction r with
    | nil => rfl
    | cons x xs ih =>
      rw [List.reverse_cons, pmFrom_append, ih, pmFrom_cons, pmFrom_nil, synR, Nat.xor_comm]
  have h := this e.reverse
  rwa [List.reverse_reverse] at h

theorem synR_lt (r : List Nat) (h : ∀ x ∈ r, x < 32) : synR r < 2 ^ 30 := by
  cases r with
  | nil => simp [synR]
  | cons x xs =>
    exact Nat.xor_lt_two_pow (lt_trans (h x (by simp)) (by norm_num)) (pmF_lt _)

/-- contribution of error value `v` at distance `j` from the end -/
def col (j v : Nat) : Nat := pmF^[j] v

theorem col_zero (v : Nat) : col 0 v = v := rfl
theorem col_succ (j v : Nat) : col (j + 1) v = pmF (col j v) := Function.iterate_succ_apply' _ _ _

def xsum : List (Nat × Nat) → Nat
  | [] => 0
  | p :: ps => col p.1 p.2 ^^^ xsum ps

def shiftErr (L : List (Nat × Nat)) : List (Nat × Nat) := L.map fun p => (p.1 + 1, p.2)

theorem xsum_shift (L : List (Nat × Nat)) : xsum (shiftErr L) = pmF (xsum L) := by
  induction L with
  | nil => simp [xsum, shiftErr, pmF_zero]
  | cons p L ih =>
    have ih' : xsum (List.map (fun p => (p.1 + 1, p.2)) L) = pmF (xsum L) := ih
    simp only [shiftErr, List.map_cons, xsum, ih', col_succ, pmF_xor]

/-- sparse form of an error vector -/
theorem sparse (r : List Nat) (h : ∀ x ∈ r, x < 32) : ∃ L : List (Nat × Nat),
    L.length = (r.filter (· ≠ 0)).length ∧ L.Pairwise (fun p q => p.1 < q.1) ∧
    (∀ p ∈ L, p.1 < r.length ∧ 1 ≤ p.2 ∧ p.2 < 32) ∧ synR r = xsum L := by
  induction r with
  | nil => exact ⟨[], rfl, List.Pairwise.nil, by simp, rfl⟩
  | cons x xs ih =>
    obtain ⟨L, h1, h2, h3, h4⟩ := ih fun y hy => h y (by simp [hy])
    have hs2 : (shiftErr L).Pairwise (fun p q => p.1 < q.1) := by
      unfold shiftErr
      rw [List.pairwise_map]
      exact h2.imp (by intro a b hab; simpa using hab)
    have hs3 : ∀ p ∈ shiftErr L, 0 < p.1 ∧ p.1 < xs.length + 1 ∧ 1 ≤ p.2 ∧ p.2 < 32 := by
      intro p hp
      simp only [shiftErr, List.mem_map] at hp
      obtain ⟨q, hq, rfl⟩ := hp
      have := h3 q hq
      simp; omega
    by_cases hx : x = 0
    · subst hx
      refine ⟨shiftErr L, ?_, hs2, ?_, ?_⟩
      · simp [shiftErr, h1]
      · intro p hp; have := hs3 p hp; simp; omega
      · rw [xsum_shift, ← h4]; simp [synR]
    · refine ⟨(0, x) :: shiftErr L, ?_, ?_, ?_, ?_⟩
      · simp [shiftErr, h1, hx]
      · exact List.Pairwise.cons (fun p hp => (hs3 p hp).1) hs2
      · intro p hp
        rcases List.mem_cons.mp hp with rfl | hp
        · have := h x (by simp); simp; omega
        · have := hs3 p hp; simp; omega
      · simp only [xsum, xsum_shift, ← h4, col_zero, synR]

/-! ### the table check -/

/-- 25-bit entry `g` of a packed table -/
def entry (M g : Nat) : Nat := Nat.land (Nat.shiftRight M (Nat.mul 25 g)) 0x1ffffff

/-- projection killing the values at distance 0 and at distance `i` -/
def proj (s M x : Nat) : Nat :=
  Nat.xor (Nat.shiftRight x 5) (entry M (Nat.land (Nat.shiftRight x (Nat.mul 5 (Nat.succ s))) 31))

/-- packed division table of GF(32) -/
def mulRow (T g : Nat) : Nat := Nat.land (Nat.shiftRight T (Nat.mul 5 g)) 31

/-- a function of 25-bit words, constant on GF(32)-lines (only checked, never used as a fact) -/
def normalise (TT y : Nat) : Nat :=
  let g0 := Nat.land y 31
  let g1 := Nat.land (Nat.shiftRight y 5) 31
  let g2 := Nat.land (Nat.shiftRight y 10) 31
  let g3 := Nat.land (Nat.shiftRight y 15) 31
  let g4 := Nat.land (Nat.shiftRight y 20) 31
  let c := bif Nat.beq g0 0 then bif Nat.beq g1 0 then bif Nat.beq g2 0 then
    bif Nat.beq g3 0 then g4 else g3 else g2 else g1 else g0
  let T := Nat.shiftRight TT (Nat.mul 160 c)
  Nat.add (mulRow T g0) (Nat.add (Nat.mul 32 (mulRow T g1)) (Nat.add (Nat.mul 1024 (mulRow T g2))
    (Nat.add (Nat.mul 32768 (mulRow T g3)) (Nat.mul 1048576 (mulRow T g4)))))

def rowConst (TT s M n : Nat) : List Nat → Bool
  | [] => true
  | x :: xs => Nat.beq (normalise TT (proj s M x)) n && rowConst TT s M n xs

/-- each row (values at one distance, entry 0 first) is normalised to its own constant -/
def rowsOk (TT s M : Nat) : List (List Nat) → List Nat → Bool
  | [], _ => true
  | _ :: _, [] => false
  | [] :: _, _ :: _ => false
  | (_ :: row) :: rows, n :: ns => rowConst TT s M n row && rowsOk TT s M rows ns

def notMem (n : Nat) : List Nat → Bool
  | [] => true
  | m :: ms => !Nat.beq n m && notMem n ms

def distinct : List Nat → Bool
  | [] => true
  | n :: ns => notMem n ns && distinct ns

def allZero (s M : Nat) : List Nat → Bool
  | [] => true
  | x :: xs => Nat.beq (proj s M x) 0 && allZero s M xs

def linTable (M : Nat) : Bool :=
  (List.range 32).all fun g =>
    Nat.beq (entry M g) (genXor g 0 [entry M 1, entry M 2, entry M 4, entry M 8, entry M 16])

/-- check for one distance `i`: `row` are the values at distance `i`, `rows` those at larger
distances, `ns` their normal forms. -/
def checkOne (TT s M : Nat) (row : List Nat) (rows : List (List Nat)) (ns : List Nat) : Bool :=
  linTable M && allZero s M row && distinct (normalise TT 0 :: ns) && rowsOk TT s M rows ns

/-! ### soundness -/

theorem entry_linear {M : Nat} (h : linTable M = true) {a b : Nat} (ha : a < 32) (hb : b < 32) :
    entry M (a ^^^ b) = entry M a ^^^ entry M b := by
  have hg : ∀ g, g < 32 →
      entry M g = genXor g 0 [entry M 1, entry M 2, entry M 4, entry M 8, entry M 16] := by
    intro g hg
    have := List.all_eq_true.mp h g (List.mem_range.mpr hg)
    exact Nat.eq_of_beq_eq_true this
  rw [hg _ (Nat.xor_lt_two_pow (n := 5) ha hb), genXor_xor, ← hg a ha, ← hg b hb]

theorem proj_xor {s M : Nat} (h : linTable M = true) (x y : Nat) :
    proj s M (x ^^^ y) = proj s M x ^^^ proj s M y := by
  have e : ∀ z, proj s M z = (z >>> 5) ^^^ entry M ((z >>> (5 * (s + 1))) &&& 31) := fun _ => rfl
  have hl : ∀ z, z &&& 31 < 32 := fun z => lt_of_le_of_lt Nat.and_le_right (by norm_num)
  rw [e, e, e, Nat.shiftRight_xor_distrib, Nat.shiftRight_xor_distrib, Nat.and_xor_distrib_right,
    entry_linear h (hl _) (hl _)]
  exact xor4 _ _ _ _

theorem proj_small {s M v : Nat} (h : linTable M = true) (hv : v < 32) : proj s M v = 0 := by
  have h0 : entry M 0 = 0 := by
    have := entry_linear h (a := 0) (b := 0) (by norm_num) (by norm_num)
    simpa using this
  have e : proj s M v = (v >>> 5) ^^^ entry M ((v >>> (5 * (s + 1))) &&& 31) := rfl
  have h1 : v >>> 5 = 0 := by rw [Nat.shiftRight_eq_div_pow]; exact Nat.div_eq_of_lt (by simpa using hv)
  have h2 : v >>> (5 * (s + 1)) = 0 := by
    rw [Nat.shiftRight_eq_div_pow]
    refine Nat.div_eq_of_lt (lt_of_lt_of_le hv ?_)
    calc 32 = 2 ^ 5 := by norm_num
      _ ≤ _ := Nat.pow_le_pow_right (by norm_num) (by omega)
  rw [e, h1, h2]
  simp [h0]

theorem notMem_iff {n : Nat} {l : List Nat} (h : notMem n l = true) : n ∉ l := by
  induction l with
  | nil => simp
  | cons m l ih =>
    simp only [notMem, Bool.and_eq_true, Bool.not_eq_true'] at h
    have h1 : n ≠ m := fun he => by
      rw [he] at h
      have := Nat.beq_refl m
      rw [h.1] at this
      cases this
    simp [h1, ih h.2]

theorem distinct_nodup {l : List Nat} (h : distinct l = true) : l.Nodup := by
  induction l with
  | nil => exact List.nodup_nil
  | cons n l ih =>
    simp only [distinct, Bool.and_eq_true] at h
    exact List.nodup_cons.mpr ⟨notMem_iff h.1, ih h.2⟩

theorem rowConst_mem {TT s M n : Nat} {row : List Nat} (h : rowConst TT s M n row = true) :
    ∀ x ∈ row, normalise TT (proj s M x) = n := by
  induction row with
  | nil => simp
  | cons y row ih =>
    simp only [rowConst, Bool.and_eq_true] at h
    intro x hx
    rcases List.mem_cons.mp hx with rfl | hx
    · exact Nat.eq_of_beq_eq_true h.1
    · exact ih h.2 x hx

theorem allZero_mem {s M : Nat} {row : List Nat} (h : allZero s M row = true) :
    ∀ x ∈ row, proj s M x = 0 := by
  induction row with
  | nil => simp
  | cons y row ih =>
    simp only [allZero, Bool.and_eq_true] at h
    intro x hx
    rcases List.mem_cons.mp hx with rfl | hx
    · exact Nat.eq_of_beq_eq_true h.1
    · exact ih h.2 x hx

theorem rowsOk_get {TT s M : Nat} : ∀ {rows : List (List Nat)} {ns : List Nat},
    rowsOk TT s M rows ns = true → ∀ (k : Nat) (row : List Nat), rows[k]? = some row →
    ∃ n, ns[k]? = some n ∧ ∀ x ∈ row.drop 1, normalise TT (proj s M x) = n := by
  intro rows
  induction rows with
  | nil => intro ns _ k row h; simp at h
  | cons r rows ih =>
    intro ns h k row hk
    cases ns with
    | nil => cases r <;> simp [rowsOk] at h
    | cons n ns =>
      cases r with
      | nil => simp [rowsOk] at h
      | cons y r =>
        simp only [rowsOk, Bool.and_eq_true] at h
        cases k with
        | zero =>
          simp only [List.getElem?_cons_zero, Option.some.injEq] at hk
          subst hk
          exact ⟨n, rfl, by simpa using rowConst_mem h.1⟩
        | succ k =>
          simp only [List.getElem?_cons_succ] at hk ⊢
          exact ih h.2 k row hk

/-- the rows of the value table: row `j` holds `col j 0, …, col j 31` -/
def rowsFrom : Nat → List Nat → List (List Nat)
  | 0, _ => []
  | n + 1, row => row :: rowsFrom n (row.map pmF)

theorem rowsFrom_get : ∀ (n a k : Nat), k < n →
    (rowsFrom n ((List.range 32).map (col a)))[k]? = some ((List.range 32).map (col (a + k))) := by
  intro n
  induction n with
  | zero => intro a k h; omega
  | succ n ih =>
    intro a k h
    have hm : ((List.range 32).map (col a)).map pmF = (List.range 32).map (col (a + 1)) := by
      rw [List.map_map]
      exact List.map_congr_left fun v _ => (col_succ a v).symm
    unfold rowsFrom
    cases k with
    | zero => simp
    | succ k =>
      rw [List.getElem?_cons_succ, hm, ih (a + 1) k (by omega)]
      congr 3; omega

theorem mem_row {j v : Nat} (hv : 1 ≤ v ∧ v < 32) : col j v ∈ ((List.range 32).map (col j)).drop 1 := by
  have : (List.range 32).map (col j) = col j 0 :: ((List.range 31).map fun v => col j (v + 1)) := by
    rw [List.range_succ_eq_map, List.map_cons, List.map_map]; rfl
  rw [this]
  simp only [List.drop_succ_cons, List.drop_zero, List.mem_map, List.mem_range]
  exact ⟨v - 1, by omega, by congr 1; omega⟩

/-- what the check for distance `i` yields -/
theorem checkOne_sound {TT s M i n : Nat} {ns : List Nat}
    (h : checkOne TT s M ((List.range 32).map (col i)) (rowsFrom n ((List.range 32).map (col (i + 1)))) ns
      = true) :
    (∀ a b c j, a < 32 → b < 32 → 1 ≤ c ∧ c < 32 → i < j → j ≤ i + n →
      a ^^^ (col i b ^^^ (col j c ^^^ 0)) ≠ 0) ∧
    (∀ a b c d j k, a < 32 → b < 32 → 1 ≤ c ∧ c < 32 → 1 ≤ d ∧ d < 32 → i < j → j < k → k ≤ i + n →
      a ^^^ (col i b ^^^ (col j c ^^^ (col k d ^^^ 0))) ≠ 0) := by
  simp only [checkOne, Bool.and_eq_true] at h
  obtain ⟨⟨⟨hlin, hz⟩, hdis⟩, hrows⟩ := h
  have hnd := distinct_nodup hdis
  have p0 : ∀ a, a < 32 → proj s M a = 0 := fun a ha => proj_small hlin ha
  have pi : ∀ b, b < 32 → proj s M (col i b) = 0 := fun b hb =>
    allZero_mem hz _ (List.mem_map.mpr ⟨b, List.mem_range.mpr hb, rfl⟩)
  -- normal form of each row
  have hrow : ∀ j, i < j → j ≤ i + n → ∃ m, ns[j - i - 1]? = some m ∧
      ∀ c, 1 ≤ c ∧ c < 32 → normalise TT (proj s M (col j c)) = m := by
    intro j hij hjn
    have hg := rowsFrom_get n (i + 1) (j - i - 1) (by omega)
    rw [show i + 1 + (j - i - 1) = j by omega] at hg
    obtain ⟨m, hm1, hm2⟩ := rowsOk_get hrows _ _ hg
    exact ⟨m, hm1, fun c hc => hm2 _ (mem_row hc)⟩
  have hlinz : proj s M 0 = 0 := p0 0 (by norm_num)
  rw [List.nodup_cons] at hnd
  constructor
  · intro a b c j ha hb hc hij hjn h0
    have h1 := congrArg (proj s M) h0
    simp only [proj_xor hlin, p0 a ha, pi b hb, hlinz, Nat.zero_xor, Nat.xor_zero] at h1
    obtain ⟨m, hm1, hm2⟩ := hrow j hij hjn
    have := hm2 c hc
    rw [h1] at this
    exact hnd.1 (by rw [this]; exact List.mem_of_getElem? hm1)
  · intro a b c d j k ha hb hc hd hij hjk hkn h0
    have h1 := congrArg (proj s M) h0
    simp only [proj_xor hlin, p0 a ha, pi b hb, hlinz, Nat.zero_xor, Nat.xor_zero] at h1
    have h2 : proj s M (col k d) = proj s M (col j c) := by
      have := (xor_eq_iff _ _ _).mp h1
      simpa using this
    obtain ⟨m, hm1, hm2⟩ := hrow j hij (by omega)
    obtain ⟨m', hm1', hm2'⟩ := hrow k (by omega) hkn
    have e := hm2' d hd
    rw [h2, hm2 c hc] at e
    subst e
    obtain ⟨l1, e1⟩ := List.getElem?_eq_some_iff.mp hm1
    obtain ⟨l2, e2⟩ := List.getElem?_eq_some_iff.mp hm1'
    have := (List.Nodup.getElem_inj_iff hnd.2 (hi := l1) (hj := l2)).mp (e1.trans e2.symm)
    omega

theorem rowsFrom_drop : ∀ (k n : Nat), k ≤ n → ∀ a,
    (rowsFrom n ((List.range 32).map (col a))).drop k =
      rowsFrom (n - k) ((List.range 32).map (col (a + k))) := by
  intro k
  induction k with
  | zero => intro n _ a; simp
  | succ k ih =>
    intro n h a
    match n, h with
    | n + 1, h =>
      have hm : ((List.range 32).map (col a)).map pmF = (List.range 32).map (col (a + 1)) := by
        rw [List.map_map]
        exact List.map_congr_left fun v _ => (col_succ a v).symm
      simp only [rowsFrom, List.drop_succ_cons, hm]
      rw [ih n (by omega) (a + 1), show n + 1 - (k + 1) = n - k by omega,
        show a + 1 + k = a + (k + 1) by omega]

/-- Everything needed from the table: for each distance `i` in `1..87` a successful check. -/
def TableOk : Prop := ∀ i, 1 ≤ i → i < 88 → ∃ TT s M ns,
  checkOne TT s M ((List.range 32).map (col i)) (rowsFrom (87 - i) ((List.range 32).map (col (i + 1)))) ns
    = true

theorem col_two {i : Nat} (hi : 1 ≤ i) {a b : Nat} (ha : a < 32) (hb : 1 ≤ b ∧ b < 32)
    (ht : TableOk) (hi2 : i < 88) : a ^^^ (col i b ^^^ 0) ≠ 0 := by
  by_cases h1 : i = 1
  · subst h1
    have : col 1 b = b <<< 5 := by
      rw [col_succ, col_zero, pmF_small (by omega)]
    rw [this, Nat.xor_zero, Nat.xor_comm, shl5_xor _ _ ha]
    omega
  · obtain ⟨TT, s, M, ns, h⟩ := ht 1 (by norm_num) (by norm_num)
    have := (checkOne_sound h).1 a 0 b i ha (by norm_num) hb (by omega) (by omega)
    have hz : col 1 0 = 0 := by rw [col_succ, col_zero, pmF_zero]
    rwa [hz, Nat.zero_xor] at this

/-- no error vector of weight 1..4 and length at most 88 has syndrome zero -/
theorem synR_ne_zero (ht : TableOk) : ∀ (r : List Nat), (∀ x ∈ r, x < 32) → r.length ≤ 88 →
    (r.filter (· ≠ 0)).length ≤ 4 → (∃ x ∈ r, x ≠ 0) → synR r ≠ 0 := by
  intro r
  induction r with
  | nil => intro _ _ _ ⟨x, hx, _⟩; cases hx
  | cons x xs ih =>
    intro h hl hw hne
    by_cases hx : x = 0
    · subst hx
      have hxs : synR xs ≠ 0 := by
        apply ih (fun y hy => h y (by simp [hy])) (by simp at hl; omega)
        · simpa using hw
        · obtain ⟨y, hy, hy0⟩ := hne
          rcases List.mem_cons.mp hy with rfl | hy
          · exact absurd rfl hy0
          · exact ⟨y, hy, hy0⟩
      intro h0
      simp only [synR, Nat.zero_xor] at h0
      exact hxs (pmF_eq_zero (synR_lt xs fun y hy => h y (by simp [hy])) h0)
    · have hx32 := h x (by simp)
      -- the sparse form starts with `(0, x)`
      obtain ⟨L', h1', h2', h3', h4'⟩ := sparse xs fun y hy => h y (by simp [hy])
      have hw' : L'.length ≤ 3 := by
        rw [h1']
        have : ((x :: xs).filter (· ≠ 0)).length = (xs.filter (· ≠ 0)).length + 1 := by simp [hx]
        omega
      have hsyn : synR (x :: xs) = x ^^^ xsum (shiftErr L') := by
        rw [synR, h4', xsum_shift]
      rw [hsyn]
      simp only [List.length_cons] at hl
      match L', hw', h2', h3' with
      | [], _, _, _ => simpa [shiftErr, xsum] using hx
      | [(i, b)], _, _, h3' =>
        have hb := h3' (i, b) (by simp)
        simp only [shiftErr, List.map_cons, List.map_nil, xsum]
        exact col_two (by omega) hx32 hb.2 ht (by omega)
      | [(i, b), (j, c)], _, h2', h3' =>
        have hb := h3' (i, b) (by simp)
        have hc := h3' (j, c) (by simp)
        have hij : i < j := by simpa using h2'
        simp only [shiftErr, List.map_cons, List.map_nil, xsum]
        obtain ⟨TT, s, M, ns, h⟩ := ht (i + 1) (by omega) (by simp at hb; omega)
        exact (checkOne_sound h).1 x b c (j + 1) hx32 hb.2.2 hc.2 (by omega) (by simp at hc; omega)
      | [(i, b), (j, c), (k, d)], _, h2', h3' =>
        have hb := h3' (i, b) (by simp)
        have hc := h3' (j, c) (by simp)
        have hd := h3' (k, d) (by simp)
        have hij : i < j ∧ j < k := by simp at h2'; omega
        simp only [shiftErr, List.map_cons, List.map_nil, xsum]
        obtain ⟨TT, s, M, ns, h⟩ := ht (i + 1) (by omega) (by simp at hb; omega)
        exact (checkOne_sound h).2 x b c d (j + 1) (k + 1) hx32 hb.2.2 hc.2 hd.2 (by omega) (by omega)
          (by simp at hd; omega)

/-- weight one: no length limit and no table needed -/
theorem synR_single : ∀ (r : List Nat), (∀ x ∈ r, x < 32) →
    (r.filter (· ≠ 0)).length = 1 → synR r ≠ 0 := by
  intro r
  induction r with
  | nil => intro _ h; simp at h
  | cons x xs ih =>
    intro h hw
    by_cases hx : x = 0
    · subst hx
      have hxs := ih (fun y hy => h y (by simp [hy])) (by simpa using hw)
      intro h0
      simp only [synR, Nat.zero_xor] at h0
      exact hxs (pmF_eq_zero (synR_lt xs fun y hy => h y (by simp [hy])) h0)
    · have hz : ∀ y ∈ xs, y = 0 := by
        simpa [hx] using hw
      have : synR xs = 0 := by
        clear ih h hw
        induction xs with
        | nil => rfl
        | cons y ys ih2 =>
          rw [synR, ih2 fun z hz' => hz z (by simp [hz']), hz y (by simp), pmF_zero]; rfl
      rw [synR, this, pmF_zero, Nat.xor_zero]
      exact hx

end Bit
