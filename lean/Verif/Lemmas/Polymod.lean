import Verif.Model.Bech32
import Mathlib.Tactic.Ring
import Mathlib.Tactic.Linarith
import Mathlib.Tactic.IntervalCases
/-
The Bech32 checksum is linear over xor.
-/
namespace Bit

/-- Contribution of the generator words for the top bits. -/
def genXor (top : Nat) : Nat → List Nat → Nat
  | _, [] => 0
  | i, g :: gs => (if top.testBit i then g else 0) ^^^ genXor top (i + 1) gs

theorem testBit_cond (top i : Nat) : ((top >>> i) &&& 1 ≠ 0) ↔ top.testBit i = true := by
  rw [Nat.testBit, Nat.and_comm]; simp

theorem polymodGen_eq (top : Nat) (gs : List Nat) : ∀ (i chk : Nat),
    polymodGen top i gs chk = chk ^^^ genXor top i gs := by
  induction gs with
  | nil => intro i chk; simp [polymodGen, genXor]
  | cons g gs ih =>
    intro i chk
    simp only [polymodGen, ih, genXor, testBit_cond, Nat.xor_assoc]

theorem ite_xor_bool (a b : Bool) (g : Nat) :
    (if (a ^^ b) = true then g else 0) = (if a = true then g else 0) ^^^ (if b = true then g else 0) := by
  cases a <;> cases b <;> simp

theorem xor4 (a b c d : Nat) : (a ^^^ b) ^^^ (c ^^^ d) = (a ^^^ c) ^^^ (b ^^^ d) := by
  rw [Nat.xor_assoc, Nat.xor_assoc, ← Nat.xor_assoc b c d, Nat.xor_comm b c, Nat.xor_assoc c b d]

theorem genXor_xor (a b : Nat) (gs : List Nat) : ∀ i,
    genXor (a ^^^ b) i gs = genXor a i gs ^^^ genXor b i gs := by
  induction gs with
  | nil => intro i; simp [genXor]
  | cons g gs ih =>
    intro i
    simp only [genXor, ih, Nat.testBit_xor, ite_xor_bool]
    exact xor4 _ _ _ _

/-- the state transition without input -/
def pmF (c : Nat) : Nat := ((c &&& 0x1FFFFFF) <<< 5) ^^^ genXor (c >>> 25) 0 bech32Generator

theorem polymodStep_eq (c v : Nat) : polymodStep c v = pmF c ^^^ v := by
  unfold polymodStep pmF
  rw [polymodGen_eq, Nat.xor_assoc, Nat.xor_comm v, ← Nat.xor_assoc]

theorem pmF_xor (a b : Nat) : pmF (a ^^^ b) = pmF a ^^^ pmF b := by
  unfold pmF
  rw [Nat.shiftRight_xor_distrib, genXor_xor, Nat.and_xor_distrib_right, Nat.shiftLeft_xor_distrib]
  exact xor4 _ _ _ _

theorem pmF_zero : pmF 0 = 0 := by decide

/-- the checksum state after reading `vs` from state `c` -/
def pmFrom (c : Nat) (vs : List Nat) : Nat := vs.foldl polymodStep c

theorem bech32Polymod_eq (vs : List Nat) : bech32Polymod vs = pmFrom 1 vs := rfl

theorem pmFrom_nil (c : Nat) : pmFrom c [] = c := rfl
theorem pmFrom_cons (c v : Nat) (vs : List Nat) : pmFrom c (v :: vs) = pmFrom (pmF c ^^^ v) vs := by
  simp [pmFrom, polymodStep_eq]

theorem pmFrom_append (c : Nat) (a b : List Nat) : pmFrom c (a ++ b) = pmFrom (pmFrom c a) b := by
  simp [pmFrom]

/-- linearity -/
theorem pmFrom_xor : ∀ (a b : List Nat) (c d : Nat), a.length = b.length →
    pmFrom (c ^^^ d) (List.zipWith (· ^^^ ·) a b) = pmFrom c a ^^^ pmFrom d b := by
  intro a
  induction a with
  | nil => intro b c d h; cases b with
    | nil => simp [pmFrom]
    | cons _ _ => simp at h
  | cons x a ih =>
    intro b c d h
    cases b with
    | nil => simp at h
    | cons y b =>
      simp only [List.zipWith_cons_cons, pmFrom_cons]
      rw [pmF_xor, xor4, ih b _ _ (by simpa using h)]

theorem shiftLeft_lt {a k n : Nat} (h : a < 2 ^ n) : a <<< k < 2 ^ (n + k) := by
  rw [Nat.shiftLeft_eq, pow_add]
  exact Nat.mul_lt_mul_of_pos_right h (Nat.two_pow_pos k)

theorem genXor_lt (top : Nat) : ∀ (gs : List Nat) (i : Nat), (∀ g ∈ gs, g < 2 ^ 30) →
    genXor top i gs < 2 ^ 30 := by
  intro gs
  induction gs with
  | nil => intro i _; simp [genXor]
  | cons g gs ih =>
    intro i h
    unfold genXor
    refine Nat.xor_lt_two_pow ?_ (ih _ fun x hx => h x (by simp [hx]))
    split
    · exact h g (by simp)
    · norm_num

theorem pmF_lt (c : Nat) : pmF c < 2 ^ 30 := by
  unfold pmF
  refine Nat.xor_lt_two_pow ?_ (genXor_lt _ _ _ (by decide))
  exact shiftLeft_lt (n := 25) (k := 5) (lt_of_le_of_lt Nat.and_le_right (by norm_num))

theorem pmFrom_lt (vs : List Nat) : ∀ c, c < 2 ^ 30 → (∀ v ∈ vs, v < 2 ^ 30) → pmFrom c vs < 2 ^ 30 := by
  induction vs with
  | nil => intro c h _; exact h
  | cons v vs ih =>
    intro c h hv
    rw [pmFrom_cons]
    exact ih _ (Nat.xor_lt_two_pow (pmF_lt c) (hv v (by simp))) fun x hx => hv x (by simp [hx])

/-- below 2^25 a step is just a shift -/
theorem pmF_small {c : Nat} (h : c < 2 ^ 25) : pmF c = c <<< 5 := by
  unfold pmF
  have h1 : c >>> 25 = 0 := by rw [Nat.shiftRight_eq_div_pow]; exact Nat.div_eq_of_lt h
  have h2 : c &&& 0x1FFFFFF = c := by
    have := Nat.and_two_pow_sub_one_of_lt_two_pow h
    simpa using this
  rw [h1, h2]
  have : genXor 0 0 bech32Generator = 0 := by decide
  rw [this, Nat.xor_zero]

/-- six 5-bit values packed into 30 bits -/
def pack6 (a b c d e f : Nat) : Nat :=
  ((((a * 32 + b) * 32 + c) * 32 + d) * 32 + e) * 32 + f

theorem shl5_xor (a b : Nat) (hb : b < 32) : (a <<< 5) ^^^ b = a * 32 + b := by
  have h : (a <<< 5) ^^^ b = (a <<< 5) ||| b := by
    apply Nat.eq_of_testBit_eq
    intro i
    rw [Nat.testBit_xor, Nat.testBit_or, Nat.testBit_shiftLeft]
    by_cases hi : i ≥ 5
    · have : b < 2 ^ i := lt_of_lt_of_le hb (by
        calc 32 = 2 ^ 5 := by norm_num
          _ ≤ 2 ^ i := Nat.pow_le_pow_right (by norm_num) hi)
      rw [Nat.testBit_lt_two_pow this]; simp
    · simp [hi]
  rw [h, ← Nat.shiftLeft_add_eq_or_of_lt (by simpa using hb), Nat.shiftLeft_eq]

theorem pmFrom_zero_six {a b c d e f : Nat} (ha : a < 32) (hb : b < 32) (hc : c < 32) (hd : d < 32)
    (he : e < 32) (hf : f < 32) : pmFrom 0 [a, b, c, d, e, f] = pack6 a b c d e f := by
  simp only [pmFrom_cons, pmFrom_nil, pmF_zero, Nat.zero_xor]
  have e1 : pmF a ^^^ b = a * 32 + b := by
    rw [pmF_small (by omega), shl5_xor _ _ hb]
  rw [e1]
  have e2 : pmF (a * 32 + b) ^^^ c = (a * 32 + b) * 32 + c := by
    rw [pmF_small (by omega), shl5_xor _ _ hc]
  rw [e2]
  have e3 : pmF ((a * 32 + b) * 32 + c) ^^^ d = ((a * 32 + b) * 32 + c) * 32 + d := by
    rw [pmF_small (by omega), shl5_xor _ _ hd]
  rw [e3]
  have e4 : pmF (((a * 32 + b) * 32 + c) * 32 + d) ^^^ e = (((a * 32 + b) * 32 + c) * 32 + d) * 32 + e := by
    rw [pmF_small (by omega), shl5_xor _ _ he]
  rw [e4]
  rw [pmF_small (by omega), shl5_xor _ _ hf]; rfl

/-- The i-th 5-bit digit of the checksum word. -/
theorem unpack_digits (p : Nat) (hp : p < 2 ^ 30) :
    (List.range 6).map (fun i => (p >>> (5 * (5 - i))) &&& 31) =
      [p / 33554432, p / 1048576 % 32, p / 32768 % 32, p / 1024 % 32, p / 32 % 32, p % 32] := by
  have h31 : ∀ x, x &&& 31 = x % 32 := fun x => by
    have := Nat.and_two_pow_sub_one_eq_mod x 5; simpa using this
  simp only [List.range, List.range.loop, List.map_cons, List.map_nil, Nat.shiftRight_eq_div_pow, h31]
  norm_num
  omega

theorem pack_unpack (p : Nat) : pack6 (p / 33554432) (p / 1048576 % 32) (p / 32768 % 32)
    (p / 1024 % 32) (p / 32 % 32) (p % 32) = p := by
  unfold pack6; omega

theorem unpack_pack {a b c d e f : Nat} (hb : b < 32) (hc : c < 32) (hd : d < 32)
    (he : e < 32) (hf : f < 32) :
    let p := pack6 a b c d e f
    [p / 33554432, p / 1048576 % 32, p / 32768 % 32, p / 1024 % 32, p / 32 % 32, p % 32]
      = [a, b, c, d, e, f] := by
  simp only [pack6]
  simp only [List.cons.injEq, and_true]
  refine ⟨?_, ?_, ?_, ?_, ?_, ?_⟩ <;> omega

theorem pmFrom_split (q : Nat) (a b c d e f : Nat) :
    pmFrom q [a, b, c, d, e, f] = pmFrom q [0, 0, 0, 0, 0, 0] ^^^ pmFrom 0 [a, b, c, d, e, f] := by
  have := pmFrom_xor [0, 0, 0, 0, 0, 0] [a, b, c, d, e, f] q 0 rfl
  simpa using this

theorem xor_eq_iff (a b c : Nat) : a ^^^ b = c ↔ b = a ^^^ c := by
  constructor
  · intro h; rw [← h, ← Nat.xor_assoc, Nat.xor_self, Nat.zero_xor]
  · intro h; rw [h, ← Nat.xor_assoc, Nat.xor_self, Nat.zero_xor]

/-- The six checksum values are the only ones that make a value list valid. -/
theorem checksum_unique (vs : List Nat) (hv : ∀ v ∈ vs, v < 2 ^ 30) (cs : List Nat) (hl : cs.length = 6)
    (hc : ∀ c ∈ cs, c < 32) :
    pmFrom 1 (vs ++ cs) = 1 ↔
      cs = (List.range 6).map (fun i =>
        ((pmFrom 1 (vs ++ [0, 0, 0, 0, 0, 0]) ^^^ 1) >>> (5 * (5 - i))) &&& 31) := by
  match cs, hl with
  | [a, b, c, d, e, f], _ =>
    simp only [List.mem_cons, List.not_mem_nil, or_false, forall_eq_or_imp, forall_eq] at hc
    obtain ⟨ha, hb, hc, hd, he, hf⟩ := hc
    have hlt : pmFrom 1 (vs ++ [0, 0, 0, 0, 0, 0]) ^^^ 1 < 2 ^ 30 := by
      refine Nat.xor_lt_two_pow (pmFrom_lt _ _ (by norm_num) ?_) (by norm_num)
      intro v h
      rcases List.mem_append.mp h with h | h
      · exact hv v h
      · simp at h; rw [h]; norm_num
    rw [unpack_digits _ hlt]
    rw [pmFrom_append, pmFrom_split, pmFrom_zero_six ha hb hc hd he hf, xor_eq_iff, ← pmFrom_append]
    constructor
    · intro h
      rw [← h]
      exact (unpack_pack hb hc hd he hf).symm
    · intro h
      have h2 := congrArg (fun l => match l with
        | [a, b, c, d, e, f] => pack6 a b c d e f
        | _ => 0) h
      simp only [pack_unpack] at h2
      exact h2

/-- `pmF` is injective on 30 bits: no nonzero state is mapped to zero. -/
theorem pmF_eq_zero {c : Nat} (hc : c < 2 ^ 30) (h : pmF c = 0) : c = 0 := by
  unfold pmF at h
  have htop : c >>> 25 < 32 := by
    rw [Nat.shiftRight_eq_div_pow]; exact Nat.div_lt_of_lt_mul (by simpa using hc)
  have hlow : ∀ a g : Nat, (a <<< 5) ^^^ g = 0 → g % 32 = 0 := by
    intro a g h
    have : g = a <<< 5 := by
      have := (xor_eq_iff _ _ _).mp h; simpa using this
    rw [this, Nat.shiftLeft_eq]; omega
  have hg := hlow _ _ h
  have htab : ∀ t : Fin 32, genXor t.val 0 bech32Generator % 32 = 0 → t.val = 0 := by decide +kernel
  have h0 := htab ⟨c >>> 25, htop⟩ hg
  simp only at h0
  have hsmall : c < 2 ^ 25 := by
    rw [Nat.shiftRight_eq_div_pow] at h0
    exact (Nat.div_eq_zero_iff_lt (Nat.two_pow_pos 25)).mp h0
  have : pmF c = c <<< 5 := pmF_small hsmall
  unfold pmF at this
  rw [h, Nat.shiftLeft_eq] at this
  omega

end Bit
