import Verif.Model.Curve
import Verif.Lemmas.Bytes
import Mathlib.NumberTheory.LucasPrimality
import Mathlib.NumberTheory.LegendreSymbol.Basic
import Mathlib.Tactic.NormNum.Prime
/-
Modular powers, primality of the field size, square roots.
-/
namespace Bit

/-! ### modular powers -/

theorem powModAux_eq (m : Nat) : ∀ (fuel b e acc : Nat), e < 2 ^ fuel → acc % m = acc →
    powModAux m fuel b e acc = acc * b ^ e % m := by
  intro fuel
  induction fuel with
  | zero =>
    intro b e acc he hacc
    have : e = 0 := by simpa using he
    subst this
    simp [powModAux, hacc]
  | succ fuel ih =>
    intro b e acc he hacc
    unfold powModAux
    by_cases h0 : e = 0
    · subst h0; simp [hacc]
    · rw [if_neg h0]
      have he2 : e / 2 < 2 ^ fuel := by rw [pow_succ] at he; omega
      have hpow : b ^ e = (if e % 2 = 1 then b else 1) * (b * b) ^ (e / 2) := by
        have hdm := Nat.div_add_mod e 2
        split
        · rename_i h1
          conv_lhs => rw [← hdm, h1, pow_succ, pow_mul, pow_two]
          ring
        · rename_i h1
          have h1' : e % 2 = 0 := by omega
          conv_lhs => rw [← hdm, h1', Nat.add_zero, pow_mul, pow_two]
          ring
      rw [ih _ _ _ he2 (by split <;> simp [hacc])]
      rw [hpow]
      split
      · rw [Nat.mul_mod, Nat.pow_mod, Nat.mod_mod, Nat.mod_mod, ← Nat.pow_mod, ← Nat.mul_mod,
          Nat.mul_assoc]
      · rw [Nat.mul_mod, Nat.pow_mod, Nat.mod_mod, ← Nat.pow_mod, ← Nat.mul_mod, Nat.one_mul]

theorem powMod_eq (b e m : Nat) : powMod b e m = b ^ e % m := by
  unfold powMod
  rw [powModAux_eq m _ _ _ _ (lt_two_pow_bitLength e) (Nat.mod_mod _ _), Nat.mul_mod, Nat.mod_mod,
    ← Nat.pow_mod, ← Nat.mul_mod, Nat.one_mul]

theorem powMod_cast (b e m : Nat) : ((powMod b e m : Nat) : ZMod m) = (b : ZMod m) ^ e := by
  rw [powMod_eq, ZMod.natCast_mod, Nat.cast_pow]

/-! ### primality -/

/-- Pocklington's criterion with one large prime factor `q` of `N - 1`. -/
theorem pocklington {N q a k : Nat} (hN : 1 < N) (hq : q.Prime) (hqk : N - 1 = q * k)
    (hbig : N < (q + 1) * (q + 1)) (h1 : powMod a (N - 1) N = 1)
    (h2 : Nat.gcd (powMod a k N + (N - 1)) N = 1) : N.Prime := by
  by_contra hnp
  set r := N.minFac with hr
  have hrp : r.Prime := Nat.minFac_prime (by omega)
  have hrN : r ∣ N := Nat.minFac_dvd N
  have hsq : r ^ 2 ≤ N := Nat.minFac_sq_le_self (by omega) hnp
  have : Fact r.Prime := ⟨hrp⟩
  have toZ : ∀ x y : Nat, x % N = y % N → (x : ZMod r) = (y : ZMod r) := by
    intro x y h
    rw [ZMod.natCast_eq_natCast_iff]
    exact (Nat.ModEq.of_dvd hrN h)
  have ha1 : (a : ZMod r) ^ (N - 1) = 1 := by
    have := toZ (a ^ (N - 1)) 1 (by rw [← powMod_eq, h1, Nat.mod_eq_of_lt hN])
    simpa using this
  have ha2 : (a : ZMod r) ^ k ≠ 1 := by
    intro h
    have hz : ((powMod a k N + (N - 1) : Nat) : ZMod r) = 0 := by
      have e1 : ((powMod a k N : Nat) : ZMod r) = (a : ZMod r) ^ k := by
        have := toZ (powMod a k N) (a ^ k) (by rw [powMod_eq, Nat.mod_mod])
        simpa using this
      have e2 : ((N - 1 : Nat) : ZMod r) = -1 := by
        have : ((N - 1 + 1 : Nat) : ZMod r) = 0 := by
          rw [Nat.sub_add_cancel (by omega)]
          exact (ZMod.natCast_eq_zero_iff N r).mpr hrN
        rw [Nat.cast_add, Nat.cast_one] at this
        exact eq_neg_of_add_eq_zero_left this
      rw [Nat.cast_add, e1, e2, h]; ring
    have hd : r ∣ powMod a k N + (N - 1) := (ZMod.natCast_eq_zero_iff _ r).mp hz
    have := Nat.dvd_gcd hd hrN
    rw [h2] at this
    exact hrp.one_lt.ne' (Nat.dvd_one.mp this)
  have hd1 : orderOf (a : ZMod r) ∣ q * k := by
    rw [← hqk]; exact orderOf_dvd_of_pow_eq_one ha1
  have hd2 : ¬ orderOf (a : ZMod r) ∣ k := fun h => ha2 (orderOf_dvd_iff_pow_eq_one.mp h)
  have hqd : q ∣ orderOf (a : ZMod r) := by
    by_contra hc
    have hco : Nat.Coprime (orderOf (a : ZMod r)) q := ((Nat.Prime.coprime_iff_not_dvd hq).mpr hc).symm
    exact hd2 (hco.dvd_of_dvd_mul_left hd1)
  have ha0 : (a : ZMod r) ≠ 0 := by
    intro h
    rw [h, zero_pow (by omega)] at ha1
    exact zero_ne_one ha1
  have hr1 : orderOf (a : ZMod r) ∣ r - 1 :=
    orderOf_dvd_of_pow_eq_one (ZMod.pow_card_sub_one_eq_one ha0)
  have hle : q ≤ r - 1 :=
    Nat.le_of_dvd (by have := hrp.two_le; omega) (dvd_trans hqd hr1)
  have : (q + 1) * (q + 1) ≤ r ^ 2 := by
    rw [pow_two]
    have := hrp.two_le
    exact Nat.mul_le_mul (by omega) (by omega)
  omega

/-- first link of the certificate: `R - 1` is a product of small primes -/
def primeR : Nat := 255515944373312847190720520512484175977

theorem prime_dvd_pow_or {q a k : Nat} (hq : q.Prime) (ha : a.Prime) (h : q ∣ a ^ k) : q = a :=
  (Nat.prime_dvd_prime_iff_eq hq ha).mp (hq.dvd_of_dvd_pow h)

theorem primeR_factor : primeR - 1 =
    2 ^ 3 * 7 ^ 2 * 11 * 1627 * 2657 * 4423 * 41201 * 96557 * 7240687 * 107590001 := by
  decide +kernel

theorem primeR_dvd {q : Nat} (hq : q.Prime) (hd : q ∣ primeR - 1) :
    q ∈ [2, 7, 11, 1627, 2657, 4423, 41201, 96557, 7240687, 107590001] := by
  rw [primeR_factor] at hd
  simp only [hq.dvd_mul] at hd
  simp only [List.mem_cons, List.not_mem_nil, or_false]
  have e : ∀ a : Nat, a.Prime → q ∣ a → q = a := fun a ha h =>
    (Nat.prime_dvd_prime_iff_eq hq ha).mp h
  rcases hd with ((((((((h | h) | h) | h) | h) | h) | h) | h) | h) | h
  · left; exact prime_dvd_pow_or hq (by norm_num) h
  · right; left; exact prime_dvd_pow_or hq (by norm_num) h
  · right; right; left; exact e _ (by norm_num) h
  · iterate 3 right
    left; exact e _ (by norm_num) h
  · iterate 4 right
    left; exact e _ (by norm_num) h
  · iterate 5 right
    left; exact e _ (by norm_num) h
  · iterate 6 right
    left; exact e _ (by norm_num) h
  · iterate 7 right
    left; exact e _ (by norm_num) h
  · iterate 8 right
    left; exact e _ (by norm_num) h
  · iterate 9 right
    exact e _ (by norm_num) h

theorem prime_R : Nat.Prime primeR := by
  have h1 : 1 < primeR := by decide +kernel
  have hcast : ∀ e, powMod 3 e primeR = 1 ↔ ((3 : ZMod primeR) ^ e = 1) := by
    intro e
    have hc := powMod_cast 3 e primeR
    have h3 : ((3 : Nat) : ZMod primeR) = 3 := by norm_cast
    rw [h3] at hc
    rw [← hc]
    constructor
    · intro h; rw [h]; simp
    · intro h
      have h' : ((powMod 3 e primeR : Nat) : ZMod primeR) = ((1 : Nat) : ZMod primeR) := by
        rw [h]; simp
      rw [ZMod.natCast_eq_natCast_iff] at h'
      have h'' : powMod 3 e primeR % primeR = 1 % primeR := h'
      rwa [powMod_eq, Nat.mod_mod, Nat.mod_eq_of_lt h1, ← powMod_eq] at h''
  apply lucas_primality _ (3 : ZMod primeR)
  · rw [← hcast]; decide +kernel
  · intro q hq hd
    have hmem := primeR_dvd hq hd
    rw [ne_eq, ← hcast]
    have hall : ∀ q ∈ [2, 7, 11, 1627, 2657, 4423, 41201, 96557, 7240687, 107590001],
        powMod 3 ((primeR - 1) / q) primeR ≠ 1 := by decide +kernel
    exact hall q hmem

/-- second link -/
def primeQ : Nat := 205115282021455665897114700593932402728804164701536103180137503955397371

theorem prime_Q : Nat.Prime primeQ :=
  pocklington (q := primeR) (a := 2) (k := 802749442992798076634733441528810)
    (by decide +kernel) prime_R (by decide +kernel) (by decide +kernel) (by decide +kernel)
    (by decide +kernel)

/-- The field size of secp256k1 is prime. -/
theorem prime_fieldSize : Nat.Prime fieldSize :=
  pocklington (q := primeQ) (a := 2) (k := 564522)
    (by decide +kernel) prime_Q (by decide +kernel) (by decide +kernel) (by decide +kernel)
    (by decide +kernel)

instance : Fact fieldSize.Prime := ⟨prime_fieldSize⟩

/-! ### square roots -/

theorem fieldSize_odd : fieldSize % 2 = 1 := by decide +kernel
theorem fieldSize_pos : 0 < fieldSize := by decide +kernel

/-- the candidate root -/
def root (x : Nat) : Nat := powMod (x ^ 3 + 7) tonelliShanks fieldSize

theorem root_lt (x : Nat) : root x < fieldSize := by
  unfold root; rw [powMod_eq]; exact Nat.mod_lt _ fieldSize_pos

theorem root_cast (x : Nat) :
    ((root x : Nat) : ZMod fieldSize) = ((x : ZMod fieldSize) ^ 3 + 7) ^ tonelliShanks := by
  unfold root; rw [powMod_cast]; push_cast; rfl

theorem two_ts : 2 * tonelliShanks = (fieldSize - 1) / 2 + 1 := by decide +kernel

theorem half_fs : (fieldSize - 1) / 2 = fieldSize / 2 := by decide +kernel

/-- Square of the candidate root: `z` times Euler's criterion of `z`. -/
theorem root_sq (x : Nat) : ((root x : Nat) : ZMod fieldSize) ^ 2 =
    ((x : ZMod fieldSize) ^ 3 + 7) * ((x : ZMod fieldSize) ^ 3 + 7) ^ (fieldSize / 2) := by
  rw [root_cast, ← pow_mul, Nat.mul_comm, two_ts, half_fs, pow_succ]; ring

/-- `-7` is not a cube, so no point of the curve has `y = 0`. -/
theorem cube_add_seven_ne (x : ZMod fieldSize) : x ^ 3 + 7 ≠ 0 := by
  intro h
  have hx : x ≠ 0 := by
    intro h0
    rw [h0] at h
    have h7 : ((7 : Nat) : ZMod fieldSize) = 0 := by
      simpa using h
    rw [ZMod.natCast_eq_zero_iff] at h7
    revert h7; decide +kernel
  have h3 : x ^ 3 = ((fieldSize - 7 : Nat) : ZMod fieldSize) := by
    have e : ((fieldSize - 7 : Nat) : ZMod fieldSize) + 7 = 0 := by
      have : ((fieldSize - 7 + 7 : Nat) : ZMod fieldSize) = 0 := by
        rw [Nat.sub_add_cancel (by decide +kernel)]; simp
      rw [Nat.cast_add] at this
      exact_mod_cast this
    exact add_right_cancel (h.trans e.symm)
  have hp : x ^ (fieldSize - 1) = 1 := ZMod.pow_card_sub_one_eq_one hx
  have he : fieldSize - 1 = 3 * ((fieldSize - 1) / 3) := by decide +kernel
  rw [he, pow_mul, h3, ← powMod_cast] at hp
  have h' : ((powMod (fieldSize - 7) ((fieldSize - 1) / 3) fieldSize : Nat) : ZMod fieldSize)
      = ((1 : Nat) : ZMod fieldSize) := by rw [hp]; simp
  rw [ZMod.natCast_eq_natCast_iff] at h'
  have h'' : powMod (fieldSize - 7) ((fieldSize - 1) / 3) fieldSize % fieldSize = 1 % fieldSize := h'
  revert h''
  decide +kernel

theorem root_pos (x : Nat) : 0 < root x := by
  by_contra h
  have h0 : root x = 0 := by omega
  have := root_cast x
  rw [h0, Nat.cast_zero] at this
  have hz := pow_eq_zero_iff (n := tonelliShanks) (by decide +kernel) |>.mp this.symm
  exact cube_add_seven_ne _ hz

theorem xToY_cases (x f : Nat) :
    (root x % 2 = f ∧ xToY x f = root x) ∨ (root x % 2 ≠ f ∧ xToY x f = fieldSize - root x) := by
  show _ ∨ _
  unfold xToY
  by_cases h : root x % 2 = f
  · left; refine ⟨h, ?_⟩
    show (if root x % 2 ≠ f then _ else _) = _
    rw [if_neg (by simpa using h)]; rfl
  · right; refine ⟨h, ?_⟩
    show (if root x % 2 ≠ f then _ else _) = _
    rw [if_pos h]; rfl

theorem xToY_lt (x f : Nat) : xToY x f < fieldSize := by
  have := root_lt x; have := root_pos x
  rcases xToY_cases x f with ⟨_, h⟩ | ⟨_, h⟩ <;> omega

theorem xToY_parity (x f : Nat) (hf : f < 2) : xToY x f % 2 = f := by
  have := root_lt x; have := root_pos x; have := fieldSize_odd
  rcases xToY_cases x f with ⟨_, h⟩ | ⟨_, h⟩ <;> omega

theorem xToY_sq (x f : Nat) :
    ((xToY x f : Nat) : ZMod fieldSize) ^ 2 = ((root x : Nat) : ZMod fieldSize) ^ 2 := by
  rcases xToY_cases x f with ⟨_, h⟩ | ⟨_, h⟩
  · rw [h]
  · rw [h, Nat.cast_sub (root_lt x).le, ZMod.natCast_self, zero_sub, neg_sq]

/-- On the curve the candidate is a square root. -/
theorem root_sq_of_curve {x y : Nat}
    (h : (y : ZMod fieldSize) ^ 2 = (x : ZMod fieldSize) ^ 3 + 7) :
    ((root x : Nat) : ZMod fieldSize) ^ 2 = (y : ZMod fieldSize) ^ 2 := by
  rw [root_sq, ← h]
  have hy : (y : ZMod fieldSize) ≠ 0 := by
    intro h0; rw [h0] at h
    exact cube_add_seven_ne _ (by rw [← h]; ring)
  have hsq : IsSquare ((y : ZMod fieldSize) ^ 2) := ⟨(y : ZMod fieldSize), pow_two _⟩
  rw [(ZMod.euler_criterion fieldSize (pow_ne_zero 2 hy)).mp hsq, mul_one]

/-- Off the curve its square is `-(x³ + 7)`. -/
theorem root_sq_of_not_curve {x : Nat}
    (h : ¬ IsSquare ((x : ZMod fieldSize) ^ 3 + 7)) :
    ((root x : Nat) : ZMod fieldSize) ^ 2 = - ((x : ZMod fieldSize) ^ 3 + 7) := by
  have hz := cube_add_seven_ne (x : ZMod fieldSize)
  rw [root_sq]
  rcases ZMod.pow_div_two_eq_neg_one_or_one fieldSize hz with h1 | h1
  · exact absurd ((ZMod.euler_criterion fieldSize hz).mpr h1) h
  · rw [h1, mul_neg, mul_one]

end Bit
