import Verif.Spec.Decimal
import Mathlib.Tactic.Ring
import Mathlib.Tactic.Linarith
import Mathlib.Tactic.FieldSimp
import Mathlib.Tactic.Positivity
import Mathlib.Tactic.NormNum
/-
Lemmas on decimal numbers.
-/
namespace Bit
open Spec

/-! ## Digits -/

theorem digits_pos (n : Nat) : 1 ≤ digits n := by
  unfold digits; split <;> omega

theorem lt_pow_digits (n : Nat) : n < 10 ^ digits n := by
  induction n using Nat.strongRecOn with
  | ind n ih =>
    unfold digits
    split
    · omega
    · have := ih (n / 10) (by omega)
      rw [pow_succ]
      omega

theorem pow_digits_le {n : Nat} (h : 0 < n) : 10 ^ (digits n - 1) ≤ n := by
  induction n using Nat.strongRecOn with
  | ind n ih =>
    unfold digits
    split
    · simp; omega
    · have h1 := ih (n / 10) (by omega) (by omega)
      have h2 := digits_pos (n / 10)
      have : digits (n / 10) + 1 - 1 = (digits (n / 10) - 1) + 1 := by omega
      rw [this, pow_succ]
      omega

theorem digits_le_iff (n k : Nat) (hk : 1 ≤ k) : digits n ≤ k ↔ n < 10 ^ k := by
  constructor
  · intro h
    exact lt_of_lt_of_le (lt_pow_digits n) (Nat.pow_le_pow_right (by norm_num) h)
  · intro h
    rcases Nat.eq_zero_or_pos n with rfl | hn
    · unfold digits; simpa using hk
    · by_contra hlt
      have h1 := pow_digits_le hn
      have h2 : 10 ^ k ≤ 10 ^ (digits n - 1) := Nat.pow_le_pow_right (by norm_num) (by omega)
      omega

theorem digits_mul_pow {n : Nat} (h : 0 < n) (k : Nat) : digits (n * 10 ^ k) = digits n + k := by
  induction k with
  | zero => simp
  | succ k ih =>
    have e : n * 10 ^ (k + 1) / 10 = n * 10 ^ k := by
      rw [pow_succ, ← mul_assoc, Nat.mul_div_cancel _ (by norm_num)]
    have hp : 0 < 10 ^ k := by positivity
    have hge : ¬ n * 10 ^ (k + 1) < 10 := by
      rw [pow_succ, ← mul_assoc]
      have : 1 ≤ n * 10 ^ k := Nat.mul_pos h hp
      omega
    rw [digits, if_neg hge, e, ih]
    omega

/-! ## Rounding to the precision -/

/-- Rounding half-even is off by at most one half. -/
theorem roundHalfEven_near (n k : Nat) :
    2 * (roundHalfEven n k * 10 ^ k) ≤ 2 * n + 10 ^ k ∧ 2 * n ≤ 2 * (roundHalfEven n k * 10 ^ k) + 10 ^ k := by
  unfold roundHalfEven
  have h := Nat.div_add_mod n (10 ^ k)
  have hr := Nat.mod_lt n (show 0 < 10 ^ k by positivity)
  dsimp only
  generalize n % 10 ^ k = r at h hr
  generalize n / 10 ^ k = q at h
  generalize 10 ^ k = p at h hr
  have e1 : q * p = p * q := Nat.mul_comm _ _
  have e2 : (q + 1) * p = p * q + p := by ring
  split_ifs <;> (first | rw [e1] | rw [e2]) <;> omega

/-- What `fix` does: nothing, or a coefficient of full length, off by at most one half. -/
theorem fix_cases (prec : Nat) (hp : 1 ≤ prec) (d : Dec) :
    (digits d.coeff ≤ prec ∧ d.fix prec = d) ∨
    ∃ j c : Nat, 1 ≤ j ∧ d.fix prec = { d with coeff := c, exp := d.exp + j } ∧ 10 ^ (prec - 1) ≤ c ∧
      c < 10 ^ prec ∧ 2 * (c * 10 ^ j) ≤ 2 * d.coeff + 10 ^ j ∧ 2 * d.coeff ≤ 2 * (c * 10 ^ j) + 10 ^ j := by
  unfold Dec.fix
  split
  · left; rename_i h; exact ⟨h, rfl⟩
  · right
    rename_i h
    dsimp only
    have hk : 1 ≤ digits d.coeff - prec := by omega
    have hpos : 0 < d.coeff := by
      rcases Nat.eq_zero_or_pos d.coeff with h0 | h0
      · rw [h0] at h; unfold digits at h; simp at h; omega
      · exact h0
    have hlow := pow_digits_le hpos
    have hhigh := lt_pow_digits d.coeff
    generalize hkk : digits d.coeff - prec = k at *
    have e1 : 10 ^ (digits d.coeff - 1) = 10 ^ (prec - 1) * 10 ^ k := by
      rw [← pow_add]; congr 1; omega
    have e2 : 10 ^ digits d.coeff = 10 ^ prec * 10 ^ k := by
      rw [← pow_add]; congr 1; omega
    rw [e1] at hlow
    rw [e2] at hhigh
    obtain ⟨n1, n2⟩ := roundHalfEven_near d.coeff k
    have hP : 10 ^ prec = 10 * 10 ^ (prec - 1) := by
      rw [← pow_succ']; congr 1; omega
    have hq1 : 10 ^ (prec - 1) ≤ roundHalfEven d.coeff k := by
      unfold roundHalfEven
      have : 10 ^ (prec - 1) ≤ d.coeff / 10 ^ k := (Nat.le_div_iff_mul_le (by positivity)).mpr hlow
      dsimp only
      split_ifs <;> omega
    have hq2 : roundHalfEven d.coeff k ≤ 10 ^ prec := by
      unfold roundHalfEven
      have : d.coeff / 10 ^ k < 10 ^ prec := (Nat.div_lt_iff_lt_mul (by positivity)).mpr hhigh
      dsimp only
      split_ifs <;> omega
    split
    · rename_i hd
      rw [digits_le_iff _ _ hp] at hd
      exact ⟨k, _, hk, rfl, hq1, hd, n1, n2⟩
    · rename_i hd
      rw [digits_le_iff _ _ hp] at hd
      have he : roundHalfEven d.coeff k = 10 ^ prec := by omega
      have hc : 10 ^ prec / 10 = 10 ^ (prec - 1) := by rw [hP]; omega
      have hpp : 0 < 10 ^ (prec - 1) := by positivity
      rw [he, hc]
      refine ⟨k + 1, 10 ^ (prec - 1), by omega, ?_, le_refl _, by omega, ?_, ?_⟩
      · rw [Nat.cast_add, Nat.cast_one, add_assoc]
      · rw [he] at n1
        have : 10 ^ (prec - 1) * 10 ^ (k + 1) = 10 ^ prec * 10 ^ k := by rw [hP, pow_succ]; ring
        rw [this]
        have : 10 ^ k ≤ 10 ^ (k + 1) := Nat.pow_le_pow_right (by norm_num) (by omega)
        omega
      · rw [he] at n2
        have : 10 ^ (prec - 1) * 10 ^ (k + 1) = 10 ^ prec * 10 ^ k := by rw [hP, pow_succ]; ring
        rw [this]
        have : 10 ^ k ≤ 10 ^ (k + 1) := Nat.pow_le_pow_right (by norm_num) (by omega)
        omega

/-- `fix` does not change the value of a number with few enough significant digits. -/
theorem fix_exact {prec : Nat} (hp : 1 ≤ prec) (d : Dec) (m k : Nat) (hm : m < 10 ^ prec)
    (hd : d.coeff = m * 10 ^ k) : value (d.fix prec) = value d ∧ (d.fix prec).neg = d.neg := by
  rcases Nat.eq_zero_or_pos m with rfl | hm0
  · have : d.fix prec = d := by
      unfold Dec.fix
      rw [if_pos]
      rw [hd, Nat.zero_mul]
      unfold digits
      simpa using hp
    rw [this]; exact ⟨rfl, rfl⟩
  · unfold Dec.fix
    split
    · exact ⟨rfl, rfl⟩
    · rename_i h
      dsimp only
      have hdig : digits d.coeff = digits m + k := by rw [hd, digits_mul_pow hm0]
      have hmd := (digits_le_iff m prec hp).mpr hm
      obtain ⟨j, hj⟩ : ∃ j, j = digits d.coeff - prec := ⟨_, rfl⟩
      have hjk : j ≤ k := by omega
      rw [← hj]
      have e : d.coeff = m * 10 ^ (k - j) * 10 ^ j := by
        rw [hd, mul_assoc, ← pow_add]; congr 2; omega
      have hround : roundHalfEven d.coeff j = m * 10 ^ (k - j) := by
        unfold roundHalfEven
        rw [e, Nat.mul_mod_left, Nat.mul_div_cancel _ (by positivity)]
        dsimp only
        rw [if_pos (by positivity)]
      have hle : digits (roundHalfEven d.coeff j) ≤ prec := by
        rw [hround, digits_mul_pow hm0]; omega
      rw [if_pos hle, hround]
      refine ⟨?_, rfl⟩
      unfold value
      dsimp only
      congr 1
      rw [e]
      push_cast
      rw [zpow_add₀ (by norm_num), zpow_natCast]
      ring

/-! ## Truncation -/

theorem trunc_neg (q : ℚ) : trunc (-q) = - trunc q := by
  unfold trunc
  rcases lt_trichotomy q 0 with h | rfl | h
  · rw [if_pos (by linarith), if_neg (by linarith), Int.floor_neg]
  · simp
  · rw [if_neg (by linarith), if_pos (by linarith), Int.ceil_neg]

theorem toInt_value (d : Dec) : d.toInt = trunc (value d) := by
  have key : ((if 0 ≤ d.exp then d.coeff * 10 ^ d.exp.toNat else d.coeff / 10 ^ (-d.exp).toNat : Nat) : Int) =
      trunc (d.coeff * (10 : ℚ) ^ d.exp) := by
    have hnn : (0 : ℚ) ≤ d.coeff * (10 : ℚ) ^ d.exp :=
      mul_nonneg (Nat.cast_nonneg _) (zpow_nonneg (by norm_num) _)
    unfold trunc
    rw [if_pos hnn]
    by_cases h : 0 ≤ d.exp
    · rw [if_pos h]
      obtain ⟨n, hn⟩ := Int.eq_ofNat_of_zero_le h
      rw [hn, Int.toNat_natCast, zpow_natCast]
      have : ((d.coeff : ℚ) * 10 ^ n) = ((d.coeff * 10 ^ n : Nat) : ℚ) := by push_cast; ring
      rw [this, Int.floor_natCast]
    · rw [if_neg h]
      obtain ⟨n, hn⟩ := Int.eq_ofNat_of_zero_le (show 0 ≤ -d.exp by omega)
      rw [hn, Int.toNat_natCast]
      have he : d.exp = -(n : Int) := by omega
      rw [he, zpow_neg, zpow_natCast, ← div_eq_mul_inv]
      have : ((d.coeff : ℚ) / 10 ^ n) = ((d.coeff : Int) : ℚ) / ((10 ^ n : Nat) : ℚ) := by push_cast; ring
      rw [this, Rat.floor_intCast_div_natCast]
      push_cast
      rfl
  unfold Dec.toInt value
  dsimp only
  cases d.neg with
  | false => simp only [Bool.false_eq_true, if_false, one_mul]; exact key
  | true => simp only [if_true, neg_one_mul, trunc_neg]; rw [key]

/-! ## Stripping zeros -/

theorem strip_value (n : Nat) (d : Dec) : value (d.strip n) = value d ∧ (d.strip n).neg = d.neg := by
  induction n generalizing d with
  | zero => exact ⟨rfl, rfl⟩
  | succ n ih =>
    unfold Dec.strip
    split
    · rename_i h
      obtain ⟨h1, h2⟩ := ih { d with coeff := d.coeff / 10, exp := d.exp + 1 }
      refine ⟨?_, h2⟩
      rw [h1]
      unfold value
      dsimp only
      congr 1
      have e : d.coeff = d.coeff / 10 * 10 := by omega
      have e' : ((d.coeff : Nat) : ℚ) = ((d.coeff / 10 : Nat) : ℚ) * 10 := by exact_mod_cast e
      rw [e', zpow_add_one₀ (by norm_num)]
      ring
    · exact ⟨rfl, rfl⟩

theorem strip_digits (n : Nat) (d : Dec) : ∃ k, d.coeff = (d.strip n).coeff * 10 ^ k := by
  induction n generalizing d with
  | zero => exact ⟨0, by simp [Dec.strip]⟩
  | succ n ih =>
    unfold Dec.strip
    split
    · rename_i h
      obtain ⟨k, hk⟩ := ih { d with coeff := d.coeff / 10, exp := d.exp + 1 }
      dsimp only at hk
      refine ⟨k + 1, ?_⟩
      rw [pow_succ, ← mul_assoc, ← hk]
      omega
    · exact ⟨0, by simp⟩

/-! ## Division -/

/-- With the sticky digit, rounding the quotient is rounding the exact value. -/
theorem sticky_round {n m q c j : Nat} (hj : 1 ≤ j) (hm : 0 < m)
    (hq : q = if n / m % 5 = 0 then n / m + 1 else n / m)
    (h1 : 2 * (c * 10 ^ j) ≤ 2 * q + 10 ^ j) (h2 : 2 * q ≤ 2 * (c * 10 ^ j) + 10 ^ j) :
    2 * (c * 10 ^ j * m) ≤ 2 * n + 10 ^ j * m ∧ 2 * n ≤ 2 * (c * 10 ^ j * m) + 10 ^ j * m := by
  obtain ⟨i, rfl⟩ : ∃ i, j = i + 1 := ⟨j - 1, by omega⟩
  have hq5 : q % 5 ≠ 0 := by split at hq <;> omega
  have hdm := Nat.div_add_mod n m
  have hlt := Nat.mod_lt n hm
  have hq0 : n / m ≤ q ∧ q ≤ n / m + 1 := by split at hq <;> omega
  obtain ⟨P, hP⟩ : ∃ P, 10 ^ (i + 1) = 10 * P := ⟨10 ^ i, by ring⟩
  rw [hP] at h1 h2 ⊢
  have e : c * (10 * P) = 10 * (c * P) := by ring
  rw [e] at h1 h2 ⊢
  generalize c * P = X at *
  -- all of `10 X ± 5 P` are multiples of five, `q` is not
  have h1' : 10 * X + 1 ≤ q + 5 * P := by omega
  have h2' : q + 1 ≤ 10 * X + 5 * P := by omega
  generalize n / m = a at *
  generalize n % m = r at *
  subst hdm
  obtain ⟨ha1, ha2⟩ := hq0
  have k1 : 10 * X ≤ a + 5 * P := by omega
  have k2 : a + 1 ≤ 10 * X + 5 * P := by omega
  have k1' := Nat.mul_le_mul_right m k1
  have k2' := Nat.mul_le_mul_right m k2
  have e1 : (a + 5 * P) * m = m * a + 5 * (P * m) := by ring
  have e2 : (a + 1) * m = m * a + m := by ring
  have e3 : (10 * X + 5 * P) * m = 10 * X * m + 5 * (P * m) := by ring
  have e4 : 10 * P * m = 10 * (P * m) := by ring
  rw [e1] at k1'
  rw [e2, e3] at k2'
  rw [e4]
  constructor <;> omega

/-- Division of positive integers: the result is exact, or it has a full coefficient that is off by at
most one half. -/
theorem div_spec (prec : Nat) (hp : 1 ≤ prec) (a b : Nat) (ha : 0 < a) (hb : 0 < b) :
    ∃ d : Dec, (Dec.ofInt a).div prec (Dec.ofInt b) = .ok d ∧ d.neg = false ∧
      (value d = (a : ℚ) / b ∨
        (10 ^ (prec - 1) ≤ d.coeff ∧ |(d.coeff : ℚ) - a / b / (10 : ℚ) ^ d.exp| ≤ 1 / 2)) := by
  have ea : Dec.ofInt a = ⟨false, a, 0⟩ := by unfold Dec.ofInt; simp
  have eb : Dec.ofInt b = ⟨false, b, 0⟩ := by unfold Dec.ofInt; simp
  rw [ea, eb]
  unfold Dec.div
  dsimp only
  rw [if_neg (by omega), if_neg (by omega)]
  obtain ⟨shift, hshift⟩ : ∃ s : Int, s = (digits b : Int) - digits a + prec + 1 := ⟨_, rfl⟩
  rw [← hshift]
  obtain ⟨u, v, huv, hu, hv⟩ : ∃ u v : Nat, shift = (u : Int) - v ∧ shift.toNat = u ∧ (-shift).toNat = v :=
    ⟨shift.toNat, (-shift).toNat, by omega, rfl, rfl⟩
  rw [hu, hv]
  have hmpos : 0 < b * 10 ^ v := by positivity
  have hX : ((a * 10 ^ u : Nat) : ℚ) / ((b * 10 ^ v : Nat) : ℚ) = a / b * (10 : ℚ) ^ shift := by
    have hb' : (b : ℚ) ≠ 0 := by positivity
    rw [huv, zpow_sub₀ (by norm_num), zpow_natCast, zpow_natCast]
    push_cast
    field_simp
  -- the quotient has at least `prec + 1` digits
  have hbig : 10 ^ prec ≤ a * 10 ^ u / (b * 10 ^ v) := by
    rw [Nat.le_div_iff_mul_le hmpos]
    have h1 := pow_digits_le ha
    have h2 := lt_pow_digits b
    have hd := digits_pos a
    calc 10 ^ prec * (b * 10 ^ v) ≤ 10 ^ prec * (10 ^ digits b * 10 ^ v) := by
            apply Nat.mul_le_mul_left; apply Nat.mul_le_mul_right; omega
      _ = 10 ^ (digits a - 1) * 10 ^ u := by
            rw [← pow_add, ← pow_add, ← pow_add]; congr 1; omega
      _ ≤ a * 10 ^ u := Nat.mul_le_mul_right _ h1
  have hexp : (0 : Int) - 0 - shift = -shift := by omega
  rw [hexp]
  have key : ∀ (c j : Nat), 2 * (c * 10 ^ j * (b * 10 ^ v)) ≤ 2 * (a * 10 ^ u) + 10 ^ j * (b * 10 ^ v) →
      2 * (a * 10 ^ u) ≤ 2 * (c * 10 ^ j * (b * 10 ^ v)) + 10 ^ j * (b * 10 ^ v) →
      |(c : ℚ) - a / b / (10 : ℚ) ^ (-shift + (j : Int))| ≤ 1 / 2 := by
    intro c j h1 h2
    have e : (a : ℚ) / b / (10 : ℚ) ^ (-shift + (j : Int)) =
        ((a * 10 ^ u : Nat) : ℚ) / ((b * 10 ^ v : Nat) : ℚ) / 10 ^ j := by
      rw [hX, zpow_add₀ (by norm_num), zpow_neg, zpow_natCast]
      field_simp
    rw [e]
    generalize a * 10 ^ u = n at *
    generalize b * 10 ^ v = m at *
    have hm' : (0 : ℚ) < m := by exact_mod_cast hmpos
    have hj' : (0 : ℚ) < 10 ^ j := by positivity
    have h1' : 2 * ((c : ℚ) * 10 ^ j * m) ≤ 2 * n + 10 ^ j * m := by exact_mod_cast h1
    have h2' : 2 * (n : ℚ) ≤ 2 * (c * 10 ^ j * m) + 10 ^ j * m := by exact_mod_cast h2
    have hden : (0 : ℚ) < m * 10 ^ j := by positivity
    rw [div_div, abs_le]
    constructor
    · rw [neg_le_sub_iff_le_add, div_le_iff₀ hden]
      nlinarith
    · rw [sub_le_iff_le_add, ← sub_le_iff_le_add', le_div_iff₀ hden]
      nlinarith
  by_cases hr : a * 10 ^ u % (b * 10 ^ v) ≠ 0
  · rw [if_pos hr]
    refine ⟨_, rfl, ?_⟩
    obtain ⟨q, hq⟩ : ∃ q, q = if a * 10 ^ u / (b * 10 ^ v) % 5 = 0 then a * 10 ^ u / (b * 10 ^ v) + 1
      else a * 10 ^ u / (b * 10 ^ v) := ⟨_, rfl⟩
    rw [← hq]
    have hqbig : 10 ^ prec ≤ q := by split at hq <;> omega
    rcases fix_cases prec hp { neg := false != false, coeff := q, exp := -shift } with ⟨h, -⟩ | ⟨j, c, hj, hf, hc, -, h1, h2⟩
    · rw [digits_le_iff _ _ hp] at h
      dsimp only at h
      omega
    · rw [hf]
      refine ⟨rfl, Or.inr ⟨hc, ?_⟩⟩
      obtain ⟨k1, k2⟩ := sticky_round hj hmpos hq h1 h2
      exact key c j k1 k2
  · rw [if_neg hr]
    refine ⟨_, rfl, ?_⟩
    have hr : a * 10 ^ u % (b * 10 ^ v) = 0 := by omega
    have hdm := Nat.div_add_mod (a * 10 ^ u) (b * 10 ^ v)
    rw [hr, Nat.add_zero] at hdm
    obtain ⟨d, hd⟩ : ∃ d : Dec, d = Dec.strip ((0 : Int) - 0 - -shift).toNat
        { neg := false != false, coeff := a * 10 ^ u / (b * 10 ^ v), exp := -shift } := ⟨_, rfl⟩
    rw [← hd]
    obtain ⟨s1, s2⟩ := strip_value ((0 : Int) - 0 - -shift).toNat
        { neg := false != false, coeff := a * 10 ^ u / (b * 10 ^ v), exp := -shift }
    rw [← hd] at s1 s2
    have hval : value d = (a : ℚ) / b := by
      rw [s1]
      unfold value
      dsimp only
      have e : ((a * 10 ^ u / (b * 10 ^ v) : Nat) : ℚ) = ((a * 10 ^ u : Nat) : ℚ) / ((b * 10 ^ v : Nat) : ℚ) := by
        rw [eq_div_iff (by positivity), mul_comm]
        exact_mod_cast hdm
      rw [e, hX, zpow_neg, mul_inv_cancel_right₀ (zpow_ne_zero _ (by norm_num))]
      simp
    have hneg : d.neg = false := s2
    rcases fix_cases prec hp d with ⟨-, hf⟩ | ⟨j, c, hj, hf, hc, -, h1, h2⟩
    · rw [hf]
      exact ⟨hneg, Or.inl hval⟩
    · rw [hf]
      refine ⟨hneg, Or.inr ⟨hc, ?_⟩⟩
      dsimp only
      have e : (a : ℚ) / b / (10 : ℚ) ^ (d.exp + (j : Int)) = d.coeff / 10 ^ j := by
        rw [← hval]
        unfold value
        rw [hneg, zpow_add₀ (by norm_num), zpow_natCast]
        have : (10 : ℚ) ^ d.exp ≠ 0 := zpow_ne_zero _ (by norm_num)
        simp only [Bool.false_eq_true, if_false, one_mul]
        field_simp
      rw [e]
      have hj' : (0 : ℚ) < 10 ^ j := by positivity
      have h1' : 2 * ((c : ℚ) * 10 ^ j) ≤ 2 * d.coeff + 10 ^ j := by exact_mod_cast h1
      have h2' : 2 * (d.coeff : ℚ) ≤ 2 * (c * 10 ^ j) + 10 ^ j := by exact_mod_cast h2
      rw [abs_le]
      constructor
      · rw [neg_le_sub_iff_le_add, div_le_iff₀ hj']
        linarith
      · rw [sub_le_iff_le_add, ← sub_le_iff_le_add', le_div_iff₀ hj']
        linarith

/-! ## Quantizing -/

theorem quantize_coeff (prec : Nat) (d : Dec) (p : Nat) (hneg : d.neg = false) (F : Nat)
    (hF : ⌊value d * 10 ^ p⌋ = (F : Int)) :
    d.quantizeDown prec p = if digits F > prec then .error .invalidOperation
      else .ok { neg := false, coeff := F, exp := -(p : Int) } := by
  have h := toInt_value { neg := false, coeff := d.coeff, exp := d.exp + p }
  have e : value { neg := false, coeff := d.coeff, exp := d.exp + p } = value d * 10 ^ p := by
    unfold value
    rw [hneg, zpow_add₀ (by norm_num), zpow_natCast]
    dsimp only
    ring
  have hnn : 0 ≤ value d * 10 ^ p := by
    unfold value
    rw [hneg]
    simp only [Bool.false_eq_true, if_false, one_mul]
    exact mul_nonneg (mul_nonneg (Nat.cast_nonneg _) (zpow_nonneg (by norm_num) _)) (by positivity)
  rw [e, trunc, if_pos hnn, hF] at h
  unfold Dec.toInt at h
  dsimp only at h
  simp only [Bool.false_eq_true, if_false] at h
  have hc : (if 0 ≤ d.exp + p then d.coeff * 10 ^ (d.exp + p).toNat else
      d.coeff / 10 ^ (-(d.exp + p)).toNat) = F := by exact_mod_cast h
  unfold Dec.quantizeDown
  dsimp only
  rw [hc]
  cases d
  dsimp only at hneg
  rw [hneg]

/-- Dividing positive integers and quantizing rounds the exact quotient down, if the dividend is small
enough. -/
theorem div_quantize (prec : Nat) (hp : 1 ≤ prec) (a b p : Nat) (ha : 0 < a) (hb : 0 < b)
    (hsmall : a * 10 ^ p < 10 ^ (prec - 1)) :
    ∃ d, (Dec.ofInt a).div prec (Dec.ofInt b) = .ok d ∧
      d.quantizeDown prec p = .ok { neg := false, coeff := a * 10 ^ p / b, exp := -(p : Int) } := by
  obtain ⟨d, h1, hneg, h2⟩ := div_spec prec hp a b ha hb
  refine ⟨d, h1, ?_⟩
  have hpl : 10 ^ (prec - 1) ≤ 10 ^ prec := Nat.pow_le_pow_right (by norm_num) (by omega)
  have hF : a * 10 ^ p / b ≤ a * 10 ^ p := Nat.div_le_self _ _
  have hdig : digits (a * 10 ^ p / b) ≤ prec := by rw [digits_le_iff _ _ hp]; omega
  suffices hfloor : ⌊value d * 10 ^ p⌋ = ((a * 10 ^ p / b : Nat) : Int) by
    rw [quantize_coeff prec d p hneg _ hfloor, if_neg (by omega)]
  have hfl : ⌊(a : ℚ) / b * 10 ^ p⌋ = ((a * 10 ^ p / b : Nat) : Int) := by
    have : (a : ℚ) / b * 10 ^ p = (((a * 10 ^ p : Nat) : Int) : ℚ) / (b : Nat) := by push_cast; ring
    rw [this, Rat.floor_intCast_div_natCast]
    push_cast
    rfl
  rcases h2 with h2 | ⟨hc, h2⟩
  · rw [h2, hfl]
  · obtain ⟨y, hy⟩ : ∃ y : ℚ, y = a / b / (10 : ℚ) ^ d.exp := ⟨_, rfl⟩
    rw [← hy, abs_le] at h2
    obtain ⟨l, u⟩ := h2
    have hc' : (10 : ℚ) ^ (prec - 1) ≤ d.coeff := by exact_mod_cast hc
    have hone : (1 : ℚ) ≤ 10 ^ (prec - 1) := by exact_mod_cast Nat.one_le_pow _ _ (by norm_num)
    have hb' : (0 : ℚ) < b := by exact_mod_cast hb
    have ha' : (0 : ℚ) < a := by exact_mod_cast ha
    have hb1 : (1 : ℚ) ≤ b := by exact_mod_cast hb
    have hsm : (a : ℚ) * 10 ^ p < 10 ^ (prec - 1) := by exact_mod_cast hsmall
    have hx : (a : ℚ) / b * 10 ^ p ≤ a * 10 ^ p := by
      rw [div_mul_eq_mul_div, div_le_iff₀ hb']
      have : (0 : ℚ) ≤ a * 10 ^ p := by positivity
      nlinarith
    have hyx : ∀ t : Nat, d.exp + p = -(t : Int) → y = a / b * 10 ^ p * 10 ^ t := by
      intro t ht
      have : d.exp = -(t : Int) - p := by omega
      rw [hy, this, zpow_sub₀ (by norm_num), zpow_neg, zpow_natCast, zpow_natCast]
      field_simp
    have hle : d.exp + p ≤ 0 := by
      by_contra hgt
      obtain ⟨t, ht⟩ : ∃ t : Nat, d.exp + p = (t : Int) + 1 := ⟨(d.exp + p - 1).toNat, by omega⟩
      have : (a : ℚ) / b * 10 ^ p = y * (10 ^ t * 10) := by
        have : d.exp = (t : Int) + 1 - p := by omega
        rw [hy, this, zpow_sub₀ (by norm_num), zpow_add_one₀ (by norm_num), zpow_natCast, zpow_natCast]
        field_simp
      have ht1 : (1 : ℚ) ≤ 10 ^ t := one_le_pow₀ (by norm_num)
      have hy0 : (1 : ℚ) / 2 ≤ y := by linarith
      have : y * 10 ≤ y * (10 ^ t * 10) := by nlinarith
      linarith
    obtain ⟨t, ht⟩ : ∃ t : Nat, d.exp + p = -(t : Int) := ⟨(-(d.exp + p)).toNat, by omega⟩
    have hyt := hyx t ht
    have htp : (0 : ℚ) < 10 ^ t := by positivity
    have hval : value d * 10 ^ p = d.coeff / 10 ^ t := by
      unfold value
      rw [hneg]
      have : d.exp = -(t : Int) - p := by omega
      rw [this, zpow_sub₀ (by norm_num), zpow_neg, zpow_natCast, zpow_natCast]
      simp only [Bool.false_eq_true, if_false, one_mul]
      field_simp
    rw [hval]
    obtain ⟨F, hFF⟩ : ∃ F, F = a * 10 ^ p / b := ⟨_, rfl⟩
    rw [← hFF]
    have hdm := Nat.div_add_mod (a * 10 ^ p) b
    have hml := Nat.mod_lt (a * 10 ^ p) hb
    rw [← hFF] at hdm
    -- F ≤ x and x + 1 / b ≤ F + 1
    have hx1 : (F : ℚ) ≤ a / b * 10 ^ p := by
      rw [div_mul_eq_mul_div, le_div_iff₀ hb']
      have : F * b ≤ a * 10 ^ p := by rw [Nat.mul_comm]; omega
      exact_mod_cast this
    have hx2 : (a : ℚ) / b * 10 ^ p + 1 / b ≤ F + 1 := by
      rw [div_mul_eq_mul_div, ← add_div, div_le_iff₀ hb']
      have : a * 10 ^ p + 1 ≤ (F + 1) * b := by
        have : (F + 1) * b = b * F + b := by ring
        omega
      exact_mod_cast this
    have hlow : F * 10 ^ t ≤ d.coeff := by
      have h3 : (F : ℚ) * 10 ^ t ≤ y := by rw [hyt]; exact mul_le_mul_of_nonneg_right hx1 (le_of_lt htp)
      have h4 : ((F * 10 ^ t : Nat) : ℚ) < d.coeff + 1 := by push_cast; linarith
      have h5 : F * 10 ^ t < d.coeff + 1 := by exact_mod_cast h4
      omega
    have hhigh : d.coeff < (F + 1) * 10 ^ t := by
      have h3 : y + 10 ^ t / b ≤ (F + 1) * 10 ^ t := by
        have := mul_le_mul_of_nonneg_right hx2 (le_of_lt htp)
        have e : ((a : ℚ) / b * 10 ^ p + 1 / b) * 10 ^ t = y + 10 ^ t / b := by rw [hyt]; ring
        rw [e] at this
        exact this
      have h4 : (1 : ℚ) / 2 < 10 ^ t / b := by
        have e : y = 10 ^ t / b * (a * 10 ^ p) := by rw [hyt]; ring
        have hz : (0 : ℚ) < 10 ^ t / b := by positivity
        have : y < 10 ^ t / b * 10 ^ (prec - 1) := by rw [e]; exact mul_lt_mul_of_pos_left hsm hz
        have : (10 : ℚ) ^ (prec - 1) / 2 ≤ y := by linarith
        by_contra hcon
        have : (10 : ℚ) ^ t / b * 10 ^ (prec - 1) ≤ 1 / 2 * 10 ^ (prec - 1) := by
          apply mul_le_mul_of_nonneg_right (le_of_not_gt hcon); positivity
        linarith
      have h5 : (d.coeff : ℚ) < ((F + 1) * 10 ^ t : Nat) := by push_cast; linarith
      exact_mod_cast h5
    rw [Int.floor_eq_iff]
    constructor
    · rw [le_div_iff₀ htp]
      exact_mod_cast hlow
    · rw [div_lt_iff₀ htp]
      exact_mod_cast hhigh

theorem digits_pow (k : Nat) : digits (10 ^ k) = k + 1 := by
  have := digits_mul_pow (n := 1) (by norm_num) k
  rw [Nat.one_mul] at this
  rw [this]
  have : digits 1 = 1 := by unfold digits; simp
  omega

/-- Division by a power of ten is exact if the dividend fits the precision. -/
theorem div_pow (prec : Nat) (hp : 1 ≤ prec) (a k : Nat) (ha : 0 < a) (hfit : a < 10 ^ prec) :
    ∃ d, (Dec.ofInt a).div prec (Dec.ofInt (10 ^ k : Nat)) = .ok d ∧ d.neg = false ∧
      value d = (a : ℚ) / 10 ^ k := by
  have ea : Dec.ofInt a = ⟨false, a, 0⟩ := by unfold Dec.ofInt; simp
  have eb : Dec.ofInt ((10 ^ k : Nat) : Int) = ⟨false, 10 ^ k, 0⟩ := by
    unfold Dec.ofInt
    have : ¬ ((10 ^ k : Nat) : Int) < 0 := not_lt.mpr (Int.natCast_nonneg _)
    simp only [this, decide_false, Int.natAbs_natCast]
  rw [ea, eb]
  unfold Dec.div
  dsimp only
  have hpk : 0 < 10 ^ k := by positivity
  rw [if_neg (by omega), if_neg (by omega), digits_pow]
  have hda := (digits_le_iff a prec hp).mpr hfit
  obtain ⟨i, hi⟩ : ∃ i : Nat, ((k + 1 : Nat) : Int) - digits a + prec + 1 = ((k + i : Nat) : Int) :=
    ⟨prec + 2 - digits a, by omega⟩
  rw [hi, Int.toNat_natCast]
  have hz : (-((k + i : Nat) : Int)).toNat = 0 := by omega
  rw [hz, pow_zero, Nat.mul_one]
  have e : a * 10 ^ (k + i) = a * 10 ^ i * 10 ^ k := by rw [pow_add]; ring
  have hmod : a * 10 ^ (k + i) % 10 ^ k = 0 := by rw [e]; exact Nat.mul_mod_left _ _
  have hdiv : a * 10 ^ (k + i) / 10 ^ k = a * 10 ^ i := by rw [e]; exact Nat.mul_div_cancel _ hpk
  rw [if_neg (by simpa using hmod), hdiv]
  refine ⟨_, rfl, ?_⟩
  generalize ((0 : Int) - 0 - (0 - 0 - ((k + i : Nat) : Int))).toNat = z
  obtain ⟨s1, s2⟩ := strip_value z { neg := false != false, coeff := a * 10 ^ i, exp := 0 - 0 - ((k + i : Nat) : Int) }
  obtain ⟨j, hj⟩ := strip_digits z { neg := false != false, coeff := a * 10 ^ i, exp := 0 - 0 - ((k + i : Nat) : Int) }
  generalize Dec.strip z { neg := false != false, coeff := a * 10 ^ i, exp := 0 - 0 - ((k + i : Nat) : Int) } = d at *
  dsimp only at hj
  obtain ⟨m, l, hm, hml⟩ : ∃ m l, m < 10 ^ prec ∧ d.coeff = m * 10 ^ l := by
    by_cases hji : j ≤ i
    · refine ⟨a, i - j, hfit, ?_⟩
      have : 10 ^ i = 10 ^ (i - j) * 10 ^ j := by rw [← pow_add]; congr 1; omega
      rw [this, ← mul_assoc] at hj
      exact (Nat.eq_of_mul_eq_mul_right (by positivity) hj).symm
    · refine ⟨d.coeff, 0, ?_, by simp⟩
      have : 10 ^ j = 10 ^ (j - i) * 10 ^ i := by rw [← pow_add]; congr 1; omega
      rw [this, ← mul_assoc] at hj
      have hj' := Nat.eq_of_mul_eq_mul_right (by positivity) hj
      have : 0 < 10 ^ (j - i) := by positivity
      have : d.coeff ≤ d.coeff * 10 ^ (j - i) := Nat.le_mul_of_pos_right _ this
      omega
  obtain ⟨f1, f2⟩ := fix_exact hp d m l hm hml
  refine ⟨by rw [f2, s2]; rfl, ?_⟩
  rw [f1, s1]
  unfold value
  dsimp only
  have : (0 : Int) - 0 - ((k + i : Nat) : Int) = -((k + i : Nat) : Int) := by omega
  rw [this, zpow_neg, zpow_natCast]
  push_cast
  rw [pow_add]
  simp only [bne_self_eq_false, Bool.false_eq_true, if_false, one_mul]
  field_simp

/-- Quantizing the quotient of a number that does not fit the precision raises. -/
theorem div_pow_large (prec : Nat) (hp : 1 ≤ prec) (a k : Nat) (hlarge : 10 ^ prec ≤ a) :
    ∃ d, (Dec.ofInt a).div prec (Dec.ofInt (10 ^ k : Nat)) = .ok d ∧
      d.quantizeDown prec k = .error .invalidOperation := by
  have ha : 0 < a := lt_of_lt_of_le (by positivity) hlarge
  obtain ⟨d, h1, hneg, h2⟩ := div_spec prec hp a (10 ^ k) ha (by positivity)
  refine ⟨d, h1, ?_⟩
  have hl : (10 : ℚ) ^ prec ≤ a := by exact_mod_cast hlarge
  have hv : (10 : ℚ) ^ prec ≤ value d * 10 ^ k := by
    rcases h2 with h2 | ⟨hc, h2⟩
    · rw [h2]
      push_cast
      rw [div_mul_cancel₀ _ (by positivity)]
      exact hl
    · have hval : value d * 10 ^ k = d.coeff * (10 : ℚ) ^ (d.exp + k) := by
        unfold value
        rw [hneg, zpow_add₀ (by norm_num), zpow_natCast]
        simp only [Bool.false_eq_true, if_false, one_mul]
        ring
      rw [hval]
      by_cases he : d.exp + k ≤ 0
      · obtain ⟨t, ht⟩ : ∃ t : Nat, d.exp + k = -(t : Int) := ⟨(-(d.exp + k)).toNat, by omega⟩
        have hy : (a : ℚ) / (10 ^ k : Nat) / (10 : ℚ) ^ d.exp = ((a * 10 ^ t : Nat) : ℚ) := by
          have : d.exp = -(t : Int) - k := by omega
          rw [this, zpow_sub₀ (by norm_num), zpow_neg, zpow_natCast, zpow_natCast]
          push_cast
          field_simp
        rw [hy, abs_le] at h2
        obtain ⟨l, u⟩ := h2
        have g1 : ((a * 10 ^ t : Nat) : ℚ) < (d.coeff + 1 : Nat) := by push_cast at *; linarith
        have g1' : a * 10 ^ t < d.coeff + 1 := by exact_mod_cast g1
        have g2 : ((a * 10 ^ t : Nat) : ℚ) ≤ d.coeff := by exact_mod_cast Nat.lt_succ_iff.mp g1'
        rw [ht, zpow_neg, zpow_natCast, ← div_eq_mul_inv, le_div_iff₀ (by positivity)]
        have htp : (0 : ℚ) < 10 ^ t := by positivity
        push_cast at g2
        nlinarith
      · obtain ⟨t, ht⟩ : ∃ t : Nat, d.exp + k = ((t + 1 : Nat) : Int) := ⟨(d.exp + k - 1).toNat, by omega⟩
        rw [ht, zpow_natCast]
        have hc' : (10 : ℚ) ^ (prec - 1) ≤ d.coeff := by exact_mod_cast hc
        have e : (10 : ℚ) ^ prec = 10 ^ (prec - 1) * 10 := by
          rw [← pow_succ]; congr 1; omega
        have h10 : (10 : ℚ) ≤ 10 ^ (t + 1) := by
          rw [pow_succ]
          have : (1 : ℚ) ≤ 10 ^ t := one_le_pow₀ (by norm_num)
          linarith
        rw [e]
        exact mul_le_mul hc' h10 (by norm_num) (Nat.cast_nonneg _)
  obtain ⟨F, hF⟩ := Int.eq_ofNat_of_zero_le (Int.floor_nonneg.mpr (le_trans (by positivity) hv))
  have hFl : 10 ^ prec ≤ F := by
    have : ((10 ^ prec : Nat) : Int) ≤ ⌊value d * 10 ^ k⌋ := by
      rw [Int.le_floor]; push_cast; exact hv
    rw [hF] at this
    exact_mod_cast this
  rw [quantize_coeff prec d k hneg F hF, if_pos]
  by_contra hcon
  have := (digits_le_iff F prec hp).mp (by omega)
  omega

theorem normalize_value {prec : Nat} (d : Dec) (hd : digits d.coeff ≤ prec) :
    value (d.normalize prec) = value d := by
  unfold Dec.normalize
  have : d.fix prec = d := by unfold Dec.fix; rw [if_pos hd]
  rw [this]
  dsimp only
  split
  · rename_i h
    unfold value
    simp [h]
  · exact (strip_value _ _).1

/-! ## Products -/

theorem value_ofInt (n : Int) : value (Dec.ofInt n) = n := by
  unfold value Dec.ofInt
  dsimp only
  rw [zpow_zero, mul_one]
  by_cases h : n < 0
  · have : (n.natAbs : Int) = -n := by omega
    have e : (n.natAbs : ℚ) = ((n.natAbs : Int) : ℚ) := (Int.cast_natCast _).symm
    rw [e, this]
    simp [h]
  · have : (n.natAbs : Int) = n := by omega
    have e : (n.natAbs : ℚ) = ((n.natAbs : Int) : ℚ) := (Int.cast_natCast _).symm
    rw [e, this]
    simp [h]

theorem value_product (a b : Dec) :
    value { neg := a.neg != b.neg, coeff := a.coeff * b.coeff, exp := a.exp + b.exp } = value a * value b := by
  unfold value
  dsimp only
  rw [zpow_add₀ (by norm_num)]
  push_cast
  cases a.neg <;> cases b.neg <;> simp <;> ring

theorem abs_value (d : Dec) : |value d| = d.coeff * (10 : ℚ) ^ d.exp := by
  unfold value
  rw [abs_mul, abs_of_nonneg (a := (d.coeff : ℚ) * 10 ^ d.exp)
    (mul_nonneg (Nat.cast_nonneg _) (zpow_nonneg (by norm_num) _))]
  cases d.neg <;> simp

theorem fits_coeff {prec : Nat} (d : Dec) (h : Spec.Fits prec (value d)) :
    ∃ m k, m < 10 ^ prec ∧ d.coeff = m * 10 ^ k := by
  obtain ⟨m, e, hm, he⟩ := h
  have h1 : (d.coeff : ℚ) * (10 : ℚ) ^ d.exp = m.natAbs * (10 : ℚ) ^ e := by
    rw [← abs_value, he, abs_mul, abs_of_nonneg (a := (10 : ℚ) ^ e) (zpow_nonneg (by norm_num) _),
      Nat.cast_natAbs]
    push_cast
    rfl
  have h2 : (d.coeff : ℚ) = m.natAbs * (10 : ℚ) ^ (e - d.exp) := by
    rw [zpow_sub₀ (by norm_num), mul_div_assoc', ← h1, mul_div_cancel_right₀ _ (zpow_ne_zero _ (by norm_num))]
  by_cases hk : 0 ≤ e - d.exp
  · obtain ⟨k, hk⟩ := Int.eq_ofNat_of_zero_le hk
    refine ⟨m.natAbs, k, hm, ?_⟩
    rw [hk, zpow_natCast] at h2
    exact_mod_cast h2
  · obtain ⟨k, hk⟩ := Int.eq_ofNat_of_zero_le (show 0 ≤ -(e - d.exp) by omega)
    refine ⟨d.coeff, 0, ?_, by simp⟩
    have : e - d.exp = -(k : Int) := by omega
    rw [this, zpow_neg, zpow_natCast, ← div_eq_mul_inv, eq_div_iff (by positivity)] at h2
    have h3 : d.coeff * 10 ^ k = m.natAbs := by exact_mod_cast h2
    have : d.coeff ≤ d.coeff * 10 ^ k := Nat.le_mul_of_pos_right _ (by positivity)
    omega

/-- A product that fits the precision is exact. -/
theorem mul_exact {prec : Nat} (hp : 1 ≤ prec) (a b : Dec) (h : Spec.Fits prec (value a * value b)) :
    value (a.mul prec b) = value a * value b := by
  unfold Dec.mul
  rw [← value_product] at h ⊢
  obtain ⟨m, k, hm, hk⟩ := fits_coeff _ h
  exact (fix_exact hp _ m k hm hk).1

/-! ## Text -/

theorem digit_iff (c : Char) : (48 ≤ c.toNat ∧ c.toNat ≤ 57) ↔ ('0' ≤ c ∧ c ≤ '9') := by
  rw [Char.le_def, Char.le_def, UInt32.le_iff_toNat_le, UInt32.le_iff_toNat_le]
  rfl

theorem digitsValue_append (s t : Str) :
    digitsValue (s ++ t) = digitsValue s * 10 ^ t.length + digitsValue t := by
  unfold digitsValue
  rw [List.foldl_append]
  have key : ∀ (t : Str) (acc : Nat), t.foldl (fun acc c => acc * 10 + (c.toNat - 48)) acc =
      acc * 10 ^ t.length + t.foldl (fun acc c => acc * 10 + (c.toNat - 48)) 0 := by
    intro t
    induction t with
    | nil => intro acc; simp
    | cons c t ih =>
      intro acc
      rw [List.foldl_cons, List.foldl_cons, ih, ih (0 * 10 + (c.toNat - 48)), List.length_cons, pow_succ]
      ring
  exact key t _

theorem digitsValue_zeros (n : Nat) : digitsValue (List.replicate n '0') = 0 := by
  induction n with
  | zero => rfl
  | succ n ih =>
    rw [List.replicate_succ, ← List.singleton_append, digitsValue_append, ih]
    have : digitsValue ['0'] = 0 := by decide
    rw [this]; simp

theorem digitChar (n : Nat) (h : n < 10) : ('0' ≤ Char.ofNat (48 + n) ∧ Char.ofNat (48 + n) ≤ '9') ∧
    (Char.ofNat (48 + n)).toNat - 48 = n := by
  have : ∀ n < 10, ('0' ≤ Char.ofNat (48 + n) ∧ Char.ofNat (48 + n) ≤ '9') ∧
    (Char.ofNat (48 + n)).toNat - 48 = n := by decide
  exact this n h

theorem digitsText_spec (n : Nat) : (∀ c ∈ Dec.digitsText n, '0' ≤ c ∧ c ≤ '9') ∧
    digitsValue (Dec.digitsText n) = n ∧ Dec.digitsText n ≠ [] := by
  induction n using Nat.strongRecOn with
  | ind n ih =>
    unfold Dec.digitsText
    split
    · rename_i h
      obtain ⟨h1, h2⟩ := digitChar n h
      refine ⟨?_, ?_, by simp⟩
      · intro c hc
        rw [List.mem_singleton] at hc
        rw [hc]; exact h1
      · unfold digitsValue
        simp only [List.foldl_cons, List.foldl_nil]
        omega
    · obtain ⟨i1, i2, -⟩ := ih (n / 10) (by omega)
      obtain ⟨h1, h2⟩ := digitChar (n % 10) (by omega)
      refine ⟨?_, ?_, by simp⟩
      · intro c hc
        rcases List.mem_append.mp hc with hc | hc
        · exact i1 c hc
        · rw [List.mem_singleton] at hc
          rw [hc]; exact h1
      · rw [digitsValue_append, i2]
        have : digitsValue [Char.ofNat (48 + n % 10)] = n % 10 := by
          unfold digitsValue
          simp only [List.foldl_cons, List.foldl_nil]
          omega
        rw [this]
        simp only [List.length_singleton, pow_one]
        omega

/-- `'{:f}'` writes the value. -/
theorem format_denotes (d : Dec) : Denotes d.format (value d) := by
  -- the zero with a positive exponent
  obtain ⟨d', hd', hval, hexp⟩ : ∃ d' : Dec, d' = (if d.coeff = 0 ∧ 0 < d.exp then { d with exp := 0 } else d) ∧
      value d' = value d ∧ (0 < d'.exp → d'.coeff ≠ 0) := by
    refine ⟨_, rfl, ?_, ?_⟩
    · split
      · rename_i h
        unfold value
        simp [h.1]
      · rfl
    · split
      · intro h; simp at h
      · rename_i h
        intro h1 h2
        exact h ⟨h2, h1⟩
  unfold Dec.format
  rw [← hd', ← hval]
  dsimp only
  obtain ⟨t1, t2, t3⟩ := digitsText_spec d'.coeff
  obtain ⟨s, hs⟩ : ∃ s, s = Dec.digitsText d'.coeff := ⟨_, rfl⟩
  rw [← hs] at t1 t2 t3 ⊢
  have hlen : 0 < s.length := List.length_pos_iff.mpr t3
  have fin : ∀ int frac : Str, (∀ c ∈ int ++ frac, '0' ≤ c ∧ c ≤ '9') → int ≠ [] →
      (digitsValue (int ++ frac) : ℚ) / 10 ^ frac.length = d'.coeff * (10 : ℚ) ^ d'.exp →
      Denotes (if d'.neg = true then '-' :: (int ++ (if frac = [] then [] else '.' :: frac))
        else int ++ (if frac = [] then [] else '.' :: frac)) (value d') := by
    intro int frac h1 h2 h3
    refine ⟨d'.neg, int, frac, ⟨h1, h2, ?_⟩, ?_⟩
    · cases d'.neg <;> simp
    · unfold plainValue value
      rw [h3]
  have hfrac : ∀ (f : Str), (f.length : Int) = -d'.exp → ∀ c : Nat, (c : ℚ) / 10 ^ f.length = c * (10 : ℚ) ^ d'.exp := by
    intro f hf c
    have : d'.exp = -(f.length : Int) := by omega
    rw [this, zpow_neg, zpow_natCast, div_eq_mul_inv]
  by_cases hpl : d'.exp + s.length < 0
  · rw [if_pos hpl]
    have := fin ['0'] (List.replicate (-(d'.exp + s.length)).toNat '0' ++ s) ?_ (by simp) ?_
    · have hne : ¬ (List.replicate (-(d'.exp + s.length)).toNat '0' ++ s = []) := by
        intro h
        exact t3 (List.append_eq_nil_iff.mp h).2
      rw [if_neg hne] at this
      exact this
    · intro c hc
      simp only [List.mem_append, List.mem_singleton, List.mem_replicate] at hc
      rcases hc with rfl | ⟨-, rfl⟩ | hc
      · decide
      · decide
      · exact t1 c hc
    · rw [digitsValue_append, digitsValue_append, digitsValue_zeros, t2]
      have e0 : digitsValue ['0'] = 0 := by decide
      rw [e0, Nat.zero_mul, Nat.zero_mul, Nat.zero_add, Nat.zero_add]
      apply hfrac
      rw [List.length_append, List.length_replicate]
      omega
  · rw [if_neg hpl]
    by_cases h2 : (s.length : Int) < d'.exp + s.length
    · rw [if_pos h2]
      have := fin (s ++ List.replicate (d'.exp + s.length - s.length).toNat '0') [] ?_ ?_ ?_
      · simpa using this
      · intro c hc
        simp only [List.append_nil, List.mem_append, List.mem_replicate] at hc
        rcases hc with hc | ⟨-, rfl⟩
        · exact t1 c hc
        · decide
      · intro h; simp at h; exact t3 h.1
      · rw [List.append_nil, digitsValue_append, digitsValue_zeros, t2]
        obtain ⟨n, hn⟩ := Int.eq_ofNat_of_zero_le (show 0 ≤ d'.exp by omega)
        have e : (d'.exp + s.length - s.length).toNat = n := by omega
        rw [e, hn, zpow_natCast, List.length_replicate]
        simp
    · rw [if_neg h2]
      obtain ⟨n, hn⟩ := Int.eq_ofNat_of_zero_le (show 0 ≤ d'.exp + s.length by omega)
      rw [hn, Int.toNat_natCast]
      have hdrop : ((s.drop n).length : Int) = -d'.exp := by
        rw [List.length_drop]; omega
      by_cases hi : s.take n = []
      · have hn0 : n = 0 := by
          rcases Nat.eq_zero_or_pos n with h | h
          · exact h
          · exfalso
            have := congrArg List.length hi
            rw [List.length_take, List.length_nil] at this
            omega
        subst hn0
        have := fin ['0'] s ?_ (by simp) ?_
        · simpa [t3, List.isEmpty_iff] using this
        · intro c hc
          rcases List.mem_append.mp hc with hc | hc
          · rw [List.mem_singleton] at hc
            rw [hc]; decide
          · exact t1 c hc
        · rw [digitsValue_append, t2]
          have e0 : digitsValue ['0'] = 0 := by decide
          rw [e0, Nat.zero_mul, Nat.zero_add]
          apply hfrac
          rw [List.drop_zero] at hdrop
          exact hdrop
      · have := fin (s.take n) (s.drop n) ?_ hi ?_
        · simpa [hi, List.isEmpty_iff] using this
        · rw [List.take_append_drop]; exact t1
        · rw [List.take_append_drop, t2]
          exact hfrac _ hdrop d'.coeff

theorem readDigits_value (s : Str) (hs : ∀ c ∈ s, '0' ≤ c ∧ c ≤ '9') (acc : Nat) :
    Dec.readDigits acc s = some (s.foldl (fun acc c => acc * 10 + (c.toNat - 48)) acc) := by
  induction s generalizing acc with
  | nil => rfl
  | cons c s ih =>
    unfold Dec.readDigits
    rw [if_pos ((digit_iff c).mpr (hs c List.mem_cons_self)), ih fun c hc => hs c (List.mem_cons_of_mem _ hc)]
    rfl

theorem spanDigits_append (s rest : Str) (hs : ∀ c ∈ s, '0' ≤ c ∧ c ≤ '9')
    (hrest : ∀ c r, rest = c :: r → ¬ ('0' ≤ c ∧ c ≤ '9')) : Dec.spanDigits (s ++ rest) = (s, rest) := by
  induction s with
  | nil =>
    cases rest with
    | nil => rfl
    | cons c r =>
      rw [List.nil_append, Dec.spanDigits, if_neg]
      rw [digit_iff]
      exact hrest c r rfl
  | cons c s ih =>
    rw [List.cons_append, Dec.spanDigits, if_pos ((digit_iff c).mpr (hs c List.mem_cons_self)),
      ih fun c hc => hs c (List.mem_cons_of_mem _ hc)]

/-- `Decimal` reads a plain text followed by an exponent. -/
theorem parse_tail {s : Str} {neg : Bool} {int frac : Str} (h : Plain s neg int frac) {tail : Str} {e : Int}
    (he : Dec.readExp tail = some e) (htail : ∀ c r, tail = c :: r → c = 'e' ∨ c = 'E') :
    Dec.parse (s ++ tail) = .ok { neg := neg, coeff := digitsValue (int ++ frac), exp := e - (frac.length : Int) } := by
  have hint : ∀ c ∈ int, '0' ≤ c ∧ c ≤ '9' := fun c hc => h.digits c (List.mem_append_left _ hc)
  have hfrac : ∀ c ∈ frac, '0' ≤ c ∧ c ≤ '9' := fun c hc => h.digits c (List.mem_append_right _ hc)
  have hletter : ∀ c r, tail = c :: r → ¬ ('0' ≤ c ∧ c ≤ '9') := by
    intro c r hc
    rcases htail c r hc with rfl | rfl <;> decide
  have hu : Dec.parseUnsigned neg (int ++ ((if frac = [] then [] else '.' :: frac) ++ tail)) =
      some { neg := neg, coeff := digitsValue (int ++ frac), exp := e - (frac.length : Int) } := by
    unfold Dec.parseUnsigned
    rw [spanDigits_append int _ hint]
    · have hf : Dec.pointDigits ((if frac = [] then [] else '.' :: frac) ++ tail) = (frac, tail) := by
        by_cases hfe : frac = []
        · rw [if_pos hfe, hfe, List.nil_append]
          cases ht : tail with
          | nil => rfl
          | cons c r =>
            unfold Dec.pointDigits
            split
            · rename_i heq
              cases heq
              rcases htail _ r ht with h | h <;> cases h
            · rfl
        · rw [if_neg hfe, List.cons_append, Dec.pointDigits]
          exact spanDigits_append frac tail hfrac hletter
      dsimp only
      rw [hf]
      dsimp only
      have hne : ¬ (int.isEmpty = true ∧ frac.isEmpty = true) := by
        intro hc
        exact h.nonempty (List.isEmpty_iff.mp hc.1)
      rw [if_neg hne, readDigits_value _ h.digits, he]
      unfold digitsValue
      rfl
    · intro c r hr
      split at hr
      · exact hletter c r hr
      · injection hr with hr _
        rw [← hr]; decide
  have ht : s ++ tail = (if neg then ['-'] else []) ++ (int ++ ((if frac = [] then [] else '.' :: frac) ++ tail)) := by
    rw [h.text]; simp only [List.append_assoc]
  have key : Dec.parseSigned (s ++ tail) =
      some { neg := neg, coeff := digitsValue (int ++ frac), exp := e - (frac.length : Int) } := by
    cases neg with
    | true =>
      simp only [if_true, List.cons_append, List.nil_append] at ht
      rw [ht, Dec.parseSigned, hu]
    | false =>
      simp only [Bool.false_eq_true, if_false, List.nil_append] at ht
      rw [← ht] at hu
      cases hi : int with
      | nil => exact absurd hi h.nonempty
      | cons c cs =>
        have hc := hint c (by rw [hi]; exact List.mem_cons_self)
        have hs : s ++ tail = c :: (cs ++ ((if frac = [] then [] else '.' :: frac) ++ tail)) := by
          rw [ht, hi]; rfl
        rw [← hi]
        unfold Dec.parseSigned
        split
        · injection hs.symm.trans (by assumption) with hs _
          rw [hs] at hc
          exact absurd hc (by decide)
        · injection hs.symm.trans (by assumption) with hs _
          rw [hs] at hc
          exact absurd hc (by decide)
        · exact hu
  unfold Dec.parse
  rw [key]

/-- `Decimal` reads a plain text. -/
theorem parse_plain {s : Str} {neg : Bool} {int frac : Str} (h : Plain s neg int frac) :
    Dec.parse s = .ok { neg := neg, coeff := digitsValue (int ++ frac), exp := -(frac.length : Int) } := by
  have := parse_tail h (tail := []) (e := 0) rfl (by intro c r h; cases h)
  rwa [List.append_nil, zero_sub] at this

theorem readExp_exponent {t : Str} {e : Int} (h : Spec.Exponent t e) :
    Dec.readExp t = some e ∧ ∀ c r, t = c :: r → c = 'e' ∨ c = 'E' := by
  obtain ⟨letter, sign, ds, rfl, hl, hne, hd, hs⟩ := h.text
  refine ⟨?_, fun c r hc => by injection hc with h1 _; rw [← h1]; exact hl⟩
  have hemp : ¬ ds.isEmpty = true := by rw [List.isEmpty_iff]; exact hne
  have hread : Dec.readDigits 0 ds = some (digitsValue ds) := readDigits_value _ hd 0
  unfold Dec.readExp
  dsimp only
  rw [if_pos hl]
  rcases hs with ⟨rfl, rfl⟩ | ⟨rfl | rfl, rfl⟩
  · simp [hne, hread]
  · simp [hne, hread]
  · rw [List.nil_append]
    cases ds with
    | nil => exact absurd rfl hne
    | cons c cs =>
      have hc := hd c List.mem_cons_self
      split
      · rename_i heq
        cases heq
        exact absurd hc (by decide)
      · rename_i heq
        cases heq
        exact absurd hc (by decide)
      · rw [if_neg hemp, hread]
        rfl

theorem value_plain (neg : Bool) (int frac : Str) :
    value { neg := neg, coeff := digitsValue (int ++ frac), exp := -(frac.length : Int) } =
      Spec.plainValue neg int frac := by
  unfold value Spec.plainValue
  dsimp only
  rw [zpow_neg, zpow_natCast, div_eq_mul_inv]

/-- `Decimal` reads the text of a number exactly. -/
theorem parse_number {s : Str} {q : ℚ} (h : Spec.Number s q) : ∃ d, Dec.parse s = .ok d ∧ value d = q := by
  rcases h with ⟨neg, int, frac, hp, rfl⟩ | ⟨m, t, r, e, rfl, ⟨neg, int, frac, hp, rfl⟩, he, rfl⟩
  · exact ⟨_, parse_plain hp, value_plain neg int frac⟩
  · obtain ⟨h1, h2⟩ := readExp_exponent he
    refine ⟨_, parse_tail hp h1 h2, ?_⟩
    rw [← value_plain]
    unfold value
    dsimp only
    rw [show e - (frac.length : Int) = -(frac.length : Int) + e by ring, zpow_add₀ (by norm_num)]
    ring

end Bit
