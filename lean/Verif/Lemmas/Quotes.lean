import Verif.Lemmas.Decimal
/-
The reciprocal of a decimal number.
-/
namespace Bit
open Spec (value trunc Fits)

theorem digits_fix (prec : Nat) (hp : 1 ≤ prec) (d : Dec) : digits (d.fix prec).coeff ≤ prec := by
  rcases fix_cases prec hp d with ⟨h, e⟩ | ⟨j, c, -, e, -, h, -⟩
  · rw [e]; exact h
  · rw [e]
    show digits c ≤ prec
    by_contra hc
    have h0 : 0 < c := by
      rcases Nat.eq_zero_or_pos c with rfl | h
      · exact absurd (show digits 0 = 1 by unfold digits; simp) (by omega)
      · exact h
    have h1 := pow_digits_le h0
    have : 10 ^ prec ≤ 10 ^ (digits c - 1) := Nat.pow_le_pow_right (by decide) (by omega)
    omega

/-- The exponent of the divisor only moves the exponent of the result. -/
theorem div_exp (prec : Nat) (hp : 1 ≤ prec) (c : Nat) (e : Int) (d : Dec) (hc : 0 < c)
    (h : (Dec.ofInt (1 : Nat)).div prec (Dec.ofInt (c : Nat)) = .ok d) :
    (Dec.ofInt 1).div prec ⟨false, c, e⟩ = .ok { d with exp := d.exp - e } ∧ digits d.coeff ≤ prec := by
  have ea : Dec.ofInt (1 : Nat) = ⟨false, 1, 0⟩ := by unfold Dec.ofInt; simp
  have ea' : Dec.ofInt 1 = ⟨false, 1, 0⟩ := by unfold Dec.ofInt; simp
  have eb : Dec.ofInt (c : Nat) = ⟨false, c, 0⟩ := by unfold Dec.ofInt; simp
  rw [ea, eb] at h
  rw [ea']
  have hfix : ∀ (n : Bool) (q : Nat) (x : Int), (Dec.mk n q (x - e)).fix prec =
      { (Dec.mk n q x).fix prec with exp := ((Dec.mk n q x).fix prec).exp - e } := by
    intro n q x
    unfold Dec.fix
    dsimp only
    split
    · rfl
    · split <;> (congr 1; dsimp only; omega)
  have hstrip : ∀ (k : Nat) (n : Bool) (q : Nat) (x : Int), (Dec.mk n q (x - e)).strip k =
      { (Dec.mk n q x).strip k with exp := ((Dec.mk n q x).strip k).exp - e } := by
    intro k
    induction k with
    | zero => intro n q x; rfl
    | succ k ih =>
      intro n q x
      unfold Dec.strip
      dsimp only
      split
      · rw [show x - e + 1 = x + 1 - e by omega]
        exact ih _ _ _
      · rfl
  unfold Dec.div at h ⊢
  dsimp only at h ⊢
  rw [if_neg (by omega), if_neg (by omega)] at h
  rw [if_neg (by omega), if_neg (by omega)]
  generalize (digits c : Int) - digits 1 + prec + 1 = shift at *
  have e1 : (0 : Int) - e - shift = 0 - 0 - shift - e := by omega
  have e2 : ((0 : Int) - e - (0 - e - shift)).toNat = ((0 : Int) - 0 - (0 - 0 - shift)).toNat := by congr 1; omega
  rw [e2, e1]
  split at h
  · rename_i hm
    rw [if_pos hm]
    cases h
    rw [hfix]
    exact ⟨rfl, digits_fix prec hp _⟩
  · rename_i hm
    rw [if_neg hm]
    cases h
    rw [hstrip, hfix]
    exact ⟨rfl, digits_fix prec hp _⟩

theorem value_shift (d : Dec) (e : Int) : value { d with exp := d.exp - e } = value d * (10 : ℚ) ^ (-e) := by
  unfold value
  dsimp only
  rw [sub_eq_add_neg, zpow_add₀ (by norm_num)]
  ring

/-- The reciprocal of an integer is exact if it can be. -/
theorem div_fits (prec : Nat) (hp : 1 ≤ prec) (c : Nat) (hc : 0 < c) (hf : Fits prec ((1 : ℚ) / c)) (d : Dec)
    (h : (Dec.ofInt (1 : Nat)).div prec (Dec.ofInt (c : Nat)) = .ok d) : value d = (1 : ℚ) / c := by
  have ea : Dec.ofInt (1 : Nat) = ⟨false, 1, 0⟩ := by unfold Dec.ofInt; simp
  have eb : Dec.ofInt (c : Nat) = ⟨false, c, 0⟩ := by unfold Dec.ofInt; simp
  have hcq : (0 : ℚ) < c := by exact_mod_cast hc
  -- the integer divides a power of ten
  have hdvd : c ∣ 10 ^ (digits c + prec) := by
    obtain ⟨m, f, hm, he⟩ := hf
    have hpos : (0 : ℚ) < m * (10 : ℚ) ^ f := by rw [← he]; positivity
    have hm0 : (0 : ℚ) < m := by
      by_contra h
      have : (m : ℚ) * (10 : ℚ) ^ f ≤ 0 := mul_nonpos_of_nonpos_of_nonneg (not_lt.1 h) (zpow_nonneg (by norm_num) _)
      linarith
    have hm0 : 0 < m := by exact_mod_cast hm0
    obtain ⟨n, rfl⟩ : ∃ n : Nat, m = n := ⟨m.toNat, by omega⟩
    have hn : n < 10 ^ prec := by simpa using hm
    have hn1 : 1 ≤ n := by omega
    have e1 : (c : ℚ) * n * (10 : ℚ) ^ f = 1 := by
      have h1 : (c : ℚ) * (1 / c) = 1 := by field_simp
      rw [mul_assoc, ← Int.cast_natCast n, ← he, h1]
    have hf0 : f ≤ 0 := by
      by_contra h
      have h1 : (1 : ℚ) < (10 : ℚ) ^ f := one_lt_zpow₀ (by norm_num) (by omega)
      have h2 : (1 : ℚ) ≤ (c : ℚ) * n := by
        have : 1 ≤ c * n := Nat.mul_pos hc (by omega)
        exact_mod_cast this
      nlinarith
    obtain ⟨g, rfl⟩ : ∃ g : Nat, f = -(g : Int) := ⟨f.natAbs, by omega⟩
    have e2 : c * n = 10 ^ g := by
      have h10 : (0 : ℚ) < 10 ^ g := by positivity
      rw [zpow_neg, zpow_natCast] at e1
      have : (c : ℚ) * n = 10 ^ g := by field_simp at e1; linarith
      exact_mod_cast this
    have hg : g < digits c + prec := by
      have h1 := lt_pow_digits c
      have h2 : 10 ^ g < 10 ^ (digits c + prec) := by
        rw [← e2, pow_add]
        calc c * n < 10 ^ digits c * n := Nat.mul_lt_mul_of_pos_right h1 (by omega)
          _ ≤ 10 ^ digits c * 10 ^ prec := Nat.mul_le_mul_left _ (by omega)
      exact (Nat.pow_lt_pow_iff_right (by decide)).1 h2
    exact (Dvd.intro _ e2).trans (Nat.pow_dvd_pow _ (by omega))
  rw [ea, eb] at h
  unfold Dec.div at h
  dsimp only at h
  rw [if_neg (by omega), if_neg (by omega)] at h
  have hd1 : digits 1 = 1 := by unfold digits; simp
  have hs : (digits c : Int) - digits 1 + prec + 1 = ((digits c + prec : Nat) : Int) := by rw [hd1]; push_cast; omega
  rw [hs] at h
  have hs2 : (-((digits c + prec : Nat) : Int)).toNat = 0 := by omega
  rw [hs2, Int.toNat_natCast, pow_zero, Nat.mul_one, Nat.one_mul, if_neg (by
    rw [Nat.mod_eq_zero_of_dvd hdvd]; simp)] at h
  cases h
  have hv : ∀ k, value ((Dec.mk (false != false) (10 ^ (digits c + prec) / c) (0 - 0 - ((digits c + prec : Nat) : Int))).strip k) =
      (1 : ℚ) / c := by
    intro k
    rw [(strip_value _ _).1]
    unfold value
    dsimp only
    have hq : ((10 ^ (digits c + prec) / c : Nat) : ℚ) = (10 : ℚ) ^ (digits c + prec) / c := by
      obtain ⟨n, hn⟩ := hdvd
      rw [hn, Nat.mul_div_cancel_left _ hc]
      have : ((10 ^ (digits c + prec) : Nat) : ℚ) = (c * n : Nat) := by rw [hn]
      push_cast at this
      rw [this]
      field_simp
    rw [hq, show ((0 : Int) - 0 - ((digits c + prec : Nat) : Int)) =
      -((digits c + prec : Nat) : Int) by omega, zpow_neg, zpow_natCast]
    have h10 : (0 : ℚ) < 10 ^ (digits c + prec) := by positivity
    simp
    field_simp
  generalize (0 - 0 - (0 - 0 - ((digits c + prec : Nat) : Int))).toNat = j
  obtain ⟨m, k, hm, hk⟩ := fits_coeff (prec := prec) _ (by rw [hv j]; exact hf)
  rw [(fix_exact hp _ m k hm hk).1, hv]

/-- The reciprocal of a positive number: it has at most `prec` digits, is off by very little, and exact if that is
possible. -/
theorem reciprocal (prec : Nat) (hp : 1 ≤ prec) (b : Dec) (hb : 0 < value b) :
    ∃ d, (Dec.ofInt 1).div prec b = .ok d ∧ 0 ≤ value d ∧ Fits prec (value d) ∧
      |value d - 1 / value b| * (2 * 10 ^ (prec - 1) - 1) ≤ 1 / value b ∧
      (Fits prec (1 / value b) → value d = 1 / value b) := by
  obtain ⟨neg, c, e⟩ := b
  have h10 : ∀ x : Int, (0 : ℚ) < (10 : ℚ) ^ x := fun x => zpow_pos (by norm_num) x
  have hneg : neg = false := by
    cases neg with
    | false => rfl
    | true =>
      exfalso
      unfold value at hb
      have : (0 : ℚ) ≤ (c : ℚ) * (10 : ℚ) ^ e := mul_nonneg (Nat.cast_nonneg _) (le_of_lt (h10 e))
      simp at hb
      linarith
  subst hneg
  have hvb : value ⟨false, c, e⟩ = c * (10 : ℚ) ^ e := by unfold value; simp
  have hc : 0 < c := by
    rcases Nat.eq_zero_or_pos c with rfl | h
    · rw [hvb] at hb; simp at hb
    · exact h
  have hcq : (0 : ℚ) < c := by exact_mod_cast hc
  obtain ⟨d, h1, h2, h3⟩ := div_spec prec hp 1 c (by decide) hc
  obtain ⟨h4, h5⟩ := div_exp prec hp c e d hc h1
  have hinv : 1 / value ⟨false, c, e⟩ = 1 / c * (10 : ℚ) ^ (-e) := by
    rw [hvb, zpow_neg]
    have := h10 e
    field_simp
  have hvd : value d = d.coeff * (10 : ℚ) ^ d.exp := by unfold value; rw [h2]; simp
  refine ⟨_, h4, ?_, ?_, ?_, ?_⟩
  · rw [value_shift, hvd]
    have := h10 (-e)
    have := h10 d.exp
    positivity
  · rw [value_shift, hvd]
    refine ⟨d.coeff, d.exp + -e, ?_, ?_⟩
    · have := lt_pow_digits d.coeff
      have h6 : 10 ^ digits d.coeff ≤ 10 ^ prec := Nat.pow_le_pow_right (by decide) h5
      simp only [Int.natAbs_natCast]
      omega
    · rw [zpow_add₀ (by norm_num)]
      push_cast
      ring
  · rw [value_shift, hinv, ← sub_mul, abs_mul, abs_of_pos (h10 (-e)), mul_right_comm]
    refine mul_le_mul_of_nonneg_right ?_ (le_of_lt (h10 _))
    rcases h3 with h3 | ⟨h3, h6⟩
    · rw [h3]
      simp
    · have hx := h10 d.exp
      have e1 : value d - 1 / c = (d.coeff - ((1 : Nat) : ℚ) / c / (10 : ℚ) ^ d.exp) * (10 : ℚ) ^ d.exp := by
        rw [hvd]
        push_cast
        field_simp
      rw [e1, abs_mul, abs_of_pos hx]
      have hbig : (10 : ℚ) ^ (prec - 1) ≤ d.coeff := by exact_mod_cast h3
      have hone : (1 : ℚ) ≤ 10 ^ (prec - 1) := one_le_pow₀ (by norm_num)
      have h7 := (abs_le.1 h6).2
      have h8 : ((1 : Nat) : ℚ) / c / (10 : ℚ) ^ d.exp * (10 : ℚ) ^ d.exp = 1 / c := by
        push_cast
        field_simp
      generalize ((1 : Nat) : ℚ) / c / (10 : ℚ) ^ d.exp = q at *
      generalize (10 : ℚ) ^ (prec - 1) = t at *
      rw [← h8]
      calc |(d.coeff : ℚ) - q| * (10 : ℚ) ^ d.exp * (2 * t - 1)
          ≤ 1 / 2 * (10 : ℚ) ^ d.exp * (2 * t - 1) := by
            refine mul_le_mul_of_nonneg_right (mul_le_mul_of_nonneg_right h6 (le_of_lt hx)) (by linarith)
        _ ≤ q * (10 : ℚ) ^ d.exp := by nlinarith
  · intro hf
    rw [value_shift, hinv]
    congr 1
    refine div_fits prec hp c hc ?_ d h1
    obtain ⟨m, x, hm, hx⟩ := hf
    refine ⟨m, x + e, hm, ?_⟩
    rw [hinv] at hx
    rw [zpow_add₀ (by norm_num), ← mul_assoc, ← hx, mul_assoc, ← zpow_add₀ (by norm_num)]
    simp

/-- The floor of ten to the eighth over a price with at most `prec - 9` decimal places. -/
theorem reciprocal_floor (prec : Nat) (hp : 9 ≤ prec) (b : Dec) (k : Nat) (hk : 0 < k)
    (hb : value b = (k : ℚ) / 10 ^ (prec - 9)) :
    ∃ d, (Dec.ofInt 1).div prec b = .ok d ∧
      (d.mul prec (Dec.ofInt (10 ^ 8))).toInt = ⌊(10 : ℚ) ^ 8 / value b⌋ := by
  have hkq : (0 : ℚ) < k := by exact_mod_cast hk
  have hpos : 0 < value b := by rw [hb]; positivity
  obtain ⟨d, h1, h2, h3, h4, h5⟩ := reciprocal prec (by omega) b hpos
  refine ⟨d, h1, ?_⟩
  have hmul : value (d.mul prec (Dec.ofInt (10 ^ 8))) = value d * 10 ^ 8 := by
    rw [mul_exact (by omega), value_ofInt]
    · push_cast; rfl
    · obtain ⟨m, x, hm, hx⟩ := h3
      refine ⟨m, x + 8, hm, ?_⟩
      rw [value_ofInt, hx, zpow_add₀ (by norm_num)]
      push_cast
      ring
  rw [toInt_value, hmul]
  unfold trunc
  rw [if_pos (by positivity)]
  have hN : (10 : ℚ) ^ 8 / value b = ((10 ^ (prec - 1) : Nat) : ℚ) / (k : Nat) := by
    rw [hb, show prec - 1 = prec - 9 + 8 by omega, pow_add]
    push_cast
    field_simp
    norm_num
  have herr : |value d * 10 ^ 8 - (10 : ℚ) ^ 8 / value b| * (2 * 10 ^ (prec - 1) - 1) ≤ (10 : ℚ) ^ 8 / value b := by
    have e : value d * 10 ^ 8 - (10 : ℚ) ^ 8 / value b = (value d - 1 / value b) * 10 ^ 8 := by ring
    rw [e, abs_mul, abs_of_pos (show (0 : ℚ) < 10 ^ 8 by norm_num), mul_right_comm,
      show (10 : ℚ) ^ 8 / value b = 1 / value b * 10 ^ 8 by ring]
    exact mul_le_mul_of_nonneg_right h4 (by norm_num)
  by_cases hdvd : k ∣ 10 ^ (prec - 1)
  · -- the quotient is an integer and the reciprocal exact
    obtain ⟨n, hn⟩ := hdvd
    have hexact : value d = 1 / value b := by
      refine h5 ⟨n, -8, ?_, ?_⟩
      · simp only [Int.natAbs_natCast]
        have : n ≤ 10 ^ (prec - 1) := by rw [hn]; exact Nat.le_mul_of_pos_left _ hk
        have : 10 ^ (prec - 1) < 10 ^ prec := Nat.pow_lt_pow_right (by decide) (by omega)
        omega
      · have : (10 : ℚ) ^ 8 / value b = n := by
          rw [hN, hn]
          push_cast
          field_simp
        have e : 1 / value b = (10 : ℚ) ^ 8 / value b * (10 : ℚ) ^ (-8 : Int) := by
          norm_num
        rw [e, this]
        push_cast
        rfl
    rw [hexact]
    congr 1
    ring
  · -- it is not, and the error is smaller than the distance to the next integer
    have hmod : 0 < 10 ^ (prec - 1) % k := Nat.pos_of_ne_zero fun h => hdvd (Nat.dvd_of_mod_eq_zero h)
    have hlt := Nat.mod_lt (10 ^ (prec - 1)) hk
    have hdm := Nat.div_add_mod (10 ^ (prec - 1)) k
    rw [hN] at herr ⊢
    have hcast : ((10 ^ (prec - 1) : Nat) : ℚ) = (10 : ℚ) ^ (prec - 1) := by push_cast; rfl
    have hten : (10 : ℚ) ≤ 10 ^ (prec - 1) := by
      calc (10 : ℚ) = 10 ^ 1 := by norm_num
        _ ≤ 10 ^ (prec - 1) := pow_le_pow_right₀ (by norm_num) (by omega)
    rw [← hcast] at herr hten
    generalize 10 ^ (prec - 1) = N at *
    have hNq : (0 : ℚ) < N := by linarith
    obtain ⟨q, r, hq, hr⟩ : ∃ q r, q = N / k ∧ r = N % k := ⟨_, _, rfl, rfl⟩
    rw [← hq, ← hr] at hdm
    rw [← hr] at hmod hlt
    have hfloor : ⌊(N : ℚ) / (k : Nat)⌋ = (q : Int) := by
      rw [Rat.floor_natCast_div_natCast, hq]
      rfl
    have hNq' : (N : ℚ) = k * q + r := by rw [← hdm]; push_cast; ring
    have hsmall : |value d * 10 ^ 8 - (N : ℚ) / (k : Nat)| * (k : ℚ) < 1 := by
      have h6 : |value d * 10 ^ 8 - (N : ℚ) / (k : Nat)| * (k : ℚ) * (2 * N - 1) ≤ N := by
        calc |value d * 10 ^ 8 - (N : ℚ) / (k : Nat)| * (k : ℚ) * (2 * N - 1)
            = |value d * 10 ^ 8 - (N : ℚ) / (k : Nat)| * (2 * N - 1) * k := by ring
          _ ≤ (N : ℚ) / (k : Nat) * (k : ℚ) := mul_le_mul_of_nonneg_right herr (le_of_lt hkq)
          _ = N := by field_simp
      by_contra h
      have : (2 * (N : ℚ) - 1) ≤ N := by
        calc (2 * (N : ℚ) - 1) = 1 * (2 * N - 1) := by ring
          _ ≤ |value d * 10 ^ 8 - (N : ℚ) / (k : Nat)| * (k : ℚ) * (2 * N - 1) :=
            mul_le_mul_of_nonneg_right (not_lt.1 h) (by linarith)
          _ ≤ N := h6
      linarith
    have hT : (N : ℚ) / (k : Nat) * k = k * q + r := by rw [hNq']; field_simp
    have hr1 : (1 : ℚ) ≤ r := by exact_mod_cast hmod
    have hr2 : (r : ℚ) + 1 ≤ k := by exact_mod_cast hlt
    generalize (N : ℚ) / (k : Nat) = T at *
    generalize value d * 10 ^ 8 = V at *
    have h7 : |V * k - T * k| < 1 := by rw [← sub_mul, abs_mul, abs_of_pos hkq]; exact hsmall
    rw [hT, abs_lt] at h7
    rw [hfloor, Int.floor_eq_iff]
    push_cast
    constructor
    · by_contra h
      have : V * k < q * k := mul_lt_mul_of_pos_right (not_le.1 h) hkq
      linarith [h7.1]
    · by_contra h
      have : (q + 1) * (k : ℚ) ≤ V * k := mul_le_mul_of_nonneg_right (not_lt.1 h) (le_of_lt hkq)
      linarith [h7.2]

end Bit
