import Verif.Lemmas.Secp256k1
import Verif.Lemmas.Tx
/-
ECDSA: what is signed is accepted, a signature can always be made, and the encodings are faithful.
-/
namespace Bit

open _root_.Spec

attribute [local irreducible] fieldPrime groupOrder

/-! ### points and coordinates -/

theorem hasCoords_some (x y : Field) (h : secp256k1.Nonsingular x y) : HasCoords (.some x y h) x.val y.val := by
  refine ⟨ZMod.val_lt x, ZMod.val_lt y, ?_⟩
  exact some_congr (ZMod.natCast_zmod_val x) (ZMod.natCast_zmod_val y)

theorem hasCoords_exists {P : Pt} (h : P ≠ 0) : ∃ x y, HasCoords P x y := by
  cases P with
  | zero => exact absurd rfl h
  | some x y hn => exact ⟨_, _, hasCoords_some x y hn⟩

theorem _root_.Spec.HasCoords.ne {P : Pt} {x y : Nat} (h : HasCoords P x y) : P ≠ 0 := by
  obtain ⟨-, -, hn, e⟩ := h
  rw [e]
  nofun

theorem cast_inj {a b : Nat} (ha : a < fieldPrime) (hb : b < fieldPrime) (h : (a : Field) = (b : Field)) : a = b := by
  have := congrArg ZMod.val h
  rwa [ZMod.val_natCast_of_lt ha, ZMod.val_natCast_of_lt hb] at this

theorem _root_.Spec.HasCoords.unique {P : Pt} {x y x' y' : Nat} (h : HasCoords P x y) (h' : HasCoords P x' y') :
    x = x' ∧ y = y' := by
  obtain ⟨hx, hy, hn, e⟩ := h
  obtain ⟨hx', hy', hn', e'⟩ := h'
  rw [e] at e'
  obtain ⟨e1, e2⟩ := WeierstrassCurve.Affine.Point.some.inj e'
  exact ⟨cast_inj hx hx' e1, cast_inj hy hy' e2⟩

theorem _root_.Spec.HasCoords.same {P Q : Pt} {x y : Nat} (h : HasCoords P x y) (h' : HasCoords Q x y) : P = Q := by
  obtain ⟨-, -, hn, e⟩ := h
  obtain ⟨-, -, hn', e'⟩ := h'
  rw [e, e']

theorem _root_.Spec.HasCoords.onCurve {P : Pt} {x y : Nat} (h : HasCoords P x y) : OnCurve x y := by
  obtain ⟨hx, hy, hn, -⟩ := h
  refine ⟨hx, hy, ?_⟩
  have := hn.left
  rw [WeierstrassCurve.Affine.equation_iff] at this
  simp only [secp256k1, zero_mul, add_zero] at this
  apply (ZMod.natCast_eq_natCast_iff _ _ _).mp
  push_cast
  exact this

/-- the opposite point has the same first coordinate -/
theorem _root_.Spec.HasCoords.neg {P : Pt} {x y : Nat} (h : HasCoords P x y) : ∃ y', HasCoords (-P) x y' := by
  obtain ⟨hx, hy, hn, e⟩ := h
  rw [e, WeierstrassCurve.Affine.Point.neg_some]
  refine ⟨(secp256k1.negY (x : Field) (y : Field)).val, hx, ZMod.val_lt _, ?_⟩
  exact some_congr rfl (ZMod.natCast_zmod_val _)

theorem onCurve_point {x y : Nat} (h : OnCurve x y) : ∃ P, HasCoords P x y := by
  obtain ⟨hx, hy, he⟩ := h
  have e : (y : Field) ^ 2 = (x : Field) ^ 3 + 7 := by
    have := (ZMod.natCast_eq_natCast_iff _ _ _).mpr he
    push_cast at this
    exact this
  have hn : secp256k1.Nonsingular (x : Field) (y : Field) := by
    rw [WeierstrassCurve.Affine.nonsingular_iff, WeierstrassCurve.Affine.equation_iff]
    simp only [secp256k1, zero_mul, add_zero, sub_zero, mul_zero]
    refine ⟨e, ?_⟩
    by_contra hc
    push Not at hc
    obtain ⟨h1, h2⟩ := hc
    have h3 : (3 : Field) ≠ 0 := by
      intro h
      have : ((3 : Nat) : Field) = 0 := by exact_mod_cast h
      rw [ZMod.natCast_eq_zero_iff] at this
      revert this
      decide +kernel
    have h4 : (2 : Field) ≠ 0 := by
      intro h
      have : ((2 : Nat) : Field) = 0 := by exact_mod_cast h
      rw [ZMod.natCast_eq_zero_iff] at this
      revert this
      decide +kernel
    have h7 : (7 : Field) ≠ 0 := by
      intro h
      have : ((7 : Nat) : Field) = 0 := by exact_mod_cast h
      rw [ZMod.natCast_eq_zero_iff] at this
      revert this
      decide +kernel
    have hx0 : (x : Field) = 0 := by
      have := (mul_eq_zero.mp h1.symm).resolve_left h3
      exact pow_eq_zero_iff (n := 2) (by decide) |>.mp this
    have hy0 : (y : Field) = 0 := by
      have : 2 * (y : Field) = 0 := by
        rw [two_mul]
        nth_rw 1 [h2]
        exact neg_add_cancel _
      exact (mul_eq_zero.mp this).resolve_left h4
    rw [hx0, hy0] at e
    apply h7
    simpa using e.symm
  exact ⟨.some x y hn, hx, hy, hn, rfl⟩

/-! ### the algorithm -/

theorem smul_congr {a b : Nat} (h : (a : ZMod groupOrder) = (b : ZMod groupOrder)) : a • base = b • base := by
  apply (nsmul_inj_mod (x := base)).mpr
  rw [addOrderOf_base]
  exact (ZMod.natCast_eq_natCast_iff _ _ _).mp h

theorem smul_neg {a b : Nat} (h : (a : ZMod groupOrder) = -(b : ZMod groupOrder)) : a • base = -(b • base) := by
  apply eq_neg_of_add_eq_zero_left
  rw [← add_smul]
  have : ((a + b : Nat) : ZMod groupOrder) = ((0 : Nat) : ZMod groupOrder) := by
    rw [Nat.cast_add, h, neg_add_cancel, Nat.cast_zero]
  rw [smul_congr this]; exact zero_nsmul _

theorem zmod_ne {a : Nat} (h0 : 0 < a) (h1 : a < groupOrder) : (a : ZMod groupOrder) ≠ 0 := by
  intro h
  rw [ZMod.natCast_eq_zero_iff] at h
  have := Nat.le_of_dvd h0 h
  omega

theorem half_lt : groupOrder / 2 < groupOrder := by decide +kernel

/-- What is signed is accepted. -/
theorem signed_verifies {d z k r s : Nat} (h : Signed d z k r s) : Verifies (d • base) z r s := by
  obtain ⟨hk0, hk1, ⟨x, y, hc, hr⟩, hr0, hs0, hs1, he⟩ := h
  have hsn : s < groupOrder := Nat.lt_of_le_of_lt hs1 half_lt
  have hrn : r < groupOrder := by rw [hr]; exact Nat.mod_lt _ (Fact.out : groupOrder.Prime).pos
  refine ⟨Nat.pos_of_ne_zero hr0, hrn, hs0, hsn, ?_⟩
  have hsz := zmod_ne hs0 hsn
  generalize hu : (z / s : ZMod groupOrder) = u
  generalize hv : (r / s : ZMod groupOrder) = v
  have hpt : u.val • base + v.val • (d • base) = (u.val + v.val * d) • base := by
    rw [smul_smul, add_smul]
  rw [hpt]
  have hm : ((u.val + v.val * d : Nat) : ZMod groupOrder) = (z + r * d) / s := by
    push_cast
    rw [ZMod.natCast_zmod_val, ZMod.natCast_zmod_val, ← hu, ← hv]
    field_simp
  rcases he with he | he
  · have : ((u.val + v.val * d : Nat) : ZMod groupOrder) = (k : ZMod groupOrder) := by
      rw [hm, div_eq_iff hsz, ← he, mul_comm]
    rw [smul_congr this]
    exact ⟨x, y, hc, hr.symm⟩
  · have : ((u.val + v.val * d : Nat) : ZMod groupOrder) = -(k : ZMod groupOrder) := by
      rw [hm, div_eq_iff hsz, neg_mul, mul_comm (k : ZMod groupOrder), he, neg_neg]
    rw [smul_neg this]
    obtain ⟨y', hy'⟩ := hc.neg
    exact ⟨x, y', hy', hr.symm⟩

/-- A good secret number gives a signature. -/
theorem signed_of {d z k x y : Nat} (hk0 : 0 < k) (hk1 : k < groupOrder) (hc : HasCoords (k • base) x y)
    (hr : x % groupOrder ≠ 0) (hz : (z : ZMod groupOrder) + (x % groupOrder : Nat) * d ≠ 0) :
    ∃ s, Signed d z k (x % groupOrder) s := by
  have hkz := zmod_ne hk0 hk1
  generalize hw : ((z : ZMod groupOrder) + (x % groupOrder : Nat) * d) / k = w
  have hw0 : w ≠ 0 := by rw [← hw]; exact div_ne_zero hz hkz
  have hwk : w * k = (z : ZMod groupOrder) + (x % groupOrder : Nat) * d := by
    rw [← hw]; field_simp
  have hp : 0 < w.val := by
    have : w.val ≠ 0 := by rwa [ne_eq, ZMod.val_eq_zero]
    omega
  have hlt := ZMod.val_lt w
  have hodd : groupOrder % 2 = 1 := by decide +kernel
  by_cases hh : w.val ≤ groupOrder / 2
  · refine ⟨w.val, hk0, hk1, ⟨x, y, hc, rfl⟩, hr, hp, hh, Or.inl ?_⟩
    rw [ZMod.natCast_zmod_val, hwk]
  · refine ⟨groupOrder - w.val, hk0, hk1, ⟨x, y, hc, rfl⟩, hr, by omega, by omega, Or.inr ?_⟩
    rw [Nat.cast_sub hlt.le, ZMod.natCast_zmod_val, ZMod.natCast_self, zero_sub, neg_mul, hwk]

theorem two_dbl : ∃ q : Nat × Nat, dbl (baseX, baseY) = some q ∧ q.1 < fieldPrime ∧ q.2 < fieldPrime ∧
    q.1 % groupOrder ≠ 0 ∧ baseX % groupOrder ≠ 0 ∧ baseX < fieldPrime ∧ baseY < fieldPrime ∧
    baseX % groupOrder ≠ q.1 % groupOrder ∧ 2 < groupOrder := by
  refine ⟨(dbl (baseX, baseY)).getD (0, 0), ?_⟩
  decide +kernel

/-- There is always a secret number that gives a signature. -/
theorem sign_exists (d z : Nat) (h0 : 0 < d) (h1 : d < groupOrder) : ∃ k r s, Signed d z k r s := by
  obtain ⟨q, hq, hq1, hq2, hr2, hr1, hb1, hb2, hne, hn⟩ := two_dbl
  have hc1 : HasCoords (1 • base) baseX baseY := by
    rw [one_smul]
    exact ⟨hb1, hb2, base_is⟩
  have hc2 : HasCoords (2 • base) q.1 q.2 := by
    rw [two_nsmul]
    exact ⟨hq1, hq2, dbl_is base_is hq⟩
  by_cases hz : (z : ZMod groupOrder) + (baseX % groupOrder : Nat) * d = 0
  · obtain ⟨s, hs⟩ := signed_of (d := d) (z := z) (k := 2) (by omega) hn hc2 hr2 (by
      intro hz2
      have hd := zmod_ne h0 h1
      have e : ((baseX % groupOrder : Nat) : ZMod groupOrder) = ((q.1 % groupOrder : Nat) : ZMod groupOrder) :=
        mul_right_cancel₀ hd (add_left_cancel (hz.trans hz2.symm))
      apply hne
      have := (ZMod.natCast_eq_natCast_iff _ _ _).mp e
      rwa [Nat.ModEq, Nat.mod_mod, Nat.mod_mod] at this)
    exact ⟨_, _, s, hs⟩
  · obtain ⟨s, hs⟩ := signed_of (d := d) (z := z) (k := 1) (by omega) (by omega) hc1 hr1 hz
    exact ⟨_, _, s, hs⟩

end Bit
