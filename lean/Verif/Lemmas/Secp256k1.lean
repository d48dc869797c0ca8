import Verif.Spec.Secp256k1
/-
The group of secp256k1: the base point has the prime order `groupOrder`. The multiple is computed with numbers
and checked by the kernel, each step being proved to be Mathlib's addition.
-/
namespace Bit

open _root_.Spec

attribute [local irreducible] fieldPrime groupOrder

/-- like `HasCoords`, without the bounds -/
def Is (P : Pt) (x y : Nat) : Prop := ∃ h, P = .some (x : Field) (y : Field) h

/-- the inverse, if it is one -/
def invMod (a : Nat) : Nat := powMod a (fieldPrime - 2) fieldPrime

/-- the third point of the line with slope `l` through `(x₁, y₁)` and `(x₂, _)`, reflected -/
def third (l x₁ x₂ y₁ : Nat) : Nat × Nat :=
  let x := (l * l + (2 * fieldPrime - x₁ % fieldPrime - x₂ % fieldPrime)) % fieldPrime
  (x, (l * (x₁ + (fieldPrime - x)) + (fieldPrime - y₁ % fieldPrime)) % fieldPrime)

def dbl (P : Nat × Nat) : Option (Nat × Nat) :=
  let i := invMod (2 * P.2)
  if 2 * P.2 * i % fieldPrime = 1 then some (third (3 * P.1 * P.1 * i % fieldPrime) P.1 P.1 P.2) else none

def plus (P Q : Nat × Nat) : Option (Nat × Nat) :=
  let dx := P.1 + (fieldPrime - Q.1 % fieldPrime)
  let i := invMod dx
  if dx * i % fieldPrime = 1 then
    some (third ((P.2 + (fieldPrime - Q.2 % fieldPrime)) * i % fieldPrime) P.1 Q.1 P.2)
  else none

theorem cast_mod (a : Nat) : ((a % fieldPrime : Nat) : Field) = (a : Field) := ZMod.natCast_mod a _

theorem cast_neg (a : Nat) : ((fieldPrime - a % fieldPrime : Nat) : Field) = -(a : Field) := by
  have hlt : a % fieldPrime ≤ fieldPrime := (Nat.mod_lt _ (Fact.out : fieldPrime.Prime).pos).le
  rw [Nat.cast_sub hlt, cast_mod, ZMod.natCast_self, zero_sub]

theorem third_cast (l x₁ x₂ y₁ : Nat) :
    ((third l x₁ x₂ y₁).1 : Field) = (l : Field) ^ 2 - x₁ - x₂ ∧
    ((third l x₁ x₂ y₁).2 : Field) = (l : Field) * (x₁ - (third l x₁ x₂ y₁).1) - y₁ := by
  have hpos := (Fact.out : fieldPrime.Prime).pos
  have h1 : ((third l x₁ x₂ y₁).1 : Field) = (l : Field) ^ 2 - x₁ - x₂ := by
    show ((_ % fieldPrime : Nat) : Field) = _
    have e : 2 * fieldPrime - x₁ % fieldPrime - x₂ % fieldPrime =
        (fieldPrime - x₁ % fieldPrime) + (fieldPrime - x₂ % fieldPrime) := by
      have := Nat.mod_lt x₁ hpos
      have := Nat.mod_lt x₂ hpos
      omega
    rw [e, cast_mod, Nat.cast_add, Nat.cast_add, Nat.cast_mul, cast_neg, cast_neg]
    ring
  refine ⟨h1, ?_⟩
  have hx : (third l x₁ x₂ y₁).1 % fieldPrime = (third l x₁ x₂ y₁).1 := Nat.mod_mod _ _
  show ((_ % fieldPrime : Nat) : Field) = _
  rw [cast_mod, Nat.cast_add, Nat.cast_mul, Nat.cast_add]
  show (l : Field) * ((x₁ : Field) + ((fieldPrime - (third l x₁ x₂ y₁).1 : Nat) : Field)) + _ = _
  have hc : ((fieldPrime - (third l x₁ x₂ y₁).1 : Nat) : Field) = -((third l x₁ x₂ y₁).1 : Field) := by
    conv_lhs => rw [← hx]
    exact cast_neg _
  rw [hc, cast_neg]
  ring

theorem cast_one {a b : Nat} (h : a * b % fieldPrime = 1) : (a : Field) * (b : Field) = 1 := by
  rw [← Nat.cast_mul, ← cast_mod, h, Nat.cast_one]

theorem ne_zero_of_one {a b : Field} (h : a * b = 1) : a ≠ 0 := by
  intro e
  rw [e, zero_mul] at h
  exact zero_ne_one h

theorem some_congr {x y x' y' : Field} {h : secp256k1.Nonsingular x y} (hx : x' = x) (hy : y' = y) :
    ∃ h', (WeierstrassCurve.Affine.Point.some x y h : Pt) = .some x' y' h' := by
  subst hx; subst hy; exact ⟨h, rfl⟩

theorem slope_negY (x y : Field) : secp256k1.negY x y = -y := by
  simp [WeierstrassCurve.Affine.negY, secp256k1]

theorem dbl_is {P : Pt} {p q : Nat × Nat} (h : Is P p.1 p.2) (hd : dbl p = some q) : Is (P + P) q.1 q.2 := by
  obtain ⟨hns, rfl⟩ := h
  unfold dbl at hd
  simp only at hd
  split at hd
  · rename_i hi
    have hq := Option.some.inj hd
    have h1 := cast_one hi
    have h2 : (2 * (p.2 : Field)) ≠ 0 := by
      have := ne_zero_of_one h1
      push_cast at this
      exact this
    have hy : (p.2 : Field) ≠ secp256k1.negY p.1 p.2 := by
      rw [slope_negY]
      intro e
      apply h2
      rw [two_mul]
      nth_rw 1 [e]
      exact neg_add_cancel _
    have hslope : secp256k1.slope (p.1 : Field) p.1 p.2 p.2 =
        ((3 * p.1 * p.1 * invMod (2 * p.2) % fieldPrime : Nat) : Field) := by
      rw [WeierstrassCurve.Affine.slope_of_Y_ne rfl hy, slope_negY, cast_mod]
      simp only [secp256k1, mul_zero, zero_mul, add_zero, sub_zero, sub_neg_eq_add]
      rw [div_eq_iff (by rw [← two_mul]; exact h2)]
      push_cast at h1 ⊢
      calc 3 * (p.1 : Field) ^ 2 = 3 * (p.1 : Field) ^ 2 * 1 := by ring
        _ = _ := by rw [← h1]; ring
    rw [WeierstrassCurve.Affine.Point.add_self_of_Y_ne hy]
    apply some_congr
    · rw [← hq, (third_cast _ _ _ _).1, WeierstrassCurve.Affine.addX, hslope]
      simp only [secp256k1, zero_mul, add_zero, sub_zero]
    · rw [← hq, (third_cast _ _ _ _).2, (third_cast _ _ _ _).1, WeierstrassCurve.Affine.addY, slope_negY,
        WeierstrassCurve.Affine.negAddY, WeierstrassCurve.Affine.addX, hslope]
      simp only [secp256k1, zero_mul, add_zero, sub_zero]
      ring
  · exact absurd hd (by simp)

theorem plus_is {P Q : Pt} {p q r : Nat × Nat} (h : Is P p.1 p.2) (h' : Is Q q.1 q.2) (hd : plus p q = some r) :
    Is (P + Q) r.1 r.2 := by
  obtain ⟨hns, rfl⟩ := h
  obtain ⟨hns', rfl⟩ := h'
  unfold plus at hd
  simp only at hd
  split at hd
  · rename_i hi
    have hq := Option.some.inj hd
    have h1 := cast_one hi
    rw [Nat.cast_add, cast_neg, ← sub_eq_add_neg] at h1
    have h2 : (p.1 : Field) - (q.1 : Field) ≠ 0 := ne_zero_of_one h1
    have hx : (p.1 : Field) ≠ q.1 := sub_ne_zero.mp h2
    have hslope : secp256k1.slope (p.1 : Field) q.1 p.2 q.2 =
        (((p.2 + (fieldPrime - q.2 % fieldPrime)) * invMod (p.1 + (fieldPrime - q.1 % fieldPrime)) % fieldPrime
          : Nat) : Field) := by
      rw [WeierstrassCurve.Affine.slope_of_X_ne hx, cast_mod, div_eq_iff h2, Nat.cast_mul, Nat.cast_add,
        cast_neg]
      calc (p.2 : Field) - q.2 = (p.2 - q.2) * 1 := by ring
        _ = _ := by rw [← h1]; ring
    rw [WeierstrassCurve.Affine.Point.add_of_X_ne hx]
    apply some_congr
    · rw [← hq, (third_cast _ _ _ _).1, WeierstrassCurve.Affine.addX, hslope]
      simp only [secp256k1, zero_mul, add_zero, sub_zero]
    · rw [← hq, (third_cast _ _ _ _).2, (third_cast _ _ _ _).1, WeierstrassCurve.Affine.addY, slope_negY,
        WeierstrassCurve.Affine.negAddY, WeierstrassCurve.Affine.addX, hslope]
      simp only [secp256k1, zero_mul, add_zero, sub_zero]
      ring
  · exact absurd hd (by simp)

/-! ### the order of the base point -/

/-- double, and add the base point if the bit is set -/
def stepBit (b : Bool) (p : Nat × Nat) : Option (Nat × Nat) :=
  match dbl p with
  | none => none
  | some q => if b then plus q (baseX, baseY) else some q

/-- double and add, most significant bit first -/
def run : List Bool → Nat × Nat → Option (Nat × Nat)
  | [], p => some p
  | b :: bs, p =>
    match stepBit b p with
    | none => none
    | some q => run bs q

def bitsValue (k : Nat) (bs : List Bool) : Nat := bs.foldl (fun k b => 2 * k + if b then 1 else 0) k

theorem base_is : Is base (baseX, baseY).1 (baseX, baseY).2 := ⟨base_nonsingular, rfl⟩

theorem stepBit_is {g : Nat × Nat} {B P : Pt} {k : Nat} {b : Bool} {p q : Nat × Nat} (hg : (baseX, baseY) = g)
    (hB : Is B g.1 g.2) (hP : P = k • B) (h : Is P p.1 p.2) (hs : stepBit b p = some q) :
    Is ((2 * k + if b then 1 else 0) • B) q.1 q.2 := by
  unfold stepBit at hs
  rw [hg] at hs
  cases hd : dbl p with
  | none => rw [hd] at hs; exact absurd hs (by simp)
  | some p' =>
    rw [hd] at hs
    have h2 : Is ((2 * k) • B) p'.1 p'.2 := by
      have := dbl_is h hd
      rwa [hP, ← two_nsmul, smul_smul] at this
    cases b with
    | false =>
      have e : p' = q := Option.some.inj hs
      rw [← e]
      exact h2
    | true =>
      have := plus_is h2 hB hs
      show Is ((2 * k + 1) • B) _ _
      rwa [add_smul, one_smul]

theorem run_is : ∀ (bs : List Bool) (k : Nat) {p q : Nat × Nat}, Is (k • base) p.1 p.2 → run bs p = some q →
    Is (bitsValue k bs • base) q.1 q.2 := by
  intro bs
  induction bs with
  | nil =>
    intro k p q h hr
    have e : p = q := Option.some.inj hr
    rw [← e]
    exact h
  | cons b bs ih =>
    intro k p q h hr
    rw [run] at hr
    cases hs : stepBit b p with
    | none => rw [hs] at hr; exact absurd hr (by simp)
    | some p' =>
      rw [hs] at hr
      exact ih _ (stepBit_is rfl base_is rfl h hs) hr

def bitsOfNat (w v : Nat) : List Bool := (List.range w).reverse.map fun i => v.testBit i

theorem order_run : run (bitsOfNat 255 (groupOrder - 1)) (baseX, baseY) = some (baseX, fieldPrime - baseY) := by
  decide +kernel

theorem order_bits : bitsValue 1 (bitsOfNat 255 (groupOrder - 1)) = groupOrder - 1 := by decide +kernel

theorem baseY_lt : baseY % fieldPrime = baseY := by decide +kernel

theorem order_neg : (groupOrder - 1) • base = -base := by
  have h := run_is _ 1 (p := (baseX, baseY)) (by rw [one_smul]; exact base_is) order_run
  rw [order_bits] at h
  obtain ⟨hn, e⟩ := h
  rw [e, base, WeierstrassCurve.Affine.Point.neg_some]
  obtain ⟨h', e'⟩ := some_congr (x := ((baseX : Nat) : Field)) (y := ((fieldPrime - baseY : Nat) : Field)) (h := hn)
    (x' := (baseX : Field)) (y' := secp256k1.negY (baseX : Field) (baseY : Field)) rfl (by
      rw [slope_negY, ← cast_neg, baseY_lt])
  rw [e']

theorem order_base : groupOrder • base = 0 := by
  have h1 : groupOrder = (groupOrder - 1) + 1 := by decide +kernel
  rw [h1, add_smul, one_smul, order_neg, neg_add_cancel]

theorem base_ne : base ≠ 0 := nofun

theorem addOrderOf_base : addOrderOf base = groupOrder := addOrderOf_eq_prime order_base base_ne

theorem smul_ne {d : Nat} (h0 : 0 < d) (h1 : d < groupOrder) : d • base ≠ 0 := by
  intro h
  have := Nat.le_of_dvd h0 (addOrderOf_dvd_of_nsmul_eq_zero h)
  rw [addOrderOf_base] at this
  omega

theorem smul_inj {a b : Nat} (ha : a < groupOrder) (hb : b < groupOrder) (h : a • base = b • base) : a = b := by
  have := (nsmul_inj_mod (x := base)).mp h
  rw [addOrderOf_base, Nat.mod_eq_of_lt ha, Nat.mod_eq_of_lt hb] at this
  exact this

end Bit
