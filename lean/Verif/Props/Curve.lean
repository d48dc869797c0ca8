import Verif.Model.Format
import Verif.Spec.Curve
import Verif.Lemmas.Curve
import Verif.Lemmas.Utils
import Verif.Concrete.Crypto
/-
C15, C16: public key coordinates.
-/
namespace Bit

theorem fieldPrime_eq : Spec.fieldPrime = fieldSize := by decide +kernel

theorem beValue_eq (b : Bytes) : Spec.beValue b = beNat b := by
  unfold Spec.beValue
  have : ∀ (b : Bytes) (acc : Nat), b.foldl (fun acc x => acc * 256 + x.toNat) acc
      = acc * 256 ^ b.length + beNat b := by
    intro b
    induction b with
    | nil => intro acc; simp [beNat, leNat]
    | cons x b ih =>
      intro acc
      rw [List.foldl_cons, ih, beNat_cons, List.length_cons, pow_succ]
      ring
  simpa using this b 0

theorem onCurve_cast {x y : Nat} (h : Spec.OnCurve x y) :
    (y : ZMod fieldSize) ^ 2 = (x : ZMod fieldSize) ^ 3 + 7 := by
  obtain ⟨_, _, h⟩ := h
  rw [fieldPrime_eq] at h
  have := (ZMod.natCast_eq_natCast_iff (y ^ 2) (x ^ 3 + 7) fieldSize).mpr h
  push_cast at this
  exact this

theorem sq_mod_of_cast {x y : Nat} (h : (y : ZMod fieldSize) ^ 2 = (x : ZMod fieldSize) ^ 3 + 7) :
    y ^ 2 % fieldSize = (x ^ 3 + 7) % fieldSize := by
  apply (ZMod.natCast_eq_natCast_iff (y ^ 2) (x ^ 3 + 7) fieldSize).mp
  push_cast
  exact h

theorem xToY_of_onCurve {x y : Nat} (h : Spec.OnCurve x y) : xToY x (y % 2) = y := by
  have hc := onCurve_cast h
  have hy : y < fieldSize := by rw [← fieldPrime_eq]; exact h.2.1
  have hs := root_sq_of_curve hc
  have hlt := root_lt x
  have hpos := root_pos x
  have hodd := fieldSize_odd
  rcases sq_eq_sq_iff_eq_or_eq_neg.mp hs with h1 | h1
  · have : root x = y := by
      rw [ZMod.natCast_eq_natCast_iff] at h1
      have h2 : root x % fieldSize = y % fieldSize := h1
      rwa [Nat.mod_eq_of_lt hlt, Nat.mod_eq_of_lt hy] at h2
    rcases xToY_cases x (y % 2) with ⟨_, h2⟩ | ⟨h2, _⟩
    · omega
    · rw [this] at h2; exact absurd rfl h2
  · have hsum : root x + y = fieldSize := by
      have h2 : ((root x + y : Nat) : ZMod fieldSize) = 0 := by
        rw [Nat.cast_add, h1]; exact neg_add_cancel _
      rw [ZMod.natCast_eq_zero_iff] at h2
      obtain ⟨k, hk⟩ := h2
      have : k = 1 := by
        have h3 : fieldSize * k < fieldSize * 2 := by omega
        have h4 : 0 < fieldSize * k := by omega
        have h5 := Nat.lt_of_mul_lt_mul_left h3
        have h6 := Nat.pos_of_mul_pos_left h4
        omega
      rw [this] at hk; omega
    rcases xToY_cases x (y % 2) with ⟨h2, _⟩ | ⟨_, h2⟩
    · omega
    · omega

theorem lt_of_lt_fieldPrime {x : Nat} (h : x < Spec.fieldPrime) : x < 256 ^ 32 := by
  have : Spec.fieldPrime < 256 ^ 32 := by decide +kernel
  exact Nat.lt_trans h this

theorem coords_compressed {x y f : Nat} (hx : x < 256 ^ 32) (hf : y % 2 = f) :
    coordsToPublicKey x y true
      = .ok ((if f = 1 then 0x03 else 0x02) :: (leBytes 32 x).reverse) := by
  have e := toBytesBE_ok hx
  unfold coordsToPublicKey
  rw [if_pos rfl, e, hf]

theorem coords_uncompressed {x y : Nat} (hx : x < 256 ^ 32) (hy : y < 256 ^ 32) :
    coordsToPublicKey x y false
      = .ok (0x04 :: ((leBytes 32 x).reverse ++ (leBytes 32 y).reverse)) := by
  have e := toBytesBE_ok hx
  have e' := toBytesBE_ok hy
  unfold coordsToPublicKey
  rw [if_neg (by simp), e, e']

/-- C15: every point of the curve, serialised compressed (33 bytes, prefix 02 or 03 by the parity of
y) or uncompressed (65 bytes, prefix 04), is read back exactly. -/
theorem C15_coords_roundtrip (x y : Nat) (compressed : Bool) (h : Spec.OnCurve x y) :
    ∃ k, coordsToPublicKey x y compressed = .ok k ∧ publicKeyToCoords k = .ok (x, y) ∧
      k.length = (if compressed then 33 else 65) ∧
      k.head? = some (if compressed then (if y % 2 = 1 then 3 else 2) else 4) := by
  have hx : x < 256 ^ 32 := lt_of_lt_fieldPrime h.1
  have hy : y < 256 ^ 32 := lt_of_lt_fieldPrime h.2.1
  cases compressed with
  | true =>
    refine ⟨(if y % 2 = 1 then 0x03 else 0x02) :: (leBytes 32 x).reverse, ?_, ?_, ?_, ?_⟩
    · exact coords_compressed hx rfl
    · have hl : ((if y % 2 = 1 then (0x03 : UInt8) else 0x02) :: (leBytes 32 x).reverse).length = 33 := by
        simp
      have hflag : beNat [if y % 2 = 1 then (0x03 : UInt8) else 0x02] % 2 = y % 2 := by
        have : y % 2 < 2 := Nat.mod_lt _ (by omega)
        split
        · simp [beNat, leNat]; omega
        · simp [beNat, leNat]; omega
      rw [publicKeyToCoords, if_pos hl]
      simp only [List.take_succ_cons, List.take_zero, List.drop_succ_cons, List.drop_zero]
      rw [beNat_reverse, leNat_leBytes_of_lt hx, hflag, xToY_of_onCurve h]
    · simp
    · simp
  | false =>
    refine ⟨0x04 :: ((leBytes 32 x).reverse ++ (leBytes 32 y).reverse), ?_, ?_, ?_, ?_⟩
    · exact coords_uncompressed hx hy
    · have hl : (0x04 :: ((leBytes 32 x).reverse ++ (leBytes 32 y).reverse) : Bytes).length = 65 := by
        simp
      rw [publicKeyToCoords, if_neg (by omega), if_pos hl]
      have e1 : (List.drop 1 (0x04 :: ((leBytes 32 x).reverse ++ (leBytes 32 y).reverse))).take 32
          = (leBytes 32 x).reverse := by
        simp only [List.drop_succ_cons, List.drop_zero]
        rw [List.take_append_of_le_length (by simp), List.take_of_length_le (by simp)]
      have e2 : List.drop 33 (0x04 :: ((leBytes 32 x).reverse ++ (leBytes 32 y).reverse))
          = (leBytes 32 y).reverse := by
        show List.drop 32 _ = _
        rw [List.drop_append_of_le_length (by simp), List.drop_of_length_le (by simp)]; rfl
      rw [e1, e2, beNat_reverse, beNat_reverse, leNat_leBytes_of_lt hx, leNat_leBytes_of_lt hy]
    · simp
    · simp

/-- the base point of secp256k1 -/
example : Spec.OnCurve 0x79BE667EF9DCBBAC55A06295CE870B07029BFCDB2DCE28D959F2815B16F81798
    0x483ADA7726A3C4655DA4FBFC0E1108A8FD17B448A68554199C47D08FFB10D4B8 := by decide +kernel

/-- C15, other direction: a 33 byte key `02/03 ‖ x` with x the abscissa of a curve point is
recovered byte for byte from its coordinates. -/
theorem C15_key_roundtrip (b : UInt8) (xs : Bytes) (hb : b = 2 ∨ b = 3) (hl : xs.length = 32)
    (y' : Nat) (h : Spec.OnCurve (Spec.beValue xs) y') :
    ∃ x y, publicKeyToCoords (b :: xs) = .ok (x, y) ∧ Spec.OnCurve x y ∧
      coordsToPublicKey x y true = .ok (b :: xs) := by
  rw [beValue_eq] at h
  have hb1 : beNat [b] = b.toNat := by simp [beNat, leNat]
  have hlen : (b :: xs).length = 33 := by simp [hl]
  have hf : b.toNat % 2 < 2 := Nat.mod_lt _ (by omega)
  refine ⟨beNat xs, xToY (beNat xs) (b.toNat % 2), ?_, ⟨h.1, ?_, ?_⟩, ?_⟩
  · rw [publicKeyToCoords, if_pos hlen]
    simp only [List.take_succ_cons, List.take_zero, List.drop_succ_cons, List.drop_zero]
    rw [hb1]
  · rw [fieldPrime_eq]; exact xToY_lt _ _
  · rw [fieldPrime_eq]
    apply sq_mod_of_cast
    rw [xToY_sq, root_sq_of_curve (onCurve_cast h), onCurve_cast h]
  · have hx : beNat xs < 256 ^ 32 := by rw [← hl]; exact beNat_lt xs
    have hx' : (leBytes 32 (beNat xs)).reverse = xs := by
      unfold beNat
      have := leBytes_leNat xs.reverse
      rw [List.length_reverse, hl] at this
      rw [this, List.reverse_reverse]
    rw [coords_compressed hx (xToY_parity _ _ hf), hx']
    rcases hb with rfl | rfl <;> rfl

/-- C15: strings that are neither 33 nor 65 bytes long are refused, all others are read. -/
theorem C15_length (k : Bytes) :
    (publicKeyToCoords k = .error .valueError ↔ k.length ≠ 33 ∧ k.length ≠ 65) ∧
    ((∃ r, publicKeyToCoords k = .ok r) ↔ k.length = 33 ∨ k.length = 65) := by
  unfold publicKeyToCoords
  split
  · rename_i h; constructor <;> simp [h]
  · split
    · rename_i h1 h; constructor <;> simp [h]
    · rename_i h1 h2; constructor <;> simp [h1, h2]

/-- C16: whenever some point of the curve has this x, the returned y completes a point of the curve
and has the parity announced by the first byte. -/
theorem C16_on_curve (b : UInt8) (xs : Bytes) (hl : xs.length = 32)
    (y' : Nat) (h : Spec.OnCurve (Spec.beValue xs) y') :
    ∃ y, publicKeyToCoords (b :: xs) = .ok (Spec.beValue xs, y) ∧
      Spec.OnCurve (Spec.beValue xs) y ∧ y % 2 = b.toNat % 2 := by
  rw [beValue_eq] at h ⊢
  have hb1 : beNat [b] = b.toNat := by simp [beNat, leNat]
  have hlen : (b :: xs).length = 33 := by simp [hl]
  have hf : b.toNat % 2 < 2 := Nat.mod_lt _ (by omega)
  refine ⟨xToY (beNat xs) (b.toNat % 2), ?_, ⟨h.1, ?_, ?_⟩, xToY_parity _ _ hf⟩
  · rw [publicKeyToCoords, if_pos hlen]
    simp only [List.take_succ_cons, List.take_zero, List.drop_succ_cons, List.drop_zero]
    rw [hb1]
  · rw [fieldPrime_eq]; exact xToY_lt _ _
  · rw [fieldPrime_eq]
    apply sq_mod_of_cast
    rw [xToY_sq, root_sq_of_curve (onCurve_cast h), onCurve_cast h]

/-- C16, violation: no 33 byte string is refused. When x is not the abscissa of any curve point the
call still returns, and the point satisfies y² = -(x³ + 7) instead of the curve equation. -/
theorem C16_off_curve_accepted (b : UInt8) (xs : Bytes) (hl : xs.length = 32)
    (hx : Spec.beValue xs < Spec.fieldPrime)
    (h : ∀ y, ¬ Spec.OnCurve (Spec.beValue xs) y) :
    ∃ y, publicKeyToCoords (b :: xs) = .ok (Spec.beValue xs, y) ∧ y < Spec.fieldPrime ∧
      (y ^ 2 + ((Spec.beValue xs) ^ 3 + 7)) % Spec.fieldPrime = 0 ∧
      y ^ 2 % Spec.fieldPrime ≠ ((Spec.beValue xs) ^ 3 + 7) % Spec.fieldPrime := by
  have hb1 : beNat [b] = b.toNat := by simp [beNat, leNat]
  have hlen : (b :: xs).length = 33 := by simp [hl]
  have hf : b.toNat % 2 < 2 := Nat.mod_lt _ (by omega)
  have hns : ¬ IsSquare (((Spec.beValue xs : Nat) : ZMod fieldSize) ^ 3 + 7) := by
    rintro ⟨r, hr⟩
    refine h r.val ⟨hx, by rw [fieldPrime_eq]; exact ZMod.val_lt r, ?_⟩
    rw [fieldPrime_eq]
    apply sq_mod_of_cast
    rw [ZMod.natCast_zmod_val, hr, pow_two]
  have hlt : xToY (Spec.beValue xs) (b.toNat % 2) < Spec.fieldPrime := by
    rw [fieldPrime_eq]; exact xToY_lt _ _
  refine ⟨xToY (Spec.beValue xs) (b.toNat % 2), ?_, hlt, ?_, ?_⟩
  · rw [publicKeyToCoords, if_pos hlen]
    simp only [List.take_succ_cons, List.take_zero, List.drop_succ_cons, List.drop_zero]
    rw [hb1, beValue_eq]
  · rw [fieldPrime_eq, ← Nat.dvd_iff_mod_eq_zero, ← ZMod.natCast_eq_zero_iff]
    push_cast
    rw [xToY_sq, root_sq_of_not_curve hns]
    ring
  · intro he
    exact h _ ⟨hx, hlt, he⟩

/-- C16, concrete violation: x = 5 is not on the curve, yet `02 00…05` is accepted. -/
theorem C16_five_accepted :
    (∀ y, ¬ Spec.OnCurve 5 y) ∧
    ∃ y, publicKeyToCoords (2 :: (List.replicate 31 0 ++ [5])) = .ok (5, y) ∧ ¬ Spec.OnCurve 5 y := by
  have hns : ∀ y, ¬ Spec.OnCurve 5 y := by
    intro y hy
    have hc := onCurve_cast hy
    have hz := cube_add_seven_ne ((5 : Nat) : ZMod fieldSize)
    have hsq : IsSquare (((5 : Nat) : ZMod fieldSize) ^ 3 + 7) := ⟨y, by rw [← hc, pow_two]⟩
    have he := (ZMod.euler_criterion fieldSize hz).mp hsq
    have hcast : (((5 : Nat) : ZMod fieldSize) ^ 3 + 7) = ((132 : Nat) : ZMod fieldSize) := by
      push_cast; norm_num
    rw [hcast, ← powMod_cast] at he
    have h' : ((powMod 132 (fieldSize / 2) fieldSize : Nat) : ZMod fieldSize)
        = ((1 : Nat) : ZMod fieldSize) := by rw [he]; simp
    rw [ZMod.natCast_eq_natCast_iff] at h'
    have h'' : powMod 132 (fieldSize / 2) fieldSize % fieldSize = 1 % fieldSize := h'
    revert h''
    decide +kernel
  exact ⟨hns, xToY 5 0, by decide +kernel, hns _⟩

end Bit
