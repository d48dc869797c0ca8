import Verif.Model.Bech32
import Verif.Spec.Bits
import Mathlib.Tactic.Ring
import Mathlib.Tactic.Linarith
/-
Bit regrouping: `convertbits` in terms of bit strings.
-/
namespace Bit
open Spec

@[simp] theorem bitsOf_length (w v : Nat) : (bitsOf w v).length = w := by simp [bitsOf]

theorem bitsOf_getElem {w v i : Nat} (h : i < (bitsOf w v).length) :
    (bitsOf w v)[i] = v.testBit (w - 1 - i) := by simp [bitsOf]

theorem bitsOf_zero_width (v : Nat) : bitsOf 0 v = [] := rfl

@[simp] theorem bitString_nil (w : Nat) : bitString w [] = [] := rfl
@[simp] theorem bitString_cons (w v : Nat) (l : List Nat) :
    bitString w (v :: l) = bitsOf w v ++ bitString w l := rfl
@[simp] theorem bitString_append (w : Nat) (a b : List Nat) :
    bitString w (a ++ b) = bitString w a ++ bitString w b := by simp [bitString]

@[simp] theorem bitString_length (w : Nat) (l : List Nat) : (bitString w l).length = w * l.length := by
  induction l with
  | nil => simp
  | cons v l ih => simp [ih, Nat.mul_add]; omega

/-- words below `2^w` are determined by their bits -/
theorem bitsOf_inj {w a b : Nat} (ha : a < 2 ^ w) (hb : b < 2 ^ w) (h : bitsOf w a = bitsOf w b) :
    a = b := by
  apply Nat.eq_of_testBit_eq
  intro i
  by_cases hi : i < w
  · have := congrArg (fun l => l[w - 1 - i]?) h
    simp [bitsOf] at this
    have h2 : w - 1 - i < w := by omega
    simp [h2] at this
    have h3 : w - 1 - (w - 1 - i) = i := by omega
    rwa [h3] at this
  · have hle : 2 ^ w ≤ 2 ^ i := Nat.pow_le_pow_right (by norm_num) (by omega)
    rw [Nat.testBit_lt_two_pow (lt_of_lt_of_le ha hle), Nat.testBit_lt_two_pow (lt_of_lt_of_le hb hle)]

theorem bitString_inj {w : Nat} (hw : 0 < w) {a b : List Nat} (ha : ∀ x ∈ a, x < 2 ^ w)
    (hb : ∀ x ∈ b, x < 2 ^ w) (h : bitString w a = bitString w b) : a = b := by
  induction a generalizing b with
  | nil =>
    have := congrArg List.length h
    cases b with
    | nil => rfl
    | cons y b => simp at this; omega
  | cons x a ih =>
    cases b with
    | nil => have := congrArg List.length h; simp at this; omega
    | cons y b =>
      simp only [bitString_cons] at h
      have hl := List.append_inj h (by simp)
      rw [bitsOf_inj (ha x (by simp)) (hb y (by simp)) hl.1,
        ih (fun z hz => ha z (by simp [hz])) (fun z hz => hb z (by simp [hz])) hl.2]

theorem bitsOf_split (n t acc : Nat) (h : t ≤ n) :
    bitsOf n acc = bitsOf t (acc >>> (n - t)) ++ bitsOf (n - t) acc := by
  apply List.ext_getElem
  · simp; omega
  · intro i h1 h2
    simp only [bitsOf_length] at h1
    rw [bitsOf_getElem, List.getElem_append]
    split
    · rename_i hi
      simp only [bitsOf_length] at hi
      rw [bitsOf_getElem, Nat.testBit_shiftRight]
      congr 1; omega
    · rename_i hi
      simp only [bitsOf_length] at hi ⊢
      rw [bitsOf_getElem]
      congr 1; omega

theorem bitsOf_and_mask (n m acc : Nat) (h : n ≤ m) :
    bitsOf n (acc &&& ((1 <<< m) - 1)) = bitsOf n acc := by
  apply List.ext_getElem
  · simp
  · intro i h1 h2
    simp only [bitsOf_length] at h1
    rw [bitsOf_getElem, bitsOf_getElem, Nat.one_shiftLeft, Nat.testBit_and, Nat.testBit_two_pow_sub_one]
    simp; omega

theorem bitsOf_shift_or (n f acc v : Nat) (hv : v < 2 ^ f) :
    bitsOf (n + f) ((acc <<< f) ||| v) = bitsOf n acc ++ bitsOf f v := by
  apply List.ext_getElem
  · simp
  · intro i h1 h2
    simp only [bitsOf_length] at h1
    rw [bitsOf_getElem, Nat.testBit_or, Nat.testBit_shiftLeft, List.getElem_append]
    split
    · rename_i hi
      simp only [bitsOf_length] at hi
      rw [bitsOf_getElem]
      have hge : n + f - 1 - i ≥ f := by omega
      have hle : 2 ^ f ≤ 2 ^ (n + f - 1 - i) := Nat.pow_le_pow_right (by norm_num) hge
      rw [Nat.testBit_lt_two_pow (lt_of_lt_of_le hv hle)]
      simp only [hge, decide_true, Bool.true_and, Bool.or_false]
      congr 1; omega
    · rename_i hi
      simp only [bitsOf_length] at hi ⊢
      rw [bitsOf_getElem]
      have hlt : ¬ (n + f - 1 - i ≥ f) := by omega
      simp only [hlt, decide_false, Bool.false_and, Bool.false_or]
      congr 1; omega

/-- shifting left by `t - b` and masking: the `b` low bits of `acc` followed by zeros -/
theorem bitsOf_shift_mask (b t acc : Nat) (h : b ≤ t) :
    bitsOf t ((acc <<< (t - b)) &&& ((1 <<< t) - 1)) =
      bitsOf b acc ++ List.replicate (t - b) false := by
  rw [bitsOf_and_mask _ _ _ (Nat.le_refl t)]
  apply List.ext_getElem
  · simp; omega
  · intro i h1 h2
    simp only [bitsOf_length] at h1
    rw [bitsOf_getElem, Nat.testBit_shiftLeft, List.getElem_append]
    split
    · rename_i hi
      simp only [bitsOf_length] at hi
      rw [bitsOf_getElem]
      have hge : t - 1 - i ≥ t - b := by omega
      simp only [hge, decide_true, Bool.true_and]
      congr 1; omega
    · rename_i hi
      simp only [bitsOf_length] at hi ⊢
      have hlt : ¬ (t - 1 - i ≥ t - b) := by omega
      simp [hlt]

theorem and_mask_lt (a t : Nat) : a &&& ((1 <<< t) - 1) < 2 ^ t := by
  rw [Nat.one_shiftLeft]
  exact lt_of_le_of_lt Nat.and_le_right (by have := Nat.two_pow_pos t; omega)

/-- inner loop: the emitted words carry exactly the bits taken off the accumulator -/
theorem cbInner_spec (t acc : Nat) (ht : 0 < t) : ∀ (fuel bits : Nat) (ret : List Nat), bits ≤ fuel →
    ∃ out, cbInner t acc fuel bits ret = (bits % t, ret ++ out) ∧
      (∀ x ∈ out, x < 2 ^ t) ∧ bitString t out ++ bitsOf (bits % t) acc = bitsOf bits acc := by
  intro fuel
  induction fuel with
  | zero =>
    intro bits ret h
    have : bits = 0 := by omega
    subst this
    exact ⟨[], by simp [cbInner], by simp, by simp⟩
  | succ fuel ih =>
    intro bits ret h
    unfold cbInner
    split
    · rename_i hge
      obtain ⟨out, h1, h2, h3⟩ := ih (bits - t)
        (ret ++ [(acc >>> (bits - t)) &&& ((1 <<< t) - 1)]) (by omega)
      have hm : (bits - t) % t = bits % t := by rw [Nat.mod_eq_sub_mod hge]
      rw [hm] at h1 h3
      refine ⟨((acc >>> (bits - t)) &&& ((1 <<< t) - 1)) :: out, ?_, ?_, ?_⟩
      · rw [h1]; simp
      · intro x hx
        rcases List.mem_cons.mp hx with rfl | hx
        · exact and_mask_lt _ _
        · exact h2 x hx
      · rw [bitString_cons, List.append_assoc, h3, bitsOf_and_mask _ _ _ (Nat.le_refl t)]
        exact (bitsOf_split bits t acc hge).symm
    · rename_i hlt
      have : bits % t = bits := Nat.mod_eq_of_lt (by omega)
      exact ⟨[], by simp [this], by simp, by simp [this]⟩

theorem shiftRight_eq_zero_iff (v f : Nat) : v >>> f = 0 ↔ v < 2 ^ f := by
  rw [Nat.shiftRight_eq_div_pow]
  exact Nat.div_eq_zero_iff_lt (Nat.two_pow_pos f)

/-- outer loop: emitted words followed by the pending bits are the consumed bits -/
theorem cbLoop_spec (f t : Nat) (ht : 0 < t) : ∀ (data : List Nat) (acc bits : Nat) (ret : List Nat),
    bits < t → (∀ x ∈ data, x < 2 ^ f) →
    ∃ acc' bits' out, cbLoop f t data acc bits ret = some (acc', bits', ret ++ out) ∧ bits' < t ∧
      (∀ x ∈ out, x < 2 ^ t) ∧
      bitString t out ++ bitsOf bits' acc' = bitsOf bits acc ++ bitString f data := by
  intro data
  induction data with
  | nil => intro acc bits ret hb _; exact ⟨acc, bits, [], by simp [cbLoop], hb, by simp, by simp⟩
  | cons v data ih =>
    intro acc bits ret hb hd
    have hv : v < 2 ^ f := hd v (by simp)
    have hv0 : v >>> f = 0 := (shiftRight_eq_zero_iff v f).mpr hv
    simp only [cbLoop, hv0, ne_eq, not_true, if_false]
    set a := ((acc <<< f) ||| v) &&& ((1 <<< (f + t - 1)) - 1) with ha
    obtain ⟨out, h1, h2, h3⟩ := cbInner_spec t a ht (bits + f) (bits + f) ret (Nat.le_refl _)
    obtain ⟨acc', bits', out', g1, g2, g3, g4⟩ := ih a ((bits + f) % t) (ret ++ out)
      (Nat.mod_lt _ ht) (fun x hx => hd x (by simp [hx]))
    rw [h1]
    refine ⟨acc', bits', out ++ out', by rw [g1]; simp, g2, ?_, ?_⟩
    · intro x hx
      rcases List.mem_append.mp hx with h | h
      · exact h2 x h
      · exact g3 x h
    · rw [bitString_append, List.append_assoc, g4, ← List.append_assoc, h3, bitString_cons,
        ← List.append_assoc, ← bitsOf_shift_or _ _ _ _ hv, ha, bitsOf_and_mask _ _ _ (by omega)]

theorem cbLoop_none (f t : Nat) : ∀ (data : List Nat) (acc bits : Nat) (ret : List Nat),
    (∃ x ∈ data, 2 ^ f ≤ x) → cbLoop f t data acc bits ret = none := by
  intro data
  induction data with
  | nil => intro _ _ _ ⟨x, hx, _⟩; cases hx
  | cons v data ih =>
    intro acc bits ret ⟨x, hx, hle⟩
    unfold cbLoop
    by_cases hv : v < 2 ^ f
    · have hv0 : v >>> f = 0 := (shiftRight_eq_zero_iff v f).mpr hv
      simp only [hv0, ne_eq, not_true, if_false]
      apply ih
      rcases List.mem_cons.mp hx with rfl | hx
      · omega
      · exact ⟨x, hx, hle⟩
    · have : v >>> f ≠ 0 := fun h => hv ((shiftRight_eq_zero_iff v f).mp h)
      simp [this]

theorem bitsOf_zero (w : Nat) : bitsOf w 0 = List.replicate w false := by
  apply List.ext_getElem
  · simp
  · intro i h1 h2; rw [bitsOf_getElem]; simp

/-- With padding: succeeds exactly on words that fit; the result has the bits of the input
followed by fewer than `t` zero bits. -/
theorem convertbits_pad (f t : Nat) (ht : 0 < t) (data : List Nat) (hd : ∀ x ∈ data, x < 2 ^ f) :
    ∃ r k, convertbits data f t true = some r ∧ (∀ x ∈ r, x < 2 ^ t) ∧ k < t ∧
      bitString t r = bitString f data ++ List.replicate k false := by
  obtain ⟨acc, bits, out, h1, h2, h3, h4⟩ := cbLoop_spec f t ht data 0 0 [] ht hd
  unfold convertbits
  rw [h1]
  simp only [List.nil_append, bitsOf_zero_width] at h4 ⊢
  by_cases hb : bits = 0
  · subst hb
    refine ⟨out, 0, by simp, h3, ht, ?_⟩
    simpa [bitsOf_zero_width] using h4
  · refine ⟨out ++ [(acc <<< (t - bits)) &&& ((1 <<< t) - 1)], t - bits, by simp [hb], ?_, by omega, ?_⟩
    · intro x hx
      rcases List.mem_append.mp hx with h | h
      · exact h3 x h
      · simp only [List.mem_singleton] at h; subst h; exact and_mask_lt _ _
    · rw [bitString_append, bitString_cons, bitString_nil, List.append_nil,
        bitsOf_shift_mask _ _ _ (by omega), ← List.append_assoc, h4]

/-- Without padding: the result, if any, has the bits of the input up to fewer than
`f` (and fewer than `t`) trailing zero bits; and every such list is the result. -/
theorem convertbits_strict_iff (f t : Nat) (ht : 0 < t) (data r : List Nat) :
    convertbits data f t false = some r ↔
      (∀ x ∈ data, x < 2 ^ f) ∧ (∀ x ∈ r, x < 2 ^ t) ∧
      ∃ k, k < f ∧ k < t ∧ bitString f data = bitString t r ++ List.replicate k false := by
  by_cases hd : ∀ x ∈ data, x < 2 ^ f
  · obtain ⟨acc, bits, out, h1, h2, h3, h4⟩ := cbLoop_spec f t ht data 0 0 [] ht hd
    simp only [bitsOf_zero_width, List.nil_append] at h1 h4
    have hkey : ((acc <<< (t - bits)) &&& ((1 <<< t) - 1)) = 0 ↔
        bitsOf bits acc = List.replicate bits false := by
      have hs := bitsOf_shift_mask bits t acc (by omega)
      constructor
      · intro h
        rw [h, bitsOf_zero] at hs
        have : List.replicate t false = List.replicate bits false ++ List.replicate (t - bits) false := by
          rw [List.replicate_append_replicate]; congr 1; omega
        rw [this] at hs
        exact (List.append_inj_left' hs rfl).symm
      · intro h
        rw [h, List.replicate_append_replicate, show bits + (t - bits) = t by omega, ← bitsOf_zero t] at hs
        exact bitsOf_inj (and_mask_lt _ _) (Nat.two_pow_pos t) hs
    unfold convertbits
    rw [h1]
    simp only [Bool.false_eq_true, if_false]
    constructor
    · intro h
      split at h
      · cases h
      · rename_i hc
        injection h with h
        subst h
        simp only [ge_iff_le, Bool.or_eq_true, decide_eq_true_eq, not_or, not_le, ne_eq,
          decide_not, Bool.not_eq_true', decide_eq_false_iff_not, Decidable.not_not] at hc
        exact ⟨hd, h3, bits, hc.1, h2, by rw [← h4, hkey.mp hc.2]⟩
    · rintro ⟨_, hr, k, hkf, hkt, he⟩
      rw [← h4] at he
      -- lengths determine everything
      have hl := congrArg List.length he
      simp only [List.length_append, bitString_length, bitsOf_length, List.length_replicate] at hl
      have hk : bits = k ∧ out.length = r.length := by
        have e1 : (t * out.length + bits) % t = bits := by
          rw [Nat.mul_add_mod, Nat.mod_eq_of_lt h2]
        have e2 : (t * r.length + k) % t = k := by
          rw [Nat.mul_add_mod, Nat.mod_eq_of_lt hkt]
        have hbk : bits = k := by rw [← e1, hl, e2]
        refine ⟨hbk, ?_⟩
        have : t * out.length = t * r.length := by omega
        exact Nat.eq_of_mul_eq_mul_left ht this
      obtain ⟨rfl, hlen⟩ := hk
      have hsplit := List.append_inj he (by simp [hlen])
      have hout := bitString_inj ht h3 hr hsplit.1
      subst hout
      have hz := hkey.mpr hsplit.2
      rw [hz]
      simp [hkf]
  · have hex : ∃ x ∈ data, 2 ^ f ≤ x := by
      by_contra hc
      exact hd fun x hx => by
        by_contra hlt
        exact hc ⟨x, hx, by omega⟩
    unfold convertbits
    rw [cbLoop_none f t data 0 0 [] hex]
    simp [hd]

end Bit
