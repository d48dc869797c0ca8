import Verif.Model.Base58
import Verif.Spec.Base58
import Verif.Lemmas.Bytes
import Mathlib.Data.List.Induction
/-
Lemmas about Base58.
-/
namespace Bit

/-! ### the alphabet -/

theorem b58Char_lt {n : Nat} (h : n < 58) : b58Index (b58Char n) = some n := by
  have : ∀ n : Fin 58, b58Index (b58Char n.val) = some n.val := by decide +kernel
  exact this ⟨n, h⟩

theorem b58Char_mod (n : Nat) : b58Char (n % 58) = b58Char n := by
  simp [b58Char]

theorem b58Index_b58Char (n : Nat) : b58Index (b58Char n) = some (n % 58) := by
  rw [← b58Char_mod]; exact b58Char_lt (Nat.mod_lt _ (by norm_num))

theorem b58Index_some {c : Char} {i : Nat} (h : b58Index c = some i) : i < 58 ∧ b58Char i = c := by
  have hi : ∃ hl : i < b58Alphabet.length, b58Alphabet[i] = c := by
    unfold b58Index at h
    rw [List.idxOf?_eq_some_iff] at h
    obtain ⟨hl, he, _⟩ := h
    exact ⟨hl, by simpa using he⟩
  obtain ⟨hl, he⟩ := hi
  have hl' : i < 58 := hl
  refine ⟨hl', ?_⟩
  simp only [b58Char, Nat.mod_eq_of_lt hl']
  exact he

theorem b58Index_one : b58Index '1' = some 0 := by decide

theorem b58Index_eq_zero {c : Char} (h : b58Index c = some 0) : c = '1' := by
  have := (b58Index_some h).2
  rw [← this]; decide

theorem b58Char_eq_one {n : Nat} (h : n < 58) : b58Char n = '1' ↔ n = 0 := by
  constructor
  · intro hc
    have := b58Char_lt h
    rw [hc, b58Index_one] at this
    injection this with this; exact this.symm
  · rintro rfl; decide

/-! ### accumulation -/

theorem b58Num_append (s t : Str) (n : Nat) :
    b58Num n (s ++ t) = match b58Num n s with | .ok m => b58Num m t | .error e => .error e := by
  induction s generalizing n with
  | nil => simp [b58Num]
  | cons c cs ih =>
    simp only [List.cons_append, b58Num]
    cases b58Index c with
    | none => rfl
    | some i => exact ih _

theorem b58Num_ok_iff (s : Str) (n : Nat) :
    (∃ v, b58Num n s = .ok v) ↔ ∀ c ∈ s, (b58Index c).isSome := by
  induction s generalizing n with
  | nil => simp [b58Num]
  | cons c cs ih =>
    simp only [b58Num, List.forall_mem_cons]
    cases hc : b58Index c with
    | none => simp
    | some i => simp [ih]

theorem b58Num_err {s : Str} {n : Nat} {e : PyErr} (h : b58Num n s = .error e) : e = .valueError := by
  induction s generalizing n with
  | nil => simp [b58Num] at h
  | cons c cs ih =>
    simp only [b58Num] at h
    cases hc : b58Index c with
    | none => rw [hc] at h; cases h; rfl
    | some i => rw [hc] at h; exact ih h

theorem b58Num_shift {s : Str} {v : Nat} (n : Nat) (h : b58Num 0 s = .ok v) :
    b58Num n s = .ok (n * 58 ^ s.length + v) := by
  induction s generalizing n v with
  | nil => simp [b58Num] at h ⊢; exact h.symm
  | cons c cs ih =>
    simp only [b58Num] at h ⊢
    cases hc : b58Index c with
    | none => rw [hc] at h; cases h
    | some i =>
      rw [hc] at h
      simp only at h ⊢
      have hok : ∃ v', b58Num 0 cs = .ok v' := by
        rw [b58Num_ok_iff]; exact (b58Num_ok_iff cs _).mp ⟨_, h⟩
      obtain ⟨v', hv'⟩ := hok
      have e1 := ih (0 * 58 + i) hv'
      have e2 := ih (n * 58 + i) hv'
      rw [h] at e1
      injection e1 with e1
      rw [e2, e1]
      congr 1
      simp only [List.length_cons, pow_succ]
      ring

theorem b58Num_replicate_one (k n : Nat) : b58Num n (List.replicate k '1') = .ok (n * 58 ^ k) := by
  induction k generalizing n with
  | zero => simp [b58Num]
  | succ k ih =>
    simp only [List.replicate_succ, b58Num, b58Index_one]
    rw [ih, pow_succ]; congr 1; ring

theorem b58Num_lt {s : Str} {v : Nat} (h : b58Num 0 s = .ok v) : v < 58 ^ s.length := by
  induction s generalizing v with
  | nil => simp [b58Num] at h; subst h; simp
  | cons c cs ih =>
    simp only [b58Num] at h
    cases hc : b58Index c with
    | none => rw [hc] at h; cases h
    | some i =>
      rw [hc] at h
      simp only at h
      have hok : ∃ v', b58Num 0 cs = .ok v' := by
        rw [b58Num_ok_iff]; exact (b58Num_ok_iff cs _).mp ⟨_, h⟩
      obtain ⟨v', hv'⟩ := hok
      have e1 := b58Num_shift (0 * 58 + i) hv'
      rw [h] at e1; injection e1 with e1
      have := ih hv'
      have hi := (b58Index_some hc).1
      rw [e1, List.length_cons, pow_succ]
      have : (0 * 58 + i) * 58 ^ cs.length ≤ 57 * 58 ^ cs.length := Nat.mul_le_mul_right _ (by omega)
      omega

/-! ### the digit loop -/

theorem b58Loop_acc (fuel n : Nat) (acc : Str) :
    b58Loop fuel n acc = b58Loop fuel n [] ++ acc := by
  induction fuel generalizing n acc with
  | zero => simp [b58Loop]
  | succ f ih =>
    simp only [b58Loop]
    split
    · simp
    · rw [ih (n / 58) (b58Char n :: acc), ih (n / 58) [b58Char n]]; simp

/-- With enough fuel the loop does not depend on the fuel. -/
theorem b58Loop_fuel {f g n : Nat} (hf : n ≤ f) (hg : n ≤ g) (acc : Str) :
    b58Loop f n acc = b58Loop g n acc := by
  induction f generalizing g n acc with
  | zero =>
    have : n = 0 := by omega
    subst this
    cases g <;> simp [b58Loop]
  | succ f ih =>
    cases g with
    | zero =>
      have : n = 0 := by omega
      subst this
      simp [b58Loop]
    | succ g =>
      simp only [b58Loop]
      split
      · rfl
      · exact ih (by omega) (by omega) _

/-- The base-58 digits of `n`. -/
def b58Digits (n : Nat) : Str := b58Loop n n []

theorem b58Digits_zero : b58Digits 0 = [] := rfl

theorem b58Digits_succ {n : Nat} (h : n ≠ 0) :
    b58Digits n = b58Digits (n / 58) ++ [b58Char n] := by
  unfold b58Digits
  obtain ⟨m, rfl⟩ : ∃ m, n = m + 1 := ⟨n - 1, by omega⟩
  conv_lhs => rw [b58Loop]
  rw [if_neg h, b58Loop_acc]
  congr 1
  exact b58Loop_fuel (by omega) (le_refl _) _

theorem b58Num_digits (n : Nat) : b58Num 0 (b58Digits n) = .ok n := by
  induction n using Nat.strongRecOn with
  | _ n ih =>
    by_cases h : n = 0
    · subst h; rfl
    · rw [b58Digits_succ h, b58Num_append, ih (n / 58) (by omega)]
      simp only [b58Num, b58Index_b58Char]
      congr 1; omega

theorem b58Digits_head {n : Nat} (h : n ≠ 0) : ∃ c cs, b58Digits n = c :: cs ∧ c ≠ '1' := by
  induction n using Nat.strongRecOn with
  | _ n ih =>
    rw [b58Digits_succ h]
    by_cases h' : n / 58 = 0
    · refine ⟨b58Char n, [], by rw [h', b58Digits_zero]; rfl, ?_⟩
      rw [Ne, b58Char_eq_one (by omega)]; exact h
    · obtain ⟨c, cs, he, hc⟩ := ih (n / 58) (by omega) h'
      exact ⟨c, cs ++ [b58Char n], by rw [he]; rfl, hc⟩

/-- Uniqueness of base-58 representations without leading `1`. -/
theorem b58Digits_num {c : Char} {cs : Str} {v : Nat} (hc : c ≠ '1')
    (h : b58Num 0 (c :: cs) = .ok v) : b58Digits v = c :: cs := by
  induction cs using List.reverseRecOn generalizing v with
  | nil =>
    simp only [b58Num] at h
    cases hi : b58Index c with
    | none => rw [hi] at h; cases h
    | some i =>
      rw [hi] at h; injection h with h
      have ⟨hlt, hch⟩ := b58Index_some hi
      have hv : v = i := by omega
      subst hv
      have hv0 : v ≠ 0 := by
        rintro rfl; exact hc (b58Index_eq_zero hi)
      rw [b58Digits_succ hv0, show v / 58 = 0 by omega, b58Digits_zero, hch]; rfl
  | append_singleton cs d ih =>
    rw [← List.cons_append, b58Num_append] at h
    cases hm : b58Num 0 (c :: cs) with
    | error e => rw [hm] at h; cases h
    | ok m =>
      rw [hm] at h
      simp only [b58Num] at h
      cases hi : b58Index d with
      | none => rw [hi] at h; cases h
      | some i =>
        rw [hi] at h; injection h with h
        have ⟨hlt, hch⟩ := b58Index_some hi
        have hm' := ih hm
        have hm0 : m ≠ 0 := by
          rintro rfl; rw [b58Digits_zero] at hm'; cases hm'
        have hv0 : v ≠ 0 := by omega
        rw [b58Digits_succ hv0, show v / 58 = m by omega, hm', ← b58Char_mod v,
          show v % 58 = i by omega, hch]; rfl

/-! ### leading elements -/

theorem countLeading_replicate_append {α : Type} [DecidableEq α] (x : α) (k : Nat) (l : List α) :
    countLeading x (List.replicate k x ++ l) = k + countLeading x l := by
  induction k with
  | zero => simp
  | succ k ih => simp only [List.replicate_succ, List.cons_append, countLeading, if_true, ih]; omega

theorem countLeading_cons_ne {α : Type} [DecidableEq α] {x y : α} (l : List α) (h : y ≠ x) :
    countLeading x (y :: l) = 0 := by simp [countLeading, h]

/-- Every list is a run of `x` followed by something that does not start with `x`. -/
theorem split_leading {α : Type} [DecidableEq α] (x : α) (l : List α) :
    l = List.replicate (countLeading x l) x ∨
    ∃ y ys, y ≠ x ∧ l = List.replicate (countLeading x l) x ++ y :: ys := by
  induction l with
  | nil => left; rfl
  | cons y ys ih =>
    by_cases h : y = x
    · subst h
      simp only [countLeading, if_true, List.replicate_succ, List.cons_append]
      rcases ih with ih | ⟨z, zs, hz, ih⟩
      · left; congr 1
      · right; exact ⟨z, zs, hz, by congr 1⟩
    · right; exact ⟨y, ys, h, by simp [countLeading, h]⟩

theorem exists_ne_of_split {α : Type} [DecidableEq α] {x : α} {l : List α}
    (h : ∃ y ∈ l, y ≠ x) :
    ∃ y ys, y ≠ x ∧ l = List.replicate (countLeading x l) x ++ y :: ys := by
  rcases split_leading x l with h' | h'
  · obtain ⟨y, hy, hne⟩ := h
    rw [h'] at hy
    exact absurd (List.eq_of_mem_replicate hy) hne
  · exact h'

/-! ### encode and decode -/

theorem b58encode_eq (k : Nat) (x : UInt8) (b : Bytes) (hx : x ≠ 0) :
    b58encode (List.replicate k 0 ++ x :: b)
      = List.replicate k '1' ++ b58Digits (beNat (x :: b)) := by
  unfold b58encode
  rw [countLeading_replicate_append, countLeading_cons_ne _ hx, beNat_zeros_append]
  rfl

theorem beNat_cons_ne_zero {x : UInt8} (b : Bytes) (hx : x ≠ 0) : beNat (x :: b) ≠ 0 := by
  have hx0 : x.toNat ≠ 0 := fun h => hx (u8_toNat_inj (by simpa using h))
  rw [beNat_cons]
  have : 0 < x.toNat * 256 ^ b.length := Nat.mul_pos (Nat.pos_of_ne_zero hx0) (by positivity)
  omega

theorem b58decode_encode_ne (k : Nat) (x : UInt8) (b : Bytes) (hx : x ≠ 0) :
    b58decode (b58encode (List.replicate k 0 ++ x :: b)) = .ok (List.replicate k 0 ++ x :: b) := by
  rw [b58encode_eq k x b hx]
  obtain ⟨c, cs, he, hc⟩ := b58Digits_head (beNat_cons_ne_zero b hx)
  unfold b58decode
  rw [b58Num_append, b58Num_replicate_one]
  simp only [Nat.zero_mul]
  rw [b58Num_digits, he, countLeading_replicate_append, countLeading_cons_ne _ hc]
  simp only [Nat.add_zero]
  rw [intToUnknownBytes_beNat hx]

theorem b58encode_zeros (k : Nat) : b58encode (List.replicate k 0) = List.replicate k '1' := by
  unfold b58encode
  have h1 : countLeading (0 : UInt8) (List.replicate k 0) = k := by
    have := countLeading_replicate_append (0 : UInt8) k []
    simpa [countLeading] using this
  have h2 : beNat (List.replicate k 0) = 0 := by
    have := beNat_zeros_append k []
    simpa [beNat, leNat] using this
  rw [h1, h2]; simp [b58Loop]

theorem intToUnknownBytes_zero : intToUnknownBytes 0 = [0] := by decide

theorem b58decode_ones (k : Nat) :
    b58decode (List.replicate k '1') = .ok (List.replicate (k + 1) 0) := by
  unfold b58decode
  rw [b58Num_replicate_one]
  have h1 : countLeading '1' (List.replicate k '1') = k := by
    have := countLeading_replicate_append '1' k []
    simpa [countLeading] using this
  rw [h1]
  simp [intToUnknownBytes_zero, List.replicate_succ']

theorem intToUnknownBytes_head {n : Nat} (h : n ≠ 0) :
    ∃ x b, x ≠ 0 ∧ intToUnknownBytes n = x :: b := by
  cases hb : intToUnknownBytes n with
  | nil =>
    have := intToUnknownBytes_length n
    rw [hb] at this
    have := unkLen_pos n
    simp at *; omega
  | cons x b =>
    refine ⟨x, b, ?_, rfl⟩
    rintro rfl
    have h1 := beNat_intToUnknownBytes n
    have h2 := intToUnknownBytes_length n
    rw [hb] at h1 h2
    rw [beNat_cons] at h1
    have h3 := beNat_lt b
    have h4 := unkLen_le h
    rw [← h2] at h4
    simp at h1 h4
    omega

theorem b58encode_decode_ne {s : Str} {b : Bytes} (h : b58decode s = .ok b)
    (hs : ∃ c ∈ s, c ≠ '1') : b58encode b = s := by
  obtain ⟨c, cs, hc, he⟩ := exists_ne_of_split hs
  generalize hk : countLeading '1' s = k at he
  unfold b58decode at h
  cases hn : b58Num 0 s with
  | error e => rw [hn] at h; cases h
  | ok v =>
    rw [hn] at h
    injection h with h
    rw [hk] at h
    rw [he, b58Num_append, b58Num_replicate_one] at hn
    simp only [Nat.zero_mul] at hn
    have hd := b58Digits_num hc hn
    have hv : v ≠ 0 := by rintro rfl; rw [b58Digits_zero] at hd; cases hd
    obtain ⟨x, xs, hx, hxe⟩ := intToUnknownBytes_head hv
    rw [hxe] at h
    rw [← h, b58encode_eq k x xs hx, ← hxe, beNat_intToUnknownBytes, hd, he]

/-! ### connection with the specification -/

theorem base58Digit_eq (c : Char) : Spec.base58Digit c = b58Index c := by
  have hsmall : ∀ n : Fin 128, Spec.base58Digit (Char.ofNat n.val) = b58Index (Char.ofNat n.val) := by
    decide +kernel
  by_cases h : c.toNat < 128
  · have := hsmall ⟨c.toNat, h⟩
    simpa using this
  · have hge : 128 ≤ c.toNat := by omega
    have h1 : b58Index c = none := by
      cases hi : b58Index c with
      | none => rfl
      | some i =>
        have ⟨hl, he⟩ := b58Index_some hi
        exfalso
        have : ∀ n : Fin 58, (b58Char n.val).toNat < 128 := by decide +kernel
        have := this ⟨i, hl⟩
        rw [he] at this; omega
    rw [h1]
    have hle : ∀ d : Char, d.toNat < 128 → ¬ (c ≤ d) := by
      intro d hd hcd
      have : c.toNat ≤ d.toNat := hcd
      omega
    unfold Spec.base58Digit
    simp only [hle '9' (by decide), hle 'H' (by decide), hle 'N' (by decide), hle 'Z' (by decide),
      hle 'k' (by decide), hle 'z' (by decide), and_false, if_false]

theorem base58Value_eq (s : Str) : Spec.base58Value s = (b58Num 0 s).toOption := by
  induction s with
  | nil => rfl
  | cons c cs ih =>
    simp only [Spec.base58Value, b58Num, base58Digit_eq, ih]
    cases hc : b58Index c with
    | none => rfl
    | some i =>
      cases hv : b58Num 0 cs with
      | ok v =>
        simp only [b58Num_shift _ hv]
        simp [Except.toOption]
      | error e =>
        have : ∀ n, ∃ e, b58Num n cs = .error e := by
          intro n
          cases hn : b58Num n cs with
          | error e => exact ⟨e, rfl⟩
          | ok w =>
            have := (b58Num_ok_iff cs 0).mpr ((b58Num_ok_iff cs n).mp ⟨w, hn⟩)
            obtain ⟨w', hw'⟩ := this
            rw [hw'] at hv; cases hv
        obtain ⟨e', he'⟩ := this (0 * 58 + i)
        simp only [he', Except.toOption]
        rfl

theorem bytesValue_eq (b : Bytes) : Spec.bytesValue b = beNat b := by
  induction b with
  | nil => rfl
  | cons x xs ih => rw [Spec.bytesValue, ih, beNat_cons]

/-! ### lengths -/

/-- The number of Base58 characters is determined by the magnitude. -/
theorem b58Digits_length {n k : Nat} (h1 : 58 ^ k ≤ n) (h2 : n < 58 ^ (k + 1)) :
    (b58Digits n).length = k + 1 := by
  induction k generalizing n with
  | zero =>
    have hn : n ≠ 0 := by simp at h1; omega
    rw [b58Digits_succ hn, show n / 58 = 0 by simp at h2; omega]; rfl
  | succ k ih =>
    have hp : 0 < 58 ^ k := by positivity
    have hn : n ≠ 0 := by rw [pow_succ] at h1; omega
    rw [b58Digits_succ hn, List.length_append,
      ih (by rw [pow_succ] at h1; omega) (by rw [pow_succ] at h2; omega)]
    rfl

end Bit
