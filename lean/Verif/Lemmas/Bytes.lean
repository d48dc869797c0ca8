import Verif.Model.Utils
import Mathlib.Tactic.Ring
import Mathlib.Tactic.Linarith
import Mathlib.Tactic.NormNum
/-
Arithmetic of byte strings: `leNat`, `beNat`, `leBytes`, `intToUnknownBytes`.
-/
namespace Bit

theorem u8_lt (b : UInt8) : b.toNat < 256 := b.toNat_lt

theorem u8_ofNat_toNat (n : Nat) (h : n < 256) : (UInt8.ofNat n).toNat = n := by
  rw [UInt8.toNat_ofNat']; exact Nat.mod_eq_of_lt h

theorem u8_toNat_ofNat (b : UInt8) : UInt8.ofNat b.toNat = b := UInt8.ofNat_toNat

theorem u8_toNat_inj {a b : UInt8} (h : a.toNat = b.toNat) : a = b := UInt8.toNat_inj.mp h

@[simp] theorem leBytes_length (len n : Nat) : (leBytes len n).length = len := by
  induction len generalizing n with
  | zero => rfl
  | succ k ih => simp [leBytes, ih]

theorem leNat_lt (b : Bytes) : leNat b < 256 ^ b.length := by
  induction b with
  | nil => simp [leNat]
  | cons x xs ih =>
    have := u8_lt x
    simp only [leNat, List.length_cons, pow_succ]
    omega

theorem leNat_leBytes (len n : Nat) : leNat (leBytes len n) = n % 256 ^ len := by
  induction len generalizing n with
  | zero => simp [leBytes, leNat, Nat.mod_one]
  | succ k ih =>
    simp only [leBytes, leNat, ih]
    rw [u8_ofNat_toNat _ (Nat.mod_lt _ (by norm_num)), pow_succ, Nat.mul_comm (256 ^ k) 256,
      Nat.mod_mul]

theorem leNat_leBytes_of_lt {len n : Nat} (h : n < 256 ^ len) : leNat (leBytes len n) = n := by
  rw [leNat_leBytes, Nat.mod_eq_of_lt h]

theorem leBytes_leNat (b : Bytes) : leBytes b.length (leNat b) = b := by
  induction b with
  | nil => rfl
  | cons x xs ih =>
    have hx := u8_lt x
    simp only [List.length_cons, leBytes, leNat]
    have h1 : (x.toNat + 256 * leNat xs) % 256 = x.toNat := by omega
    have h2 : (x.toNat + 256 * leNat xs) / 256 = leNat xs := by omega
    rw [h1, h2, ih, u8_toNat_ofNat]

theorem leNat_append (a b : Bytes) : leNat (a ++ b) = leNat a + 256 ^ a.length * leNat b := by
  induction a with
  | nil => simp [leNat]
  | cons x xs ih => simp only [List.cons_append, leNat, ih, List.length_cons, pow_succ]; ring

theorem leNat_inj {a b : Bytes} (hl : a.length = b.length) (h : leNat a = leNat b) : a = b := by
  rw [← leBytes_leNat a, ← leBytes_leNat b, hl, h]

theorem leNat_replicate_zero (k : Nat) : leNat (List.replicate k 0) = 0 := by
  induction k with
  | zero => rfl
  | succ k ih => simp [List.replicate_succ, leNat, ih]

theorem beNat_lt (b : Bytes) : beNat b < 256 ^ b.length := by
  have := leNat_lt b.reverse; simpa [beNat] using this

theorem beNat_append (a b : Bytes) : beNat (a ++ b) = beNat a * 256 ^ b.length + beNat b := by
  simp only [beNat, List.reverse_append, leNat_append, List.length_reverse]; ring

theorem beNat_cons (x : UInt8) (b : Bytes) :
    beNat (x :: b) = x.toNat * 256 ^ b.length + beNat b := by
  have := beNat_append [x] b
  simpa [beNat, leNat] using this

theorem beNat_inj {a b : Bytes} (hl : a.length = b.length) (h : beNat a = beNat b) : a = b := by
  have := leNat_inj (a := a.reverse) (b := b.reverse) (by simpa using hl) h
  simpa using congrArg List.reverse this

theorem beNat_reverse (b : Bytes) : beNat b.reverse = leNat b := by simp [beNat]

theorem beNat_zeros_append (k : Nat) (b : Bytes) : beNat (List.replicate k 0 ++ b) = beNat b := by
  rw [beNat_append]; simp [beNat, leNat_replicate_zero]

/-! ### bit_length and int_to_unknown_bytes -/

theorem lt_two_pow_bitLength (n : Nat) : n < 2 ^ bitLength n := by
  unfold bitLength; split
  · subst_vars; simp
  · rename_i h; exact Nat.lt_log2_self

theorem two_pow_le_of_bitLength {n : Nat} (h : n ≠ 0) : 2 ^ (bitLength n - 1) ≤ n := by
  simp only [bitLength, h, if_false, Nat.add_sub_cancel]
  exact Nat.log2_self_le h

theorem bitLength_pos {n : Nat} (h : n ≠ 0) : 0 < bitLength n := by simp [bitLength, h]

/-- Number of bytes of `int_to_unknown_bytes`. -/
def unkLen (n : Nat) : Nat := if (bitLength n + 7) / 8 = 0 then 1 else (bitLength n + 7) / 8

theorem intToUnknownBytes_length (n : Nat) : (intToUnknownBytes n).length = unkLen n := by
  simp [intToUnknownBytes, unkLen]

theorem lt_unkLen (n : Nat) : n < 256 ^ unkLen n := by
  have h := lt_two_pow_bitLength n
  have h2 : 256 ^ unkLen n = 2 ^ (8 * unkLen n) := by
    rw [show (256 : Nat) = 2 ^ 8 by norm_num, ← pow_mul]
  rw [h2]
  refine lt_of_lt_of_le h (Nat.pow_le_pow_right (by norm_num) ?_)
  unfold unkLen; split <;> omega

theorem unkLen_le {n : Nat} (h : n ≠ 0) : 256 ^ (unkLen n - 1) ≤ n := by
  have h1 := two_pow_le_of_bitLength h
  have h2 := bitLength_pos h
  have h3 : 256 ^ (unkLen n - 1) = 2 ^ (8 * (unkLen n - 1)) := by
    rw [show (256 : Nat) = 2 ^ 8 by norm_num, ← pow_mul]
  rw [h3]
  refine le_trans (Nat.pow_le_pow_right (by norm_num) ?_) h1
  unfold unkLen; split <;> omega

theorem unkLen_pos (n : Nat) : 0 < unkLen n := by unfold unkLen; split <;> omega

theorem beNat_intToUnknownBytes (n : Nat) : beNat (intToUnknownBytes n) = n := by
  have : intToUnknownBytes n = (leBytes (unkLen n) n).reverse := rfl
  rw [this, beNat_reverse, leNat_leBytes_of_lt (lt_unkLen n)]

/-- the number of bytes is determined by magnitude -/
theorem unkLen_eq {n k : Nat} (h1 : 256 ^ k ≤ n) (h2 : n < 256 ^ (k + 1)) : unkLen n = k + 1 := by
  have hn : n ≠ 0 := by have := Nat.pos_of_ne_zero (n := 256 ^ k) (by positivity); omega
  have a := lt_unkLen n
  have b := unkLen_le hn
  have c := unkLen_pos n
  have h3 : k < unkLen n := by
    by_contra h
    exact absurd (lt_of_lt_of_le a (Nat.pow_le_pow_right (by norm_num) (Nat.le_of_not_lt h))) (by omega)
  have h4 : unkLen n - 1 < k + 1 := by
    by_contra h
    exact absurd (le_trans (Nat.pow_le_pow_right (by norm_num) (Nat.le_of_not_lt h)) b) (by omega)
  omega

theorem unkLen_zero : unkLen 0 = 1 := by decide

theorem intToUnknownBytes_lt256 {n : Nat} (h : n < 256) : intToUnknownBytes n = [UInt8.ofNat n] := by
  have hl : (intToUnknownBytes n).length = 1 := by
    rw [intToUnknownBytes_length]
    rcases Nat.eq_zero_or_pos n with rfl | hn
    · exact unkLen_zero
    · exact unkLen_eq (k := 0) (by simp; omega) (by simpa using h)
  apply beNat_inj
  · simpa using hl
  · rw [beNat_intToUnknownBytes]; simp [beNat, leNat, u8_ofNat_toNat n h]

/-- A byte string without leading zero byte is its own minimal representation. -/
theorem intToUnknownBytes_beNat {x : UInt8} {b : Bytes} (hx : x ≠ 0) :
    intToUnknownBytes (beNat (x :: b)) = x :: b := by
  have hx0 : 0 < x.toNat := by
    rcases Nat.eq_zero_or_pos x.toNat with h | h
    · exact absurd (u8_toNat_inj (a := x) (b := 0) (by simpa using h)) hx
    · exact h
  apply beNat_inj
  · rw [intToUnknownBytes_length, List.length_cons]
    apply unkLen_eq
    · rw [beNat_cons]
      calc 256 ^ b.length = 1 * 256 ^ b.length := by ring
        _ ≤ x.toNat * 256 ^ b.length := Nat.mul_le_mul_right _ hx0
        _ ≤ _ := Nat.le_add_right _ _
    · exact beNat_lt (x :: b)
  · exact beNat_intToUnknownBytes _

theorem toBytesLE_ok {n len : Nat} (h : n < 256 ^ len) :
    toBytesLE (n : Int) len = .ok (leBytes len n) := by
  have : ((n : Int) < ((256 ^ len : Nat) : Int)) := by exact_mod_cast h
  simp only [toBytesLE, this, and_true, Int.natCast_nonneg, if_true, Int.toNat_natCast]

theorem toBytesLE_overflow {n : Int} {len : Nat} (h : n < 0 ∨ ((256 ^ len : Nat) : Int) ≤ n) :
    toBytesLE n len = .error .overflowError := by
  have : ¬ (0 ≤ n ∧ n < ((256 ^ len : Nat) : Int)) := by omega
  simp only [toBytesLE, this, if_false]

theorem toBytesLE_eq_ok {n : Int} {len : Nat} {b : Bytes} (h : toBytesLE n len = .ok b) :
    0 ≤ n ∧ n < ((256 ^ len : Nat) : Int) ∧ b = leBytes len n.toNat := by
  unfold toBytesLE at h
  split at h
  · rename_i hh; exact ⟨hh.1, hh.2, by cases h; rfl⟩
  · cases h

end Bit
