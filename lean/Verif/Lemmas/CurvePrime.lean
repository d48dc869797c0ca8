import Verif.Lemmas.Curve
import Verif.Spec.Curve
/-
The field size and the group order of secp256k1, as the specification writes them, are prime.
-/
namespace Bit

/-- Lucas's criterion with a complete list of the prime factors of `N - 1`. -/
theorem lucas_list {N g : Nat} (L : List Nat) (h1 : 1 < N) (hp : ∀ q ∈ L, q.Prime) (hL : L.prod = N - 1)
    (hg : powMod g (N - 1) N = 1) (hq : ∀ q ∈ L, powMod g ((N - 1) / q) N ≠ 1) : N.Prime := by
  have hcast : ∀ e, powMod g e N = 1 ↔ ((g : ZMod N) ^ e = 1) := by
    intro e
    have hc := powMod_cast g e N
    rw [← hc]
    constructor
    · intro h; rw [h]; simp
    · intro h
      have h' : ((powMod g e N : Nat) : ZMod N) = ((1 : Nat) : ZMod N) := by rw [h]; simp
      rw [ZMod.natCast_eq_natCast_iff] at h'
      have h'' : powMod g e N % N = 1 % N := h'
      rwa [powMod_eq, Nat.mod_mod, Nat.mod_eq_of_lt h1, ← powMod_eq] at h''
  apply lucas_primality _ (g : ZMod N)
  · rw [← hcast]; exact hg
  · intro q hqp hd
    rw [← hL] at hd
    obtain ⟨a, ha, hqa⟩ := (Nat.Prime.prime hqp).dvd_prod_iff.mp hd
    have e : q = a := (Nat.prime_dvd_prime_iff_eq hqp (hp a ha)).mp hqa
    rw [ne_eq, ← hcast, e]
    exact hq a ha

def primeA : Nat := 107361793816595537
def primeB : Nat := 174723607534414371449
def primeC : Nat := 341948486974166000522343609283189
def primeD : Nat := 29047611873442575647497758179

theorem prime_A : primeA.Prime :=
  lucas_list (g := 3) [2, 2, 2, 2, 16699, 85831, 4681609] (by decide +kernel)
    (by simp only [List.forall_mem_cons]; norm_num) (by decide +kernel) (by decide +kernel) (by decide +kernel)

theorem prime_B : primeB.Prime :=
  lucas_list (g := 3) [2, 2, 2, 17, 59, 4051, 120233, 44706919] (by decide +kernel)
    (by simp only [List.forall_mem_cons]; norm_num) (by decide +kernel) (by decide +kernel) (by decide +kernel)

theorem prime_545 : Nat.Prime 545358713 :=
  lucas_list (g := 5) [2, 2, 2, 41, 59, 28181] (by decide +kernel)
    (by simp only [List.forall_mem_cons]; norm_num) (by decide +kernel) (by decide +kernel) (by decide +kernel)

theorem prime_297 : Nat.Prime 297159362677 :=
  lucas_list (g := 2) [2, 2, 3, 3, 11, 461, 1627771] (by decide +kernel)
    (by simp only [List.forall_mem_cons]; norm_num) (by decide +kernel) (by decide +kernel) (by decide +kernel)

theorem prime_D : primeD.Prime :=
  lucas_list (g := 2) [2, 293, 305873, 545358713, 297159362677] (by decide +kernel)
    (by
      simp only [List.forall_mem_cons]
      exact ⟨by norm_num, by norm_num, by norm_num, prime_545, prime_297, fun _ h => absurd h List.not_mem_nil⟩)
    (by decide +kernel) (by decide +kernel) (by decide +kernel)

theorem prime_C : primeC.Prime :=
  pocklington (q := primeD) (a := 2) (k := 11772)
    (by decide +kernel) prime_D (by decide +kernel) (by decide +kernel) (by decide +kernel) (by decide +kernel)

theorem prime_groupOrder : Nat.Prime Spec.groupOrder :=
  lucas_list (g := 7) [2, 2, 2, 2, 2, 2, 3, 149, 631, primeA, primeB, primeC] (by decide +kernel)
    (by
      simp only [List.forall_mem_cons]
      exact ⟨by norm_num, by norm_num, by norm_num, by norm_num, by norm_num, by norm_num, by norm_num,
        by norm_num, by norm_num, prime_A, prime_B, prime_C, fun _ h => absurd h List.not_mem_nil⟩)
    (by decide +kernel) (by decide +kernel) (by decide +kernel)

theorem fieldPrime_prime : Nat.Prime Spec.fieldPrime := by
  have e : Spec.fieldPrime = fieldSize := by decide +kernel
  rw [e]
  exact prime_fieldSize

end Bit

namespace Spec

instance : Fact fieldPrime.Prime := ⟨Bit.fieldPrime_prime⟩
instance : Fact groupOrder.Prime := ⟨Bit.prime_groupOrder⟩

end Spec
