import Verif.Props.Keygen
/-
C107: the search for an address with a prefix that no address has.
-/
namespace Bit
open Concrete

/-- No address can begin with this text: as a Base58 number it is at least `2 ^ 192`, and an address is the number of 24 bytes after
a zero byte. -/
def NoAddressBegins (pre : Str) : Prop := ∃ v, Spec.base58Value pre = some v ∧ 2 ^ 192 ≤ v

private theorem b58Num_encode (b : Bytes) : b58Num 0 (b58encode b) = .ok (beNat b) := by
  unfold b58encode
  rw [b58Num_append, b58Num_replicate_one]
  dsimp only
  rw [Nat.zero_mul]
  exact b58Num_digits (beNat b)

private theorem no_address {C : Crypto} (hC : C.HashLengths) {pre : Str} (h : NoAddressBegins pre) (k : Bytes) :
    ¬ pre <+: b58encodeCheck C (0x00 :: C.hash160 k) := by
  rintro ⟨tail, ht⟩
  obtain ⟨v, hv, hbig⟩ := h
  have hn : b58Num 0 pre = .ok v := by
    rw [base58Value_eq] at hv
    cases hb : b58Num 0 pre with
    | error e => rw [hb] at hv; cases hv
    | ok m => rw [hb] at hv; cases hv; rfl
  have he := b58Num_encode (0x00 :: C.hash160 k ++ C.checksum (0x00 :: C.hash160 k))
  unfold b58encodeCheck at ht
  rw [← ht, b58Num_append, hn] at he
  dsimp only at he
  have hlt : beNat (0x00 :: C.hash160 k ++ C.checksum (0x00 :: C.hash160 k)) < 256 ^ 24 := by
    have hl : (C.hash160 k ++ C.checksum (0x00 :: C.hash160 k)).length = 24 := by
      have hc : (C.checksum (0x00 :: C.hash160 k)).length = 4 := by
        show ((C.sha256 (C.sha256 _)).take 4).length = 4
        simp [hC.sha256_length]
      rw [List.length_append, hc]
      have : (C.hash160 k).length = 20 := hC.ripemd160_length _
      omega
    have hb := beNat_lt (C.hash160 k ++ C.checksum (0x00 :: C.hash160 k))
    rw [hl] at hb
    rw [List.cons_append, beNat_cons]
    simpa using hb
  obtain ⟨w, hw⟩ := (b58Num_ok_iff tail 0).2 ((b58Num_ok_iff tail v).1 ⟨_, he⟩)
  rw [b58Num_shift v hw] at he
  have e := Except.ok.inj he
  have : v * 1 ≤ v * 58 ^ tail.length := Nat.mul_le_mul_left _ (Nat.one_le_pow _ _ (by decide))
  have e2 : (2 : Nat) ^ 192 = 256 ^ 24 := by norm_num
  omega

/-- While the search goes on. -/
structure Searching (st : VanityState) : Prop where
  unmatched : st.matched = false
  nothing : st.queue = []
  main : ∀ s a, st.main ≠ .reported s a
  workers : ∀ w ∈ st.workers, w = .check ∨ w = .lock ∨ w = .read ∨ (∃ v, w = .write v) ∨ w = .generate

private theorem Searching.worker {st : VanityState} (h : Searching st) (i : Nat) {w : WorkerAt}
    (hw : w = .check ∨ w = .lock ∨ w = .read ∨ (∃ v, w = .write v) ∨ w = .generate) : Searching (st.moved i w) := by
  refine ⟨h.unmatched, h.nothing, h.main, fun x hx => ?_⟩
  rcases List.mem_or_eq_of_mem_set hx with hx | rfl
  · exact h.workers x hx
  · exact hw

private theorem searching_step {C : Crypto} (hC : C.HashLengths) {pre : Str} (hpre : NoAddressBegins pre)
    {st st' : VanityState} {e : VanityStep} (h : Searching st) (hm : Move C pre st e st') : Searching st' := by
  cases hm with
  | stop hw hmatch => rw [h.unmatched] at hmatch; cases hmatch
  | go hw _ => exact h.worker _ (.inr (.inl rfl))
  | lock hw _ =>
    exact Searching.worker (st := { st with locked := true }) ⟨h.unmatched, h.nothing, h.main, h.workers⟩ _ (.inr (.inr (.inl rfl)))
  | read hw => exact h.worker _ (.inr (.inr (.inr (.inl ⟨_, rfl⟩))))
  | @write _ v hw =>
    exact Searching.worker (st := { st with counter := cInt (v + 1), locked := false }) ⟨h.unmatched, h.nothing, h.main, h.workers⟩ _ (.inr (.inr (.inr (.inr rfl))))
  | found hw => rcases h.workers _ (List.mem_of_getElem? hw) with h | h | h | ⟨_, h⟩ | h <;> cases h
  | put hw => rcases h.workers _ (List.mem_of_getElem? hw) with h | h | h | ⟨_, h⟩ | h <;> cases h
  | hit hw _ hp => exact absurd hp (no_address hC hpre _)
  | miss hw _ _ => exact h.worker _ (.inl rfl)
  | idle _ _ _ => exact h
  | leave _ _ _ => exact ⟨h.unmatched, h.nothing, nofun, h.workers⟩
  | note _ _ _ => exact ⟨h.unmatched, h.nothing, nofun, h.workers⟩
  | take _ hq => rw [h.nothing] at hq; cases hq

/-- C107. The search for a prefix that no address has never ends: after any steps of the processes, with any keys drawn, nothing is
reported and no worker has returned. -/
theorem C107_never (C : Crypto) (hC : C.HashLengths) (pre : Str) (workers : Nat) (hno : NoAddressBegins pre)
    (es : List VanityStep) (st : VanityState) (hrun : Searched C pre workers es st) :
    (∀ secret address, st.main ≠ .reported secret address) ∧ st.queue = [] ∧ ∀ w ∈ st.workers, w ≠ .done := by
  have h := run_invariant (fun _ => Searching) (fun _ _ _ _ h hm => searching_step hC hno h hm) []
    ⟨rfl, rfl, fun _ _ h => (by cases h), fun w hw => .inl (List.eq_of_mem_replicate hw)⟩ hrun
  refine ⟨h.main, h.nothing, fun w hw hd => ?_⟩
  subst hd
  rcases h.workers _ hw with h | h | h | ⟨_, h⟩ | h <;> cases h

/-- C107. Every prefix of at least 35 Base58 characters whose second one, or first one if the 1 is left out, is not 1 is one that no
address has; it is not refused. -/
theorem C107_long (pre rest : Str) (c : Char) (cores : Cores) (available : Nat) (hcores : cores ≠ .other)
    (hav : 0 < available) (hchars : ∀ x ∈ pre, Spec.base58Digit x ≠ none) (hc : c ≠ '1')
    (hform : pre = '1' :: c :: rest ∨ pre = c :: rest) (hlen : 33 ≤ rest.length) :
    NoAddressBegins ('1' :: c :: rest) ∧
      ∃ workers, 0 < workers ∧ searchPlan pre cores available = .ok (.start ('1' :: c :: rest) workers) := by
  constructor
  · have hall : ∀ x ∈ c :: rest, Spec.base58Digit x ≠ none := by
      intro x hx
      rcases hform with rfl | rfl
      · exact hchars x (List.mem_cons_of_mem _ hx)
      · exact hchars x hx
    have hval : ∀ l : Str, (∀ x ∈ l, Spec.base58Digit x ≠ none) → ∃ v, Spec.base58Value l = some v := by
      intro l
      induction l with
      | nil => intro _; exact ⟨0, rfl⟩
      | cons a l ih =>
        intro h
        obtain ⟨v, hv⟩ := ih fun x hx => h x (by simp [hx])
        obtain ⟨d, hd⟩ := Option.ne_none_iff_exists'.1 (h a (by simp))
        exact ⟨d * 58 ^ l.length + v, by simp [Spec.base58Value, hv, hd]⟩
    obtain ⟨v, hv⟩ := hval rest fun x hx => hall x (by simp [hx])
    obtain ⟨d, hd⟩ := Option.ne_none_iff_exists'.1 (hall c (by simp))
    have hd0 : 0 < d := by
      rcases Nat.eq_zero_or_pos d with rfl | h
      · rw [base58Digit_eq] at hd
        exact absurd (b58Index_eq_zero hd) hc
      · exact h
    have h1 : Spec.base58Digit '1' = some 0 := by decide
    refine ⟨d * 58 ^ rest.length + v, by simp [Spec.base58Value, hv, hd, h1], ?_⟩
    have p1 : 58 ^ 33 ≤ 58 ^ rest.length := Nat.pow_le_pow_right (by decide) hlen
    have p2 : 1 * 58 ^ rest.length ≤ d * 58 ^ rest.length := Nat.mul_le_mul_right _ hd0
    have p3 : (2 : Nat) ^ 192 ≤ 58 ^ 33 := by norm_num
    omega
  · obtain ⟨n, hn, _, p1, p2⟩ := C54_plan pre cores available hcores hav hchars (by rcases hform with rfl | rfl <;> simp)
    refine ⟨n, hn, ?_⟩
    rcases hform with rfl | rfl
    · exact p1 ⟨_, rfl⟩
    · refine p2 ?_
      rintro ⟨r, hr⟩
      exact hc (List.cons.inj hr).1

/-- Also a text as long as an address may be one that no address has. -/
example : NoAddressBegins (str "1zzzzzzzzzzzzzzzzzzzzzzzzzzzzzzzzz") ∧ (str "1zzzzzzzzzzzzzzzzzzzzzzzzzzzzzzzzz").length = 34 :=
  ⟨⟨58 ^ 33 - 1, by decide +kernel, by decide +kernel⟩, by decide +kernel⟩

/-- For C107_never and C107_long: 35 characters. -/
example : ∃ workers, searchPlan (str "Bit222222222222222222222222222222222") .all 4 =
      .ok (.start (str "1Bit222222222222222222222222222222222") workers) ∧
    ∀ es st, Searched crypto (str "1Bit222222222222222222222222222222222") workers es st →
      ∀ secret address, st.main ≠ .reported secret address := by
  obtain ⟨h1, n, _, h2⟩ := C107_long (str "Bit222222222222222222222222222222222") (str "it222222222222222222222222222222222") 'B' .all 4
    nofun (by decide) (by decide +kernel) (by decide) (.inr (by decide +kernel)) (by decide +kernel)
  exact ⟨n, h2, fun es st hrun => (C107_never crypto crypto_lengths _ n h1 es st hrun).1⟩

/-- Steps of such a search. -/
example : ∃ st, Searched crypto (str "1zzzzzzzzzzzzzzzzzzzzzzzzzzzzzzzzz") 1
    [.work 0, .work 0, .work 0, .work 0, .draw 0 (List.replicate 32 1), .look, .look, .work 0] st ∧ st.main = .getting :=
  ⟨⟨[.lock], 1, false, false, [], .getting⟩, by unfold Searched; decide +kernel, rfl⟩

end Bit
