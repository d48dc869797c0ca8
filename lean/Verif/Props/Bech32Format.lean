import Verif.Props.Bech32
import Verif.Spec.Bech32
/-
C06: the texts are those of BIP-173.
-/
namespace Bit
open Concrete

theorem alphabet_charset : Spec.bech32Alphabet = bech32Charset := by decide

theorem xor_pack (x y b d : Nat) (hb : b < 32) (hd : d < 32) :
    (x * 32 + b) ^^^ (y * 32 + d) = (x ^^^ y) * 32 + (b ^^^ d) := by
  have h : b ^^^ d < 32 := Nat.xor_lt_two_pow (n := 5) hb hd
  rw [← shl5_xor x b hb, ← shl5_xor y d hd, ← shl5_xor _ _ h, Nat.shiftLeft_xor_distrib]
  exact xor4 _ _ _ _

theorem pack6_xor {a b c d e f a' b' c' d' e' f' : Nat} (hb : b < 32) (hc : c < 32) (hd : d < 32)
    (he : e < 32) (hf : f < 32) (hb' : b' < 32) (hc' : c' < 32) (hd' : d' < 32)
    (he' : e' < 32) (hf' : f' < 32) : pack6 a b c d e f ^^^ pack6 a' b' c' d' e' f' =
      pack6 (a ^^^ a') (b ^^^ b') (c ^^^ c') (d ^^^ d') (e ^^^ e') (f ^^^ f') := by
  unfold pack6
  rw [xor_pack _ _ _ _ hf hf', xor_pack _ _ _ _ he he', xor_pack _ _ _ _ hd hd', xor_pack _ _ _ _ hc hc',
    xor_pack _ _ _ _ hb hb']

/-- The generator words are the multiples of the generator. -/
theorem generator_words : ∀ a : Fin 32, genXor a.val 0 bech32Generator =
    pack6 (Spec.gfMul a 29) (Spec.gfMul a 22) (Spec.gfMul a 20) (Spec.gfMul a 21) (Spec.gfMul a 29)
      (Spec.gfMul a 18) ∧ Spec.gfMul a 29 < 32 ∧ Spec.gfMul a 22 < 32 ∧ Spec.gfMul a 20 < 32 ∧
      Spec.gfMul a 21 < 32 ∧ Spec.gfMul a 18 < 32 := by decide +kernel

theorem pmF_pack {a b c d e f : Nat} (_ha : a < 32) (hb : b < 32) (hc : c < 32) (hd : d < 32) (he : e < 32)
    (hf : f < 32) : pmF (pack6 a b c d e f) = pack6 b c d e f 0 ^^^ genXor a 0 bech32Generator := by
  unfold pmF
  have h1 : pack6 a b c d e f >>> 25 = a := by
    rw [Nat.shiftRight_eq_div_pow]; unfold pack6; omega
  have h2 : pack6 a b c d e f &&& 0x1FFFFFF = (((b * 32 + c) * 32 + d) * 32 + e) * 32 + f := by
    have := Nat.and_two_pow_sub_one_eq_mod (pack6 a b c d e f) 25
    rw [show (0x1FFFFFF : Nat) = 2 ^ 25 - 1 by norm_num, this]
    unfold pack6
    omega
  rw [h1, h2, Nat.shiftLeft_eq]
  rfl

/-- Long division computes the checksum state. -/
theorem remainder_state : ∀ (vs : List Nat) (a b c d e f : Nat), a < 32 → b < 32 → c < 32 → d < 32 → e < 32 →
    f < 32 → (∀ v ∈ vs, v < 32) → ∃ a' b' c' d' e' f' : Nat, (a' < 32 ∧ b' < 32 ∧ c' < 32 ∧ d' < 32 ∧ e' < 32 ∧ f' < 32) ∧
      Spec.bech32Remainder (a :: b :: c :: d :: e :: f :: vs) = [a', b', c', d', e', f'] ∧
      pmFrom (pack6 a b c d e f) vs = pack6 a' b' c' d' e' f'
  | [], a, b, c, d, e, f, ha, hb, hc, hd, he, hf, _ => by
    refine ⟨a, b, c, d, e, f, ⟨ha, hb, hc, hd, he, hf⟩, ?_, rfl⟩
    rw [Spec.bech32Remainder, if_pos (by simp)]
  | v :: vs, a, b, c, d, e, f, ha, hb, hc, hd, he, hf, hv => by
    obtain ⟨hg, g1, g2, g3, g4, g5⟩ := generator_words ⟨a, ha⟩
    dsimp only at hg g1 g2 g3 g4 g5
    have hvv := hv v List.mem_cons_self
    have x : ∀ {p q : Nat}, p < 32 → q < 32 → p ^^^ q < 32 := fun hp hq => Nat.xor_lt_two_pow (n := 5) hp hq
    obtain ⟨a', b', c', d', e', f', h1, h2, h3⟩ := remainder_state vs (b ^^^ Spec.gfMul a 29) (c ^^^ Spec.gfMul a 22)
      (d ^^^ Spec.gfMul a 20) (e ^^^ Spec.gfMul a 21) (f ^^^ Spec.gfMul a 29) (v ^^^ Spec.gfMul a 18)
      (x hb g1) (x hc g2) (x hd g3) (x he g4) (x hf g1) (x hvv g5) (fun w hw => hv w (List.mem_cons_of_mem _ hw))
    refine ⟨a', b', c', d', e', f', h1, ?_, ?_⟩
    · rw [Spec.bech32Remainder, if_neg (by simp)]
      exact h2
    · rw [pmFrom_cons, pmF_pack ha hb hc hd he hf, hg, ← h3]
      congr 1
      have e0 : v = pack6 0 0 0 0 0 v := by unfold pack6; omega
      have z : (0 : Nat) < 32 := by norm_num
      rw [pack6_xor hc hd he hf z g2 g3 g4 g1 g5]
      conv_lhs => rw [e0]
      rw [pack6_xor (x hc g2) (x hd g3) (x he g4) (x hf g1) (x z g5) z z z z hvv]
      simp only [Nat.zero_xor, Nat.xor_comm]

theorem remainder_leading_zero (vs : List Nat) (h : 6 ≤ vs.length) :
    Spec.bech32Remainder (0 :: vs) = Spec.bech32Remainder vs := by
  rw [Spec.bech32Remainder, if_neg (by omega)]
  congr 1
  have e : Spec.bech32Poly.map (Spec.gfMul 0) = [0, 0, 0, 0, 0, 0] := by decide
  rw [e]
  match vs, h with
  | a :: b :: c :: d :: e :: f :: vs, _ => simp

/-- The checksum state is one exactly if the remainder is. -/
theorem remainder_one (vs : List Nat) (hl : 5 ≤ vs.length) (hv : ∀ v ∈ vs, v < 32) :
    pmFrom 1 vs = 1 ↔ Spec.bech32Remainder (1 :: vs) = [0, 0, 0, 0, 0, 1] := by
  have hz : (0 : Nat) < 32 := by norm_num
  obtain ⟨a, b, c, d, e, f, ⟨ha, hb, hc, hd, he, hf⟩, h2, h3⟩ := remainder_state vs 0 0 0 0 0 1 hz hz hz hz hz
    (by norm_num) hv
  have e1 : pack6 0 0 0 0 0 1 = 1 := by decide
  rw [e1] at h3
  rw [remainder_leading_zero _ (by simp; omega), remainder_leading_zero _ (by simp; omega),
    remainder_leading_zero _ (by simp; omega), remainder_leading_zero _ (by simp; omega),
    remainder_leading_zero _ (by simp; omega)] at h2
  rw [h2, h3]
  simp only [List.cons.injEq, and_true]
  unfold pack6
  omega

theorem charsetText_iff : ∀ (l : List Nat) (t : Str), charsetText l = .ok t ↔
    List.Forall₂ (fun c d => Spec.bech32Alphabet[d]? = some c) t l
  | [], t => by
    unfold charsetText
    constructor
    · intro h; injection h with h; subst h; exact .nil
    · intro h; cases h; rfl
  | d :: l, t => by
    unfold charsetText
    constructor
    · intro h
      cases hc : bech32Charset[d]? with
      | none => rw [hc] at h; cases h
      | some c =>
        rw [hc] at h
        dsimp only at h
        cases hl : charsetText l with
        | error e => rw [hl] at h; cases h
        | ok cs =>
          rw [hl] at h
          injection h with h
          subst h
          exact .cons (by rw [alphabet_charset]; exact hc) ((charsetText_iff l cs).mp hl)
    · intro h
      cases h with
      | @cons c _ cs _ hc hcs =>
        rw [alphabet_charset] at hc
        rw [hc]
        dsimp only
        rw [(charsetText_iff l cs).mpr hcs]

theorem forall₂_alphabet_lt {t : Str} {l : List Nat}
    (h : List.Forall₂ (fun c d => Spec.bech32Alphabet[d]? = some c) t l) : ∀ d ∈ l, d < 32 := by
  induction h with
  | nil => simp
  | @cons c d _ _ hc _ ih =>
    intro x hx
    rcases List.mem_cons.mp hx with rfl | hx
    · have := (List.getElem?_eq_some_iff.mp hc).1
      rwa [alphabet_charset, charset_length] at this
    · exact ih x hx

theorem hrpExpand_spec (hrp : Str) : bech32HrpExpand hrp =
    hrp.map (fun c => c.toNat / 32) ++ [0] ++ hrp.map (fun c => c.toNat % 32) := by
  unfold bech32HrpExpand
  congr 2
  · congr 1
    funext c
    rw [Nat.shiftRight_eq_div_pow]
  · funext c
    exact Nat.and_two_pow_sub_one_eq_mod c.toNat 5

/-- C06. `bech32_encode` gives exactly the text of BIP-173: for a human-readable part of ASCII characters (or any
below 1024) and any data, it returns `s` if and only if `s` is the Bech32 text of part and data. -/
theorem C06_bech32_encode_format (hrp : Str) (data : List Nat) (hchars : ∀ c ∈ hrp, c.toNat < 1024) (s : Str) :
    bech32Encode hrp data = .ok s ↔ Spec.Bech32Text s hrp data := by
  have hexp : ∀ v ∈ bech32HrpExpand hrp, v < 32 := by
    intro v hv
    rw [hrpExpand_spec] at hv
    simp only [List.mem_append, List.mem_map, List.mem_singleton] at hv
    rcases hv with (⟨c, hc, rfl⟩ | rfl) | ⟨c, _, rfl⟩
    · have := hchars c hc
      omega
    · norm_num
    · exact Nat.mod_lt _ (by norm_num)
  have hrem : ∀ check : List Nat, check.length = 6 → (∀ d ∈ data ++ check, d < 32) →
      (Spec.bech32Remainder (1 :: (hrp.map (fun c => c.toNat / 32) ++ [0] ++ hrp.map (fun c => c.toNat % 32) ++
        data ++ check)) = [0, 0, 0, 0, 0, 1] ↔ check = bech32CreateChecksum hrp data) := by
    intro check hl hlt
    rw [← hrpExpand_spec, ← remainder_one]
    · rw [← verify_iff hrp data check (fun d hd => hlt d (List.mem_append_left _ hd)) hl
        (fun d hd => hlt d (List.mem_append_right _ hd))]
      unfold bech32VerifyChecksum
      rw [beq_iff_eq, bech32Polymod_eq, List.append_assoc]
    · rw [List.length_append, hl]; omega
    · intro v hv
      rw [List.append_assoc] at hv
      rcases List.mem_append.mp hv with hv | hv
      · exact hexp v hv
      · exact hlt v hv
  unfold bech32Encode
  constructor
  · intro h
    cases ht : charsetText (data ++ bech32CreateChecksum hrp data) with
    | error e => rw [ht] at h; cases h
    | ok t =>
      rw [ht] at h
      injection h with h
      have hf := (charsetText_iff _ _).mp ht
      exact ⟨t, _, h.symm, createChecksum_length hrp data, hf,
        (hrem _ (createChecksum_length hrp data) (forall₂_alphabet_lt hf)).mpr rfl⟩
  · rintro ⟨t, check, rfl, hl, hf, hr⟩
    have := (hrem check hl (forall₂_alphabet_lt hf)).mp hr
    subst this
    rw [(charsetText_iff _ _).mpr hf]

/-- C06. `bech32_decode` accepts exactly the texts of BIP-173: a text without upper-case letters is decoded to a
part and data if and only if it is their Bech32 text, the part is not empty and of printable ASCII characters, and the
text has at most 90 characters. (Upper case: `C10_upper_case_same`.) -/
theorem C06_bech32_decode_format (s hrp : Str) (data : List Nat)
    (hs : ∀ c ∈ s, ¬ (65 ≤ c.toNat ∧ c.toNat ≤ 90)) :
    bech32Decode s = some (hrp, data) ↔ Spec.Bech32Text s hrp data ∧ hrp ≠ [] ∧
      (∀ c ∈ hrp, 33 ≤ c.toNat ∧ c.toNat ≤ 126) ∧ s.length ≤ 90 := by
  constructor
  · intro h
    obtain ⟨h1, h2, h3, h4, h5⟩ := C06_bech32_canonical h
    have hlow : s.map Char.toLower = s := by
      conv_rhs => rw [← List.map_id s]
      apply List.map_congr_left
      intro c hc
      exact toLower_of_ne_upper (hs c hc)
    rw [hlow] at h1
    have hasc : ∀ c ∈ s, 33 ≤ c.toNat ∧ c.toNat ≤ 126 := by
      intro c hc
      by_contra hn
      rw [C10_non_ascii_refused s ⟨c, hc, by omega⟩] at h
      cases h
    obtain ⟨t, ht⟩ : ∃ t, s = hrp ++ '1' :: t := by
      unfold bech32Encode at h1
      cases ht : charsetText (data ++ bech32CreateChecksum hrp data) with
      | error e => rw [ht] at h1; cases h1
      | ok t => rw [ht] at h1; injection h1 with h1; exact ⟨t, h1.symm⟩
    have hh : ∀ c ∈ hrp, 33 ≤ c.toNat ∧ c.toNat ≤ 126 := fun c hc => hasc c (by rw [ht]; exact List.mem_append_left _ hc)
    exact ⟨(C06_bech32_encode_format hrp data (fun c hc => by have := hh c hc; omega) s).mp h1, h2, hh, h4⟩
  · rintro ⟨h1, h2, h3, h4⟩
    have henc := (C06_bech32_encode_format hrp data (fun c hc => by have := h3 c hc; omega) s).mpr h1
    obtain ⟨t, check, e, hl, hf, -⟩ := h1
    have hlen := hf.length_eq
    rw [List.length_append, hl] at hlen
    have hd := forall₂_alphabet_lt hf
    obtain ⟨s', r1, -, -, r4⟩ := C06_bech32_roundtrip hrp data h2
      (fun c hc => ⟨(h3 c hc).1, (h3 c hc).2, hs c (by rw [e]; exact List.mem_append_left _ hc)⟩)
      (fun d hd' => hd d (List.mem_append_left _ hd'))
      (by rw [e, List.length_append, List.length_cons, hlen] at h4; omega)
    rw [henc] at r1
    injection r1 with r1
    rw [r1]
    exact r4

/-- The first two valid texts of BIP-173 that have no upper-case letters and a short data part. -/
example : Spec.Bech32Text (str "a12uel5l") (str "a") [] ∧
    Spec.Bech32Text (str "split1checkupstagehandshakeupstreamerranterredcaperred2y9e3w") (str "split")
      [24, 23, 25, 24, 22, 28, 1, 16, 11, 29, 8, 25, 23, 29, 19, 13, 16, 23, 29, 22, 25, 28, 1, 16, 11, 3, 25, 29,
       27, 25, 3, 3, 29, 19, 11, 25, 3, 3, 25, 13, 24, 29, 1, 25, 3, 3, 25, 13] := by
  constructor
  · rw [← C06_bech32_encode_format _ _ (by decide)]
    decide +kernel
  · rw [← C06_bech32_encode_format _ _ (by decide)]
    decide +kernel

end Bit
