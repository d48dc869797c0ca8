import Verif.Props.Mistyped
import Verif.Props.Bech32Format
/-
What the checksum of a segwit address does not catch (C106): the letter `q` inserted or left out before a final `p`; and the
checksum of newer addresses, which the package does not know.
-/
namespace Bit
open Concrete

/-- The text of an address: prefix, separator, `start`, `k` times the letter q, and p. -/
def withQ (hrp start : Str) (k : Nat) : Str := hrp ++ '1' :: (start ++ List.replicate k 'q' ++ ['p'])

private theorem charsetData_append {a b : Str} {x y : List Nat} (ha : charsetData a = some x) (hb : charsetData b = some y) :
    charsetData (a ++ b) = some (x ++ y) := by
  induction a generalizing x with
  | nil => cases ha; exact hb
  | cons c a ih =>
    simp only [charsetData, List.cons_append] at ha ⊢
    cases hc : bech32Charset.idxOf? c with
    | none => rw [hc] at ha; cases ha
    | some d =>
      rw [hc] at ha
      dsimp only at ha ⊢
      cases hd : charsetData a with
      | none => rw [hd] at ha; cases ha
      | some ds =>
        rw [hd] at ha
        cases ha
        rw [ih hd]
        rfl

private theorem charsetData_q (k : Nat) : charsetData (List.replicate k 'q') = some (List.replicate k 0) := by
  induction k with
  | zero => rfl
  | succ k ih =>
    rw [List.replicate_succ, List.replicate_succ, charsetData, ih]
    rfl

private theorem charsetData_all {t : Str} (h : ∀ c ∈ t, c ∈ _root_.Spec.bech32Chars) : ∃ vs, charsetData t = some vs := by
  induction t with
  | nil => exact ⟨[], rfl⟩
  | cons c t ih =>
    obtain ⟨vs, hvs⟩ := ih fun x hx => h x (by simp [hx])
    have key : ∀ c ∈ _root_.Spec.bech32Chars, (bech32Charset.idxOf? c).isSome := by decide +kernel
    obtain ⟨d, hd⟩ := Option.isSome_iff_exists.1 (key c (h c (by simp)))
    exact ⟨d :: vs, by rw [charsetData, hd, hvs]⟩

private theorem decode_eval {hrp t : Str} {vs : List Nat} (hk : KnownPrefix hrp) (ht : ∀ c ∈ t, c ∈ _root_.Spec.bech32Chars)
    (hv : charsetData t = some vs) (h6 : 6 ≤ t.length) (h90 : hrp.length + 1 + t.length ≤ 90) :
    bech32Decode (hrp ++ '1' :: t) = if bech32VerifyChecksum hrp vs then some (hrp, dropLast' vs 6) else none := by
  have facts : ∀ c ∈ _root_.Spec.bech32Chars, c ≠ '1' ∧ c.toLower = c ∧ 33 ≤ c.toNat ∧ c.toNat ≤ 126 := by decide +kernel
  have hh : ∀ c ∈ hrp, c.toLower = c ∧ 33 ≤ c.toNat ∧ c.toNat ≤ 126 := by
    rcases hk with rfl | rfl | rfl <;> decide +kernel
  have hne : 0 < hrp.length := by rcases hk with rfl | rfl | rfl <;> decide
  have hlow : (hrp ++ '1' :: t).map Char.toLower = hrp ++ '1' :: t := by
    conv_rhs => rw [← List.map_id (hrp ++ '1' :: t)]
    refine List.map_congr_left fun c hc => ?_
    rcases List.mem_append.1 hc with hc | hc
    · exact (hh c hc).1
    · rcases List.mem_cons.1 hc with rfl | hc
      · decide
      · exact (facts c (ht c hc)).2.1
  have hasc : (hrp ++ '1' :: t).any (fun x => x.toNat < 33 || x.toNat > 126) = false := by
    rw [List.any_eq_false]
    intro c hc
    have : 33 ≤ c.toNat ∧ c.toNat ≤ 126 := by
      rcases List.mem_append.1 hc with hc | hc
      · exact (hh c hc).2
      · rcases List.mem_cons.1 hc with rfl | hc
        · decide
        · exact (facts c (ht c hc)).2.2
    simp only [Bool.or_eq_true, decide_eq_true_eq]
    omega
  have hd : (hrp ++ '1' :: t).drop (hrp.length + 1) = t := by
    rw [show hrp ++ '1' :: t = (hrp ++ ['1']) ++ t by simp]
    rw [List.drop_left' (by simp)]
  unfold bech32Decode
  rw [hasc, hlow]
  simp only [bne_self_eq_false, Bool.false_and, Bool.or_false, Bool.false_eq_true, if_false]
  rw [rfindOne_append fun c hc => (facts c (ht c hc)).1]
  dsimp only
  rw [if_neg, hd, hv, List.take_left' rfl]
  simp only [Bool.or_eq_true, decide_eq_true_eq, List.length_append, List.length_cons]
  omega

private theorem zeros_state (k : Nat) : ∀ {s : Nat}, s < 2 ^ 30 → (pmFrom s (List.replicate k 0) = 0 ↔ s = 0) := by
  induction k with
  | zero => intro s _; exact Iff.rfl
  | succ k ih =>
    intro s hs
    rw [List.replicate_succ, pmFrom_cons, Nat.xor_zero, ih (pmF_lt s)]
    exact ⟨pmF_eq_zero hs, fun h => by rw [h, pmF_zero]⟩

private theorem verify_q {hrp : Str} {va : List Nat} (k : Nat) (hva : ∀ v ∈ va, v < 2 ^ 30) :
    bech32VerifyChecksum hrp (va ++ List.replicate k 0 ++ [1]) = true ↔ pmFrom 1 (bech32HrpExpand hrp ++ va) = 0 := by
  have hs : pmFrom 1 (bech32HrpExpand hrp ++ va) < 2 ^ 30 :=
    pmFrom_lt _ 1 (by norm_num) fun v hv => by
      rcases List.mem_append.1 hv with hv | hv
      · exact hrpExpand_lt hrp v hv
      · exact hva v hv
  have hz : pmFrom (pmFrom 1 (bech32HrpExpand hrp ++ va)) (List.replicate k 0) < 2 ^ 30 :=
    pmFrom_lt _ _ hs fun v hv => by rw [List.eq_of_mem_replicate hv]; norm_num
  simp only [bech32VerifyChecksum, beq_iff_eq, bech32Polymod_eq]
  rw [← List.append_assoc, ← List.append_assoc, pmFrom_append, pmFrom_append, pmFrom_cons, pmFrom_nil]
  generalize pmFrom 1 (bech32HrpExpand hrp ++ va) = s at hs hz ⊢
  rw [← zeros_state k hs]
  generalize pmFrom s (List.replicate k 0) = z at hz ⊢
  constructor
  · intro h
    refine pmF_eq_zero hz ?_
    rw [Nat.xor_comm, xor_eq_iff] at h
    simpa using h
  · rintro rfl
    rw [pmF_zero]
    rfl

private theorem withQ_chars {start : Str} (hs : ∀ c ∈ start, c ∈ _root_.Spec.bech32Chars) (k : Nat) :
    ∀ c ∈ start ++ List.replicate k 'q' ++ ['p'], c ∈ _root_.Spec.bech32Chars := by
  intro c hc
  rcases List.mem_append.1 hc with hc | hc
  · rcases List.mem_append.1 hc with hc | hc
    · exact hs c hc
    · rw [List.eq_of_mem_replicate hc]; decide
  · rw [List.mem_singleton.1 hc]; decide

private theorem withQ_eval {hrp start : Str} {va : List Nat} (hk : KnownPrefix hrp)
    (hs : ∀ c ∈ start, c ∈ _root_.Spec.bech32Chars) (hva : charsetData start = some va) (k : Nat)
    (h6 : 5 ≤ start.length) (h90 : (withQ hrp start k).length ≤ 90) :
    bech32Decode (withQ hrp start k) = if bech32VerifyChecksum hrp (va ++ List.replicate k 0 ++ [1]) then
      some (hrp, dropLast' (va ++ List.replicate k 0 ++ [1]) 6) else none := by
  refine decode_eval hk (withQ_chars hs k)
    (charsetData_append (charsetData_append hva (charsetData_q k)) rfl) (by simp; omega) ?_
  simp only [withQ, List.length_append, List.length_cons] at h90 ⊢
  omega

/-- C106 (the format's weakness, which the code has). A text that ends in `p` is a valid Bech32 text exactly if it is one with any
number of `q` inserted before that `p`, up to the limit of 90 characters. -/
theorem C106_inserted (hrp start : Str) (j k : Nat) (hk : KnownPrefix hrp) (h5 : 5 ≤ start.length)
    (hj : (withQ hrp start j).length ≤ 90) (hk' : (withQ hrp start k).length ≤ 90) :
    (∃ data, bech32Decode (withQ hrp start j) = some (hrp, data)) ↔
      ∃ data, bech32Decode (withQ hrp start k) = some (hrp, data) := by
  have one : ∀ m n, (withQ hrp start m).length ≤ 90 → (withQ hrp start n).length ≤ 90 →
      (∃ data, bech32Decode (withQ hrp start m) = some (hrp, data)) →
      ∃ data, bech32Decode (withQ hrp start n) = some (hrp, data) := by
    rintro m n hm hn ⟨data, hd⟩
    obtain ⟨_, hc⟩ := decode_known hk hk hd
    have hs : ∀ c ∈ start, c ∈ _root_.Spec.bech32Chars := fun c h => hc c (by simp [h])
    obtain ⟨va, hva⟩ := charsetData_all hs
    have hlt : ∀ v ∈ va, v < 2 ^ 30 := fun v hv => lt_trans ((charsetData_some hva).1 v hv) (by norm_num)
    rw [withQ_eval hk hs hva m h5 hm] at hd
    split at hd
    · rename_i hv
      rw [withQ_eval hk hs hva n h5 hn, if_pos ((verify_q n hlt).2 ((verify_q m hlt).1 hv))]
      exact ⟨_, rfl⟩
    · cases hd
  exact ⟨one j k hj hk', one k j hk' hj⟩

private theorem segwit_sizes {hrp t : Str} {v : Nat} {prog : List Nat} (hk : KnownPrefix hrp)
    (h : segwitDecode (hrp ++ '1' :: t) = some (v, prog)) :
    ∃ data b, bech32Decode (hrp ++ '1' :: t) = some (hrp, data) ∧ data.head? = some v ∧ b < 5 ∧
      5 * (data.length - 1) = 8 * prog.length + b ∧ (hrp ++ '1' :: t).length = hrp.length + 1 + data.length + 6 ∧
      (hrp ++ '1' :: t).length ≤ 90 ∧ (v = 0 → prog.length = 20 ∨ prog.length = 32) := by
  obtain ⟨hrp', data, _, hb, _, hk'⟩ := segwitDecode_prefix h
  obtain ⟨rfl, _⟩ := decode_known hk hk' hb
  obtain ⟨_, _, _, h90, hlen⟩ := C06_bech32_canonical hb
  obtain ⟨_, _, _, _, _, _, _, hv0⟩ := C08_segwit_canonical h
  unfold segwitDecode at h
  rw [hb] at h
  dsimp only at h
  split at h
  · cases h
  cases hc : convertbits (data.drop 1) 5 8 false with
  | none => rw [hc] at h; cases h
  | some r =>
    rw [hc] at h
    dsimp only at h
    split at h
    · cases h
    cases data with
    | nil => cases h
    | cons d ds =>
      dsimp only at h
      split at h
      · cases h
      split at h
      · cases h
      cases h
      obtain ⟨_, _, b, hb5, _, hbits⟩ := (convertbits_strict_iff 5 8 (by decide) _ _).1 hc
      have := congrArg List.length hbits
      simp only [bitString_length, List.length_append, List.length_replicate, List.drop_succ_cons, List.drop_zero] at this
      exact ⟨v :: ds, b, hb, rfl, hb5, by simpa using this, hlen, h90, hv0⟩

/-- C106. Two segwit addresses that differ only in the number of `q` before the final `p` have the same witness version, and if
this is 0, as it is for all addresses that the package makes, one has exactly 20 `q` more than the other: it is the address of a
key, and the other one of a script. So fewer than 20 letters `q` too many or too few are always noticed. -/
theorem C106_version_zero (hrp start : Str) (j k v v' : Nat) (prog prog' : List Nat) (hk : KnownPrefix hrp)
    (h5 : 5 ≤ start.length) (hj : segwitDecode (withQ hrp start j) = some (v, prog))
    (hk' : segwitDecode (withQ hrp start k) = some (v', prog')) :
    v' = v ∧ (v = 0 → j = k ∨
      (k = j + 20 ∧ prog.length = 20 ∧ prog'.length = 32) ∨ (j = k + 20 ∧ prog.length = 32 ∧ prog'.length = 20)) := by
  obtain ⟨d, b, e1, e2, e3, e4, e5, e6, e7⟩ := segwit_sizes hk hj
  obtain ⟨d', b', f1, f2, f3, f4, f5, f6, f7⟩ := segwit_sizes hk hk'
  obtain ⟨_, hc⟩ := decode_known hk hk e1
  have hs : ∀ c ∈ start, c ∈ _root_.Spec.bech32Chars := fun c h => hc c (by simp [h])
  obtain ⟨va, hva⟩ := charsetData_all hs
  have hl := (charsetData_some hva).2.2
  obtain ⟨a, as, rfl⟩ : ∃ a as, va = a :: as := by
    cases va with
    | nil => simp at hl; omega
    | cons a as => exact ⟨a, as, rfl⟩
  have head : ∀ (n : Nat) (data : List Nat) (x : Nat), (withQ hrp start n).length ≤ 90 →
      bech32Decode (withQ hrp start n) = some (hrp, data) → data.head? = some x → x = a := by
    intro n data x hn hd hx
    rw [withQ_eval hk hs hva n h5 hn] at hd
    split at hd
    · cases hd
      unfold dropLast' at hx
      rw [List.head?_take] at hx
      split at hx
      · cases hx
      · simpa using hx.symm
    · cases hd
  have hv := head j d v e6 e1 e2
  have hv' := head k d' v' f6 f1 f2
  refine ⟨by rw [hv, hv'], fun h0 => ?_⟩
  have p1 := e7 h0
  have p2 := f7 (by rw [hv', ← hv, h0])
  have n1 : 0 < d.length := by cases d with | nil => cases e2 | cons _ _ => simp
  have n2 : 0 < d'.length := by cases d' with | nil => cases f2 | cons _ _ => simp
  simp only [List.length_append, List.length_cons, List.length_replicate, List.length_nil] at e5 f5
  omega

namespace Spec

/-- As `Bech32Text`, with the remainder that BIP-350 (Bech32m, for witness version 1 and later) asks for. -/
def Bech32mText (s hrp : Str) (data : List Nat) : Prop :=
  ∃ (letters : Str) (check : List Nat), s = hrp ++ '1' :: letters ∧ check.length = 6 ∧
    List.Forall₂ (fun c d => bech32Alphabet[d]? = some c) letters (data ++ check) ∧
    bech32Remainder (1 :: (hrp.map (fun c => c.toNat / 32) ++ [0] ++ hrp.map (fun c => c.toNat % 32) ++
      data ++ check)) = [21, 28, 16, 12, 5, 3]

end Spec

private theorem lower_tab : ∀ i : Fin 94, 33 ≤ (Char.ofNat (i + 33)).toLower.toNat ∧
    (Char.ofNat (i + 33)).toLower.toNat ≤ 126 ∧
    ¬ (65 ≤ (Char.ofNat (i + 33)).toLower.toNat ∧ (Char.ofNat (i + 33)).toLower.toNat ≤ 90) := by decide

private theorem lower_char {c : Char} (h : 33 ≤ c.toNat ∧ c.toNat ≤ 126) :
    (33 ≤ c.toLower.toNat ∧ c.toLower.toNat ≤ 126) ∧ ¬ (65 ≤ c.toLower.toNat ∧ c.toLower.toNat ≤ 90) := by
  have := lower_tab ⟨c.toNat - 33, by omega⟩
  simp only [show c.toNat - 33 + 33 = c.toNat by omega, Char.ofNat_toNat] at this
  exact ⟨⟨this.1, this.2.1⟩, this.2.2⟩

private theorem decode_lower {s : Str} {r : Str × List Nat} (h : bech32Decode s = some r) :
    bech32Decode (s.map Char.toLower) = some r ∧ ∀ c ∈ s.map Char.toLower, ¬ (65 ≤ c.toNat ∧ c.toNat ≤ 90) := by
  have hp : ∀ c ∈ s, 33 ≤ c.toNat ∧ c.toNat ≤ 126 := by
    intro c hc
    by_contra hn
    rw [C10_non_ascii_refused s ⟨c, hc, by omega⟩] at h
    cases h
  have hu : ∀ c ∈ s.map Char.toLower, (33 ≤ c.toNat ∧ c.toNat ≤ 126) ∧ ¬ (65 ≤ c.toNat ∧ c.toNat ≤ 90) := by
    intro c hc
    obtain ⟨d, hd, rfl⟩ := List.mem_map.1 hc
    exact lower_char (hp d hd)
  have hlow : (s.map Char.toLower).map Char.toLower = s.map Char.toLower := by
    conv_rhs => rw [← List.map_id (s.map Char.toLower)]
    exact List.map_congr_left fun c hc => toLower_of_ne_upper (hu c hc).2
  have hany : (s.map Char.toLower).any (fun x => x.toNat < 33 || x.toNat > 126) = false := by
    rw [List.any_eq_false]
    intro c hc
    have := (hu c hc).1
    simp; omega
  refine ⟨?_, fun c hc => (hu c hc).2⟩
  unfold bech32Decode at h ⊢
  rw [hany, hlow]
  split at h
  · cases h
  · simpa using h

/-- C106. A Bech32m text, which is how addresses of witness version 1 and later are written today, is never taken for an address,
whether it is written in small letters, in capitals or in both. -/
theorem C106_bech32m_refused (C : Crypto) (s hrp : Str) (data : List Nat)
    (hm : Spec.Bech32mText (s.map Char.toLower) hrp data) (h58 : ¬ LegacyText C s) :
    getVersion C s = .error .valueError ∧ addressToScriptpubkey C s = .error .valueError := by
  have hnone : ∀ h d, bech32Decode s ≠ some (h, d) := by
    intro h d hd
    obtain ⟨hd, hs⟩ := decode_lower hd
    obtain ⟨⟨letters', check', e', l', f', r'⟩, _⟩ := (C06_bech32_decode_format _ h d hs).1 hd
    obtain ⟨letters, check, e, l, f, r⟩ := hm
    obtain ⟨t1, a1, a2, _, a4⟩ := charsetText_ok (forall₂_alphabet_lt f)
    obtain ⟨t2, b1, b2, _, b4⟩ := charsetText_ok (forall₂_alphabet_lt f')
    rw [(charsetText_iff _ _).2 f] at a1
    rw [(charsetText_iff _ _).2 f'] at b1
    cases a1
    cases b1
    have hlen := (rfindOne_append (a := hrp) (fun c hc => (a4 c hc).1)).symm.trans
      ((congrArg rfindOne (e.symm.trans e')).trans (rfindOne_append (a := h) (fun c hc => (b4 c hc).1)))
    obtain ⟨rfl, h2⟩ := List.append_inj (e.symm.trans e') (Option.some.inj hlen)
    obtain rfl := (List.cons.inj h2).2
    rw [a2] at b2
    have hv := Option.some.inj b2
    rw [List.append_assoc, hv] at r
    rw [List.append_assoc] at r'
    rw [r'] at r
    revert r
    decide
  refine C20_unrecognised_refused C _ (fun p hp => ?_) fun h d hd => absurd hd (hnone h d)
  cases p with
  | nil => simp
  | cons v p =>
    by_contra hc
    refine h58 ⟨v, p, hp, ?_⟩
    simp only [List.head?_cons, ne_eq, Option.some.injEq] at hc
    tauto

/-! Samples. -/

def startK : Str := str "qqhqswpc8qurswpc8qurswpc8qurswpc84wpnx"
def startT : Str := str "pqqrqwpc8qurswpc8qurswpc8qurswpc8qurswpc8qurswpc8qursu7m9g"

/-- C106 (the code violates the ideal). One `q` too many in an address of witness version 1, and the payment is accepted and goes to
another script. -/
theorem C106_one_letter :
    addressToScriptpubkey crypto (withQ (str "bc") startT 0) =
      .ok (some ([0x51, 32, 0, 6] ++ List.replicate 30 7)) ∧
    addressToScriptpubkey crypto (withQ (str "bc") startT 1) =
      .ok (some ([0x51, 33, 0, 6] ++ List.replicate 30 7 ++ [14])) ∧
    (samplePrepared [(withQ (str "bc") startT 1, 20000)] none false).toOption.isSome = true := by
  decide +kernel

/-- The address of a key, and with 20 letters `q` inserted that of a script. -/
example : (∃ p, segwitDecode (withQ (str "bc") startK 0) = some (0, p) ∧ p.length = 20) ∧
    (∃ p, segwitDecode (withQ (str "bc") startK 20) = some (0, p) ∧ p.length = 32) ∧
    segwitDecode (withQ (str "bc") startK 1) = none ∧ segwitDecode (withQ (str "bc") startK 19) = none := by
  refine ⟨⟨((segwitDecode (withQ (str "bc") startK 0)).getD (0, [])).2, by decide +kernel⟩,
    ⟨((segwitDecode (withQ (str "bc") startK 20)).getD (0, [])).2, by decide +kernel⟩, by decide +kernel, by decide +kernel⟩

/-- For C106_inserted: so it is a valid Bech32 text with seven letters `q`. -/
example : ∃ data, bech32Decode (withQ (str "bc") startK 7) = some (str "bc", data) :=
  (C106_inserted (str "bc") startK 0 7 (.inl rfl) (by decide +kernel) (by decide +kernel) (by decide +kernel)).1
    ⟨((bech32Decode (withQ (str "bc") startK 0)).getD ([], [])).2, by decide +kernel⟩

private theorem remainder_m (vs : List Nat) (hl : 5 ≤ vs.length) (hv : ∀ v ∈ vs, v < 32)
    (h : pmFrom 1 vs = 0x2bc830a3) : Spec.bech32Remainder (1 :: vs) = [21, 28, 16, 12, 5, 3] := by
  have hz : (0 : Nat) < 32 := by norm_num
  obtain ⟨a, b, c, d, e, f, ⟨ha, hb, hc, hd, he, hf⟩, h2, h3⟩ := remainder_state vs 0 0 0 0 0 1 hz hz hz hz hz
    (by norm_num) hv
  rw [remainder_leading_zero _ (by simp; omega), remainder_leading_zero _ (by simp; omega),
    remainder_leading_zero _ (by simp; omega), remainder_leading_zero _ (by simp; omega),
    remainder_leading_zero _ (by simp; omega)] at h2
  rw [show pack6 0 0 0 0 0 1 = 1 from by decide, h] at h3
  rw [h2]
  unfold pack6 at h3
  have : a = 21 ∧ b = 28 ∧ c = 16 ∧ d = 12 ∧ e = 5 ∧ f = 3 := by omega
  obtain ⟨rfl, rfl, rfl, rfl, rfl, rfl⟩ := this
  rfl

/-- For C106_bech32m_refused: an address of BIP-350. -/
example : Spec.Bech32mText (str "bc1p0xlxvlhemja6c4dqv22uapctqupfhlxm9h8z3k2e72q4k9hcz7vqzk5jj0") (str "bc")
    [1, 15, 6, 31, 6, 12, 31, 23, 25, 27, 18, 29, 26, 24, 21, 13, 0, 12, 10, 10, 28, 29, 1, 24, 11, 0, 28, 1, 9, 23,
      31, 6, 27, 5, 23, 7, 2, 17, 22, 10, 25, 30, 10, 0, 21, 22, 5, 23, 24, 2, 30, 12, 0] := by
  refine ⟨str "p0xlxvlhemja6c4dqv22uapctqupfhlxm9h8z3k2e72q4k9hcz7vqzk5jj0", [2, 22, 20, 18, 18, 15], by decide +kernel, rfl, ?_, ?_⟩
  · rw [← charsetText_iff]
    decide +kernel
  · exact remainder_m _ (by decide +kernel) (by decide +kernel) (by decide +kernel)

example : addressToScriptpubkey crypto (str "bc1p0xlxvlhemja6c4dqv22uapctqupfhlxm9h8z3k2e72q4k9hcz7vqzk5jj0") =
    .error .valueError := by decide +kernel

example : Spec.Bech32mText ((str "BC1P0XLXVLHEMJA6C4DQV22UAPCTQUPFHLXM9H8Z3K2E72Q4K9HCZ7VQZK5JJ0").map Char.toLower) (str "bc")
    [1, 15, 6, 31, 6, 12, 31, 23, 25, 27, 18, 29, 26, 24, 21, 13, 0, 12, 10, 10, 28, 29, 1, 24, 11, 0, 28, 1, 9, 23,
      31, 6, 27, 5, 23, 7, 2, 17, 22, 10, 25, 30, 10, 0, 21, 22, 5, 23, 24, 2, 30, 12, 0] := by
  refine ⟨str "p0xlxvlhemja6c4dqv22uapctqupfhlxm9h8z3k2e72q4k9hcz7vqzk5jj0", [2, 22, 20, 18, 18, 15], by decide +kernel, rfl, ?_, ?_⟩
  · rw [← charsetText_iff]
    decide +kernel
  · exact remainder_m _ (by decide +kernel) (by decide +kernel) (by decide +kernel)

end Bit
