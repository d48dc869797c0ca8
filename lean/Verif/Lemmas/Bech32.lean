import Verif.Lemmas.Polymod
import Verif.Lemmas.ConvertBits
/-
Bech32 text: alphabet, position of the separator, decode/encode.
-/
namespace Bit

/-! ### alphabet -/

theorem charset_length : bech32Charset.length = 32 := rfl

theorem charset_get {d : Nat} (h : d < 32) : ∃ c, bech32Charset[d]? = some c ∧
    bech32Charset.idxOf? c = some d := by
  have : ∀ d : Fin 32, ∃ c ∈ bech32Charset, bech32Charset[d.val]? = some c ∧
      bech32Charset.idxOf? c = some d.val := by decide +kernel
  obtain ⟨c, _, h1, h2⟩ := this ⟨d, h⟩
  exact ⟨c, h1, h2⟩

theorem charset_idx {c : Char} {d : Nat} (h : bech32Charset.idxOf? c = some d) :
    d < 32 ∧ bech32Charset[d]? = some c := by
  rw [List.idxOf?, List.findIdx?_eq_some_iff_getElem] at h
  obtain ⟨hlt, heq, _⟩ := h
  rw [charset_length] at hlt
  refine ⟨hlt, ?_⟩
  rw [List.getElem?_eq_getElem (by rw [charset_length]; exact hlt)]
  simpa using heq

/-- all facts about the characters of the alphabet that are needed -/
theorem charset_facts {c : Char} {d : Nat} (h : bech32Charset[d]? = some c) :
    c ≠ '1' ∧ 33 ≤ c.toNat ∧ c.toNat ≤ 126 ∧ c.toLower = c := by
  have hm : c ∈ bech32Charset := List.mem_of_getElem? h
  revert c
  have : ∀ c ∈ bech32Charset, c ≠ '1' ∧ 33 ≤ c.toNat ∧ c.toNat ≤ 126 ∧ c.toLower = c := by
    decide +kernel
  intro c _ hm
  exact this c hm

theorem charsetText_ok {l : List Nat} (h : ∀ d ∈ l, d < 32) : ∃ t, charsetText l = .ok t ∧
    charsetData t = some l ∧ t.length = l.length ∧
    (∀ c ∈ t, c ≠ '1' ∧ 33 ≤ c.toNat ∧ c.toNat ≤ 126 ∧ c.toLower = c) := by
  induction l with
  | nil => exact ⟨[], rfl, rfl, rfl, by simp⟩
  | cons d l ih =>
    obtain ⟨t, h1, h2, h3, h4⟩ := ih fun x hx => h x (by simp [hx])
    obtain ⟨c, hc1, hc2⟩ := charset_get (h d (by simp))
    refine ⟨c :: t, by simp [charsetText, hc1, h1], by simp [charsetData, hc2, h2], by simp [h3], ?_⟩
    intro x hx
    rcases List.mem_cons.mp hx with rfl | hx
    · exact charset_facts hc1
    · exact h4 x hx

theorem charsetText_error {l : List Nat} (h : ∃ d ∈ l, 32 ≤ d) :
    charsetText l = .error .indexError := by
  induction l with
  | nil => obtain ⟨d, hd, _⟩ := h; cases hd
  | cons d l ih =>
    unfold charsetText
    by_cases hd : d < 32
    · obtain ⟨c, hc1, _⟩ := charset_get hd
      rw [hc1]
      have : charsetText l = .error .indexError := by
        apply ih
        obtain ⟨x, hx, hx2⟩ := h
        rcases List.mem_cons.mp hx with rfl | hx
        · omega
        · exact ⟨x, hx, hx2⟩
      simp [this]
    · have : bech32Charset[d]? = none := by
        rw [List.getElem?_eq_none_iff, charset_length]; omega
      rw [this]

theorem charsetData_some {t : Str} {l : List Nat} (h : charsetData t = some l) :
    (∀ d ∈ l, d < 32) ∧ charsetText l = .ok t ∧ l.length = t.length := by
  induction t generalizing l with
  | nil => simp only [charsetData, Option.some.injEq] at h; subst h; simp [charsetText]
  | cons c t ih =>
    unfold charsetData at h
    cases hc : bech32Charset.idxOf? c with
    | none => rw [hc] at h; cases h
    | some d =>
      rw [hc] at h
      simp only [] at h
      cases ht : charsetData t with
      | none => rw [ht] at h; cases h
      | some ds =>
        rw [ht] at h
        simp only [Option.some.injEq] at h
        subst h
        obtain ⟨h1, h2, h3⟩ := ih ht
        obtain ⟨g1, g2⟩ := charset_idx hc
        refine ⟨?_, by simp [charsetText, g2, h2], by simp [h3]⟩
        intro x hx
        rcases List.mem_cons.mp hx with rfl | hx
        · exact g1
        · exact h1 x hx

/-! ### separator -/

theorem rfindOne_append {a b : Str} (hb : ∀ c ∈ b, c ≠ '1') :
    rfindOne (a ++ '1' :: b) = some a.length := by
  unfold rfindOne
  have : (a ++ '1' :: b).reverse.idxOf? '1' = some b.length := by
    rw [List.idxOf?, List.findIdx?_eq_some_iff_getElem]
    refine ⟨by simp, ?_, ?_⟩
    · simp
    · intro j hj
      have hj' : j < b.reverse.length := by simpa using hj
      simp only [List.reverse_append, List.reverse_cons, List.append_assoc]
      rw [List.getElem_append_left hj']
      have hm : b.reverse[j] ∈ b.reverse := List.getElem_mem hj'
      have := hb _ (List.mem_reverse.mp hm)
      simpa using this
  rw [this]
  simp

theorem rfindOne_some {s : Str} {pos : Nat} (h : rfindOne s = some pos) :
    pos < s.length ∧ s = s.take pos ++ '1' :: s.drop (pos + 1) := by
  unfold rfindOne at h
  cases hi : s.reverse.idxOf? '1' with
  | none => rw [hi] at h; cases h
  | some i =>
    rw [hi] at h
    simp only [Option.some.injEq] at h
    rw [List.idxOf?, List.findIdx?_eq_some_iff_getElem] at hi
    obtain ⟨hlt, heq, _⟩ := hi
    have hlt' : i < s.length := by simpa using hlt
    have hp : pos < s.length := by omega
    refine ⟨hp, ?_⟩
    have : s[pos] = '1' := by
      rw [List.getElem_reverse] at heq
      have e : s.length - 1 - i = pos := h
      simp only [e] at heq
      simpa using heq
    have hd := List.drop_eq_getElem_cons hp
    rw [this] at hd
    rw [← hd, List.take_append_drop]

/-! ### checksum -/

theorem hrpExpand_lt (hrp : Str) : ∀ v ∈ bech32HrpExpand hrp, v < 2 ^ 30 := by
  intro v hv
  have hc : ∀ c : Char, c.toNat < 2 ^ 32 := fun c => c.val.toNat_lt
  simp only [bech32HrpExpand, List.mem_append, List.mem_map, List.mem_singleton] at hv
  rcases hv with (⟨c, _, rfl⟩ | rfl) | ⟨c, _, rfl⟩
  · rw [Nat.shiftRight_eq_div_pow]
    have := hc c
    omega
  · norm_num
  · exact lt_of_le_of_lt Nat.and_le_right (by norm_num)

theorem createChecksum_length (hrp : Str) (data : List Nat) :
    (bech32CreateChecksum hrp data).length = 6 := by simp [bech32CreateChecksum]

theorem createChecksum_lt (hrp : Str) (data : List Nat) : ∀ c ∈ bech32CreateChecksum hrp data, c < 32 := by
  intro c hc
  simp only [bech32CreateChecksum, List.mem_map] at hc
  obtain ⟨i, _, rfl⟩ := hc
  exact lt_of_le_of_lt Nat.and_le_right (by norm_num)

theorem verify_iff (hrp : Str) (data cs : List Nat) (hd : ∀ d ∈ data, d < 32) (hl : cs.length = 6)
    (hc : ∀ c ∈ cs, c < 32) :
    bech32VerifyChecksum hrp (data ++ cs) = true ↔ cs = bech32CreateChecksum hrp data := by
  have := checksum_unique (bech32HrpExpand hrp ++ data) (by
    intro v hv
    rcases List.mem_append.mp hv with h | h
    · exact hrpExpand_lt hrp v h
    · exact lt_trans (hd v h) (by norm_num)) cs hl hc
  unfold bech32VerifyChecksum
  rw [beq_iff_eq, bech32Polymod_eq, ← List.append_assoc, this]
  rfl

/-! ### characters -/

theorem toLower_of_ne_upper {c : Char} (h : ¬ ('A'.toNat ≤ c.toNat ∧ c.toNat ≤ 'Z'.toNat)) :
    c.toLower = c := by
  unfold Char.toLower
  split
  · rename_i hh
    exfalso; apply h
    exact ⟨UInt32.le_iff_toNat_le.mp hh.1, UInt32.le_iff_toNat_le.mp hh.2⟩
  · rfl

end Bit
