import Verif.Lemmas.Bech32
import Verif.Lemmas.Bech32Table
import Verif.Spec.Text
import Verif.Concrete.Crypto
/-
Property C09: Bech32 error detection.
-/
namespace Bit
open Concrete Spec

private theorem charset_spec (c : Char) (h : c ∈ bech32Chars) :
    c ≠ '1' ∧ c.toLower = c ∧ (bech32Charset.idxOf? c).isSome := by
  have : ∀ c ∈ bech32Chars, c ≠ '1' ∧ c.toLower = c ∧ (bech32Charset.idxOf? c).isSome := by
    decide +kernel
  exact this c h

private theorem idx_inj {c c' : Char} {d : Nat} (h : bech32Charset.idxOf? c = some d)
    (h' : bech32Charset.idxOf? c' = some d) : c = c' := by
  have a := (charset_idx h).2
  rw [(charset_idx h').2] at a
  exact (Option.some.inj a).symm

private theorem error_vector : ∀ (t t' : Str) (d d' : List Nat), charsetData t = some d →
    charsetData t' = some d' → t'.length = t.length →
    ((List.zipWith (· ^^^ ·) d d').filter (· ≠ 0)).length = hamming t t' ∧
    (t' ≠ t → ∃ x ∈ List.zipWith (· ^^^ ·) d d', x ≠ 0) ∧
    (∀ x ∈ List.zipWith (· ^^^ ·) d d', x < 32) := by
  intro t
  induction t with
  | nil =>
    intro t' d d' h h' hl
    cases t' with
    | cons _ _ => simp at hl
    | nil =>
      simp only [charsetData, Option.some.injEq] at h h'
      subst h; subst h'
      simp [hamming]
  | cons c t ih =>
    intro t' d d' h h' hl
    cases t' with
    | nil => simp at hl
    | cons c' t' =>
      have dec : ∀ {c : Char} {t : Str} {d : List Nat}, charsetData (c :: t) = some d →
          ∃ x xs, bech32Charset.idxOf? c = some x ∧ charsetData t = some xs ∧ d = x :: xs := by
        intro c t d h
        unfold charsetData at h
        cases hc : bech32Charset.idxOf? c with
        | none => rw [hc] at h; cases h
        | some x =>
          rw [hc] at h
          cases ht : charsetData t with
          | none => rw [ht] at h; cases h
          | some xs => rw [ht] at h; exact ⟨x, xs, rfl, rfl, (Option.some.inj h).symm⟩
      obtain ⟨x, xs, h1, h2, rfl⟩ := dec h
      obtain ⟨y, ys, g1, g2, rfl⟩ := dec h'
      obtain ⟨i1, i2, i3⟩ := ih t' xs ys h2 g2 (by simpa using hl)
      have hxy : x ^^^ y = 0 ↔ c = c' := by
        rw [xor_eq_iff, Nat.xor_zero]
        constructor
        · rintro rfl; exact idx_inj h1 g1
        · rintro rfl; rw [h1] at g1; exact (Option.some.inj g1).symm
      simp only [List.zipWith_cons_cons]
      refine ⟨?_, ?_, ?_⟩
      · unfold hamming at i1 ⊢
        by_cases hc : c = c'
        · have hz := hxy.mpr hc
          simp only [List.zip_cons_cons, List.filter_cons, hz, ne_eq, not_true, decide_false,
            Bool.false_eq_true, if_false, hc, bne_self_eq_false]
          exact i1
        · have hz : x ^^^ y ≠ 0 := fun h => hc (hxy.mp h)
          have hb : (c != c') = true := by simpa using hc
          simp only [List.zip_cons_cons, List.filter_cons, hz, ne_eq, not_false_eq_true,
            decide_true, if_true, hb, List.length_cons]
          exact congrArg (· + 1) i1
      · intro hne
        by_cases hc : c = c'
        · obtain ⟨z, hz, hz0⟩ := i2 fun he => hne (by rw [hc, he])
          exact ⟨z, List.mem_cons_of_mem _ hz, hz0⟩
        · exact ⟨_, List.mem_cons_self, fun h => hc (hxy.mp h)⟩
      · intro z hz
        rcases List.mem_cons.mp hz with rfl | hz
        · exact Nat.xor_lt_two_pow (n := 5) (charset_idx h1).1 (charset_idx g1).1
        · exact i3 z hz

private theorem decode_extract {hrp t : Str} {p : Str × List Nat} (ht : ∀ c ∈ t, c ∈ bech32Chars)
    (h : bech32Decode (hrp ++ '1' :: t) = some p) :
    ∃ d, charsetData t = some d ∧ t.length ≤ 88 ∧
      pmFrom (pmFrom 1 (bech32HrpExpand (hrp.map Char.toLower))) d = 1 := by
  have hlow : t.map Char.toLower = t := by
    conv_rhs => rw [← List.map_id t]
    exact List.map_congr_left fun c hc => (charset_spec c (ht c hc)).2.1
  have hl1 : '1'.toLower = '1' := by decide
  unfold bech32Decode at h
  split at h
  · cases h
  simp only [List.map_append, List.map_cons, hlow, hl1] at h
  rw [rfindOne_append fun c hc => (charset_spec c (ht c hc)).1] at h
  simp only [] at h
  split at h
  · cases h
  rename_i hc
  simp only [Bool.or_eq_true, decide_eq_true_eq, not_or, not_lt, gt_iff_lt,
    List.length_append, List.length_map, List.length_cons] at hc
  have hd : (hrp.map Char.toLower ++ '1' :: t).drop ((hrp.map Char.toLower).length + 1) = t := by
    rw [show hrp.map Char.toLower ++ '1' :: t = (hrp.map Char.toLower ++ ['1']) ++ t by simp]
    rw [List.drop_left' (by simp)]
  rw [hd, List.take_left' rfl] at h
  cases hcd : charsetData t with
  | none => rw [hcd] at h; cases h
  | some d =>
    rw [hcd] at h
    simp only [] at h
    split at h
    · rename_i hv
      refine ⟨d, rfl, by omega, ?_⟩
      simp only [bech32VerifyChecksum, beq_iff_eq, bech32Polymod_eq, pmFrom_append] at hv
      exact hv
    · cases h

/-- C09. Replacing between one and four data characters of a valid Bech32 string by other
characters of the alphabet always gives an invalid string. -/
theorem C09_four_errors_detected (hrp t t' : Str) (p : Str × List Nat)
    (hvalid : bech32Decode (hrp ++ '1' :: t) = some p)
    (ht : ∀ c ∈ t, c ∈ bech32Chars) (ht' : ∀ c ∈ t', c ∈ bech32Chars)
    (hlen : t'.length = t.length) (hne : t' ≠ t) (hdist : hamming t t' ≤ 4) :
    bech32Decode (hrp ++ '1' :: t') = none := by
  cases h' : bech32Decode (hrp ++ '1' :: t') with
  | none => rfl
  | some p' =>
    exfalso
    obtain ⟨d, e1, e2, e3⟩ := decode_extract ht hvalid
    obtain ⟨d', g1, g2, g3⟩ := decode_extract ht' h'
    obtain ⟨i1, i2, i3⟩ := error_vector t t' d d' e1 g1 hlen
    have hl : d.length = d'.length := by
      rw [(charsetData_some e1).2.2, (charsetData_some g1).2.2, hlen]
    have hz := pmFrom_xor d d' (pmFrom 1 (bech32HrpExpand (hrp.map Char.toLower)))
      (pmFrom 1 (bech32HrpExpand (hrp.map Char.toLower))) hl
    rw [e3, g3, Nat.xor_self, Nat.xor_self, pmFrom_zero_eq] at hz
    refine synR_ne_zero Ecc.tableOk _ ?_ ?_ ?_ ?_ hz
    · intro x hx; exact i3 x (List.mem_reverse.mp hx)
    · rw [List.length_reverse, List.length_zipWith, (charsetData_some e1).2.2]
      exact le_trans (Nat.min_le_left _ _) e2
    · rw [List.filter_reverse, List.length_reverse, i1]; exact hdist
    · obtain ⟨x, hx, hx0⟩ := i2 hne
      exact ⟨x, List.mem_reverse.mpr hx, hx0⟩

/-- four replaced characters in an address of the BIP -/
example : bech32Decode (str "bc1qar0srrr7xfkvy5l643lydnw9re59gtzzwf0000") = none :=
  C09_four_errors_detected (str "bc") (str "qar0srrr7xfkvy5l643lydnw9re59gtzzwf5mdq")
    (str "qar0srrr7xfkvy5l643lydnw9re59gtzzwf0000") _
    (by rw [show str "bc" ++ '1' :: str "qar0srrr7xfkvy5l643lydnw9re59gtzzwf5mdq" =
          str "bc1qar0srrr7xfkvy5l643lydnw9re59gtzzwf5mdq" from by decide +kernel]
        exact (by decide +kernel : bech32Decode (str "bc1qar0srrr7xfkvy5l643lydnw9re59gtzzwf5mdq") =
          some (str "bc", [0, 29, 3, 15, 16, 3, 3, 3, 30, 6, 9, 22, 12, 4, 20, 31, 26, 21, 17, 31,
            4, 13, 19, 14, 5, 3, 25, 20, 5, 8, 11, 2, 2])))
    (by decide +kernel) (by decide +kernel) (by decide +kernel) (by decide +kernel)
    (by decide +kernel)

/-- C09. One wrong value is detected by the checksum at any length (no 90 character limit). -/
theorem C09_single_error_any_length (hrp : Str) (a b : List Nat) (x y : Nat)
    (hx : x < 32) (hy : y < 32) (hxy : x ≠ y)
    (hvalid : bech32VerifyChecksum hrp (a ++ x :: b) = true) :
    bech32VerifyChecksum hrp (a ++ y :: b) = false := by
  by_contra hc
  have hc : bech32VerifyChecksum hrp (a ++ y :: b) = true := by simpa using hc
  simp only [bech32VerifyChecksum, beq_iff_eq, bech32Polymod_eq, pmFrom_append] at hvalid hc
  rw [← pmFrom_append] at hvalid hc
  have hz := pmFrom_xor (a ++ x :: b) (a ++ y :: b) (pmFrom 1 (bech32HrpExpand hrp))
      (pmFrom 1 (bech32HrpExpand hrp)) (by simp)
  rw [hvalid, hc, Nat.xor_self, Nat.xor_self, pmFrom_zero_eq] at hz
  have hself : ∀ l : List Nat, List.zipWith (· ^^^ ·) l l = List.replicate l.length 0 := by
    intro l
    induction l with
    | nil => rfl
    | cons v l ih => simp [List.replicate_succ]
  have hn : x ^^^ y ≠ 0 := fun h => hxy (by
    have := (xor_eq_iff _ _ _).mp h
    simpa using this.symm)
  rw [List.zipWith_append (by rfl), List.zipWith_cons_cons, hself, hself] at hz
  refine synR_single _ ?_ ?_ hz
  · intro v hv
    rw [List.mem_reverse] at hv
    simp only [List.mem_append, List.mem_replicate, List.mem_cons] at hv
    rcases hv with ⟨_, rfl⟩ | rfl | ⟨_, rfl⟩
    · norm_num
    · exact Nat.xor_lt_two_pow (n := 5) hx hy
    · norm_num
  · rw [List.filter_reverse, List.length_reverse, List.filter_append, List.filter_cons]
    simp [hn]

/-- the BIP-173 vector "a12uel5l", one value changed -/
example : bech32VerifyChecksum (str "a") [10, 28, 25, 7, 20, 31] = false :=
  C09_single_error_any_length (str "a") [10, 28, 25] [20, 31] 31 7 (by decide) (by decide)
    (by decide) (by decide +kernel)

/-- C09. A valid address of one network never becomes valid for the other one by changing its prefix, not even with up to
two wrong characters besides (87 characters after the prefix, at the very limit of 90, are left out; the longest segwit
address has 71). -/
theorem C09_other_network (hrp hrp' t t' : Str) (p : Str × List Nat)
    (hp : (hrp = ['b', 'c'] ∧ hrp' = ['t', 'b']) ∨ (hrp = ['t', 'b'] ∧ hrp' = ['b', 'c']))
    (hvalid : bech32Decode (hrp ++ '1' :: t) = some p)
    (ht : ∀ c ∈ t, c ∈ bech32Chars) (ht' : ∀ c ∈ t', c ∈ bech32Chars)
    (hlen : t'.length = t.length) (hdist : hamming t t' ≤ 2) (hshort : t.length ≤ 86) :
    bech32Decode (hrp' ++ '1' :: t') = none := by
  cases h' : bech32Decode (hrp' ++ '1' :: t') with
  | none => rfl
  | some p' =>
    exfalso
    obtain ⟨d, e1, e2, e3⟩ := decode_extract ht hvalid
    obtain ⟨d', g1, g2, g3⟩ := decode_extract ht' h'
    obtain ⟨i1, i2, i3⟩ := error_vector t t' d d' e1 g1 hlen
    have hl : d.length = d'.length := by
      rw [(charsetData_some e1).2.2, (charsetData_some g1).2.2, hlen]
    have hz := pmFrom_xor d d' (pmFrom 1 (bech32HrpExpand (hrp.map Char.toLower)))
      (pmFrom 1 (bech32HrpExpand (hrp'.map Char.toLower))) hl
    have hx : pmFrom 1 (bech32HrpExpand (hrp.map Char.toLower)) ^^^ pmFrom 1 (bech32HrpExpand (hrp'.map Char.toLower)) =
        pmFrom 0 [22, 1] := by
      rcases hp with ⟨rfl, rfl⟩ | ⟨rfl, rfl⟩ <;> decide +kernel
    rw [e3, g3, Nat.xor_self, hx, ← pmFrom_append, pmFrom_zero_eq] at hz
    refine synR_ne_zero Ecc.tableOk _ ?_ ?_ ?_ ?_ hz
    · intro x hx
      rcases List.mem_append.mp (List.mem_reverse.mp hx) with hx | hx
      · simp only [List.mem_cons, List.not_mem_nil, or_false] at hx
        omega
      · exact i3 x hx
    · rw [List.length_reverse, List.length_append, List.length_zipWith, (charsetData_some e1).2.2]
      have : min t.length d'.length ≤ t.length := Nat.min_le_left _ _
      simp only [List.length_cons, List.length_nil]
      omega
    · rw [List.filter_reverse, List.length_reverse, List.filter_append, List.length_append, i1]
      have : (([22, 1] : List Nat).filter (· ≠ 0)).length = 2 := rfl
      omega
    · exact ⟨22, by simp, by decide⟩

/-- an address of the BIP with the prefix of the test network -/
example : bech32Decode (str "tb1qar0srrr7xfkvy5l643lydnw9re59gtzzwf5mdq") = none :=
  C09_other_network (str "bc") (str "tb") (str "qar0srrr7xfkvy5l643lydnw9re59gtzzwf5mdq")
    (str "qar0srrr7xfkvy5l643lydnw9re59gtzzwf5mdq") _ (by decide +kernel)
    (by rw [show str "bc" ++ '1' :: str "qar0srrr7xfkvy5l643lydnw9re59gtzzwf5mdq" =
          str "bc1qar0srrr7xfkvy5l643lydnw9re59gtzzwf5mdq" from by decide +kernel]
        exact (by decide +kernel : bech32Decode (str "bc1qar0srrr7xfkvy5l643lydnw9re59gtzzwf5mdq") =
          some (str "bc", [0, 29, 3, 15, 16, 3, 3, 3, 30, 6, 9, 22, 12, 4, 20, 31, 26, 21, 17, 31,
            4, 13, 19, 14, 5, 3, 25, 20, 5, 8, 11, 2, 2])))
    (by decide +kernel) (by decide +kernel) (by decide +kernel) (by decide +kernel)
    (by decide +kernel)

/-- C09. Exchanging two different data characters of a valid Bech32 string always gives an invalid string. -/
theorem C09_exchanged (hrp a b c : Str) (x y : Char) (p : Str × List Nat)
    (hvalid : bech32Decode (hrp ++ '1' :: (a ++ x :: b ++ y :: c)) = some p)
    (ht : ∀ z ∈ a ++ x :: b ++ y :: c, z ∈ bech32Chars) (hxy : x ≠ y) :
    bech32Decode (hrp ++ '1' :: (a ++ y :: b ++ x :: c)) = none := by
  have hself : ∀ l : Str, (l.zip l).filter (fun q => q.1 != q.2) = [] := by
    intro l
    induction l with
    | nil => rfl
    | cons z l ih => simp [ih]
  refine C09_four_errors_detected hrp _ _ p hvalid ht ?_ (by simp) ?_ ?_
  · intro z hz
    refine ht z ?_
    simp only [List.mem_append, List.mem_cons] at hz ⊢
    tauto
  · intro h
    simp only [List.append_assoc, List.cons_append] at h
    exact hxy (List.cons.inj (List.append_cancel_left h)).1.symm
  · unfold hamming
    rw [List.zip_append (by simp), List.zip_append (by simp), List.zip_cons_cons, List.zip_cons_cons]
    simp only [List.filter_append, List.filter_cons, hself, List.length_append, List.length_nil]
    split <;> split <;> simp

/-- two characters of an address of the BIP exchanged -/
example : bech32Decode (str "bc1qra0srrr7xfkvy5l643lydnw9re59gtzzwf5mdq") = none :=
  C09_exchanged (str "bc") (str "q") [] (str "0srrr7xfkvy5l643lydnw9re59gtzzwf5mdq") 'a' 'r' _
    (by rw [show str "bc" ++ '1' :: (str "q" ++ 'a' :: [] ++ 'r' :: str "0srrr7xfkvy5l643lydnw9re59gtzzwf5mdq") =
          str "bc1qar0srrr7xfkvy5l643lydnw9re59gtzzwf5mdq" from by decide +kernel]
        exact (by decide +kernel : bech32Decode (str "bc1qar0srrr7xfkvy5l643lydnw9re59gtzzwf5mdq") =
          some (str "bc", [0, 29, 3, 15, 16, 3, 3, 3, 30, 6, 9, 22, 12, 4, 20, 31, 26, 21, 17, 31,
            4, 13, 19, 14, 5, 3, 25, 20, 5, 8, 11, 2, 2])))
    (by decide +kernel) (by decide)

end Bit
