import Verif.Lemmas.Bech32
import Verif.Props.ConvertBits
import Verif.Concrete.Crypto
/-
Properties C06, C07, C08, C10: Bech32 text and segwit addresses.
-/
namespace Bit
open Concrete Spec

/-! ## C06 -/

private theorem any_false_of {s : Str} (h : ∀ c ∈ s, 33 ≤ c.toNat ∧ c.toNat ≤ 126) :
    s.any (fun x => x.toNat < 33 || x.toNat > 126) = false := by
  rw [List.any_eq_false]
  intro c hc
  have := h c hc
  simp; omega

/-- C06. Text round trip: for a nonempty human-readable part of printable ASCII characters other
than upper-case letters, and 5-bit data, such that the total length is at most 90, encoding
succeeds with a string of that length and decoding it returns exactly the part and the data. -/
theorem C06_bech32_roundtrip (hrp : Str) (data : List Nat) (hne : hrp ≠ [])
    (hchars : ∀ c ∈ hrp, 33 ≤ c.toNat ∧ c.toNat ≤ 126 ∧ ¬ (65 ≤ c.toNat ∧ c.toNat ≤ 90))
    (hdata : ∀ d ∈ data, d < 32) (hlen : hrp.length + 1 + data.length + 6 ≤ 90) :
    ∃ s, bech32Encode hrp data = .ok s ∧ s.length = hrp.length + 1 + data.length + 6 ∧
      (∃ t, s = hrp ++ '1' :: t) ∧ bech32Decode s = some (hrp, data) := by
  have hall : ∀ d ∈ data ++ bech32CreateChecksum hrp data, d < 32 := by
    intro d hd
    rcases List.mem_append.mp hd with h | h
    · exact hdata d h
    · exact createChecksum_lt hrp data d h
  obtain ⟨t, h1, h2, h3, h4⟩ := charsetText_ok hall
  have htl : t.length = data.length + 6 := by simp [h3, createChecksum_length]
  refine ⟨hrp ++ '1' :: t, by simp [bech32Encode, h1], by simp [htl]; omega, ⟨t, rfl⟩, ?_⟩
  have hchars' : ∀ c ∈ hrp ++ '1' :: t, (33 ≤ c.toNat ∧ c.toNat ≤ 126) ∧ c.toLower = c := by
    intro c hc
    simp only [List.mem_append, List.mem_cons] at hc
    rcases hc with h | rfl | h
    · obtain ⟨a, b, u⟩ := hchars c h
      exact ⟨⟨a, b⟩, toLower_of_ne_upper u⟩
    · decide
    · obtain ⟨_, a, b, c'⟩ := h4 c h
      exact ⟨⟨a, b⟩, c'⟩
  have hlow : (hrp ++ '1' :: t).map Char.toLower = hrp ++ '1' :: t := by
    conv_rhs => rw [← List.map_id (hrp ++ '1' :: t)]
    exact List.map_congr_left fun c hc => (hchars' c hc).2
  unfold bech32Decode
  rw [any_false_of fun c hc => (hchars' c hc).1, hlow]
  have hpos := rfindOne_append (a := hrp) (b := t) (fun c hc => (h4 c hc).1)
  have hhl : 0 < hrp.length := List.length_pos_iff.mpr hne
  simp only [bne_self_eq_false, Bool.false_and, Bool.or_false, Bool.false_eq_true, if_false, hpos]
  have hc1 : ¬ (hrp.length < 1) := by omega
  have hc2 : ¬ (hrp.length + 7 > (hrp ++ '1' :: t).length) := by simp [htl]
  have hc3 : ¬ ((hrp ++ '1' :: t).length > 90) := by simp [htl]; omega
  simp only [hc1, hc2, hc3, decide_false, Bool.or_false, Bool.false_eq_true, if_false]
  have hd : (hrp ++ '1' :: t).drop (hrp.length + 1) = t := by
    rw [show hrp ++ '1' :: t = (hrp ++ ['1']) ++ t by simp]
    rw [List.drop_left' (by simp)]
  have ht : (hrp ++ '1' :: t).take hrp.length = hrp := List.take_left' rfl
  rw [hd, h2, ht]
  have hv := (verify_iff hrp data _ hdata (createChecksum_length hrp data)
    (createChecksum_lt hrp data)).mpr rfl
  simp [hv, dropLast', createChecksum_length]

example : ∃ s, bech32Encode (str "tb") [0, 31, 5, 17] = .ok s ∧ s.length = 13 ∧
    (∃ t, s = str "tb" ++ '1' :: t) ∧ bech32Decode s = some (str "tb", [0, 31, 5, 17]) :=
  C06_bech32_roundtrip _ _ (by decide) (by decide) (by decide) (by decide)

/-- C06, converse: an accepted string is, in lower case, the encoding of what it decodes to; the
decoded part is nonempty, the data are 5-bit values and the length is at most 90. -/
theorem C06_bech32_canonical {s : Str} {hrp : Str} {data : List Nat}
    (h : bech32Decode s = some (hrp, data)) :
    bech32Encode hrp data = .ok (s.map Char.toLower) ∧ hrp ≠ [] ∧ (∀ d ∈ data, d < 32) ∧
      s.length ≤ 90 ∧ s.length = hrp.length + 1 + data.length + 6 := by
  unfold bech32Decode at h
  split at h
  · cases h
  simp only [] at h
  cases hp : rfindOne (s.map Char.toLower) with
  | none => rw [hp] at h; cases h
  | some pos =>
    rw [hp] at h
    simp only [] at h
    split at h
    · cases h
    rename_i hc
    simp only [Bool.or_eq_true, decide_eq_true_eq, not_or, not_lt, gt_iff_lt,
      List.length_map] at hc
    obtain ⟨⟨hc1, hc2⟩, hc3⟩ := hc
    obtain ⟨hlt, hsplit⟩ := rfindOne_some hp
    simp only [List.length_map] at hlt
    cases hd : charsetData ((s.map Char.toLower).drop (pos + 1)) with
    | none => rw [hd] at h; cases h
    | some full =>
      rw [hd] at h
      simp only [] at h
      split at h
      · rename_i hv
        simp only [Option.some.injEq, Prod.mk.injEq] at h
        obtain ⟨hh, hdat⟩ := h
        obtain ⟨d1, d2, d3⟩ := charsetData_some hd
        have hfl : full.length = s.length - (pos + 1) := by rw [d3]; simp
        have hge : 6 ≤ full.length := by omega
        have hfull : full = data ++ full.drop (full.length - 6) := by
          rw [← hdat, dropLast', List.take_append_drop]
        have hcl : (full.drop (full.length - 6)).length = 6 := by
          rw [List.length_drop]; omega
        have hdl : ∀ d ∈ data, d < 32 := fun d hm => d1 d (by rw [hfull]; simp [hm])
        rw [hh] at hv hsplit
        have hcs : full.drop (full.length - 6) = bech32CreateChecksum hrp data := by
          rw [hfull] at hv
          rw [← verify_iff hrp data _ hdl hcl
            (fun d hm => d1 d (List.mem_of_mem_drop hm))]
          exact hv
        have hdatl : data.length = full.length - 6 := by
          rw [← hdat]; simp [dropLast']
        have hhl : hrp.length = pos := by rw [← hh]; simp; omega
        refine ⟨?_, ?_, hdl, hc3, by omega⟩
        · unfold bech32Encode
          rw [← hcs, ← hfull, d2]
          conv_rhs => rw [hsplit]
        · intro he; rw [he] at hhl; simp at hhl; omega
      · cases h

/-- a BIP-173 test vector -/
example : bech32Decode (str "split1checkupstagehandshakeupstreamerranterredcaperred2y9e3w") ≠ none := by
  decide +kernel

/-! ## C10 -/

private theorem tab : ∀ n : Fin 94,
    let c := Char.ofNat (n.val + 33)
    c.toLower.toUpper = c.toUpper ∧ c.toUpper.toLower = c.toLower ∧
    c.toUpper.toUpper = c.toUpper ∧
    (33 ≤ c.toUpper.toNat ∧ c.toUpper.toNat ≤ 126) ∧
    (33 ≤ c.toLower.toNat ∧ c.toLower.toNat ≤ 126) ∧
    ((97 ≤ c.toNat ∧ c.toNat ≤ 122) → c.toUpper ≠ c) ∧
    ((65 ≤ c.toNat ∧ c.toNat ≤ 90) → c.toLower ≠ c) := by decide +kernel

private theorem tabC {c : Char} (h : 33 ≤ c.toNat ∧ c.toNat ≤ 126) :
    c.toUpper.toLower = c.toLower ∧ c.toUpper.toUpper = c.toUpper ∧
    (33 ≤ c.toUpper.toNat ∧ c.toUpper.toNat ≤ 126) ∧
    ((97 ≤ c.toNat ∧ c.toNat ≤ 122) → c.toUpper ≠ c) ∧
    ((65 ≤ c.toNat ∧ c.toNat ≤ 90) → c.toLower ≠ c) := by
  have := tab ⟨c.toNat - 33, by omega⟩
  simp only [show c.toNat - 33 + 33 = c.toNat by omega, Char.ofNat_toNat] at this
  exact ⟨this.2.1, this.2.2.1, this.2.2.2.1, this.2.2.2.2.2.1, this.2.2.2.2.2.2⟩

/-- C10. A string without upper-case letters decodes to the same result in upper case (printable
ASCII strings; any other string is refused). -/
theorem C10_upper_case_same (s : Str) (hs : ∀ c ∈ s, ¬ (65 ≤ c.toNat ∧ c.toNat ≤ 90))
    (ha : ∀ c ∈ s, 33 ≤ c.toNat ∧ c.toNat ≤ 126) :
    bech32Decode (s.map Char.toUpper) = bech32Decode s := by
  have hlow : s.map Char.toLower = s := by
    conv_rhs => rw [← List.map_id s]
    exact List.map_congr_left fun c hc => toLower_of_ne_upper (hs c hc)
  have e1 : (s.map Char.toUpper).map Char.toLower = s := by
    rw [List.map_map]
    conv_rhs => rw [← hlow]
    exact List.map_congr_left fun c hc => (tabC (ha c hc)).1
  have e2 : (s.map Char.toUpper).map Char.toUpper = s.map Char.toUpper := by
    rw [List.map_map]
    exact List.map_congr_left fun c hc => (tabC (ha c hc)).2.1
  have e3 : ∀ c ∈ s.map Char.toUpper, 33 ≤ c.toNat ∧ c.toNat ≤ 126 := by
    intro c hc
    obtain ⟨d, hd, rfl⟩ := List.mem_map.mp hc
    exact (tabC (ha d hd)).2.2.1
  unfold bech32Decode
  rw [any_false_of ha, any_false_of e3, e1, e2, hlow]
  simp

example : bech32Decode ((str "bc1qar0srrr7xfkvy5l643lydnw9re59gtzzwf5mdq").map Char.toUpper) =
    bech32Decode (str "bc1qar0srrr7xfkvy5l643lydnw9re59gtzzwf5mdq") :=
  C10_upper_case_same _ (by decide +kernel) (by decide +kernel)

/-- C10. A string with both an upper-case and a lower-case letter is refused. -/
theorem C10_mixed_case_refused (s : Str) (hu : ∃ c ∈ s, 65 ≤ c.toNat ∧ c.toNat ≤ 90)
    (hl : ∃ c ∈ s, 97 ≤ c.toNat ∧ c.toNat ≤ 122) : bech32Decode s = none := by
  obtain ⟨u, hu1, hu2⟩ := hu
  obtain ⟨l, hl1, hl2⟩ := hl
  have f : ∀ (g : Char → Char) (c : Char), c ∈ s → g c ≠ c → s.map g ≠ s := by
    intro g c hc hne he
    have : s.map g = s.map id := by rw [he, List.map_id]
    exact hne (List.map_inj_left.mp this c hc)
  have h1 := f Char.toLower u hu1 ((tabC (by omega)).2.2.2.2 hu2)
  have h2 := f Char.toUpper l hl1 ((tabC (by omega)).2.2.2.1 hl2)
  unfold bech32Decode
  simp [h1, h2]

/-- C10. A string with a character outside printable ASCII is refused. -/
theorem C10_non_ascii_refused (s : Str) (h : ∃ c ∈ s, c.toNat < 33 ∨ 126 < c.toNat) :
    bech32Decode s = none := by
  obtain ⟨c, hc, h⟩ := h
  have : s.any (fun x => x.toNat < 33 || x.toNat > 126) = true :=
    List.any_eq_true.mpr ⟨c, hc, by simpa using h⟩
  unfold bech32Decode
  simp [this]

/-! ## C07, C08 -/

/-- The prefixes of the three networks. -/
private theorem hrp_cases {hrp : Str} (h : hrp = str "bc" ∨ hrp = str "tb" ∨ hrp = str "bcrt") :
    bech32VersionSet.contains hrp = true ∧ hrp ≠ [] ∧ hrp.length ≤ 4 ∧
    (∀ c ∈ hrp, 33 ≤ c.toNat ∧ c.toNat ≤ 126 ∧ ¬ (65 ≤ c.toNat ∧ c.toNat ≤ 90)) := by
  rcases h with rfl | rfl | rfl <;> decide

private theorem hrp_of_contains {hrp : Str} (h : bech32VersionSet.contains hrp = true) :
    hrp = str "bc" ∨ hrp = str "tb" ∨ hrp = str "bcrt" := by
  simp [bech32VersionSet, bech32MainVersionSet, bech32TestVersionSet] at h
  exact h

/-- C07. What can be encoded decodes to itself: for every network prefix, version 0..16 and program
of 2..40 bytes (20 or 32 for version 0). -/
theorem C07_segwit_roundtrip (hrp : Str) (v : Nat) (prog : List Nat)
    (hh : hrp = str "bc" ∨ hrp = str "tb" ∨ hrp = str "bcrt") (hv : v ≤ 16)
    (hb : ∀ x ∈ prog, x < 256) (hl : 2 ≤ prog.length ∧ prog.length ≤ 40)
    (h0 : v = 0 → prog.length = 20 ∨ prog.length = 32) :
    ∃ s, segwitEncode hrp v prog = .ok (some s) ∧ (∃ t, s = hrp ++ '1' :: t) ∧
      segwitDecode s = some (v, prog) := by
  obtain ⟨c1, c2, c3, c4⟩ := hrp_cases hh
  obtain ⟨r, h1, h2, h3, _⟩ := C11_regroup_pad prog hb
  obtain ⟨r', g1, g2⟩ := C11_regroup_roundtrip prog hb
  have : r' = r := by rw [g1] at h1; exact Option.some.inj h1
  subst this
  obtain ⟨s, s1, s2, s3, s4⟩ := C06_bech32_roundtrip hrp (v :: r') c2 c4 (by
    intro d hd
    rcases List.mem_cons.mp hd with rfl | hd
    · omega
    · exact h2 d hd) (by simp; omega)
  have hdec : segwitDecode s = some (v, prog) := by
    unfold segwitDecode
    rw [s4]
    have e1 : ¬ (prog.length < 2) := by omega
    have e2 : ¬ (prog.length > 40) := by omega
    have e3 : ¬ (v > 16) := by omega
    have e4 : (v == 0 && prog.length != 20 && prog.length != 32) = false := by
      by_cases hv0 : v = 0
      · rcases h0 hv0 with h | h <;> simp [h]
      · simp [hv0]
    simp only [c1, Bool.not_true, Bool.false_eq_true, if_false, List.drop_succ_cons, List.drop_zero,
      g2, e1, e2, decide_false, Bool.or_false, e3, e4]
  refine ⟨s, ?_, s3, hdec⟩
  unfold segwitEncode
  rw [h1]
  simp [s1, hdec]

example : ∃ s, segwitEncode (str "bcrt") 1 (List.replicate 32 7) = .ok (some s) ∧
    (∃ t, s = str "bcrt" ++ '1' :: t) ∧ segwitDecode s = some (1, List.replicate 32 7) :=
  C07_segwit_roundtrip _ _ _ (by decide) (by decide) (by decide) (by decide) (by decide)

/-- C07. Every other version (up to 31) or program length gives `None`, never an address. -/
theorem C07_segwit_encode_none (hrp : Str) (v : Nat) (prog : List Nat)
    (hh : hrp = str "bc" ∨ hrp = str "tb" ∨ hrp = str "bcrt") (hv32 : v < 32)
    (hb : ∀ x ∈ prog, x < 256)
    (hbad : 16 < v ∨ prog.length < 2 ∨ 40 < prog.length ∨
      (v = 0 ∧ prog.length ≠ 20 ∧ prog.length ≠ 32)) :
    segwitEncode hrp v prog = .ok none := by
  obtain ⟨c1, c2, c3, c4⟩ := hrp_cases hh
  obtain ⟨r, h1, h2, h3, _⟩ := C11_regroup_pad prog hb
  obtain ⟨r', g1, g2⟩ := C11_regroup_roundtrip prog hb
  have : r' = r := by rw [g1] at h1; exact Option.some.inj h1
  subst this
  have hd32 : ∀ d ∈ v :: r', d < 32 := by
    intro d hd
    rcases List.mem_cons.mp hd with rfl | hd
    · exact hv32
    · exact h2 d hd
  unfold segwitEncode
  rw [h1]
  simp only []
  by_cases hlen : hrp.length + 1 + (v :: r').length + 6 ≤ 90
  · obtain ⟨s, s1, s2, s3, s4⟩ := C06_bech32_roundtrip hrp (v :: r') c2 c4 hd32 hlen
    rw [s1]
    have : segwitDecode s = none := by
      unfold segwitDecode
      rw [s4]
      simp only [c1, Bool.not_true, Bool.false_eq_true, if_false, List.drop_succ_cons,
        List.drop_zero, g2]
      split
      · rfl
      · rename_i hc
        simp only [Bool.or_eq_true, decide_eq_true_eq, not_or, not_lt] at hc
        rcases hbad with h | h | h | ⟨hz, ha, hb'⟩
        · simp [h]
        · omega
        · omega
        · subst hz; simp [ha, hb']
    simp [this]
  · -- too long for any Bech32 string
    obtain ⟨t, t1, t2, t3, t4⟩ := charsetText_ok (l := (v :: r') ++ bech32CreateChecksum hrp (v :: r')) (by
      intro d hd
      rcases List.mem_append.mp hd with h | h
      · exact hd32 d h
      · exact createChecksum_lt _ _ d h)
    have he : bech32Encode hrp (v :: r') = .ok (hrp ++ '1' :: t) := by
      unfold bech32Encode; rw [t1]
    rw [he]
    have : segwitDecode (hrp ++ '1' :: t) = none := by
      cases hdec : bech32Decode (hrp ++ '1' :: t) with
      | none => unfold segwitDecode; rw [hdec]
      | some p =>
        obtain ⟨hh', dd⟩ := p
        have := (C06_bech32_canonical hdec).2.2.2.1
        simp [t3, createChecksum_length] at this
        simp at hlen
        omega
    simp [this]

example : segwitEncode (str "bc") 0 (List.replicate 25 1) = .ok none :=
  C07_segwit_encode_none _ _ _ (by decide) (by decide) (by decide) (by decide)

/-- C07. Ill-typed arguments raise: a program element that is not a byte gives `TypeError`, a
version of 32 or more `IndexError`. -/
theorem C07_segwit_encode_raises (hrp : Str) (v : Nat) (prog : List Nat) :
    ((∃ x ∈ prog, 256 ≤ x) → segwitEncode hrp v prog = .error .typeError) ∧
    ((∀ x ∈ prog, x < 256) → 32 ≤ v → segwitEncode hrp v prog = .error .indexError) := by
  constructor
  · intro h
    unfold segwitEncode
    rw [C11_refuses_wide prog 8 5 true (by simpa using h)]
  · intro hb hv
    obtain ⟨r, h1, _⟩ := C11_regroup_pad prog hb
    unfold segwitEncode bech32Encode
    rw [h1]
    simp only []
    rw [charsetText_error ⟨v, by simp, hv⟩]

/-- C08. Canonicity: a string that decodes as segwit address belongs to one of the three
prefixes, satisfies the length rules, and is, in lower case, the encoding of its version and
program under its prefix. -/
theorem C08_segwit_canonical {s : Str} {v : Nat} {prog : List Nat}
    (h : segwitDecode s = some (v, prog)) :
    ∃ hrp, (hrp = str "bc" ∨ hrp = str "tb" ∨ hrp = str "bcrt") ∧
      (∃ t, s.map Char.toLower = hrp ++ '1' :: t) ∧
      segwitEncode hrp v prog = .ok (some (s.map Char.toLower)) ∧
      v ≤ 16 ∧ (2 ≤ prog.length ∧ prog.length ≤ 40) ∧ (∀ x ∈ prog, x < 256) ∧
      (v = 0 → prog.length = 20 ∨ prog.length = 32) := by
  unfold segwitDecode at h
  cases hb : bech32Decode s with
  | none => rw [hb] at h; cases h
  | some p =>
    obtain ⟨hrp, data⟩ := p
    rw [hb] at h
    simp only [] at h
    split at h
    · cases h
    rename_i hset
    have hset' : bech32VersionSet.contains hrp = true := by simpa using hset
    have hh := hrp_of_contains hset'
    cases hc : convertbits (data.drop 1) 5 8 false with
    | none => rw [hc] at h; cases h
    | some dec =>
      rw [hc] at h
      simp only [] at h
      split at h
      · cases h
      rename_i hlen
      simp only [Bool.or_eq_true, decide_eq_true_eq, not_or, not_lt] at hlen
      cases data with
      | nil => cases h
      | cons v' d =>
        simp only [] at h
        split at h
        · cases h
        rename_i hv
        split at h
        · cases h
        rename_i h0
        simp only [Option.some.injEq, Prod.mk.injEq] at h
        obtain ⟨rfl, rfl⟩ := h
        simp only [List.drop_succ_cons, List.drop_zero] at hc
        obtain ⟨_, hbytes, _⟩ := (C11_regroup_strict_iff _ _).mp hc
        have hpad := C11_strict_then_pad _ _ hc
        obtain ⟨e1, e2, e3, e4, _⟩ := C06_bech32_canonical hb
        have hzero : v' = 0 → dec.length = 20 ∨ dec.length = 32 := by
          intro hz
          subst hz
          simp at h0
          by_cases h20 : dec.length = 20
          · exact Or.inl h20
          · exact Or.inr (h0 h20)
        obtain ⟨s', q1, q2, q3⟩ := C07_segwit_roundtrip hrp v' dec hh (by omega) hbytes (by omega) hzero
        have hs' : s' = s.map Char.toLower := by
          unfold segwitEncode at q1
          rw [hpad] at q1
          simp only [e1] at q1
          split at q1
          · cases q1
          · injection q1 with q1; injection q1 with q1; exact q1.symm
        refine ⟨hrp, hh, ?_, ?_, by omega, by omega, hbytes, hzero⟩
        · rw [← hs']; exact q2
        · rw [q1, hs']

private theorem split_one : ∀ (a b x y : Str), '1' ∉ a → '1' ∉ b →
    a ++ '1' :: x = b ++ '1' :: y → a = b := by
  intro a
  induction a with
  | nil =>
    intro b x y _ hb he
    cases b with
    | nil => rfl
    | cons c b =>
      rw [List.nil_append, List.cons_append, List.cons.injEq] at he
      exact absurd (by rw [he.1]; simp) hb
  | cons d a ih =>
    intro b x y ha hb he
    cases b with
    | nil =>
      rw [List.nil_append, List.cons_append, List.cons.injEq] at he
      exact absurd (by rw [he.1]; simp) ha
    | cons c b =>
      rw [List.cons_append, List.cons_append, List.cons.injEq] at he
      rw [List.mem_cons, not_or] at ha hb
      rw [he.1, ih b x y ha.2 hb.2 he.2]

/-- C08. One lower-case address per script: two accepted strings with the same prefix before the
(first) separator, the same version and the same program agree up to case. -/
theorem C08_segwit_injective {s t hrp r r' : Str} {v : Nat} {prog : List Nat}
    (hs : segwitDecode s = some (v, prog)) (ht : segwitDecode t = some (v, prog))
    (hno : '1' ∉ hrp) (hps : s.map Char.toLower = hrp ++ '1' :: r)
    (hpt : t.map Char.toLower = hrp ++ '1' :: r') :
    s.map Char.toLower = t.map Char.toLower := by
  obtain ⟨h1, a1, ⟨t1, b1⟩, c1, _⟩ := C08_segwit_canonical hs
  obtain ⟨h2, a2, ⟨t2, b2⟩, c2, _⟩ := C08_segwit_canonical ht
  have no1 : ∀ h : Str, (h = str "bc" ∨ h = str "tb" ∨ h = str "bcrt") → '1' ∉ h := by
    rintro h (rfl | rfl | rfl) <;> decide
  have e1 := split_one _ _ _ _ (no1 h1 a1) hno (b1.symm.trans hps)
  have e2 := split_one _ _ _ _ (no1 h2 a2) hno (b2.symm.trans hpt)
  rw [e1] at c1
  rw [e2, c1] at c2
  injection c2 with c2
  injection c2

/-- the P2WPKH address of BIP-173 decodes -/
example : segwitDecode (str "BC1QW508D6QEJXTDG4Y5R3ZARVARY0C5XW7KV8F3T4") =
    some (0, [0x75, 0x1e, 0x76, 0xe8, 0x19, 0x91, 0x96, 0xd4, 0x54, 0x94, 0x1c, 0x45, 0xd1, 0xb3,
      0xa3, 0x23, 0xf1, 0x43, 0x3b, 0xd6]) := by decide +kernel

end Bit
