import Verif.Lemmas.JsonGrammar
import Verif.Spec.JsonPython
/-
What `jsonLoads` reads is a text of the grammar, for `Props/JsonSound`.
-/
namespace Bit

open Bit.Spec

theorem skipSpace_split (s : Str) : ∃ w, Blank w ∧ s = w ++ skipSpace s := by
  induction s with
  | nil => exact ⟨[], by simp [Blank], rfl⟩
  | cons c s ih =>
    rw [skipSpace]
    split
    · rename_i hc
      obtain ⟨w, hw, e⟩ := ih
      refine ⟨c :: w, ?_, by rw [List.cons_append, ← e]⟩
      intro d hd
      rcases List.mem_cons.mp hd with rfl | hd
      · exact hc
      · exact hw d hd
    · exact ⟨[], by simp [Blank], rfl⟩

theorem hexDigit_found {c : Char} {n : Nat} (h : hexVal c = some n) : HexDigit c n := by
  unfold hexVal at h
  unfold HexDigit
  have hlow : ∀ k : Nat, c.toNat = k → c = Char.ofNat k := by
    rintro k rfl
    exact (Char.ofNat_toNat c).symm
  have le_iff : ∀ a b : Char, a ≤ b ↔ a.toNat ≤ b.toNat := fun a b => Iff.rfl
  split at h
  · rename_i hc
    rw [le_iff, le_iff] at hc
    obtain ⟨h1, h2⟩ := hc
    have h1 : 48 ≤ c.toNat := h1
    have h2 : c.toNat ≤ 57 := h2
    injection h with h
    left
    obtain ⟨k, hk⟩ : ∃ k, c.toNat = k := ⟨_, rfl⟩
    rw [hlow k hk]
    rw [hk] at h h1 h2
    subst h
    interval_cases k <;> rfl
  · split at h
    · rename_i hc
      rw [le_iff, le_iff] at hc
      obtain ⟨h1, h2⟩ := hc
      have h1 : 97 ≤ c.toNat := h1
      have h2 : c.toNat ≤ 102 := h2
      injection h with h
      left
      obtain ⟨k, hk⟩ : ∃ k, c.toNat = k := ⟨_, rfl⟩
      rw [hlow k hk]
      rw [hk] at h h1 h2
      subst h
      interval_cases k <;> rfl
    · split at h
      · rename_i hc
        rw [le_iff, le_iff] at hc
        obtain ⟨h1, h2⟩ := hc
        have h1 : 65 ≤ c.toNat := h1
        have h2 : c.toNat ≤ 70 := h2
        injection h with h
        right
        obtain ⟨k, hk⟩ : ∃ k, c.toNat = k := ⟨_, rfl⟩
        rw [hlow k hk]
        rw [hk] at h h1 h2
        subst h
        interval_cases k <;> rfl
      · cases h

theorem hex4_sound {s rest : Str} {n : Nat} (h : hex4 s = some (n, rest)) : ∃ ds, s = ds ++ rest ∧ FourHex ds n := by
  unfold hex4 at h
  split at h
  · rename_i a b c d r
    split at h
    · rename_i w x y z ha hb hc hd
      injection h with h
      injection h with h1 h2
      subst h1 h2
      exact ⟨[a, b, c, d], rfl, a, b, c, d, w, x, y, z, rfl, hexDigit_found ha, hexDigit_found hb, hexDigit_found hc, hexDigit_found hd,
        by omega⟩
    · cases h
  · cases h

theorem scanString_sound : ∀ (fuel : Nat) {s v rest : Str}, scanString fuel s = some (v, rest) →
    ∃ t, s = t ++ '"' :: rest ∧ PyStringText t v
  | 0, _, _, _, h => by cases h
  | _ + 1, [], _, _, h => by cases h
  | fuel + 1, c :: cs, v, rest, h => by
    rw [scanString] at h
    split at h
    · rename_i hc
      injection h with h
      injection h with h1 h2
      subst h1 h2 hc
      exact ⟨[], rfl, .nil⟩
    · rename_i hq
      split at h
      · rename_i hc
        subst hc
        split at h
        · cases h
        · rename_i ch r he
          obtain ⟨⟨v', rest'⟩, hs, e⟩ := Option.map_eq_some_iff.mp h
          injection e with h1 h2
          subst h1 h2
          obtain ⟨t, rfl, ht⟩ := scanString_sound fuel hs
          unfold scanEscape at he
          split at he
          · cases he
          · rename_i e es
            split at he
            · rename_i hu
              subst hu
              unfold unicodeChar at he
              split at he
              · cases he
              · rename_i n r' h4
                obtain ⟨ds, rfl, hds⟩ := hex4_sound h4
                split at he
                · rename_i hn
                  split at he
                  · cases he
                  · rename_i m r'' h4'
                    split at he
                    · rename_i hm
                      injection he with he
                      injection he with h1 h2
                      subst h1 h2
                      unfold secondEscape at h4'
                      split at h4'
                      · obtain ⟨es, rfl, hes⟩ := hex4_sound h4'
                        refine ⟨'\\' :: 'u' :: ds ++ '\\' :: 'u' :: es ++ t, by simp, ?_⟩
                        exact PyStringText.pair hds hes ⟨hn.1, by omega⟩ ⟨hm.1, by omega⟩ ht
                      · cases h4'
                    · cases he
                · split at he
                  · cases he
                  · injection he with he
                    injection he with h1 h2
                    subst h1 h2
                    exact ⟨'\\' :: 'u' :: ds ++ t, by simp, .unicode hds (by omega) ht⟩
            · obtain ⟨ch', hsh, e'⟩ := Option.map_eq_some_iff.mp he
              injection e' with h1 h2
              subst h1 h2
              refine ⟨'\\' :: e :: t, rfl, .short ?_ ht⟩
              unfold shortEscape at hsh
              simp only [shortEscapes]
              repeat' split at hsh
              all_goals first
                | (rename_i hh; injection hsh with hsh; subst hh; subst hsh; decide)
                | (exfalso; cases hsh)
      · rename_i hb
        split at h
        · cases h
        · rename_i hl
          obtain ⟨⟨v', rest'⟩, hs, e⟩ := Option.map_eq_some_iff.mp h
          injection e with h1 h2
          subst h1 h2
          obtain ⟨t, rfl, ht⟩ := scanString_sound fuel hs
          exact ⟨c :: t, rfl, .plain (by omega) hq hb ht⟩

theorem spanDigits_sound : ∀ s : Str, s = (Dec.spanDigits s).1 ++ (Dec.spanDigits s).2 ∧
    ∀ c ∈ (Dec.spanDigits s).1, '0' ≤ c ∧ c ≤ '9'
  | [] => ⟨rfl, by simp [Dec.spanDigits]⟩
  | c :: cs => by
    obtain ⟨h1, h2⟩ := spanDigits_sound cs
    rw [Dec.spanDigits]
    split
    · rename_i hc
      refine ⟨by simp only [List.cons_append]; rw [← h1], ?_⟩
      intro d hd
      rcases List.mem_cons.mp hd with rfl | hd
      · exact (digit_iff _).mp hc
      · exact h2 d hd
    · exact ⟨rfl, by simp⟩

theorem takeMinus_sound (s : Str) : ∃ neg, (takeMinus s).1 = minus neg ∧ s = minus neg ++ (takeMinus s).2 := by
  unfold takeMinus
  split
  · exact ⟨true, rfl, rfl⟩
  · exact ⟨false, rfl, rfl⟩

theorem scanInt_sound {s int rest : Str} (h : scanInt s = some (int, rest)) :
    ∃ neg ds, int = minus neg ++ ds ∧ IntPart ds ∧ s = int ++ rest := by
  obtain ⟨neg, hm, hs⟩ := takeMinus_sound s
  unfold scanInt at h
  rw [hm] at h
  split at h
  · cases h
  · rename_i c cs hcs
    rw [hcs] at hs
    split at h
    · rename_i hc
      subst hc
      injection h with h
      injection h with h1 h2
      subst h1 h2
      refine ⟨neg, ['0'], rfl, ⟨⟨by simp, by simp⟩, fun _ => rfl⟩, ?_⟩
      rw [hs]
      simp
    · rename_i hz
      split at h
      · rename_i hc
        injection h with h
        injection h with h1 h2
        subst h1 h2
        obtain ⟨h1, h2⟩ := spanDigits_sound cs
        refine ⟨neg, c :: (Dec.spanDigits cs).1, rfl, ⟨⟨by simp, ?_⟩, ?_⟩, ?_⟩
        · intro d hd
          rcases List.mem_cons.mp hd with rfl | hd
          · exact (digit_iff _).mp ⟨by omega, by omega⟩
          · exact h2 d hd
        · intro hd
          injection hd with hd
          exact absurd hd hz
        · rw [List.append_assoc, List.cons_append, ← h1]
          exact hs
      · cases h

theorem scanFrac_sound (s : Str) : s = (scanFrac s).1 ++ (scanFrac s).2 ∧ ((scanFrac s).1 = [] ∨ FracPart (scanFrac s).1) := by
  unfold scanFrac
  split
  · rename_i t
    obtain ⟨h1, h2⟩ := spanDigits_sound t
    split
    · exact ⟨rfl, .inl rfl⟩
    · rename_i hne
      refine ⟨by simp only [List.cons_append]; rw [← h1], .inr ⟨_, rfl, ?_, h2⟩⟩
      intro e
      exact hne (by rw [e]; rfl)
  · exact ⟨rfl, .inl rfl⟩

theorem scanExp_sound (s : Str) : s = (scanExp s).1 ++ (scanExp s).2 ∧ ((scanExp s).1 = [] ∨ ExpPart (scanExp s).1) := by
  unfold scanExp
  split
  · exact ⟨rfl, .inl rfl⟩
  · rename_i e t
    split
    · rename_i he
      obtain ⟨h1, h2⟩ := spanDigits_sound (takeSign t).2
      have hs : t = (takeSign t).1 ++ (takeSign t).2 ∧
          ((takeSign t).1 = [] ∨ (takeSign t).1 = ['+'] ∨ (takeSign t).1 = ['-']) := by
        unfold takeSign
        split
        · exact ⟨rfl, .inr (.inr rfl)⟩
        · exact ⟨rfl, .inr (.inl rfl)⟩
        · exact ⟨rfl, .inl rfl⟩
      dsimp only
      split
      · exact ⟨rfl, .inl rfl⟩
      · rename_i hne
        refine ⟨?_, .inr ⟨e, (takeSign t).1, _, rfl, he, hs.2, ?_, h2⟩⟩
        · simp only [List.cons_append, List.append_assoc]
          rw [← h1, ← hs.1]
        · intro e
          exact hne (by rw [e]; rfl)
    · exact ⟨rfl, .inl rfl⟩

variable (readFloat : Str → PyFloat)

theorem scanNumber_sound {s rest : Str} {j : Json} (h : scanNumber readFloat s = some (j, rest)) :
    ∃ t, s = t ++ rest ∧ PyValueText readFloat t j := by
  unfold scanNumber at h
  split at h
  · unfold scanConstant at h
    split at h
    · injection h with h
      injection h with h1 h2
      subst h1 h2
      exact ⟨_, rfl, .constant (t := "NaN".toList) (by simp)⟩
    · injection h with h
      injection h with h1 h2
      subst h1 h2
      exact ⟨_, rfl, .constant (t := "Infinity".toList) (by simp)⟩
    · injection h with h
      injection h with h1 h2
      subst h1 h2
      exact ⟨_, rfl, .constant (t := "-Infinity".toList) (by simp)⟩
    · cases h
  · rename_i int r hi
    obtain ⟨neg, ds, rfl, hds, rfl⟩ := scanInt_sound hi
    obtain ⟨hf1, hf2⟩ := scanFrac_sound r
    obtain ⟨he1, he2⟩ := scanExp_sound (scanFrac r).2
    dsimp only at h
    split at h
    · injection h with h
      injection h with h1 h2
      subst h1 h2
      rw [intOfText_value neg hds]
      exact ⟨_, rfl, .int neg hds⟩
    · rename_i hne
      injection h with h
      injection h with h1 h2
      subst h1 h2
      refine ⟨_, ?_, .float neg hds hf2 he2 ?_⟩
      · conv_lhs => rw [hf1, he1]
        simp only [List.append_assoc]
      · rcases hf2 with hf | hf
        · rcases he2 with he | he
          · exact absurd ⟨by rw [hf]; rfl, by rw [he]; rfl⟩ hne
          · exact .inr he
        · exact .inl hf

theorem blank_empty : Blank [] := by simp [Blank]

theorem elements_blank {w t : Str} {l : List Json} (hw : Blank w) (h : PyElementsText readFloat t l) :
    PyElementsText readFloat (w ++ t) l := by
  have join : ∀ {v : Str}, Blank v → Blank (w ++ v) := by
    intro v hv c hc
    rcases List.mem_append.mp hc with hc | hc
    · exact hw c hc
    · exact hv c hc
  cases h with
  | last h1 h2 h3 =>
    rw [← List.append_assoc, ← List.append_assoc]
    exact .last (join h1) h2 h3
  | more h1 h2 h3 h4 =>
    rw [← List.append_assoc, ← List.append_assoc, ← List.append_assoc]
    exact .more (join h1) h2 h3 h4

theorem members_blank {w t : Str} {l : List (Str × Json)} (hw : Blank w) (h : PyMembersText readFloat t l) :
    PyMembersText readFloat (w ++ t) l := by
  have join : ∀ {v : Str}, Blank v → Blank (w ++ v) := by
    intro v hv c hc
    rcases List.mem_append.mp hc with hc | hc
    · exact hw c hc
    · exact hv c hc
  cases h with
  | last h1 h2 h3 h4 h5 h6 =>
    simp only [← List.append_assoc]
    exact .last (join h1) h2 h3 h4 h5 h6
  | more h1 h2 h3 h4 h5 h6 h7 =>
    simp only [← List.append_assoc]
    exact .more (join h1) h2 h3 h4 h5 h6 h7

theorem scan_sound : ∀ fuel : Nat,
    (∀ {s rest : Str} {j : Json}, scanValue readFloat fuel s = some (j, rest) →
      ∃ t, s = t ++ rest ∧ PyValueText readFloat t j) ∧
    (∀ {s rest : Str} {l : List Json}, scanElements readFloat fuel s = some (l, rest) →
      ∃ t, s = t ++ ']' :: rest ∧ PyElementsText readFloat t l) ∧
    (∀ {s rest : Str} {acc l : List (Str × Json)}, scanMembers readFloat fuel s acc = some (l, rest) →
      ∃ t ms, s = t ++ '}' :: rest ∧ PyMembersText readFloat t ms ∧ l = setItems acc ms)
  | 0 => by
    refine ⟨?_, ?_, ?_⟩
    · intro s rest j h
      rw [scanValue] at h
      cases h
    · intro s rest l h
      rw [scanElements] at h
      cases h
    · intro s rest acc l h
      rw [scanMembers] at h
      cases h
  | fuel + 1 => by
    obtain ⟨ihv, ihe, ihm⟩ := scan_sound fuel
    refine ⟨?_, ?_, ?_⟩
    · intro s rest j h
      rw [scanValue.eq_def] at h
      dsimp only at h
      split at h
      · rename_i r
        obtain ⟨⟨v, rest'⟩, hs, e⟩ := Option.map_eq_some_iff.mp h
        injection e with h1 h2
        subst h1 h2
        obtain ⟨t, rfl, ht⟩ := scanString_sound _ hs
        exact ⟨'"' :: t ++ ['"'], by simp, .string ht⟩
      · rename_i r
        obtain ⟨w, hw, e⟩ := skipSpace_split r
        split at h
        · rename_i r' hr
          injection h with h
          injection h with h1 h2
          subst h1 h2
          refine ⟨'{' :: w ++ ['}'], ?_, .noMembers hw⟩
          rw [e, hr]
          simp
        · obtain ⟨⟨v, rest'⟩, hs, e'⟩ := Option.map_eq_some_iff.mp h
          injection e' with h1 h2
          subst h1 h2
          obtain ⟨t, ms, e2, ht, rfl⟩ := ihm hs
          rw [setItems_lastValues]
          refine ⟨'{' :: (w ++ t) ++ ['}'], ?_, .object (members_blank readFloat hw ht)⟩
          rw [e, e2]
          simp
      · rename_i r
        obtain ⟨w, hw, e⟩ := skipSpace_split r
        split at h
        · rename_i r' hr
          injection h with h
          injection h with h1 h2
          subst h1 h2
          refine ⟨'[' :: w ++ [']'], ?_, .noElements hw⟩
          rw [e, hr]
          simp
        · obtain ⟨⟨v, rest'⟩, hs, e'⟩ := Option.map_eq_some_iff.mp h
          injection e' with h1 h2
          subst h1 h2
          obtain ⟨t, e2, ht⟩ := ihe hs
          refine ⟨'[' :: (w ++ t) ++ [']'], ?_, .array (elements_blank readFloat hw ht)⟩
          rw [e, e2]
          simp
      · injection h with h
        injection h with h1 h2
        subst h1 h2
        exact ⟨"null".toList, rfl, .null⟩
      · injection h with h
        injection h with h1 h2
        subst h1 h2
        exact ⟨"true".toList, rfl, .true⟩
      · injection h with h
        injection h with h1 h2
        subst h1 h2
        exact ⟨"false".toList, rfl, .false⟩
      · exact scanNumber_sound readFloat h
    · intro s rest l h
      rw [scanElements] at h
      split at h
      · cases h
      · rename_i j r hv
        obtain ⟨t, rfl, ht⟩ := ihv hv
        obtain ⟨w, hw, e⟩ := skipSpace_split r
        split at h
        · rename_i r' hr
          injection h with h
          injection h with h1 h2
          subst h1 h2
          refine ⟨[] ++ t ++ w, ?_, .last blank_empty ht hw⟩
          rw [e, hr]
          simp
        · rename_i r' hr
          obtain ⟨⟨v, rest'⟩, hs, e'⟩ := Option.map_eq_some_iff.mp h
          injection e' with h1 h2
          subst h1 h2
          obtain ⟨ts, e2, hts⟩ := ihe hs
          obtain ⟨w', hw', e3⟩ := skipSpace_split r'
          refine ⟨[] ++ t ++ w ++ ',' :: (w' ++ ts), ?_, .more blank_empty ht hw (elements_blank readFloat hw' hts)⟩
          rw [e, hr, e3, e2]
          simp
        · cases h
    · intro s rest acc l h
      rw [scanMembers.eq_def] at h
      dsimp only at h
      split at h
      · rename_i r
        split at h
        · cases h
        · rename_i k r1 hk
          obtain ⟨kt, rfl, hkt⟩ := scanString_sound _ hk
          obtain ⟨w, hw, e⟩ := skipSpace_split r1
          split at h
          · rename_i r2 hr2
            obtain ⟨w2, hw2, e2⟩ := skipSpace_split r2
            split at h
            · cases h
            · rename_i j r3 hv
              obtain ⟨t, e3, ht⟩ := ihv hv
              obtain ⟨w3, hw3, e4⟩ := skipSpace_split r3
              split at h
              · rename_i r4 hr4
                injection h with h
                injection h with h1 h2
                subst h1 h2
                refine ⟨[] ++ '"' :: kt ++ '"' :: w ++ ':' :: w2 ++ t ++ w3, [(k, j)], ?_,
                  .last blank_empty hkt hw hw2 ht hw3, rfl⟩
                rw [e, hr2, e2, e3, e4, hr4]
                simp
              · rename_i r4 hr4
                obtain ⟨ts, ms, e5, hts, rfl⟩ := ihm h
                obtain ⟨w4, hw4, e6⟩ := skipSpace_split r4
                refine ⟨[] ++ '"' :: kt ++ '"' :: w ++ ':' :: w2 ++ t ++ w3 ++ ',' :: (w4 ++ ts), (k, j) :: ms, ?_,
                  .more blank_empty hkt hw hw2 ht hw3 (members_blank readFloat hw4 hts), rfl⟩
                rw [e, hr2, e2, e3, e4, hr4, e6, e5]
                simp
              · cases h
          · cases h
      · cases h

theorem loads_sound {text : Str} {j : Json} (h : jsonLoads readFloat text = .ok j) : PyJsonText readFloat text j := by
  unfold jsonLoads at h
  split at h
  · rename_i j' rest hv
    split at h
    · rename_i hr
      injection h with h
      subst h
      obtain ⟨t, e, ht⟩ := (scan_sound readFloat _).1 hv
      obtain ⟨w, hw, e1⟩ := skipSpace_split text
      obtain ⟨w', hw', e2⟩ := skipSpace_split rest
      rw [List.isEmpty_iff.mp hr, List.append_nil] at e2
      refine ⟨w, t, w', ?_, hw, ht, hw'⟩
      rw [e1, e, e2]
      simp
    · cases h
  · cases h

end Bit
