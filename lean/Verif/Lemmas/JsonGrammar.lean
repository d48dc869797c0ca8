import Verif.Lemmas.JsonText
import Verif.Spec.JsonGrammar
/-
Every text of the JSON grammar is read as the value it stands for.
-/
namespace Bit
open Bit.Spec (HexDigit FourHex StringText ValueText ElementsText MembersText Blank IntPart FracPart ExpPart Digits minus)

theorem hexVal_of {c : Char} {n : Nat} (h : HexDigit c n) : hexVal c = some n := by
  have hn : n < 16 := by
    rcases h with h | h
    · exact (List.getElem?_eq_some_iff.mp h).1
    · exact (List.getElem?_eq_some_iff.mp h).1
  rcases h with h | h
  · interval_cases n <;> (injection h with h; subst h; decide)
  · interval_cases n <;> (injection h with h; subst h; decide)

theorem hex4_of {s : Str} {n : Nat} (h : FourHex s n) (tail : Str) : hex4 (s ++ tail) = some (n, tail) := by
  obtain ⟨a, b, c, d, w, x, y, z, rfl, ha, hb, hc, hd, rfl⟩ := h
  simp only [List.cons_append, List.nil_append]
  rw [hex4, hexVal_of ha, hexVal_of hb, hexVal_of hc, hexVal_of hd]
  dsimp only
  rw [show w * 4096 + x * 256 + y * 16 + z = ((w * 16 + x) * 16 + y) * 16 + z by omega]

theorem fourHex_length {s : Str} {n : Nat} (h : FourHex s n) : s.length = 4 := by
  obtain ⟨a, b, c, d, w, x, y, z, rfl, -⟩ := h
  rfl

theorem hexDigit_lt {c : Char} {n : Nat} (h : HexDigit c n) : n < 16 := by
  rcases h with h | h
  · exact (List.getElem?_eq_some_iff.mp h).1
  · exact (List.getElem?_eq_some_iff.mp h).1

theorem shortEscape_of {e c : Char} (h : (e, c) ∈ Spec.shortEscapes) : shortEscape e = some c ∧ e ≠ 'u' := by
  simp only [Spec.shortEscapes, List.mem_cons, List.not_mem_nil, or_false, Prod.mk.injEq] at h
  rcases h with ⟨rfl, rfl⟩ | ⟨rfl, rfl⟩ | ⟨rfl, rfl⟩ | ⟨rfl, rfl⟩ | ⟨rfl, rfl⟩ | ⟨rfl, rfl⟩ | ⟨rfl, rfl⟩ | ⟨rfl, rfl⟩ <;>
    decide

theorem unicodeChar_of {ds : Str} {n : Nat} (h : FourHex ds n) (hn : n < 0xd800 ∨ 0xe000 ≤ n) (tail : Str) :
    unicodeChar (ds ++ tail) = some (Char.ofNat n, tail) := by
  unfold unicodeChar
  rw [hex4_of h]
  dsimp only
  rw [if_neg (by omega), if_neg (by omega)]

theorem unicodeChar_pair_of {ds es : Str} {n m : Nat} (h : FourHex ds n) (h' : FourHex es m)
    (hn : 0xd800 ≤ n ∧ n < 0xdc00) (hm : 0xdc00 ≤ m ∧ m < 0xe000) (tail : Str) :
    unicodeChar (ds ++ '\\' :: 'u' :: (es ++ tail)) =
      some (Char.ofNat (0x10000 + (n - 0xd800) * 0x400 + (m - 0xdc00)), tail) := by
  unfold unicodeChar
  rw [hex4_of h]
  dsimp only
  rw [if_pos (by omega), secondEscape, hex4_of h']
  dsimp only
  rw [if_pos (by omega)]

theorem scanString_of {t s : Str} (h : StringText t s) : ∀ (fuel : Nat) (rest : Str), t.length < fuel →
    scanString fuel (t ++ '"' :: rest) = some (s, rest) := by
  induction h with
  | nil =>
    intro fuel rest hf
    obtain ⟨f, rfl⟩ : ∃ f, fuel = f + 1 := ⟨fuel - 1, by simp at hf; omega⟩
    rw [List.nil_append, scanString, if_pos rfl]
  | plain h hq hb hs ih =>
    intro fuel rest hf
    rw [List.length_cons] at hf
    obtain ⟨f, rfl⟩ : ∃ f, fuel = f + 1 := ⟨fuel - 1, by omega⟩
    rw [List.cons_append, scanString, if_neg hq, if_neg hb, if_neg (by omega), ih f rest (by omega)]
    rfl
  | @short e c t s h hs ih =>
    intro fuel rest hf
    simp only [List.length_cons] at hf
    obtain ⟨f, rfl⟩ : ∃ f, fuel = f + 1 := ⟨fuel - 1, by omega⟩
    obtain ⟨h1, h2⟩ := shortEscape_of h
    have := scanString_short e c (t ++ '"' :: rest) f h2 h1
    rw [ih f rest (by omega)] at this
    exact this
  | @unicode ds t s n h hn hs ih =>
    intro fuel rest hf
    have hl := fourHex_length h
    simp only [List.length_cons, List.length_append] at hf
    obtain ⟨f, rfl⟩ : ∃ f, fuel = f + 1 := ⟨fuel - 1, by omega⟩
    simp only [List.cons_append, List.append_assoc]
    rw [scanString, if_neg (by decide), if_pos rfl, scanEscape, if_pos rfl, unicodeChar_of h hn]
    dsimp only
    rw [ih f rest (by omega)]
    rfl
  | @pair ds es t s n m h h' hn hm hs ih =>
    intro fuel rest hf
    have hl := fourHex_length h
    have hl' := fourHex_length h'
    simp only [List.length_cons, List.length_append] at hf
    obtain ⟨f, rfl⟩ : ∃ f, fuel = f + 1 := ⟨fuel - 1, by omega⟩
    simp only [List.cons_append, List.append_assoc]
    rw [scanString, if_neg (by decide), if_pos rfl, scanEscape, if_pos rfl, unicodeChar_pair_of h h' hn hm]
    dsimp only
    rw [ih f rest (by omega)]
    rfl

theorem scanString_whole {t s : Str} (h : StringText t s) (rest : Str) :
    scanString ((t ++ '"' :: rest).length + 1) (t ++ '"' :: rest) = some (s, rest) :=
  scanString_of h _ _ (by rw [List.length_append]; omega)

variable (readFloat : Str → PyFloat)

theorem intOfText_value (neg : Bool) {ds : Str} (h : IntPart ds) :
    intOfText (minus neg ++ ds) = (if neg then -1 else 1) * (Spec.digitsValue ds : Int) := by
  have hr : Dec.readDigits 0 ds = some (Spec.digitsValue ds) := by
    rw [readDigits_value _ h.1.2]
    rfl
  cases neg with
  | true =>
    show -(((Dec.readDigits 0 ds).getD 0 : Nat) : Int) = _
    rw [hr]
    simp
  | false =>
    have hmem := h.1.2
    have e : intOfText ds = ((Dec.readDigits 0 ds).getD 0 : Int) := by
      unfold intOfText
      split
      · exact absurd (hmem '-' List.mem_cons_self) (by decide)
      · rfl
    show intOfText ds = _
    rw [e, hr]
    simp

theorem scanNumber_intPart (neg : Bool) {ds : Str} (h : IntPart ds) (rest : Str) (hrest : Stops rest) :
    scanNumber readFloat (minus neg ++ ds ++ rest) =
      some (.int ((if neg then -1 else 1) * (Spec.digitsValue ds : Int)), rest) := by
  have hs := scanInt_append neg ds rest h.1.2 h.1.1 h.2 (fun c r e => (hrest c r e).1)
  have hi := intOfText_value neg h
  unfold minus at *
  unfold scanNumber
  rw [hs]
  dsimp only
  rw [scanFrac_none rest (fun c r e => (hrest c r e).2.1)]
  dsimp only
  rw [scanExp_none rest (fun c r e => (hrest c r e).2.2), if_pos ⟨rfl, rfl⟩, hi]

theorem takeSign_digits {ds rest : Str} (h : Digits ds) : takeSign (ds ++ rest) = ([], ds ++ rest) := by
  obtain ⟨h1, h2⟩ := h
  cases ds with
  | nil => exact absurd rfl h1
  | cons c cs =>
    have hc := h2 c List.mem_cons_self
    rw [List.cons_append]
    unfold takeSign
    split
    · rename_i heq
      injection heq with heq _
      rw [heq] at hc
      exact absurd hc (by decide)
    · rename_i heq
      injection heq with heq _
      rw [heq] at hc
      exact absurd hc (by decide)
    · rfl

theorem scanExp_part {exp rest : Str} (h : ExpPart exp) (hrest : ∀ c r, rest = c :: r → ¬ ('0' ≤ c ∧ c ≤ '9')) :
    scanExp (exp ++ rest) = (exp, rest) := by
  obtain ⟨e, sign, ds, rfl, he, hs, hd⟩ := h
  have hspan := spanDigits_append ds rest hd.2 hrest
  have hemp : ¬ ds.isEmpty = true := by simpa using hd.1
  have hsign : takeSign (sign ++ (ds ++ rest)) = (sign, ds ++ rest) := by
    rcases hs with rfl | rfl | rfl
    · rw [List.nil_append]
      exact takeSign_digits hd
    · rfl
    · rfl
  rw [List.cons_append, List.append_assoc, scanExp, if_pos he]
  dsimp only
  rw [hsign]
  dsimp only
  rw [hspan, if_neg hemp]

theorem scanNumber_floatParts (neg : Bool) {ds frac exp : Str} (h : IntPart ds) (hf : frac = [] ∨ FracPart frac)
    (he : exp = [] ∨ ExpPart exp) (hsome : FracPart frac ∨ ExpPart exp) (rest : Str) (hrest : Stops rest) :
    scanNumber readFloat (minus neg ++ ds ++ frac ++ exp ++ rest) =
      some (.float (readFloat (minus neg ++ ds ++ frac ++ exp)), rest) := by
  have hexpHead : ∀ c r, exp ++ rest = c :: r → ¬ ('0' ≤ c ∧ c ≤ '9') ∧ c ≠ '.' := by
    intro c r hc
    rcases he with rfl | ⟨e, sign, ds, rfl, he, -⟩
    · exact ⟨(hrest c r hc).1, (hrest c r hc).2.1⟩
    · injection hc with hc _
      subst hc
      rcases he with rfl | rfl
      · exact ⟨by decide, by decide⟩
      · exact ⟨by decide, by decide⟩
  have hfracHead : ∀ c r, frac ++ exp ++ rest = c :: r → ¬ ('0' ≤ c ∧ c ≤ '9') := by
    intro c r hc
    rcases hf with rfl | ⟨ds, rfl, -⟩
    · exact (hexpHead c r hc).1
    · injection hc with hc _
      subst hc
      decide
  have hi := scanInt_append neg ds (frac ++ exp ++ rest) h.1.2 h.1.1 h.2 hfracHead
  have hf' : scanFrac (frac ++ exp ++ rest) = (frac, exp ++ rest) := by
    rw [List.append_assoc]
    rcases hf with rfl | ⟨ds, rfl, hds, hd⟩
    · exact scanFrac_none _ fun c r e => (hexpHead c r e).2
    · exact scanFrac_digits ds _ hd hds fun c r e => (hexpHead c r e).1
  have he' : scanExp (exp ++ rest) = (exp, rest) := by
    rcases he with rfl | he
    · exact scanExp_none _ fun c r e => (hrest c r e).2.2
    · exact scanExp_part he fun c r e => (hrest c r e).1
  unfold minus at *
  unfold scanNumber
  rw [show (if neg then ['-'] else []) ++ ds ++ frac ++ exp ++ rest =
    (if neg then ['-'] else []) ++ ds ++ (frac ++ exp ++ rest) by simp only [List.append_assoc], hi]
  dsimp only
  rw [hf']
  dsimp only
  rw [he', if_neg]
  rintro ⟨h1, h2⟩
  rw [List.isEmpty_iff] at h1 h2
  rcases hsome with ⟨ds, h, -⟩ | ⟨e, sign, ds, h, -⟩
  · rw [h1] at h; cases h
  · have h2 : exp = [] := h2
    rw [h2] at h; cases h

theorem numberHead_of (neg : Bool) {ds : Str} (h : IntPart ds) (t : Str) :
    ∃ c r, minus neg ++ ds ++ t = c :: r ∧ NumberHead c := by
  cases neg with
  | true => exact ⟨_, _, rfl, .inr (.inl rfl)⟩
  | false =>
    obtain ⟨⟨h1, h2⟩, -⟩ := h
    cases ds with
    | nil => exact absurd rfl h1
    | cons c cs => exact ⟨c, _, rfl, .inl (h2 c List.mem_cons_self)⟩

/-- White space. -/
def IsBlank (c : Char) : Prop := c = ' ' ∨ c = '\t' ∨ c = '\n' ∨ c = '\r'

theorem numberHead_start {c : Char} (hc : NumberHead c) : ¬ IsBlank c ∧ c ≠ ']' ∧ c ≠ '}' := by
  have hn : ∀ d : Char, ¬ ('0' ≤ d ∧ d ≤ '9') → d ≠ '-' → d ≠ 'N' → d ≠ 'I' → c ≠ d := by
    rintro d h1 h2 h3 h4 rfl
    rcases hc with h | h | h | h <;> contradiction
  refine ⟨?_, hn _ (by decide) (by decide) (by decide) (by decide),
    hn _ (by decide) (by decide) (by decide) (by decide)⟩
  rintro (h | h | h | h)
  · exact hn _ (by decide) (by decide) (by decide) (by decide) h
  · exact hn _ (by decide) (by decide) (by decide) (by decide) h
  · exact hn _ (by decide) (by decide) (by decide) (by decide) h
  · exact hn _ (by decide) (by decide) (by decide) (by decide) h

theorem blank_stops {w : Str} (h : Blank w) {rest : Str} (hr : Stops rest) : Stops (w ++ rest) := by
  intro c r e
  cases w with
  | nil => exact hr c r e
  | cons d w =>
    injection e with e _
    subst e
    rcases h d List.mem_cons_self with rfl | rfl | rfl | rfl <;> decide

/-- The items are set one after the other. -/
def setItems (acc l : List (Str × Json)) : List (Str × Json) := l.foldl (fun d x => setItem d x.1 x.2) acc

theorem setItems_nodup : ∀ (l acc : List (Str × Json)), ((acc ++ l).map Prod.fst).Nodup → setItems acc l = acc ++ l
  | [], acc, _ => by simp [setItems]
  | x :: l, acc, hn => by
    have hk : x.1 ∉ acc.map Prod.fst := by
      rw [List.map_append, List.map_cons, List.nodup_middle, List.nodup_cons] at hn
      exact fun hm => hn.1 (List.mem_append_left _ hm)
    show setItems (setItem acc x.1 x.2) l = _
    rw [setItem_new _ _ _ hk, setItems_nodup l _ (by simpa using hn)]
    simp

theorem setItem_table {f : Str → Option Json} {k : Str} {v : Json} : ∀ (ks : List Str), ks.Nodup →
    (∀ a ∈ ks, (f a).isSome) → k ∈ ks →
    setItem (ks.filterMap fun a => (f a).map fun j => (a, j)) k v =
      ks.filterMap fun a => (if a = k then some v else f a).map fun j => (a, j)
  | [], _, _, h => by cases h
  | a :: ks, hn, hf, hk => by
    obtain ⟨ha, hn⟩ := List.nodup_cons.mp hn
    obtain ⟨j, hj⟩ := Option.isSome_iff_exists.mp (hf a List.mem_cons_self)
    rw [List.filterMap_cons, List.filterMap_cons, hj]
    dsimp only [Option.map_some]
    rw [setItem]
    by_cases e : a = k
    · subst e
      rw [if_pos rfl, if_pos rfl]
      dsimp only [Option.map_some]
      congr 1
      refine List.filterMap_congr fun b hb => ?_
      have : ¬ b = a := fun e => ha (e ▸ hb)
      rw [if_neg this]
    · rw [if_neg e, if_neg e]
      dsimp only [Option.map_some]
      rw [setItem_table ks hn (fun b hb => hf b (List.mem_cons_of_mem _ hb))
        ((List.mem_cons.mp hk).resolve_left fun h => e h.symm)]

theorem lookup_isSome {l : List (Str × Json)} {k : Str} (h : k ∈ l.map Prod.fst) : (l.lookup k).isSome := by
  induction l with
  | nil => cases h
  | cons x l ih =>
    rw [List.lookup_cons]
    split
    · rfl
    · rename_i e
      refine ih ((List.mem_cons.mp h).resolve_left fun h => ?_)
      simp [h] at e

theorem nodup_eraseDups : ∀ (n : Nat) (l : List Str), l.length ≤ n → l.eraseDups.Nodup
  | _, [], _ => by simp
  | 0, _ :: _, h => by simp at h
  | n + 1, a :: l, h => by
    rw [List.eraseDups_cons, List.nodup_cons]
    refine ⟨?_, nodup_eraseDups n _ ?_⟩
    · rw [List.mem_eraseDups]
      simp
    · rw [List.length_cons] at h
      exact le_trans (List.length_filter_le _ _) (by omega)

theorem setItems_lastValues (l : List (Str × Json)) : setItems [] l = Spec.lastValues l := by
  induction l using List.reverseRecOn with
  | nil => rfl
  | append_singleton l x ih =>
    obtain ⟨k, v⟩ := x
    have e : setItems [] (l ++ [(k, v)]) = setItem (setItems [] l) k v := by
      simp [setItems, List.foldl_append]
    have hlook : ∀ a, ((l ++ [(k, v)]).reverse.lookup a) = if a = k then some v else l.reverse.lookup a := by
      intro a
      rw [List.reverse_append, List.reverse_singleton, List.singleton_append, List.lookup_cons]
      by_cases h : a = k
      · subst h; simp
      · rw [if_neg h]
        have : (a == k) = false := by simpa using h
        rw [this]
    rw [e, ih]
    unfold Spec.lastValues
    simp only [hlook]
    rw [List.map_append, List.eraseDups_append]
    by_cases hk : k ∈ l.map Prod.fst
    · have : ([(k, v)].map Prod.fst).removeAll (l.map Prod.fst) = [] := by
        simp only [List.map_cons, List.map_nil, List.cons_removeAll, List.nil_removeAll]
        rw [if_neg]
        simpa using hk
      rw [this, List.eraseDups_nil, List.append_nil, setItem_table _ (nodup_eraseDups _ _ le_rfl)]
      · intro a ha
        refine lookup_isSome ?_
        rw [List.map_reverse, List.mem_reverse]
        exact List.mem_eraseDups.mp ha
      · exact List.mem_eraseDups.mpr hk
    · have : ([(k, v)].map Prod.fst).removeAll (l.map Prod.fst) = [k] := by
        simp only [List.map_cons, List.map_nil, List.cons_removeAll, List.nil_removeAll]
        rw [if_pos]
        simpa using hk
      rw [this, setItem_new, List.filterMap_append]
      · congr 1
        · refine List.filterMap_congr fun a ha => ?_
          have : ¬ a = k := fun e => hk (e ▸ List.mem_eraseDups.mp ha)
          rw [if_neg this]
        · rw [List.eraseDups_cons]
          simp
      · rw [List.mem_map]
        rintro ⟨x, hx, rfl⟩
        obtain ⟨a, ha, e⟩ := List.mem_filterMap.mp hx
        obtain ⟨j, -, rfl⟩ := Option.map_eq_some_iff.mp e
        exact hk (List.mem_eraseDups.mp ha)

theorem lastValues_nodup {l : List (Str × Json)} (h : (l.map Prod.fst).Nodup) : Spec.lastValues l = l := by
  rw [← setItems_lastValues, setItems_nodup l [] (by simpa using h), List.nil_append]

/-- The text of a value: it starts as one, and it is read. -/
def ReadsValue (t : Str) (j : Json) : Prop :=
  (∃ c r, t = c :: r ∧ ¬ IsBlank c ∧ c ≠ ']' ∧ c ≠ '}') ∧
  ∃ N, ∀ fuel, N ≤ fuel → ∀ rest, Stops rest → scanValue readFloat fuel (t ++ rest) = some (j, rest)

def ReadsElements (t : Str) (l : List Json) : Prop :=
  (∃ c r, (∀ rest, skipSpace (t ++ rest) = c :: (r ++ rest)) ∧ c ≠ ']') ∧
  ∃ N, ∀ fuel, N ≤ fuel → ∀ rest, scanElements readFloat fuel (skipSpace (t ++ ']' :: rest)) = some (l, rest)

def ReadsMembers (t : Str) (l : List (Str × Json)) : Prop :=
  (∃ r, ∀ rest, skipSpace (t ++ rest) = '"' :: (r ++ rest)) ∧
  ∃ N, ∀ fuel, N ≤ fuel → ∀ rest acc,
    scanMembers readFloat fuel (skipSpace (t ++ '}' :: rest)) acc = some (setItems acc l, rest)

theorem skipSpace_value {t : Str} {j : Json} (h : ReadsValue readFloat t j) (rest : Str) :
    skipSpace (t ++ rest) = t ++ rest := by
  obtain ⟨⟨c, r, rfl, h1, -⟩, -⟩ := h
  exact skipSpace_cons h1 _

theorem readsValue_number {t : Str} {j : Json} (hh : ∃ c r, t = c :: r ∧ NumberHead c)
    (h : ∀ rest, Stops rest → scanNumber readFloat (t ++ rest) = some (j, rest)) : ReadsValue readFloat t j := by
  obtain ⟨c, r, rfl, hc⟩ := hh
  refine ⟨⟨c, r, rfl, numberHead_start hc⟩, 1, fun fuel hf rest hrest => ?_⟩
  obtain ⟨f, rfl⟩ : ∃ f, fuel = f + 1 := ⟨fuel - 1, by omega⟩
  have := h rest hrest
  rw [List.cons_append] at this ⊢
  rw [scanValue_number readFloat f c _ hc, this]

theorem scanElements_step_last {fuel : Nat} {s w rest : Str} {j : Json} (hw : Blank w)
    (h : scanValue readFloat fuel s = some (j, w ++ ']' :: rest)) :
    scanElements readFloat (fuel + 1) s = some ([j], rest) := by
  rw [scanElements, h]
  simp only [skipSpace_blank _ _ hw, skipSpace_cons (c := ']') (by decide)]

theorem scanElements_step {fuel : Nat} {s w rest : Str} {j : Json} (hw : Blank w)
    (h : scanValue readFloat fuel s = some (j, w ++ ',' :: rest)) :
    scanElements readFloat (fuel + 1) s =
      (scanElements readFloat fuel (skipSpace rest)).map fun r => (j :: r.1, r.2) := by
  rw [scanElements, h]
  simp only [skipSpace_blank _ _ hw, skipSpace_cons (c := ',') (by decide)]

theorem scanMembers_step_last {fuel : Nat} {k key w s w' rest : Str} {j : Json} {acc : List (Str × Json)}
    (hk : StringText k key) (hw : Blank w) (hw' : Blank w')
    (h : scanValue readFloat fuel (skipSpace s) = some (j, w' ++ '}' :: rest)) :
    scanMembers readFloat (fuel + 1) ('"' :: (k ++ '"' :: (w ++ ':' :: s))) acc = some (setItem acc key j, rest) := by
  rw [scanMembers]
  simp only [scanString_whole hk, skipSpace_blank _ _ hw, skipSpace_cons (c := ':') (by decide), h,
    skipSpace_blank _ _ hw', skipSpace_cons (c := '}') (by decide)]

theorem scanMembers_step {fuel : Nat} {k key w s w' rest : Str} {j : Json} {acc : List (Str × Json)}
    (hk : StringText k key) (hw : Blank w) (hw' : Blank w')
    (h : scanValue readFloat fuel (skipSpace s) = some (j, w' ++ ',' :: rest)) :
    scanMembers readFloat (fuel + 1) ('"' :: (k ++ '"' :: (w ++ ':' :: s))) acc =
      scanMembers readFloat fuel (skipSpace rest) (setItem acc key j) := by
  rw [scanMembers]
  simp only [scanString_whole hk, skipSpace_blank _ _ hw, skipSpace_cons (c := ':') (by decide), h,
    skipSpace_blank _ _ hw', skipSpace_cons (c := ',') (by decide)]

theorem valueText_reads {t : Str} {j : Json} (h : ValueText readFloat t j) : ReadsValue readFloat t j := by
  refine ValueText.rec (motive_1 := fun t j _ => ReadsValue readFloat t j)
    (motive_2 := fun t l _ => ReadsElements readFloat t l) (motive_3 := fun t l _ => ReadsMembers readFloat t l)
    ?null ?true ?false ?int ?float ?string ?noElements ?array ?noMembers ?object ?last ?more ?lastM ?moreM h
  case null =>
    refine ⟨⟨_, _, rfl, by unfold IsBlank; decide, by decide⟩, 1, fun fuel hf rest _ => ?_⟩
    obtain ⟨f, rfl⟩ : ∃ f, fuel = f + 1 := ⟨fuel - 1, by omega⟩
    show scanValue readFloat (f + 1) ('n' :: 'u' :: 'l' :: 'l' :: rest) = _
    simp only [scanValue]
  case true =>
    refine ⟨⟨_, _, rfl, by unfold IsBlank; decide, by decide⟩, 1, fun fuel hf rest _ => ?_⟩
    obtain ⟨f, rfl⟩ : ∃ f, fuel = f + 1 := ⟨fuel - 1, by omega⟩
    show scanValue readFloat (f + 1) ('t' :: 'r' :: 'u' :: 'e' :: rest) = _
    simp only [scanValue]
  case false =>
    refine ⟨⟨_, _, rfl, by unfold IsBlank; decide, by decide⟩, 1, fun fuel hf rest _ => ?_⟩
    obtain ⟨f, rfl⟩ : ∃ f, fuel = f + 1 := ⟨fuel - 1, by omega⟩
    show scanValue readFloat (f + 1) ('f' :: 'a' :: 'l' :: 's' :: 'e' :: rest) = _
    simp only [scanValue]
  case int =>
    intro neg ds h
    refine readsValue_number readFloat ?_ fun rest hrest => scanNumber_intPart readFloat neg h rest hrest
    have := numberHead_of neg h []
    rwa [List.append_nil] at this
  case float =>
    intro neg ds frac exp h hf he hsome
    refine readsValue_number readFloat ?_ fun rest hrest =>
      scanNumber_floatParts readFloat neg h hf he hsome rest hrest
    rw [List.append_assoc (minus neg ++ ds)]
    exact numberHead_of neg h _
  case string =>
    intro t s h
    refine ⟨⟨_, _, rfl, by unfold IsBlank; decide, by decide⟩, 1, fun fuel hf rest _ => ?_⟩
    obtain ⟨f, rfl⟩ : ∃ f, fuel = f + 1 := ⟨fuel - 1, by omega⟩
    simp only [List.cons_append, List.append_assoc, List.nil_append, scanValue, scanString_whole h, Option.map_some]
  case noElements =>
    intro w h
    refine ⟨⟨_, _, rfl, by unfold IsBlank; decide, by decide⟩, 1, fun fuel hf rest _ => ?_⟩
    obtain ⟨f, rfl⟩ : ∃ f, fuel = f + 1 := ⟨fuel - 1, by omega⟩
    simp only [List.cons_append, List.append_assoc, List.nil_append, scanValue, skipSpace_blank _ _ h,
      skipSpace_cons (c := ']') (by decide)]
  case array =>
    rintro t l - ⟨⟨c, r, hstart, hc⟩, N, ih⟩
    refine ⟨⟨_, _, rfl, by unfold IsBlank; decide, by decide⟩, N + 1, fun fuel hf rest _ => ?_⟩
    obtain ⟨f, rfl⟩ : ∃ f, fuel = f + 1 := ⟨fuel - 1, by omega⟩
    have hi := ih f (by omega) rest
    simp only [List.cons_append, List.append_assoc, List.nil_append, scanValue]
    rw [hstart] at hi ⊢
    split
    · rename_i heq
      injection heq with heq _
      exact absurd heq hc
    · rw [hi]
      rfl
  case noMembers =>
    intro w h
    refine ⟨⟨_, _, rfl, by unfold IsBlank; decide, by decide⟩, 1, fun fuel hf rest _ => ?_⟩
    obtain ⟨f, rfl⟩ : ∃ f, fuel = f + 1 := ⟨fuel - 1, by omega⟩
    simp only [List.cons_append, List.append_assoc, List.nil_append, scanValue, skipSpace_blank _ _ h,
      skipSpace_cons (c := '}') (by decide)]
  case object =>
    rintro t l - ⟨⟨r, hstart⟩, N, ih⟩
    rw [← setItems_lastValues]
    refine ⟨⟨_, _, rfl, by unfold IsBlank; decide, by decide⟩, N + 1, fun fuel hf rest _ => ?_⟩
    obtain ⟨f, rfl⟩ : ∃ f, fuel = f + 1 := ⟨fuel - 1, by omega⟩
    have hi := ih f (by omega) rest []
    simp only [List.cons_append, List.append_assoc, List.nil_append, scanValue]
    rw [hstart] at hi ⊢
    split
    · rename_i heq
      injection heq with heq _
      exact absurd heq (by decide)
    · rw [hi]
      rfl
  case last =>
    rintro w t w' j hw - hw' hv
    have hskip : ∀ rest, skipSpace (w ++ t ++ w' ++ rest) = t ++ (w' ++ rest) := by
      intro rest
      rw [List.append_assoc, List.append_assoc, skipSpace_blank _ _ hw, skipSpace_value readFloat hv]
    obtain ⟨⟨c, r, rfl, h1, h2, -⟩, N, ih⟩ := hv
    refine ⟨⟨c, r ++ w', fun rest => by rw [hskip]; simp, h2⟩, N + 1, fun fuel hf rest => ?_⟩
    obtain ⟨f, rfl⟩ : ∃ f, fuel = f + 1 := ⟨fuel - 1, by omega⟩
    rw [hskip]
    exact scanElements_step_last readFloat hw' (ih f (by omega) _ (blank_stops hw' (stops_of (by decide) rest)))
  case more =>
    rintro w t w' ts j l hw - hw' - hv ⟨-, M, ihs⟩
    have hskip : ∀ rest, skipSpace (w ++ t ++ w' ++ ',' :: ts ++ rest) = t ++ (w' ++ ',' :: (ts ++ rest)) := by
      intro rest
      rw [List.append_assoc, List.append_assoc, List.append_assoc, skipSpace_blank _ _ hw, skipSpace_value readFloat hv]
      rfl
    obtain ⟨⟨c, r, rfl, h1, h2, -⟩, N, ih⟩ := hv
    refine ⟨⟨c, r ++ w' ++ ',' :: ts, fun rest => by rw [hskip]; simp, h2⟩, max N M + 1, fun fuel hf rest => ?_⟩
    obtain ⟨f, rfl⟩ : ∃ f, fuel = f + 1 := ⟨fuel - 1, by omega⟩
    rw [hskip, scanElements_step readFloat hw'
      (ih f (by omega) _ (blank_stops hw' (stops_of (by decide) _))), ihs f (by omega)]
    rfl
  case lastM =>
    rintro w k w' w'' t w''' key j hw hk hw' hw'' - hw''' hv
    have hskip : ∀ rest, skipSpace (w ++ '"' :: k ++ '"' :: w' ++ ':' :: w'' ++ t ++ w''' ++ rest) =
        '"' :: (k ++ '"' :: (w' ++ ':' :: (w'' ++ (t ++ (w''' ++ rest))))) := by
      intro rest
      simp only [List.append_assoc, List.cons_append]
      rw [skipSpace_blank _ _ hw, skipSpace_cons (c := '"') (by decide)]
    have hval := skipSpace_value readFloat hv
    obtain ⟨-, N, ih⟩ := hv
    refine ⟨⟨k ++ '"' :: (w' ++ ':' :: (w'' ++ (t ++ w'''))), fun rest => by rw [hskip]; simp⟩, N + 1,
      fun fuel hf rest acc => ?_⟩
    obtain ⟨f, rfl⟩ : ∃ f, fuel = f + 1 := ⟨fuel - 1, by omega⟩
    rw [hskip, scanMembers_step_last readFloat hk hw' hw''' (j := j) (rest := rest)]
    · rfl
    rw [skipSpace_blank _ _ hw'', hval]
    exact ih f (by omega) _ (blank_stops hw''' (stops_of (by decide) rest))
  case moreM =>
    rintro w k w' w'' t w''' ts key j l hw hk hw' hw'' - hw''' - hv ⟨-, M, ihs⟩
    have hskip : ∀ rest, skipSpace (w ++ '"' :: k ++ '"' :: w' ++ ':' :: w'' ++ t ++ w''' ++ ',' :: ts ++ rest) =
        '"' :: (k ++ '"' :: (w' ++ ':' :: (w'' ++ (t ++ (w''' ++ ',' :: (ts ++ rest)))))) := by
      intro rest
      simp only [List.append_assoc, List.cons_append]
      rw [skipSpace_blank _ _ hw, skipSpace_cons (c := '"') (by decide)]
    have hval := skipSpace_value readFloat hv
    obtain ⟨-, N, ih⟩ := hv
    refine ⟨⟨k ++ '"' :: (w' ++ ':' :: (w'' ++ (t ++ (w''' ++ ',' :: ts)))), fun rest => by rw [hskip]; simp⟩,
      max N M + 1, fun fuel hf rest acc => ?_⟩
    obtain ⟨f, rfl⟩ : ∃ f, fuel = f + 1 := ⟨fuel - 1, by omega⟩
    rw [hskip, scanMembers_step readFloat hk hw' hw''' (j := j) (rest := ts ++ '}' :: rest),
      ihs f (by omega) rest _]
    · rfl
    · rw [skipSpace_blank _ _ hw'', hval]
      exact ih f (by omega) _ (blank_stops hw''' (stops_of (by decide) _))

theorem loads_jsonText {t : Str} {j : Json} (h : Spec.JsonText readFloat t j) : jsonLoads readFloat t = .ok j := by
  obtain ⟨w, t, w', rfl, hw, hv, hw'⟩ := h
  have hr := valueText_reads readFloat hv
  have hskip := skipSpace_value readFloat hr w'
  obtain ⟨-, N, ih⟩ := hr
  have hstop : Stops w' := by
    have := blank_stops hw' (rest := []) (fun c r e => by cases e)
    rwa [List.append_nil] at this
  have hempty : skipSpace w' = [] := by
    have := skipSpace_blank w' [] hw'
    rwa [List.append_nil] at this
  have hlen : (t ++ w').length ≤ (w ++ t ++ w').length := by simp
  have hs := ih (max N (2 * (w ++ t ++ w').length + 1)) (by omega) w' hstop
  rw [scanValue_fuel readFloat (by omega), ← scanValue_fuel readFloat (fuel := 2 * (w ++ t ++ w').length + 1) (by omega)] at hs
  unfold jsonLoads
  rw [show w ++ t ++ w' = w ++ (t ++ w') by simp] at hs ⊢
  rw [skipSpace_blank _ _ hw, hskip, hs]
  dsimp only
  rw [hempty]
  rfl

end Bit
