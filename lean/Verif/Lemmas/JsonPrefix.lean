import Verif.Lemmas.JsonText
/-
What was read does not depend on what follows it.
-/
namespace Bit

theorem skipSpace_append {s x : Str} {c : Char} {r : Str} (h : skipSpace s = c :: r) :
    skipSpace (s ++ x) = c :: (r ++ x) := by
  induction s with
  | nil => cases h
  | cons d s ih =>
    rw [List.cons_append, skipSpace] at *
    split at h
    · rename_i hb
      rw [if_pos hb]
      exact ih h
    · rename_i hb
      rw [if_neg hb]
      injection h with h1 h2
      rw [h1, h2]

theorem hex4_append {s r x : Str} {n : Nat} (h : hex4 s = some (n, r)) : hex4 (s ++ x) = some (n, r ++ x) := by
  unfold hex4 at h
  split at h
  · rename_i a b c d rest
    simp only [List.cons_append, hex4]
    split at h
    · rename_i h1 h2 h3 h4
      injection h with h
      injection h with e1 e2
      rw [← e1, ← e2]
    · cases h
  · cases h

theorem secondEscape_append {s r x : Str} {n : Nat} (h : secondEscape s = some (n, r)) :
    secondEscape (s ++ x) = some (n, r ++ x) := by
  unfold secondEscape at h
  split at h
  · rename_i rest
    simp only [List.cons_append, secondEscape]
    exact hex4_append h
  · cases h

theorem unicodeChar_append {s r x : Str} {c : Char} (h : unicodeChar s = some (c, r)) :
    unicodeChar (s ++ x) = some (c, r ++ x) := by
  unfold unicodeChar at h ⊢
  cases h4 : hex4 s with
  | none => rw [h4] at h; cases h
  | some y =>
    obtain ⟨n, rest⟩ := y
    rw [h4] at h
    rw [hex4_append h4]
    dsimp only at h ⊢
    split at h
    · rename_i hn
      rw [if_pos hn]
      cases hs : secondEscape rest with
      | none => rw [hs] at h; cases h
      | some y =>
        obtain ⟨m, rest'⟩ := y
        rw [hs] at h
        rw [secondEscape_append hs]
        dsimp only at h ⊢
        split at h
        · rename_i hm
          rw [if_pos hm]
          obtain ⟨e1, e2⟩ := Prod.mk.inj (Option.some.inj h)
          rw [e1, e2]
        · cases h
    · rename_i hn
      rw [if_neg hn]
      split at h
      · cases h
      · rename_i hm
        rw [if_neg hm]
        obtain ⟨e1, e2⟩ := Prod.mk.inj (Option.some.inj h)
        rw [e1, e2]

theorem scanEscape_append {s r x : Str} {c : Char} (h : scanEscape s = some (c, r)) :
    scanEscape (s ++ x) = some (c, r ++ x) := by
  cases s with
  | nil => cases h
  | cons e es =>
    rw [List.cons_append, scanEscape] at *
    split at h
    · rename_i he
      rw [if_pos he]
      exact unicodeChar_append h
    · rename_i he
      rw [if_neg he]
      obtain ⟨ch, h1, h2⟩ := Option.map_eq_some_iff.mp h
      injection h2 with e1 e2
      rw [h1, Option.map_some, e1, e2]

theorem scanString_append {x : Str} : ∀ (fuel k : Nat) {s t r : Str}, scanString fuel s = some (t, r) →
    scanString (fuel + k) (s ++ x) = some (t, r ++ x)
  | 0, _, _, _, _, h => by cases h
  | _ + 1, _, [], _, _, h => by cases h
  | fuel + 1, k, c :: cs, t, r, h => by
    rw [show fuel + 1 + k = (fuel + k) + 1 by omega, List.cons_append]
    rw [scanString] at h ⊢
    split at h
    · rename_i hc
      rw [if_pos hc]
      injection h with h
      injection h with e1 e2
      rw [e1, e2]
    · rename_i hc
      rw [if_neg hc]
      split at h
      · rename_i hb
        rw [if_pos hb]
        cases he : scanEscape cs with
        | none => rw [he] at h; cases h
        | some y =>
          obtain ⟨ch, rest⟩ := y
          rw [he] at h
          rw [scanEscape_append he]
          dsimp only at h ⊢
          obtain ⟨z, h1, h2⟩ := Option.map_eq_some_iff.mp h
          injection h2 with e1 e2
          rw [scanString_append fuel k h1, Option.map_some, e1, e2]
      · rename_i hb
        rw [if_neg hb]
        split at h
        · cases h
        · rename_i hl
          rw [if_neg hl]
          obtain ⟨z, h1, h2⟩ := Option.map_eq_some_iff.mp h
          injection h2 with e1 e2
          rw [scanString_append fuel k h1, Option.map_some, e1, e2]

theorem scanString_more {s t r x : Str} (h : scanString (s.length + 1) s = some (t, r)) :
    scanString ((s ++ x).length + 1) (s ++ x) = some (t, r ++ x) := by
  have := scanString_append (x := x) (s.length + 1) x.length h
  rw [show (s ++ x).length + 1 = s.length + 1 + x.length by rw [List.length_append]; omega]
  exact this

/-- The rest begins with a character that cannot continue a number. -/
def Ends (r : Str) : Prop := ∃ c r', r = c :: r' ∧ ¬ (48 ≤ c.toNat ∧ c.toNat ≤ 57) ∧ c ≠ '.' ∧ c ≠ 'e' ∧ c ≠ 'E'

theorem spanDigits_more {x : Str} : ∀ {s : Str}, (Dec.spanDigits s).2 ≠ [] →
    Dec.spanDigits (s ++ x) = ((Dec.spanDigits s).1, (Dec.spanDigits s).2 ++ x)
  | [], h => absurd rfl h
  | c :: cs, h => by
    rw [List.cons_append]
    rw [Dec.spanDigits] at h ⊢
    rw [Dec.spanDigits]
    split
    · rename_i hc
      rw [if_pos hc] at h
      have := spanDigits_more (x := x) (s := cs) h
      rw [this]
    · rfl

theorem scanFrac_append {s x : Str} (h : (scanFrac s).2 ≠ []) (hd : (scanFrac s).2.head? ≠ some '.') :
    scanFrac (s ++ x) = ((scanFrac s).1, (scanFrac s).2 ++ x) := by
  cases s with
  | nil => exact absurd rfl h
  | cons c t =>
    by_cases hc : c = '.'
    · subst hc
      simp only [List.cons_append, scanFrac] at h hd ⊢
      split at hd
      · exact absurd rfl hd
      · rename_i he
        rw [if_neg he] at h ⊢
        rw [spanDigits_more h]
        dsimp only
        rw [if_neg he]
    · rw [List.cons_append]
      unfold scanFrac
      split
      · rename_i heq; injection heq with heq; exact absurd heq hc
      · split
        · rename_i heq; injection heq with heq; exact absurd heq hc
        · rfl

theorem takeSign_append {t x : Str} (h : t ≠ []) : takeSign (t ++ x) = ((takeSign t).1, (takeSign t).2 ++ x) := by
  cases t with
  | nil => exact absurd rfl h
  | cons c t =>
    by_cases h1 : c = '-'
    · subst h1; rfl
    · by_cases h2 : c = '+'
      · subst h2; rfl
      · rw [List.cons_append]
        unfold takeSign
        split
        · rename_i heq; injection heq with heq; exact absurd heq h1
        · rename_i heq; injection heq with heq; exact absurd heq h2
        · split
          · rename_i heq; injection heq with heq; exact absurd heq h1
          · rename_i heq; injection heq with heq; exact absurd heq h2
          · rfl

theorem takeMinus_append {t x : Str} (h : t ≠ []) : takeMinus (t ++ x) = ((takeMinus t).1, (takeMinus t).2 ++ x) := by
  cases t with
  | nil => exact absurd rfl h
  | cons c t =>
    by_cases h1 : c = '-'
    · subst h1; rfl
    · rw [List.cons_append]
      unfold takeMinus
      split
      · rename_i heq; injection heq with heq; exact absurd heq h1
      · split
        · rename_i heq; injection heq with heq; exact absurd heq h1
        · rfl

theorem scanExp_append {s x : Str} (h : Ends (scanExp s).2) : scanExp (s ++ x) = ((scanExp s).1, (scanExp s).2 ++ x) := by
  cases s with
  | nil => obtain ⟨c, r', e, -⟩ := h; cases e
  | cons c t =>
    rw [List.cons_append]
    unfold scanExp at h ⊢
    dsimp only at h ⊢
    split at h
    · rename_i hc
      rw [if_pos hc, if_pos hc]
      split at h
      · obtain ⟨d, r', e, -, -, h1, h2⟩ := h
        injection e with e
        subst e
        rcases hc with hc | hc
        · exact absurd hc h1
        · exact absurd hc h2
      · rename_i he
        obtain ⟨d, r', e, -⟩ := h
        have ht : t ≠ [] := by
          rintro rfl
          exact he (by rfl)
        have hs : (Dec.spanDigits (takeSign t).2).2 ≠ [] := by
          dsimp only at e
          rw [e]
          exact List.cons_ne_nil _ _
        rw [takeSign_append ht, spanDigits_more hs]
        dsimp only
        simp only [if_neg he]
    · rename_i hc
      rw [if_neg hc, if_neg hc]
      rfl

theorem scanInt_more {s x i r : Str} (h : scanInt s = some (i, r)) (hr : r ≠ []) :
    scanInt (s ++ x) = some (i, r ++ x) := by
  unfold scanInt at h ⊢
  cases s with
  | nil => cases h
  | cons d s =>
    rw [takeMinus_append (List.cons_ne_nil _ _)]
    dsimp only
    cases ht : (takeMinus (d :: s)).2 with
    | nil => rw [ht] at h; cases h
    | cons c cs =>
      rw [ht] at h
      dsimp only [List.cons_append] at h ⊢
      split at h
      · rename_i hc
        rw [if_pos hc]
        injection h with h
        injection h with e1 e2
        rw [e1, e2]
      · rename_i hc
        rw [if_neg hc]
        split at h
        · rename_i hn
          rw [if_pos hn]
          injection h with h
          injection h with e1 e2
          rw [spanDigits_more (by rw [e2]; exact hr), e1, e2]
        · cases h

theorem scanFrac_rest (s : Str) : (scanFrac s).2 = s ∨ ∃ t, (scanFrac s).2 = (Dec.spanDigits t).2 := by
  unfold scanFrac
  split
  · split
    · exact .inl rfl
    · exact .inr ⟨_, rfl⟩
  · exact .inl rfl

section
variable (readFloat : Str → PyFloat)

theorem scanConstant_append {s r x : Str} {j : Json} (h : scanConstant readFloat s = some (j, r)) :
    scanConstant readFloat (s ++ x) = some (j, r ++ x) := by
  unfold scanConstant at h
  split at h
  · injection h with h; injection h with e1 e2; subst e1; subst e2; rfl
  · injection h with h; injection h with e1 e2; subst e1; subst e2; rfl
  · injection h with h; injection h with e1 e2; subst e1; subst e2; rfl
  · cases h

theorem scanNumber_append {s r x : Str} {j : Json} (h : scanNumber readFloat s = some (j, r)) (hr : Ends r) :
    scanNumber readFloat (s ++ x) = some (j, r ++ x) := by
  unfold scanNumber at h
  cases hi : scanInt s with
  | none =>
    rw [hi] at h
    dsimp only at h
    have hc := scanConstant_append readFloat (x := x) h
    unfold scanNumber
    have : scanInt (s ++ x) = none := by
      unfold scanConstant at h
      split at h
      · rfl
      · rfl
      · rfl
      · cases h
    rw [this]
    exact hc
  | some y =>
    obtain ⟨int, rest⟩ := y
    rw [hi] at h
    dsimp only at h
    have hrest : r = (scanExp (scanFrac rest).2).2 ∨ ((scanFrac rest).1.isEmpty ∧ (scanExp (scanFrac rest).2).1.isEmpty ∧ r = rest) := by
      split at h
      · rename_i he
        injection h with h
        injection h with e1 e2
        exact .inr ⟨he.1, he.2, e2.symm⟩
      · injection h with h
        injection h with e1 e2
        exact .inl e2.symm
    have hfr : (scanFrac rest).1.isEmpty = true → (scanFrac rest).2 = rest := by
      intro he
      unfold scanFrac at he ⊢
      split
      · split
        · rfl
        · rename_i hn
          simp [hn] at he
      · rfl
    have hex : (scanExp (scanFrac rest).2).1.isEmpty = true → (scanExp (scanFrac rest).2).2 = (scanFrac rest).2 := by
      intro he
      generalize (scanFrac rest).2 = u at he ⊢
      unfold scanExp at he ⊢
      split
      · rfl
      · dsimp only at he ⊢
        split
        · split
          · rfl
          · rename_i h1 h2
            simp [h1, h2] at he
        · rfl
    have hr' : r = (scanExp (scanFrac rest).2).2 := by
      rcases hrest with h | ⟨h1, h2, h3⟩
      · exact h
      · rw [hex h2, hfr h1, h3]
    have hends : Ends (scanExp (scanFrac rest).2).2 := hr' ▸ hr
    have e1 := scanExp_append (x := x) hends
    have hne : (scanFrac rest).2 ≠ [] := by
      intro he
      rw [he] at hends
      obtain ⟨c, r', e, -⟩ := hends
      cases e
    have hdot : (scanFrac rest).2.head? ≠ some '.' := by
      intro he
      cases hu : (scanFrac rest).2 with
      | nil => exact hne hu
      | cons c u =>
        rw [hu] at he hends
        injection he with he
        subst he
        obtain ⟨c, r', e, -, h2, -⟩ := hends
        unfold scanExp at e
        dsimp only at e
        rw [if_neg (by decide)] at e
        injection e with e
        exact h2 e.symm
    have e2 := scanFrac_append (x := x) hne hdot
    have hrn : rest ≠ [] := by
      rintro rfl
      exact hne rfl
    have e3 := scanInt_more (x := x) hi hrn
    unfold scanNumber
    rw [e3]
    dsimp only
    rw [e2]
    dsimp only
    rw [e1]
    dsimp only
    split at h
    · rename_i he
      rw [if_pos he]
      injection h with h
      injection h with e1 e2
      rw [e1, e2]
    · rename_i he
      rw [if_neg he]
      injection h with h
      injection h with e1 e2
      rw [e1, e2]

theorem ends_of_skip {r r' : Str} {c : Char} (h : skipSpace r = c :: r') (hc : c = ']' ∨ c = '}' ∨ c = ',') : Ends r := by
  cases r with
  | nil => cases h
  | cons d r =>
    refine ⟨d, r, rfl, ?_⟩
    rw [skipSpace] at h
    split at h
    · rename_i hb
      rcases hb with rfl | rfl | rfl | rfl <;> decide
    · injection h with h
      subst h
      rcases hc with rfl | rfl | rfl <;> decide

theorem scanNumber_head {s r : Str} {j : Json} (h : scanNumber readFloat s = some (j, r)) :
    ∃ c t, s = c :: t ∧ NumberHead c := by
  unfold scanNumber at h
  cases hi : scanInt s with
  | none =>
    rw [hi] at h
    dsimp only at h
    unfold scanConstant at h
    split at h
    · exact ⟨_, _, rfl, by unfold NumberHead; decide⟩
    · exact ⟨_, _, rfl, by unfold NumberHead; decide⟩
    · exact ⟨_, _, rfl, by unfold NumberHead; decide⟩
    · cases h
  | some y =>
    clear h
    cases s with
    | nil => cases hi
    | cons c t =>
      refine ⟨c, t, rfl, ?_⟩
      by_cases hm : c = '-'
      · exact .inr (.inl hm)
      have ht : takeMinus (c :: t) = ([], c :: t) := by
        unfold takeMinus
        split
        · rename_i heq
          injection heq with heq
          exact absurd heq hm
        · rfl
      unfold scanInt at hi
      rw [ht] at hi
      dsimp only at hi
      split at hi
      · rename_i h0
        rw [h0]
        exact .inl (by decide)
      · split at hi
        · rename_i hd
          exact .inl ⟨show 48 ≤ c.toNat by omega, hd.2⟩
        · cases hi

/-- The value ends by itself, or it is followed by something that ends it. -/
def Closed (s r : Str) : Prop := (∃ t, s = '{' :: t) ∨ Ends r

theorem scanValue_nil (fuel : Nat) : scanValue readFloat fuel [] = none := by
  cases fuel with
  | zero => rfl
  | succ n => rfl

theorem scanValue_nil' (fuel : Nat) (y : Json × Str) : scanValue readFloat fuel [] ≠ some y := by
  rw [scanValue_nil]
  intro h
  cases h

theorem scanElements_nil (fuel : Nat) (y : List Json × Str) : scanElements readFloat fuel [] ≠ some y := by
  intro h
  cases fuel with
  | zero => cases h
  | succ n =>
    rw [scanElements, scanValue_nil] at h
    cases h

theorem scanMembers_nil (fuel : Nat) (acc : List (Str × Json)) (y : List (Str × Json) × Str) :
    scanMembers readFloat fuel [] acc ≠ some y := by
  intro h
  cases fuel with
  | zero => cases h
  | succ n => cases h

theorem skipSpace_more {s x : Str} (h : skipSpace s ≠ []) : skipSpace (s ++ x) = skipSpace s ++ x := by
  cases hs : skipSpace s with
  | nil => exact absurd hs h
  | cons c r => exact skipSpace_append hs

theorem scan_append (x : Str) (fuel : Nat) :
    (∀ s j r, scanValue readFloat fuel s = some (j, r) → Closed s r →
      scanValue readFloat fuel (s ++ x) = some (j, r ++ x)) ∧
    (∀ s l r, scanElements readFloat fuel s = some (l, r) →
      scanElements readFloat fuel (s ++ x) = some (l, r ++ x)) ∧
    (∀ s acc l r, scanMembers readFloat fuel s acc = some (l, r) →
      scanMembers readFloat fuel (s ++ x) acc = some (l, r ++ x)) := by
  induction fuel with
  | zero => exact ⟨fun s j r h => (by cases h), fun s l r h => (by cases h), fun s acc l r h => (by cases h)⟩
  | succ fuel ih =>
    obtain ⟨ihv, ihe, ihm⟩ := ih
    refine ⟨?_, ?_, ?_⟩
    · intro s j r h hc
      unfold scanValue at h
      split at h
      · rename_i rest
        obtain ⟨z, h1, h2⟩ := Option.map_eq_some_iff.mp h
        injection h2 with e1 e2
        rw [List.cons_append, scanValue, scanString_more h1, Option.map_some, ← e1, ← e2]
      · rename_i rest
        rw [List.cons_append, scanValue]
        split at h
        · rename_i rest' hs
          rw [skipSpace_append hs]
          injection h with h
          injection h with e1 e2
          rw [e1, e2]
          rfl
        · rename_i hs
          obtain ⟨z, h1, h2⟩ := Option.map_eq_some_iff.mp h
          injection h2 with e1 e2
          have hne : ∃ c u, skipSpace rest = c :: u := by
            cases hsk : skipSpace rest with
            | nil => 
              rw [hsk] at h1
              cases fuel with
              | zero => cases h1
              | succ n => cases h1
            | cons c u => exact ⟨c, u, rfl⟩
          obtain ⟨c, u, hcu⟩ := hne
          have hm := ihm _ _ _ _ h1
          rw [hcu] at hm
          rw [skipSpace_append hcu]
          split
          · rename_i heq
            injection heq with heq
            rw [heq] at hcu
            exact absurd hcu (hs u)
          · rw [← List.cons_append, hm, Option.map_some, ← e1, ← e2]
      · rename_i rest
        rw [List.cons_append, scanValue]
        split at h
        · rename_i rest' hs
          rw [skipSpace_append hs]
          injection h with h
          injection h with e1 e2
          rw [e1, e2]
          rfl
        · rename_i hs
          obtain ⟨z, h1, h2⟩ := Option.map_eq_some_iff.mp h
          injection h2 with e1 e2
          have hne : ∃ c u, skipSpace rest = c :: u := by
            cases hsk : skipSpace rest with
            | nil =>
              rw [hsk] at h1
              obtain ⟨n, rfl⟩ | rfl : (∃ n, fuel = n + 1) ∨ fuel = 0 := by
                cases fuel with
                | zero => exact .inr rfl
                | succ n => exact .inl ⟨n, rfl⟩
              · rw [scanElements, scanValue_nil] at h1
                cases h1
              · cases h1
            | cons c u => exact ⟨c, u, rfl⟩
          obtain ⟨c, u, hcu⟩ := hne
          have hm := ihe _ _ _ h1
          rw [hcu] at hm
          rw [skipSpace_append hcu]
          split
          · rename_i heq
            injection heq with heq
            rw [heq] at hcu
            exact absurd hcu (hs u)
          · rw [← List.cons_append, hm, Option.map_some, ← e1, ← e2]
      · injection h with h
        injection h with e1 e2
        rw [← e1, ← e2]; rfl
      · injection h with h
        injection h with e1 e2
        rw [← e1, ← e2]; rfl
      · injection h with h
        injection h with e1 e2
        rw [← e1, ← e2]; rfl
      · obtain ⟨c, t, rfl, hnum⟩ := scanNumber_head readFloat h
        rw [List.cons_append, scanValue_number readFloat _ _ _ hnum, ← List.cons_append]
        refine scanNumber_append readFloat h ?_
        rcases hc with ⟨t', e⟩ | hc
        · injection e with e
          subst e
          rcases hnum with h | h | h | h
          · exact absurd h (by decide)
          · exact absurd h (by decide)
          · exact absurd h (by decide)
          · exact absurd h (by decide)
        · exact hc
    · intro s l r h
      unfold scanElements at h ⊢
      cases hv : scanValue readFloat fuel s with
      | none =>
        rw [hv] at h
        cases h
      | some y =>
        obtain ⟨j, rest⟩ := y
        rw [hv] at h
        dsimp only at h
        split at h
        · rename_i rest' hs
          rw [ihv _ _ _ hv (.inr (ends_of_skip hs (.inl rfl)))]
          dsimp only
          rw [skipSpace_append hs]
          injection h with h
          injection h with e1 e2
          rw [e1, e2]
          rfl
        · rename_i rest' hs
          rw [ihv _ _ _ hv (.inr (ends_of_skip hs (.inr (.inr rfl))))]
          dsimp only
          rw [skipSpace_append hs]
          change (scanElements readFloat fuel (skipSpace (rest' ++ x))).map _ = _
          obtain ⟨z, h1, h2⟩ := Option.map_eq_some_iff.mp h
          injection h2 with e1 e2
          rw [skipSpace_more (fun hn => by rw [hn] at h1; exact scanElements_nil readFloat _ _ h1), ihe _ _ _ h1,
            Option.map_some, ← e1, ← e2]
        · cases h
    · intro s acc l r h
      unfold scanMembers at h ⊢
      split at h
      · rename_i rest
        rw [List.cons_append]
        refine Eq.trans (b := match scanString ((rest ++ x).length + 1) (rest ++ x) with
          | none => none
          | some (k, rest) =>
            match skipSpace rest with
            | ':' :: rest =>
              match scanValue readFloat fuel (skipSpace rest) with
              | none => none
              | some (j, rest) =>
                match skipSpace rest with
                | '}' :: rest => some (setItem acc k j, rest)
                | ',' :: rest => scanMembers readFloat fuel (skipSpace rest) (setItem acc k j)
                | _ => none
            | _ => none) rfl ?_
        cases hs : scanString (rest.length + 1) rest with
        | none =>
          rw [hs] at h
          cases h
        | some y =>
          obtain ⟨k, rest₁⟩ := y
          rw [hs] at h
          rw [scanString_more hs]
          dsimp only at h ⊢
          split at h
          · rename_i rest₂ hs₂
            rw [skipSpace_append hs₂]
            refine Eq.trans (b := match scanValue readFloat fuel (skipSpace (rest₂ ++ x)) with
              | none => none
              | some (j, rest) =>
                match skipSpace rest with
                | '}' :: rest => some (setItem acc k j, rest)
                | ',' :: rest => scanMembers readFloat fuel (skipSpace rest) (setItem acc k j)
                | _ => none) rfl ?_
            cases hv : scanValue readFloat fuel (skipSpace rest₂) with
            | none =>
              rw [hv] at h
              cases h
            | some y =>
              obtain ⟨j, rest₃⟩ := y
              rw [hv] at h
              dsimp only at h
              rw [skipSpace_more (fun hn => by rw [hn] at hv; exact absurd hv (scanValue_nil' readFloat _ _))]
              split at h
              · rename_i rest' hs
                rw [ihv _ _ _ hv (.inr (ends_of_skip hs (.inr (.inl rfl))))]
                dsimp only
                rw [skipSpace_append hs]
                injection h with h
                injection h with e1 e2
                rw [e1, e2]
                rfl
              · rename_i rest' hs
                rw [ihv _ _ _ hv (.inr (ends_of_skip hs (.inr (.inr rfl))))]
                dsimp only
                rw [skipSpace_append hs]
                change scanMembers readFloat fuel (skipSpace (rest' ++ x)) _ = _
                rw [skipSpace_more (fun hn => by rw [hn] at h; exact scanMembers_nil readFloat _ _ _ h)]
                exact ihm _ _ _ _ h
              · cases h
          · cases h
      · cases h

end
end Bit
