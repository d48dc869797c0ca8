import Verif.Model.JsonText
import Verif.Spec.JsonText
import Verif.Lemmas.Decimal
import Verif.Lemmas.Utils
import Mathlib.Tactic.IntervalCases
/-
Lemmas on the texts of Python's `json` module: what is written is read back.
-/
namespace Bit

/-! ## String literals -/

theorem hex4_escape {n : Nat} (h : n < 65536) (tail : Str) :
    hex4 (hexDigit (n / 4096 % 16) :: hexDigit (n / 256 % 16) :: hexDigit (n / 16 % 16) :: hexDigit (n % 16) :: tail) =
      some (n, tail) := by
  rw [hex4, hexDigit_val (Nat.mod_lt _ (by decide)), hexDigit_val (Nat.mod_lt _ (by decide)),
    hexDigit_val (Nat.mod_lt _ (by decide)), hexDigit_val (Nat.mod_lt _ (by decide))]
  dsimp only
  rw [show n / 4096 % 16 * 4096 + n / 256 % 16 * 256 + n / 16 % 16 * 16 + n % 16 = n by omega]

theorem char_range (c : Char) : c.toNat < 0xd800 ∨ 0xdfff < c.toNat ∧ c.toNat < 0x110000 := by
  have h := c.valid
  simp only [UInt32.isValidChar, Nat.isValidChar] at h
  have e : c.val.toNat = c.toNat := rfl
  omega

theorem scanString_short (e ch : Char) (tail : Str) (fuel : Nat) (he : e ≠ 'u') (hs : shortEscape e = some ch) :
    scanString (fuel + 1) (['\\', e] ++ tail) = (scanString fuel tail).map fun r => (ch :: r.1, r.2) := by
  rw [List.cons_append, List.cons_append, List.nil_append, scanString, if_neg (by decide), if_pos rfl]
  rw [scanEscape, if_neg he, hs]
  rfl

theorem scanString_unicode (n : Nat) (c : Char) (tail tail' : Str) (fuel : Nat)
    (h : unicodeChar (hexDigit (n / 4096 % 16) :: hexDigit (n / 256 % 16) :: hexDigit (n / 16 % 16) ::
      hexDigit (n % 16) :: tail) = some (c, tail')) :
    scanString (fuel + 1) (unicodeEscape n ++ tail) = (scanString fuel tail').map fun r => (c :: r.1, r.2) := by
  unfold unicodeEscape
  simp only [List.cons_append, List.nil_append]
  rw [scanString, if_neg (by decide), if_pos rfl, scanEscape, if_pos rfl, h]

theorem unicodeChar_single (n : Nat) (tail : Str) (h : n < 0xd800 ∨ 0xdfff < n ∧ n < 65536) :
    unicodeChar (hexDigit (n / 4096 % 16) :: hexDigit (n / 256 % 16) :: hexDigit (n / 16 % 16) ::
      hexDigit (n % 16) :: tail) = some (Char.ofNat n, tail) := by
  unfold unicodeChar
  rw [hex4_escape (by omega)]
  dsimp only
  rw [if_neg (by omega), if_neg (by omega)]

theorem unicodeChar_pair (n m : Nat) (tail : Str) (h : n < 1024) (h' : m < 1024) :
    unicodeChar (hexDigit ((0xd800 + n) / 4096 % 16) :: hexDigit ((0xd800 + n) / 256 % 16) ::
      hexDigit ((0xd800 + n) / 16 % 16) :: hexDigit ((0xd800 + n) % 16) :: (unicodeEscape (0xdc00 + m) ++ tail)) =
        some (Char.ofNat (0x10000 + n * 1024 + m), tail) := by
  unfold unicodeChar
  rw [hex4_escape (by omega)]
  dsimp only
  unfold unicodeEscape
  simp only [List.cons_append, List.nil_append]
  rw [if_pos (by omega), secondEscape, hex4_escape (by omega)]
  dsimp only
  rw [if_pos (by omega), Nat.add_sub_cancel_left, Nat.add_sub_cancel_left]

theorem ofNat_of {c : Char} {n : Nat} (h : c.toNat = n) : Char.ofNat n = c := by
  rw [← h, Char.ofNat_toNat]

/-- One escaped character is read as one character. -/
theorem scanString_escape (c : Char) (tail : Str) (fuel : Nat) :
    scanString (fuel + 1) (escapeChar c ++ tail) = (scanString fuel tail).map fun r => (c :: r.1, r.2) := by
  unfold escapeChar
  split_ifs with h1 h2 h3 h4 h5 h6 h7 h8 h9
  · rw [scanString_short '\\' '\\' _ _ (by decide) (by decide), h1]
  · rw [scanString_short '"' '"' _ _ (by decide) (by decide), h2]
  · rw [List.singleton_append, scanString, if_neg h2, if_neg h1, if_neg (by omega)]
  · rw [scanString_short 'n' _ _ _ (by decide) (by decide : shortEscape 'n' = some (Char.ofNat 0x0a)), ofNat_of h4]
  · rw [scanString_short 'r' _ _ _ (by decide) (by decide : shortEscape 'r' = some (Char.ofNat 0x0d)), ofNat_of h5]
  · rw [scanString_short 't' _ _ _ (by decide) (by decide : shortEscape 't' = some (Char.ofNat 0x09)), ofNat_of h6]
  · rw [scanString_short 'f' _ _ _ (by decide) (by decide : shortEscape 'f' = some (Char.ofNat 0x0c)), ofNat_of h7]
  · rw [scanString_short 'b' _ _ _ (by decide) (by decide : shortEscape 'b' = some (Char.ofNat 0x08)), ofNat_of h8]
  · have := char_range c
    exact scanString_unicode _ c _ _ _ (by rw [unicodeChar_single _ _ (by omega), Char.ofNat_toNat])
  · have := char_range c
    rw [List.append_assoc]
    refine scanString_unicode _ c _ _ _ ?_
    rw [unicodeChar_pair _ _ _ (Nat.mod_lt _ (by decide)) (Nat.mod_lt _ (by decide)), ofNat_of]
    omega

theorem scanString_text (s rest : Str) (fuel : Nat) (h : s.length < fuel) :
    scanString fuel (s.flatMap escapeChar ++ '"' :: rest) = some (s, rest) := by
  induction s generalizing fuel with
  | nil =>
    obtain ⟨f, rfl⟩ : ∃ f, fuel = f + 1 := ⟨fuel - 1, by simp at h; omega⟩
    rw [List.flatMap_nil, List.nil_append, scanString, if_pos rfl]
  | cons c s ih =>
    rw [List.length_cons] at h
    obtain ⟨f, rfl⟩ : ∃ f, fuel = f + 1 := ⟨fuel - 1, by omega⟩
    rw [List.flatMap_cons, List.append_assoc, scanString_escape, ih f (by omega)]
    rfl

theorem escapeChar_length (c : Char) : 1 ≤ (escapeChar c).length := by
  unfold escapeChar
  split_ifs <;> simp [unicodeEscape]

theorem flatMap_escape_length (s : Str) : s.length ≤ (s.flatMap escapeChar).length := by
  induction s with
  | nil => simp
  | cons c s ih =>
    rw [List.flatMap_cons, List.length_append, List.length_cons]
    have := escapeChar_length c
    omega

theorem scanString_literal (s rest : Str) :
    scanString ((s.flatMap escapeChar ++ '"' :: rest).length + 1) (s.flatMap escapeChar ++ '"' :: rest) =
      some (s, rest) := by
  apply scanString_text
  rw [List.length_append]
  have := flatMap_escape_length s
  omega

/-! ## Numbers -/

/-- What follows a value does not continue a number. -/
def Stops (rest : Str) : Prop := ∀ c r, rest = c :: r → ¬ ('0' ≤ c ∧ c ≤ '9') ∧ c ≠ '.' ∧ c ≠ 'e' ∧ c ≠ 'E'

theorem digit_head {c : Char} (h : '0' ≤ c ∧ c ≤ '9') (h0 : c ≠ '0') : 49 ≤ c.toNat ∧ c.toNat ≤ 57 := by
  obtain ⟨h1, h2⟩ := (digit_iff c).mpr h
  refine ⟨?_, h2⟩
  by_contra hlt
  apply h0
  have : c.toNat = 48 := by omega
  rw [← Char.ofNat_toNat c, this]

theorem digit_not_minus {c : Char} (h : '0' ≤ c ∧ c ≤ '9') : c ≠ '-' := by
  rintro rfl
  exact absurd h (by decide)

/-- An integer part is read up to its end. -/
theorem scanInt_append (neg : Bool) (int rest : Str) (hint : ∀ c ∈ int, '0' ≤ c ∧ c ≤ '9') (hne : int ≠ [])
    (hzero : int.head? = some '0' → int = ['0']) (hrest : ∀ c r, rest = c :: r → ¬ ('0' ≤ c ∧ c ≤ '9')) :
    scanInt ((if neg then ['-'] else []) ++ int ++ rest) = some ((if neg then ['-'] else []) ++ int, rest) := by
  cases int with
  | nil => exact absurd rfl hne
  | cons c cs =>
    have hc := hint c List.mem_cons_self
    have hcs := spanDigits_append cs rest (fun c h => hint c (List.mem_cons_of_mem _ h)) hrest
    have hsplit : takeMinus ((if neg then ['-'] else []) ++ (c :: cs) ++ rest) =
        ((if neg then ['-'] else []), c :: (cs ++ rest)) := by
      cases neg with
      | true => rfl
      | false =>
        simp only [Bool.false_eq_true, if_false, List.nil_append, List.cons_append]
        unfold takeMinus
        split
        · rename_i heq
          injection heq with heq _
          exact absurd heq (digit_not_minus hc)
        · rfl
    unfold scanInt
    rw [hsplit]
    dsimp only
    by_cases h0 : c = '0'
    · have := hzero (by rw [h0]; rfl)
      injection this with _ hnil
      rw [if_pos h0, h0, hnil, List.nil_append]
    · rw [if_neg h0, if_pos (digit_head hc h0), hcs]

theorem scanFrac_none (rest : Str) (h : ∀ c r, rest = c :: r → c ≠ '.') : scanFrac rest = ([], rest) := by
  unfold scanFrac
  split
  · exact absurd rfl (h _ _ rfl)
  · rfl

theorem scanFrac_digits (ds rest : Str) (hd : ∀ c ∈ ds, '0' ≤ c ∧ c ≤ '9') (hne : ds ≠ [])
    (hrest : ∀ c r, rest = c :: r → ¬ ('0' ≤ c ∧ c ≤ '9')) : scanFrac ('.' :: ds ++ rest) = ('.' :: ds, rest) := by
  rw [List.cons_append, scanFrac, spanDigits_append ds rest hd hrest]
  dsimp only
  rw [if_neg (by simpa using hne)]

theorem scanExp_none (rest : Str) (h : ∀ c r, rest = c :: r → c ≠ 'e' ∧ c ≠ 'E') : scanExp rest = ([], rest) := by
  unfold scanExp
  split
  · rfl
  · rename_i e t
    have := h e t rfl
    rw [if_neg (by tauto)]

theorem scanExp_digits (sign ds rest : Str) (hs : sign = ['+'] ∨ sign = ['-']) (hd : ∀ c ∈ ds, '0' ≤ c ∧ c ≤ '9')
    (hne : ds ≠ []) (hrest : ∀ c r, rest = c :: r → ¬ ('0' ≤ c ∧ c ≤ '9')) :
    scanExp ('e' :: (sign ++ ds) ++ rest) = ('e' :: (sign ++ ds), rest) := by
  have hspan := spanDigits_append ds rest hd hrest
  have hemp : ¬ ds.isEmpty = true := by simpa using hne
  rcases hs with rfl | rfl
  · simp only [List.cons_append, List.nil_append]
    rw [scanExp, if_pos (by decide), takeSign]
    dsimp only
    rw [hspan, if_neg hemp]
    rfl
  · simp only [List.cons_append, List.nil_append]
    rw [scanExp, if_pos (by decide), takeSign]
    dsimp only
    rw [hspan, if_neg hemp]
    rfl

theorem digitsText_head (n : Nat) : (Dec.digitsText n).head? = some '0' → Dec.digitsText n = ['0'] := by
  induction n using Nat.strongRecOn with
  | ind n ih =>
    rw [Dec.digitsText]
    split
    · rename_i h
      intro h0
      simpa using h0
    · intro h0
      have hne := (digitsText_spec (n / 10)).2.2
      have hh : (Dec.digitsText (n / 10)).head? = some '0' := by
        cases hd : Dec.digitsText (n / 10) with
        | nil => exact absurd hd hne
        | cons c cs => rw [hd] at h0; simpa using h0
      have hz := ih (n / 10) (by omega) hh
      have hv := (digitsText_spec (n / 10)).2.1
      rw [hz] at hv
      have : Spec.digitsValue ['0'] = 0 := by decide
      omega

theorem intText_eq (n : Int) :
    intText n = (if decide (n < 0) then ['-'] else []) ++ Dec.digitsText n.natAbs := by
  unfold intText
  by_cases h : n < 0 <;> simp [h]

theorem intOfText_intText (n : Int) : intOfText (intText n) = n := by
  obtain ⟨h1, h2, h3⟩ := digitsText_spec n.natAbs
  have hr : Dec.readDigits 0 (Dec.digitsText n.natAbs) = some n.natAbs := by
    rw [readDigits_value _ h1]
    exact congrArg some h2
  unfold intText
  split
  · rw [intOfText, hr]
    simp only [Option.getD_some]
    omega
  · have e : intOfText (Dec.digitsText n.natAbs) = ((Dec.readDigits 0 (Dec.digitsText n.natAbs)).getD 0 : Int) := by
      generalize Dec.digitsText n.natAbs = ds at *
      unfold intOfText
      split
      · exact absurd (h1 '-' List.mem_cons_self) (by decide)
      · rfl
    rw [e, hr]
    simp only [Option.getD_some]
    omega

variable (readFloat : Str → PyFloat)

theorem scanNumber_int (n : Int) (rest : Str) (h : Stops rest) :
    scanNumber readFloat (intText n ++ rest) = some (.int n, rest) := by
  have hs := scanInt_append (decide (n < 0)) (Dec.digitsText n.natAbs) rest (digitsText_spec _).1
    (digitsText_spec _).2.2 (digitsText_head _) (fun c r e => (h c r e).1)
  rw [← intText_eq] at hs
  unfold scanNumber
  rw [hs]
  dsimp only
  rw [scanFrac_none rest (fun c r e => (h c r e).2.1)]
  dsimp only
  rw [scanExp_none rest (fun c r e => (h c r e).2.2), if_pos ⟨rfl, rfl⟩, intOfText_intText]

theorem scanInt_none (c : Char) (s : Str) (h0 : ¬ ('0' ≤ c ∧ c ≤ '9')) (h1 : c ≠ '-') : scanInt (c :: s) = none := by
  have hsplit : takeMinus (c :: s) = ([], c :: s) := by
    unfold takeMinus
    split
    · rename_i heq
      injection heq with heq _
      exact absurd heq h1
    · rfl
  rw [← digit_iff] at h0
  unfold scanInt
  rw [hsplit]
  dsimp only
  rw [if_neg, if_neg (by omega)]
  rintro rfl
  exact h0 (by decide)

theorem scanNumber_float (s rest : Str) (hs : Spec.FloatText s) (h : Stops rest) :
    scanNumber readFloat (s ++ rest) = some (.float (readFloat s), rest) := by
  cases hs with
  | number neg int frac exp hint hne hzero hfrac hexp hsome =>
    have hexpHead : ∀ c r, exp ++ rest = c :: r → ¬ ('0' ≤ c ∧ c ≤ '9') ∧ c ≠ '.' := by
      intro c r hc
      rcases hexp with rfl | ⟨sign, ds, rfl, -⟩
      · exact ⟨(h c r hc).1, (h c r hc).2.1⟩
      · injection hc with hc _
        subst hc
        exact ⟨by decide, by decide⟩
    have hfracHead : ∀ c r, frac ++ exp ++ rest = c :: r → ¬ ('0' ≤ c ∧ c ≤ '9') := by
      intro c r hc
      rcases hfrac with rfl | ⟨ds, rfl, -⟩
      · exact (hexpHead c r hc).1
      · injection hc with hc _
        subst hc
        decide
    have hi := scanInt_append neg int (frac ++ exp ++ rest) hint hne hzero hfracHead
    have hf : scanFrac (frac ++ exp ++ rest) = (frac, exp ++ rest) := by
      rw [List.append_assoc]
      rcases hfrac with rfl | ⟨ds, rfl, hds, hd⟩
      · exact scanFrac_none _ fun c r e => (hexpHead c r e).2
      · exact scanFrac_digits ds _ hd hds fun c r e => (hexpHead c r e).1
    have he : scanExp (exp ++ rest) = (exp, rest) := by
      rcases hexp with rfl | ⟨sign, ds, rfl, hs, hds, hd⟩
      · exact scanExp_none _ fun c r e => (h c r e).2.2
      · exact scanExp_digits sign ds rest hs hd hds fun c r e => (h c r e).1
    unfold scanNumber
    rw [show (if neg then ['-'] else []) ++ int ++ frac ++ exp ++ rest =
      (if neg then ['-'] else []) ++ int ++ (frac ++ exp ++ rest) by simp only [List.append_assoc], hi]
    dsimp only
    rw [hf]
    dsimp only
    rw [he, if_neg]
    rintro ⟨h1, h2⟩
    rcases hsome with h | h
    · exact h (List.isEmpty_iff.mp h1)
    · exact h (List.isEmpty_iff.mp h2)
  | nan =>
    unfold scanNumber
    rw [show "NaN".toList ++ rest = 'N' :: ('a' :: 'N' :: rest) from rfl, scanInt_none 'N' _ (by decide) (by decide)]
    rfl
  | inf =>
    unfold scanNumber
    rw [show "Infinity".toList ++ rest = 'I' :: ('n' :: 'f' :: 'i' :: 'n' :: 'i' :: 't' :: 'y' :: rest) from rfl,
      scanInt_none 'I' _ (by decide) (by decide)]
    rfl
  | negInf => rfl

/-! ## Values -/

theorem skipSpace_of {s : Str} (h : ∀ c r, s = c :: r → ¬ (c = ' ' ∨ c = '\t' ∨ c = '\n' ∨ c = '\r')) :
    skipSpace s = s := by
  cases s with
  | nil => rfl
  | cons c r => rw [skipSpace, if_neg (h c r rfl)]

theorem skipSpace_blank (s t : Str) (h : Spec.Blank s) : skipSpace (s ++ t) = skipSpace t := by
  induction s with
  | nil => rfl
  | cons c s ih =>
    rw [List.cons_append, skipSpace, if_pos (h c List.mem_cons_self), ih fun c hc => h c (List.mem_cons_of_mem _ hc)]

/-- The first character of a number. -/
def NumberHead (c : Char) : Prop := ('0' ≤ c ∧ c ≤ '9') ∨ c = '-' ∨ c = 'N' ∨ c = 'I'

theorem intText_head (n : Int) : ∃ c r, intText n = c :: r ∧ NumberHead c := by
  obtain ⟨h1, h2, h3⟩ := digitsText_spec n.natAbs
  unfold intText
  split
  · exact ⟨_, _, rfl, .inr (.inl rfl)⟩
  · cases hd : Dec.digitsText n.natAbs with
    | nil => exact absurd hd h3
    | cons c r => exact ⟨c, r, rfl, .inl (h1 c (by rw [hd]; exact List.mem_cons_self))⟩

theorem floatText_head {s : Str} (h : Spec.FloatText s) : ∃ c r, s = c :: r ∧ NumberHead c := by
  cases h with
  | number neg int frac exp hint hne hzero hfrac hexp hsome =>
    cases neg with
    | true => exact ⟨_, _, rfl, .inr (.inl rfl)⟩
    | false =>
      cases int with
      | nil => exact absurd rfl hne
      | cons c cs => exact ⟨c, _, rfl, .inl (hint c List.mem_cons_self)⟩
  | nan => exact ⟨_, _, rfl, .inr (.inr (.inl rfl))⟩
  | inf => exact ⟨_, _, rfl, .inr (.inr (.inr rfl))⟩
  | negInf => exact ⟨_, _, rfl, .inr (.inl rfl)⟩

theorem scanValue_number (fuel : Nat) (c : Char) (r : Str) (h : NumberHead c) :
    scanValue readFloat (fuel + 1) (c :: r) = scanNumber readFloat (c :: r) := by
  have hn : ∀ d : Char, ¬ ('0' ≤ d ∧ d ≤ '9') → d ≠ '-' → d ≠ 'N' → d ≠ 'I' → c ≠ d := by
    rintro d h1 h2 h3 h4 rfl
    rcases h with h | h | h | h <;> contradiction
  unfold scanValue
  split
  · rename_i heq; injection heq with heq _; exact absurd heq (hn '"' (by decide) (by decide) (by decide) (by decide))
  · rename_i heq; injection heq with heq _; exact absurd heq (hn '{' (by decide) (by decide) (by decide) (by decide))
  · rename_i heq; injection heq with heq _; exact absurd heq (hn '[' (by decide) (by decide) (by decide) (by decide))
  · rename_i heq; injection heq with heq _; exact absurd heq (hn 'n' (by decide) (by decide) (by decide) (by decide))
  · rename_i heq; injection heq with heq _; exact absurd heq (hn 't' (by decide) (by decide) (by decide) (by decide))
  · rename_i heq; injection heq with heq _; exact absurd heq (hn 'f' (by decide) (by decide) (by decide) (by decide))
  · rfl

theorem stops_of {c : Char} (h : ¬ ('0' ≤ c ∧ c ≤ '9') ∧ c ≠ '.' ∧ c ≠ 'e' ∧ c ≠ 'E') (r : Str) : Stops (c :: r) := by
  intro d s e
  injection e with e _
  rw [← e]
  exact h

/-- The first character of a text of a value: no white space, no closing bracket. -/
theorem dumps_head {j : Json} (h : Spec.Readable readFloat j) : ∃ c r, j.dumps = c :: r ∧
    ¬ (c = ' ' ∨ c = '\t' ∨ c = '\n' ∨ c = '\r') ∧ c ≠ ']' ∧ c ≠ '}' := by
  have num : ∀ c, NumberHead c → ¬ (c = ' ' ∨ c = '\t' ∨ c = '\n' ∨ c = '\r') ∧ c ≠ ']' ∧ c ≠ '}' := by
    intro c hc
    have hn : ∀ d : Char, ¬ ('0' ≤ d ∧ d ≤ '9') → d ≠ '-' → d ≠ 'N' → d ≠ 'I' → c ≠ d := by
      rintro d h1 h2 h3 h4 rfl
      rcases hc with h | h | h | h <;> contradiction
    refine ⟨?_, hn _ (by decide) (by decide) (by decide) (by decide),
      hn _ (by decide) (by decide) (by decide) (by decide)⟩
    rintro (h | h | h | h)
    · exact hn _ (by decide) (by decide) (by decide) (by decide) h
    · exact hn _ (by decide) (by decide) (by decide) (by decide) h
    · exact hn _ (by decide) (by decide) (by decide) (by decide) h
    · exact hn _ (by decide) (by decide) (by decide) (by decide) h
  cases j with
  | null => exact ⟨_, _, by rw [Json.dumps], by decide⟩
  | bool b => cases b <;> exact ⟨_, _, by rw [Json.dumps], by decide⟩
  | int n =>
    obtain ⟨c, r, h1, h2⟩ := intText_head n
    exact ⟨c, r, by rw [Json.dumps, h1], num c h2⟩
  | float f =>
    rw [Spec.Readable] at h
    obtain ⟨c, r, h1, h2⟩ := floatText_head h.1
    exact ⟨c, r, by rw [Json.dumps, h1], num c h2⟩
  | str s => exact ⟨_, _, by rw [Json.dumps, stringText], by decide⟩
  | arr l => cases l <;> exact ⟨_, _, by rw [Json.dumps], by decide⟩
  | obj l => rcases l with _ | ⟨⟨k, j⟩, l⟩ <;> exact ⟨_, _, by rw [Json.dumps], by decide⟩

theorem setItem_new (acc : List (Str × Json)) (k : Str) (j : Json) (h : k ∉ acc.map Prod.fst) :
    setItem acc k j = acc ++ [(k, j)] := by
  induction acc with
  | nil => rfl
  | cons a acc ih =>
    obtain ⟨k', v'⟩ := a
    rw [List.map_cons, List.mem_cons, not_or] at h
    rw [setItem, if_neg (fun e => h.1 e.symm), ih h.2]
    rfl

theorem skipSpace_cons {c : Char} (h : ¬ (c = ' ' ∨ c = '\t' ∨ c = '\n' ∨ c = '\r')) (r : Str) :
    skipSpace (c :: r) = c :: r := by
  rw [skipSpace, if_neg h]

theorem scanValue_string (fuel : Nat) (s rest : Str) :
    scanValue readFloat (fuel + 1) (stringText s ++ rest) = some (.str s, rest) := by
  have e : stringText s ++ rest = '"' :: (s.flatMap escapeChar ++ '"' :: rest) := by simp [stringText]
  rw [e]
  simp only [scanValue, scanString_literal, Option.map_some]

theorem scanValue_array {fuel : Nat} {c : Char} {r : Str} (h1 : ¬ (c = ' ' ∨ c = '\t' ∨ c = '\n' ∨ c = '\r'))
    (h2 : c ≠ ']') : scanValue readFloat (fuel + 1) ('[' :: c :: r) =
      (scanElements readFloat fuel (c :: r)).map fun r => (.arr r.1, r.2) := by
  simp only [scanValue, skipSpace_cons h1]
  split
  · rename_i heq
    injection heq with heq _
    exact absurd heq h2
  · rfl

theorem scanValue_object {fuel : Nat} {r : Str} : scanValue readFloat (fuel + 1) ('{' :: '"' :: r) =
      (scanMembers readFloat fuel ('"' :: r) []).map fun r => (.obj r.1, r.2) := by
  simp only [scanValue, skipSpace_cons (c := '"') (by decide)]
  rfl

theorem scanElements_last {fuel : Nat} {s rest : Str} {j : Json}
    (h : scanValue readFloat fuel s = some (j, ']' :: rest)) :
    scanElements readFloat (fuel + 1) s = some ([j], rest) := by
  rw [scanElements, h]
  simp only [skipSpace_cons (c := ']') (by decide)]

theorem scanElements_more {fuel : Nat} {s rest : Str} {j : Json}
    (h : scanValue readFloat fuel s = some (j, ',' :: rest)) :
    scanElements readFloat (fuel + 1) s =
      (scanElements readFloat fuel (skipSpace rest)).map fun r => (j :: r.1, r.2) := by
  rw [scanElements, h]
  simp only [skipSpace_cons (c := ',') (by decide)]

theorem scanMembers_last {fuel : Nat} {k s rest : Str} {j : Json} {acc : List (Str × Json)}
    (h : scanValue readFloat fuel (skipSpace s) = some (j, '}' :: rest)) :
    scanMembers readFloat (fuel + 1) (stringText k ++ ':' :: s) acc = some (setItem acc k j, rest) := by
  have e : stringText k ++ ':' :: s = '"' :: (k.flatMap escapeChar ++ '"' :: ':' :: s) := by simp [stringText]
  rw [e, scanMembers]
  simp only [scanString_literal, skipSpace_cons (c := ':') (by decide), h, skipSpace_cons (c := '}') (by decide)]

theorem scanMembers_more {fuel : Nat} {k s rest : Str} {j : Json} {acc : List (Str × Json)}
    (h : scanValue readFloat fuel (skipSpace s) = some (j, ',' :: rest)) :
    scanMembers readFloat (fuel + 1) (stringText k ++ ':' :: s) acc =
      scanMembers readFloat fuel (skipSpace rest) (setItem acc k j) := by
  have e : stringText k ++ ':' :: s = '"' :: (k.flatMap escapeChar ++ '"' :: ':' :: s) := by simp [stringText]
  rw [e, scanMembers]
  simp only [scanString_literal, skipSpace_cons (c := ':') (by decide), h, skipSpace_cons (c := ',') (by decide)]

theorem dumps_length {j : Json} (h : Spec.Readable readFloat j) : 1 ≤ j.dumps.length := by
  obtain ⟨c, r, e, -⟩ := dumps_head readFloat h
  rw [e, List.length_cons]
  omega

theorem skipSpace_dumps {j : Json} (h : Spec.Readable readFloat j) (t : Str) :
    skipSpace (j.dumps ++ t) = j.dumps ++ t := by
  obtain ⟨c, r, e, h1, -⟩ := dumps_head readFloat h
  rw [e]
  exact skipSpace_of fun d s hd => by injection hd with hd _; rw [← hd]; exact h1

mutual

/-- The text of a value, with anything behind it that cannot continue it, is read as the value. -/
theorem scanValue_dumps (fuel : Nat) (rest : Str) : ∀ j : Json, Spec.Readable readFloat j → Stops rest →
    j.dumps.length ≤ fuel → scanValue readFloat fuel (j.dumps ++ rest) = some (j, rest)
  | .null, h, hrest, hf => by
    obtain ⟨f, rfl⟩ : ∃ f, fuel = f + 1 := ⟨fuel - 1, by have := dumps_length readFloat h; omega⟩
    rw [Json.dumps]
    simp only [List.cons_append, List.nil_append, scanValue]
  | .bool true, h, hrest, hf => by
    obtain ⟨f, rfl⟩ : ∃ f, fuel = f + 1 := ⟨fuel - 1, by have := dumps_length readFloat h; omega⟩
    rw [Json.dumps]
    simp only [List.cons_append, List.nil_append, scanValue]
  | .bool false, h, hrest, hf => by
    obtain ⟨f, rfl⟩ : ∃ f, fuel = f + 1 := ⟨fuel - 1, by have := dumps_length readFloat h; omega⟩
    rw [Json.dumps]
    simp only [List.cons_append, List.nil_append, scanValue]
  | .int n, h, hrest, hf => by
    obtain ⟨f, rfl⟩ : ∃ f, fuel = f + 1 := ⟨fuel - 1, by have := dumps_length readFloat h; omega⟩
    rw [Json.dumps]
    obtain ⟨c, r, e, hc⟩ := intText_head n
    have := scanNumber_int readFloat n rest hrest
    rw [e, List.cons_append] at this ⊢
    rw [scanValue_number readFloat f c _ hc, this]
  | .float x, h, hrest, hf => by
    obtain ⟨f, rfl⟩ : ∃ f, fuel = f + 1 := ⟨fuel - 1, by have := dumps_length readFloat h; omega⟩
    rw [Spec.Readable] at h
    rw [Json.dumps]
    obtain ⟨c, r, e, hc⟩ := floatText_head h.1
    have := scanNumber_float readFloat x.repr rest h.1 hrest
    rw [h.2] at this
    rw [e, List.cons_append] at this ⊢
    rw [scanValue_number readFloat f c _ hc, this]
  | .str s, h, hrest, hf => by
    obtain ⟨f, rfl⟩ : ∃ f, fuel = f + 1 := ⟨fuel - 1, by have := dumps_length readFloat h; omega⟩
    rw [Json.dumps, scanValue_string]
  | .arr [], h, hrest, hf => by
    obtain ⟨f, rfl⟩ : ∃ f, fuel = f + 1 := ⟨fuel - 1, by have := dumps_length readFloat h; omega⟩
    rw [Json.dumps]
    simp only [List.cons_append, List.nil_append, scanValue, skipSpace_cons (c := ']') (by decide)]
  | .arr (j :: js), h, hrest, hf => by
    obtain ⟨f, rfl⟩ : ∃ f, fuel = f + 1 := ⟨fuel - 1, by have := dumps_length readFloat h; omega⟩
    rw [Spec.Readable, Spec.ReadableList] at h
    rw [Json.dumps] at hf ⊢
    simp only [List.length_cons, List.length_append, List.length_nil] at hf
    have ih := scanElements_dumps f rest j js h.1 h.2 (by omega)
    obtain ⟨c, r, e, h1, h2, -⟩ := dumps_head readFloat h.1
    have e' : '[' :: (j.dumps ++ dumpElements js ++ [']']) ++ rest =
        '[' :: (j.dumps ++ dumpElements js ++ ']' :: rest) := by simp
    rw [e']
    rw [e, List.cons_append, List.cons_append] at ih ⊢
    rw [scanValue_array readFloat h1 h2, ih]
    rfl
  | .obj [], h, hrest, hf => by
    obtain ⟨f, rfl⟩ : ∃ f, fuel = f + 1 := ⟨fuel - 1, by have := dumps_length readFloat h; omega⟩
    rw [Json.dumps]
    simp only [List.cons_append, List.nil_append, scanValue, skipSpace_cons (c := '}') (by decide)]
  | .obj ((k, j) :: js), h, hrest, hf => by
    obtain ⟨f, rfl⟩ : ∃ f, fuel = f + 1 := ⟨fuel - 1, by have := dumps_length readFloat h; omega⟩
    rw [Spec.Readable, Spec.ReadableItems] at h
    rw [Json.dumps] at hf ⊢
    simp only [List.length_cons, List.length_append, List.length_nil] at hf
    have ih := scanMembers_dumps f rest [] k j js h.1 h.2.1 h.2.2 (by omega)
    have e' : '{' :: (stringText k ++ ':' :: (j.dumps ++ dumpMembers js ++ ['}'])) ++ rest =
        '{' :: '"' :: (k.flatMap escapeChar ++ '"' :: ':' :: (j.dumps ++ dumpMembers js ++ '}' :: rest)) := by
      simp [stringText]
    have e'' : stringText k ++ ':' :: (j.dumps ++ dumpMembers js ++ '}' :: rest) =
        '"' :: (k.flatMap escapeChar ++ '"' :: ':' :: (j.dumps ++ dumpMembers js ++ '}' :: rest)) := by
      simp [stringText]
    rw [e'', List.nil_append] at ih
    rw [e', scanValue_object readFloat, ih]
    rfl

theorem scanElements_dumps (fuel : Nat) (rest : Str) : ∀ (j : Json) (js : List Json), Spec.Readable readFloat j →
    Spec.ReadableList readFloat js → j.dumps.length + (dumpElements js).length + 1 ≤ fuel →
    scanElements readFloat fuel (j.dumps ++ dumpElements js ++ ']' :: rest) = some (j :: js, rest)
  | j, [], h, hs, hf => by
    obtain ⟨f, rfl⟩ : ∃ f, fuel = f + 1 := ⟨fuel - 1, by omega⟩
    rw [dumpElements, List.append_nil]
    exact scanElements_last readFloat
      (scanValue_dumps f _ j h (stops_of (by decide) rest) (by omega))
  | j, j' :: js, h, hs, hf => by
    obtain ⟨f, rfl⟩ : ∃ f, fuel = f + 1 := ⟨fuel - 1, by omega⟩
    rw [Spec.ReadableList] at hs
    rw [dumpElements] at hf ⊢
    simp only [List.length_cons, List.length_append] at hf
    have ih := scanElements_dumps f rest j' js hs.1 hs.2 (by omega)
    have hv := scanValue_dumps f (',' :: (j'.dumps ++ dumpElements js ++ ']' :: rest)) j h
      (stops_of (by decide) _) (by omega)
    rw [List.append_assoc, List.cons_append, scanElements_more readFloat hv, List.append_assoc,
      skipSpace_dumps readFloat hs.1, ← List.append_assoc, ih]
    rfl

theorem scanMembers_dumps (fuel : Nat) (rest : Str) (acc : List (Str × Json)) (k : Str) :
    ∀ (j : Json) (js : List (Str × Json)),
    ((acc ++ (k, j) :: js).map Prod.fst).Nodup → Spec.Readable readFloat j →
    Spec.ReadableItems readFloat js → j.dumps.length + (dumpMembers js).length + 1 ≤ fuel →
    scanMembers readFloat fuel (stringText k ++ ':' :: (j.dumps ++ dumpMembers js ++ '}' :: rest)) acc =
      some (acc ++ (k, j) :: js, rest)
  | j, [], hn, h, hs, hf => by
    obtain ⟨f, rfl⟩ : ∃ f, fuel = f + 1 := ⟨fuel - 1, by omega⟩
    have hk : k ∉ acc.map Prod.fst := by
      rw [List.map_append, List.map_cons, List.nodup_middle, List.nodup_cons] at hn
      exact fun hm => hn.1 (List.mem_append_left _ hm)
    have hv := scanValue_dumps f ('}' :: rest) j h (stops_of (by decide) rest) (by omega)
    rw [← skipSpace_dumps readFloat h] at hv
    rw [dumpMembers, List.append_nil, scanMembers_last readFloat hv, setItem_new _ _ _ hk]
  | j, (k', j') :: js, hn, h, hs, hf => by
    obtain ⟨f, rfl⟩ : ∃ f, fuel = f + 1 := ⟨fuel - 1, by omega⟩
    have hk : k ∉ acc.map Prod.fst := by
      rw [List.map_append, List.map_cons, List.nodup_middle, List.nodup_cons] at hn
      exact fun hm => hn.1 (List.mem_append_left _ hm)
    rw [Spec.ReadableItems] at hs
    rw [dumpMembers] at hf ⊢
    simp only [List.length_cons, List.length_append] at hf
    have ih := scanMembers_dumps f rest (acc ++ [(k, j)]) k' j' js (by simpa using hn) hs.1 hs.2 (by omega)
    have hv := scanValue_dumps f
      (',' :: (stringText k' ++ ':' :: (j'.dumps ++ dumpMembers js ++ '}' :: rest))) j h (stops_of (by decide) _)
      (by omega)
    rw [← skipSpace_dumps readFloat h] at hv
    have e : j.dumps ++ ',' :: (stringText k' ++ ':' :: (j'.dumps ++ dumpMembers js)) ++ '}' :: rest =
      j.dumps ++ ',' :: (stringText k' ++ ':' :: (j'.dumps ++ dumpMembers js ++ '}' :: rest)) := by simp
    rw [e, scanMembers_more readFloat hv, skipSpace_of, setItem_new _ _ _ hk, ih]
    · simp
    · intro c r hc
      rw [stringText, List.cons_append] at hc
      injection hc with hc _
      rw [← hc]
      decide

end

/-! ## Enough steps -/

theorem skipSpace_length (s : Str) : (skipSpace s).length ≤ s.length := by
  induction s with
  | nil => exact Nat.le_refl _
  | cons c s ih =>
    rw [skipSpace]
    split
    · rw [List.length_cons]; omega
    · exact Nat.le_refl _

theorem hex4_shorter {s rest : Str} {n : Nat} (h : hex4 s = some (n, rest)) : rest.length < s.length := by
  unfold hex4 at h
  split at h
  · split at h
    · simp only [Option.some.injEq, Prod.mk.injEq] at h
      rw [← h.2]
      simp only [List.length_cons]
      omega
    · cases h
  · cases h

theorem secondEscape_shorter {s rest : Str} {n : Nat} (h : secondEscape s = some (n, rest)) :
    rest.length < s.length := by
  unfold secondEscape at h
  split at h
  · have := hex4_shorter h
    simp only [List.length_cons]
    omega
  · cases h

theorem unicodeChar_shorter {s rest : Str} {c : Char} (h : unicodeChar s = some (c, rest)) :
    rest.length < s.length := by
  unfold unicodeChar at h
  split at h
  · cases h
  · rename_i n r hr
    have h1 := hex4_shorter hr
    split at h
    · split at h
      · cases h
      · rename_i m r' hr'
        have h2 := secondEscape_shorter hr'
        split at h
        · simp only [Option.some.injEq, Prod.mk.injEq] at h
          rw [← h.2]
          omega
        · cases h
    · split at h
      · cases h
      · simp only [Option.some.injEq, Prod.mk.injEq] at h
        rw [← h.2]
        exact h1

theorem scanEscape_shorter {s rest : Str} {c : Char} (h : scanEscape s = some (c, rest)) :
    rest.length < s.length := by
  unfold scanEscape at h
  split at h
  · cases h
  · split at h
    · have := unicodeChar_shorter h
      rw [List.length_cons]
      omega
    · rw [Option.map_eq_some_iff] at h
      obtain ⟨a, -, h⟩ := h
      simp only [Prod.mk.injEq] at h
      rw [← h.2, List.length_cons]
      omega

theorem scanString_shorter {fuel : Nat} {s t rest : Str} (h : scanString fuel s = some (t, rest)) :
    rest.length < s.length := by
  induction fuel generalizing s t rest with
  | zero => rw [scanString] at h; cases h
  | succ fuel ih =>
    cases s with
    | nil => rw [scanString] at h; cases h
    | cons c cs =>
      rw [scanString] at h
      rw [List.length_cons]
      split at h
      · simp only [Option.some.injEq, Prod.mk.injEq] at h
        rw [← h.2]
        omega
      · split at h
        · split at h
          · cases h
          · rename_i ch r hr
            have := scanEscape_shorter hr
            rw [Option.map_eq_some_iff] at h
            obtain ⟨⟨a, b⟩, h1, h2⟩ := h
            have := ih h1
            simp only [Prod.mk.injEq] at h2
            rw [← h2.2]
            omega
        · split at h
          · cases h
          · rw [Option.map_eq_some_iff] at h
            obtain ⟨⟨a, b⟩, h1, h2⟩ := h
            have := ih h1
            simp only [Prod.mk.injEq] at h2
            rw [← h2.2]
            omega

/-- More steps than characters change nothing. -/
theorem scanString_fuel {fuel : Nat} {s : Str} (h : s.length < fuel) (k : Nat) :
    scanString (fuel + k) s = scanString fuel s := by
  induction fuel generalizing s with
  | zero => omega
  | succ fuel ih =>
    rw [show fuel + 1 + k = (fuel + k) + 1 by omega]
    cases s with
    | nil => rw [scanString, scanString]
    | cons c cs =>
      rw [List.length_cons] at h
      rw [scanString, scanString]
      rw [ih (by omega)]
      cases hr : scanEscape cs with
      | none => rfl
      | some p =>
        obtain ⟨ch, rest⟩ := p
        have := scanEscape_shorter hr
        dsimp only
        rw [ih (s := rest) (by omega)]

theorem spanDigits_length (s : Str) : (Dec.spanDigits s).2.length ≤ s.length := by
  induction s with
  | nil => exact Nat.le_refl _
  | cons c cs ih =>
    rw [Dec.spanDigits]
    split
    · rw [List.length_cons]
      dsimp only
      omega
    · exact Nat.le_refl _

theorem takeMinus_length (s : Str) : (takeMinus s).2.length ≤ s.length := by
  unfold takeMinus
  split
  · simp
  · exact Nat.le_refl _

theorem takeSign_length (s : Str) : (takeSign s).2.length ≤ s.length := by
  unfold takeSign
  split
  · simp
  · simp
  · exact Nat.le_refl _

theorem scanInt_shorter {s t rest : Str} (h : scanInt s = some (t, rest)) : rest.length < s.length := by
  unfold scanInt at h
  have hm := takeMinus_length s
  split at h
  · cases h
  · rename_i c cs hcs
    rw [hcs, List.length_cons] at hm
    have hd := spanDigits_length cs
    split_ifs at h
    · simp only [Option.some.injEq, Prod.mk.injEq] at h
      rw [← h.2]
      omega
    · simp only [Option.some.injEq, Prod.mk.injEq] at h
      rw [← h.2]
      omega

theorem scanFrac_length (s : Str) : (scanFrac s).2.length ≤ s.length := by
  unfold scanFrac
  split
  · rename_i t
    have := spanDigits_length t
    split
    · exact Nat.le_refl _
    · rw [List.length_cons]
      dsimp only
      omega
  · exact Nat.le_refl _

theorem scanExp_length (s : Str) : (scanExp s).2.length ≤ s.length := by
  unfold scanExp
  split
  · exact Nat.le_refl _
  · rename_i e t
    have h1 := takeSign_length t
    have h2 := spanDigits_length (takeSign t).2
    split
    · dsimp only
      split
      · exact Nat.le_refl _
      · rw [List.length_cons]
        dsimp only
        omega
    · exact Nat.le_refl _

theorem scanConstant_shorter {s rest : Str} {j : Json} (h : scanConstant readFloat s = some (j, rest)) :
    rest.length < s.length := by
  unfold scanConstant at h
  split at h
  all_goals first
    | (simp only [Option.some.injEq, Prod.mk.injEq] at h
       rw [← h.2]
       simp only [List.length_cons]
       omega)
    | cases h

theorem scanNumber_shorter {s rest : Str} {j : Json} (h : scanNumber readFloat s = some (j, rest)) :
    rest.length < s.length := by
  unfold scanNumber at h
  split at h
  · exact scanConstant_shorter readFloat h
  · rename_i int r hr
    have h1 := scanInt_shorter hr
    have h2 := scanFrac_length r
    have h3 := scanExp_length (scanFrac r).2
    dsimp only at h
    split at h
    · simp only [Option.some.injEq, Prod.mk.injEq] at h
      rw [← h.2]
      exact h1
    · simp only [Option.some.injEq, Prod.mk.injEq] at h
      rw [← h.2]
      omega

/-- A value, elements and items take at least one character. -/
theorem scan_shorter (fuel : Nat) :
    (∀ s j rest, scanValue readFloat fuel s = some (j, rest) → rest.length < s.length) ∧
    (∀ s l rest, scanElements readFloat fuel s = some (l, rest) → rest.length < s.length) ∧
    (∀ s acc l rest, scanMembers readFloat fuel s acc = some (l, rest) → rest.length < s.length) := by
  induction fuel with
  | zero =>
    refine ⟨fun s j rest h => ?_, fun s l rest h => ?_, fun s acc l rest h => ?_⟩
    · rw [scanValue] at h; cases h
    · rw [scanElements] at h; cases h
    · rw [scanMembers] at h; cases h
  | succ fuel ih =>
    obtain ⟨ihv, ihe, ihm⟩ := ih
    refine ⟨fun s j rest h => ?_, fun s l rest h => ?_, fun s acc l rest h => ?_⟩
    · rw [scanValue.eq_def] at h
      dsimp only at h
      split at h
      · rw [Option.map_eq_some_iff] at h
        obtain ⟨⟨a, b⟩, h1, h2⟩ := h
        simp only [Prod.mk.injEq] at h2
        have := scanString_shorter h1
        rw [← h2.2, List.length_cons]
        omega
      · rename_i r
        have hs := skipSpace_length r
        rw [List.length_cons]
        split at h
        · rename_i heq
          rw [heq, List.length_cons] at hs
          simp only [Option.some.injEq, Prod.mk.injEq] at h
          rw [← h.2]
          omega
        · rw [Option.map_eq_some_iff] at h
          obtain ⟨⟨a, b⟩, h1, h2⟩ := h
          simp only [Prod.mk.injEq] at h2
          have := ihm _ _ _ _ h1
          rw [← h2.2]
          omega
      · rename_i r
        have hs := skipSpace_length r
        rw [List.length_cons]
        split at h
        · rename_i heq
          rw [heq, List.length_cons] at hs
          simp only [Option.some.injEq, Prod.mk.injEq] at h
          rw [← h.2]
          omega
        · rw [Option.map_eq_some_iff] at h
          obtain ⟨⟨a, b⟩, h1, h2⟩ := h
          simp only [Prod.mk.injEq] at h2
          have := ihe _ _ _ h1
          rw [← h2.2]
          omega
      · simp only [Option.some.injEq, Prod.mk.injEq] at h
        rw [← h.2]; simp only [List.length_cons]; omega
      · simp only [Option.some.injEq, Prod.mk.injEq] at h
        rw [← h.2]; simp only [List.length_cons]; omega
      · simp only [Option.some.injEq, Prod.mk.injEq] at h
        rw [← h.2]; simp only [List.length_cons]; omega
      · exact scanNumber_shorter readFloat h
    · rw [scanElements] at h
      split at h
      · cases h
      · rename_i j r hr
        have h1 := ihv _ _ _ hr
        have h2 := skipSpace_length r
        split at h
        · rename_i heq
          rw [heq, List.length_cons] at h2
          simp only [Option.some.injEq, Prod.mk.injEq] at h
          rw [← h.2]
          omega
        · rename_i r' heq
          rw [heq, List.length_cons] at h2
          rw [Option.map_eq_some_iff] at h
          obtain ⟨⟨a, b⟩, h3, h4⟩ := h
          simp only [Prod.mk.injEq] at h4
          have h5 := ihe _ _ _ h3
          have h6 := skipSpace_length r'
          rw [← h4.2]
          omega
        · cases h
    · rw [scanMembers.eq_def] at h
      dsimp only at h
      split at h
      · rename_i r0
        rw [List.length_cons]
        split at h
        · cases h
        · rename_i k r1 hr1
          have h1 := scanString_shorter hr1
          have h2 := skipSpace_length r1
          split at h
          · rename_i r2 heq
            rw [heq, List.length_cons] at h2
            have h3 := skipSpace_length r2
            split at h
            · cases h
            · rename_i j r3 hr3
              have h4 := ihv _ _ _ hr3
              have h5 := skipSpace_length r3
              split at h
              · rename_i heq
                rw [heq, List.length_cons] at h5
                simp only [Option.some.injEq, Prod.mk.injEq] at h
                rw [← h.2]
                omega
              · rename_i r4 heq
                rw [heq, List.length_cons] at h5
                have h6 := ihm _ _ _ _ h
                have h7 := skipSpace_length r4
                omega
              · cases h
          · cases h
      · cases h

/-- More steps than twice the characters change nothing. -/
theorem scan_fuel (k fuel : Nat) :
    (∀ s, 2 * s.length + 1 ≤ fuel → scanValue readFloat (fuel + k) s = scanValue readFloat fuel s) ∧
    (∀ s, 2 * s.length + 2 ≤ fuel → scanElements readFloat (fuel + k) s = scanElements readFloat fuel s) ∧
    (∀ s acc, 2 * s.length + 2 ≤ fuel →
      scanMembers readFloat (fuel + k) s acc = scanMembers readFloat fuel s acc) := by
  induction fuel with
  | zero => exact ⟨fun s h => by omega, fun s h => by omega, fun s acc h => by omega⟩
  | succ fuel ih =>
    obtain ⟨ihv, ihe, ihm⟩ := ih
    rw [show fuel + 1 + k = (fuel + k) + 1 by omega]
    refine ⟨fun s h => ?_, fun s h => ?_, fun s acc h => ?_⟩
    · rw [scanValue.eq_def, scanValue.eq_def readFloat (fuel + 1)]
      dsimp only
      split
      · rfl
      · rename_i r
        have hs := skipSpace_length r
        rw [List.length_cons] at h
        split
        · rfl
        · rw [ihm _ _ (by omega)]
      · rename_i r
        have hs := skipSpace_length r
        rw [List.length_cons] at h
        split
        · rfl
        · rw [ihe _ (by omega)]
      · rfl
      · rfl
      · rfl
      · rfl
    · rw [scanElements, scanElements, ihv s (by omega)]
      cases hr : scanValue readFloat fuel s with
      | none => rfl
      | some p =>
        obtain ⟨j, r⟩ := p
        have h1 := (scan_shorter readFloat fuel).1 _ _ _ hr
        have h2 := skipSpace_length r
        dsimp only
        split
        · rfl
        · rename_i r' heq
          rw [heq, List.length_cons] at h2
          have h6 := skipSpace_length r'
          rw [ihe _ (by omega)]
        · rfl
    · rw [scanMembers.eq_def, scanMembers.eq_def readFloat (fuel + 1)]
      dsimp only
      split
      · rename_i r0
        rw [List.length_cons] at h
        split
        · rfl
        · rename_i key r1 hr1
          have h1 := scanString_shorter hr1
          have h2 := skipSpace_length r1
          split
          · rename_i r2 heq
            rw [heq, List.length_cons] at h2
            have h3 := skipSpace_length r2
            rw [ihv _ (by omega)]
            cases hr : scanValue readFloat fuel (skipSpace r2) with
            | none => rfl
            | some p =>
              obtain ⟨j, r3⟩ := p
              have h4 := (scan_shorter readFloat fuel).1 _ _ _ hr
              have h5 := skipSpace_length r3
              dsimp only
              split
              · rfl
              · rename_i r4 heq
                rw [heq, List.length_cons] at h5
                have h7 := skipSpace_length r4
                rw [ihm _ _ (by omega)]
              · rfl
          · rfl
      · rfl

/-- The steps that `json.loads` is given in the model are enough. -/
theorem scanValue_fuel {fuel : Nat} {s : Str} (h : 2 * s.length + 1 ≤ fuel) :
    scanValue readFloat fuel s = scanValue readFloat (2 * s.length + 1) s := by
  have := (scan_fuel readFloat (fuel - (2 * s.length + 1)) (2 * s.length + 1)).1 s (by omega)
  rw [← this]
  congr 1
  omega

/-! ## Whole texts -/

theorem loads_dumps {j : Json} (h : Spec.Readable readFloat j) (s t : Str) (hs : Spec.Blank s) (ht : Spec.Blank t) :
    jsonLoads readFloat (s ++ j.dumps ++ t) = .ok j := by
  have hstop : Stops t := by
    intro c r e
    rcases ht c (by rw [e]; exact List.mem_cons_self) with rfl | rfl | rfl | rfl <;> decide
  have hv := scanValue_dumps readFloat (2 * (s ++ j.dumps ++ t).length + 1) t j h hstop (by
    simp only [List.length_append]; omega)
  have ht' : skipSpace t = [] := by
    have := skipSpace_blank t [] ht
    rwa [List.append_nil] at this
  unfold jsonLoads
  rw [List.append_assoc, skipSpace_blank _ _ hs, skipSpace_dumps readFloat h, ← List.append_assoc, hv]
  dsimp only
  rw [ht']
  rfl

/-- Only a text that begins with a brace, apart from white space, is read as a dict. -/
theorem loads_obj {s : Str} {l : List (Str × Json)} (h : jsonLoads readFloat s = .ok (.obj l)) :
    ∃ r, skipSpace s = '{' :: r := by
  unfold jsonLoads at h
  split at h
  · rename_i j rest hv
    split at h
    · injection h with h
      subst h
      rw [scanValue.eq_def] at hv
      dsimp only at hv
      split at hv
      · rw [Option.map_eq_some_iff] at hv
        obtain ⟨a, -, hv⟩ := hv
        cases hv
      · rename_i heq
        exact ⟨_, heq⟩
      · split at hv
        · cases hv
        · rw [Option.map_eq_some_iff] at hv
          obtain ⟨a, -, hv⟩ := hv
          cases hv
      · cases hv
      · cases hv
      · cases hv
      · unfold scanNumber at hv
        split at hv
        · unfold scanConstant at hv
          split at hv <;> cases hv
        · dsimp only at hv
          split at hv <;> cases hv
    · cases h
  · cases h

theorem skipSpace_mem {s : Str} {c : Char} {r : Str} (h : skipSpace s = c :: r) : c ∈ s := by
  induction s with
  | nil => cases h
  | cons d s ih =>
    rw [skipSpace] at h
    split at h
    · exact List.mem_cons_of_mem _ (ih h)
    · injection h with h _
      rw [h]
      exact List.mem_cons_self

/-- A hexadecimal text has only digits and white space. -/
theorem fromHex_chars {s : Str} {b : Bytes} (h : fromHex s = .ok b) :
    ∀ c ∈ s, isHexSpace c = true ∨ (hexVal c).isSome = true := by
  induction s using fromHex.induct generalizing b with
  | case1 => intro c hc; cases hc
  | case2 c rest hsp ih =>
    intro d hd
    rcases List.mem_cons.mp hd with rfl | hd
    · exact .inl hsp
    · rw [fromHex.eq_def] at h
      dsimp only at h
      rw [if_pos hsp] at h
      exact ih h d hd
  | case3 c hsp =>
    rw [fromHex.eq_def] at h
    dsimp only at h
    rw [if_neg hsp] at h
    cases h
  | case4 c hsp d rest' hv lv h1 h2 bs hbs ih =>
    intro x hx
    rcases List.mem_cons.mp hx with rfl | hx
    · right; rw [h2]; rfl
    · rcases List.mem_cons.mp hx with rfl | hx
      · right; rw [h1]; rfl
      · exact ih hbs x hx
  | case5 c hsp d rest' hv lv h1 h2 e he ih =>
    rw [fromHex, if_neg hsp] at h
    simp only [h1, h2, he] at h
    cases h
  | case6 c hsp d rest' hno =>
    rw [fromHex, if_neg hsp] at h
    split at h
    · rename_i a b e1 e2
      exact absurd e2 (hno a b e1)
    · cases h

theorem hexToBytes_chars {s : Str} {b : Bytes} (h : hexToBytes s = .ok b) :
    ∀ c ∈ s, isHexSpace c = true ∨ (hexVal c).isSome = true := by
  unfold hexToBytes at h
  split at h
  · exact fun c hc => fromHex_chars h c (List.mem_cons_of_mem _ hc)
  · exact fromHex_chars h

/-- A hexadecimal text is not read as a dict. -/
theorem loads_hex {s : Str} {b : Bytes} (h : hexToBytes s = .ok b) (l : List (Str × Json)) :
    jsonLoads readFloat s ≠ .ok (.obj l) := by
  intro hl
  obtain ⟨r, hr⟩ := loads_obj readFloat hl
  have := hexToBytes_chars h '{' (skipSpace_mem hr)
  revert this
  decide

/-! ## Sizes -/

theorem quarterFrac (v : Nat) : ∃ frac : Str, quarterText v = Dec.digitsText (v / 4) ++ '.' :: frac ∧ frac ≠ [] ∧
    (∀ c ∈ frac, '0' ≤ c ∧ c ≤ '9') ∧ (Spec.digitsValue frac : ℚ) / 10 ^ frac.length = ((v % 4 : Nat) : ℚ) / 4 := by
  unfold quarterText
  have h : v % 4 < 4 := Nat.mod_lt _ (by decide)
  generalize v % 4 = r at *
  refine ⟨_, rfl, ?_⟩
  interval_cases r
  all_goals refine ⟨by simp, by decide, ?_⟩
  · have : Spec.digitsValue ['0'] = 0 := by decide
    simp [this]
  · have : Spec.digitsValue ['2', '5'] = 25 := by decide
    simp [this]; norm_num
  · have : Spec.digitsValue ['5'] = 5 := by decide
    simp [this]; norm_num
  · have : Spec.digitsValue ['7', '5'] = 75 := by decide
    simp [this]; norm_num

/-- The text of a size denotes it. -/
theorem quarterText_denotes (v : Nat) : Spec.Denotes (quarterText v) ((v : ℚ) / 4) := by
  obtain ⟨frac, h1, h2, h3, h4⟩ := quarterFrac v
  obtain ⟨d1, d2, d3⟩ := digitsText_spec (v / 4)
  refine ⟨false, Dec.digitsText (v / 4), frac, ⟨?_, d3, ?_⟩, ?_⟩
  · intro c hc
    rcases List.mem_append.mp hc with hc | hc
    · exact d1 c hc
    · exact h3 c hc
  · rw [h1, if_neg h2]
    rfl
  · unfold Spec.plainValue
    rw [digitsValue_append, d2]
    have hp : (10 : ℚ) ^ frac.length ≠ 0 := by positivity
    have e : ((v / 4 * 10 ^ frac.length + Spec.digitsValue frac : Nat) : ℚ) / 10 ^ frac.length =
        ((v / 4 : Nat) : ℚ) + (Spec.digitsValue frac : ℚ) / 10 ^ frac.length := by
      push_cast
      field_simp
    rw [e, h4]
    have hv : (v : ℚ) = 4 * ((v / 4 : Nat) : ℚ) + ((v % 4 : Nat) : ℚ) := by
      exact_mod_cast (Nat.div_add_mod v 4).symm
    rw [hv]
    simp
    ring

theorem quarterText_float (v : Nat) : Spec.FloatText (quarterText v) := by
  obtain ⟨frac, h1, h2, h3, -⟩ := quarterFrac v
  obtain ⟨d1, d2, d3⟩ := digitsText_spec (v / 4)
  have := Spec.FloatText.number false (Dec.digitsText (v / 4)) ('.' :: frac) [] d1 d3 (digitsText_head _)
    (.inr ⟨frac, rfl, h2, h3⟩) (.inl rfl) (.inl (by simp))
  rw [h1]
  simpa using this

theorem quarters_value {d : Dec} {v : Nat} (h : Spec.value d = (v : ℚ) / 4) : quarters d = some v := by
  unfold Spec.value at h
  unfold quarters
  have hneg : ¬ (d.neg = true ∧ d.coeff ≠ 0) := by
    rintro ⟨h1, h2⟩
    rw [h1] at h
    have h3 : (0 : ℚ) < d.coeff := by exact_mod_cast Nat.pos_of_ne_zero h2
    have h4 : (0 : ℚ) < (10 : ℚ) ^ d.exp := zpow_pos (by norm_num) _
    have h5 : (0 : ℚ) < d.coeff * (10 : ℚ) ^ d.exp := mul_pos h3 h4
    have h6 : (0 : ℚ) ≤ (v : ℚ) / 4 := by positivity
    simp only [if_true] at h
    linarith
  have hval : (d.coeff : ℚ) * (10 : ℚ) ^ d.exp = (v : ℚ) / 4 := by
    by_cases hn : d.neg = true
    · have h0 : d.coeff = 0 := by
        by_contra h0
        exact hneg ⟨hn, h0⟩
      rw [h0] at h ⊢
      simpa using h
    · rw [if_neg hn] at h
      linarith
  rw [if_neg hneg]
  by_cases he : 0 ≤ d.exp
  · rw [if_pos he]
    obtain ⟨n, hn⟩ := Int.eq_ofNat_of_zero_le he
    rw [hn, zpow_natCast] at hval
    rw [hn, Int.toNat_natCast]
    have : 4 * ((d.coeff : ℚ) * 10 ^ n) = v := by rw [hval]; ring
    have : 4 * (d.coeff * 10 ^ n) = v := by exact_mod_cast this
    rw [this]
  · rw [if_neg he]
    obtain ⟨n, hn⟩ := Int.eq_ofNat_of_zero_le (show 0 ≤ -d.exp by omega)
    have he' : d.exp = -(n : Int) := by omega
    rw [he', zpow_neg, zpow_natCast] at hval
    rw [hn, Int.toNat_natCast]
    have hp : (10 : ℚ) ^ n ≠ 0 := by positivity
    have : 4 * (d.coeff : ℚ) = v * 10 ^ n := by
      field_simp at hval
      linarith
    have : 4 * d.coeff = v * 10 ^ n := by exact_mod_cast this
    rw [this, if_pos (Nat.mul_mod_left _ _), Nat.mul_div_cancel _ (by positivity)]

/-! ## Unspents -/

theorem sizeJson_readable {isFloat : Bool} (hr : Spec.ReadsQuarters readFloat) {v : Nat} (hv : v < 2 ^ 50) :
    Spec.Readable readFloat (sizeJson readFloat isFloat v) := by
  unfold sizeJson
  split
  · rw [Spec.Readable, hr.repr v hv]
    exact ⟨quarterText_float v, rfl⟩
  · rw [Spec.Readable]
    · trivial
    all_goals (intros; contradiction)

theorem attrOfJson_size {isFloat : Bool} (hr : Spec.ReadsQuarters readFloat) {v : Nat} (hv : v < 2 ^ 50) :
    attrOfJson "vsize" (sizeJson readFloat isFloat v) = .ok (.size v) := by
  unfold attrOfJson sizeJson
  rw [if_pos rfl]
  by_cases h : isFloat = true ∨ v % 4 ≠ 0
  · rw [if_pos h]
    dsimp only
    rw [quarters_value (hr.exact v hv)]
  · rw [if_neg h]
    dsimp only
    rw [if_pos (by omega), Int.toNat_natCast, show 4 * (v / 4) = v by omega]

theorem toJson_readable {isFloat : Bool} (hr : Spec.ReadsQuarters readFloat) {u : Unspent} (hv : u.vsize4 < 2 ^ 50) :
    Spec.Readable readFloat (u.toJson readFloat isFloat) := by
  have hs := sizeJson_readable readFloat (isFloat := isFloat) hr hv
  have hg : Spec.Readable readFloat ((DictVal.flag u.segwit).toJson readFloat isFloat) := by
    rcases u.segwit with _ | b
    · rw [DictVal.toJson, Spec.Readable]
      · trivial
      all_goals (intros; contradiction)
    · rw [DictVal.toJson, Spec.Readable]
      · trivial
      all_goals (intros; contradiction)
  unfold Unspent.toJson
  rw [Spec.Readable]
  refine ⟨?_, ?_⟩
  · have : ((u.toDict.map fun a => (a.1.toList, a.2.toJson readFloat isFloat)).map Prod.fst) =
        unspentSlots.map String.toList := by
      simp only [Unspent.toDict, unspentSlots, List.map_cons, List.map_nil]
    rw [this]
    decide
  · simp only [Unspent.toDict, List.map_cons, List.map_nil, Spec.ReadableItems, DictVal.toJson, Spec.Readable, true_and]
    exact ⟨hs, hg, trivial⟩

theorem fromJson_toJson {isFloat : Bool} (hr : Spec.ReadsQuarters readFloat) {u : Unspent} (hv : u.vsize4 < 2 ^ 50) :
    Unspent.fromJson (u.toJson readFloat isFloat) = Unspent.fromDict u.toDict := by
  have hs := attrOfJson_size readFloat (isFloat := isFloat) hr hv
  have hg : attrOfJson "segwit" ((DictVal.flag u.segwit).toJson readFloat isFloat) = .ok (.flag u.segwit) := by
    rcases u.segwit with _ | b <;> rfl
  have look : ∀ k v, u.toDict.lookup k = some v →
      (u.toJson readFloat isFloat).get k.toList = .ok (v.toJson readFloat isFloat) := by
    intro k v h
    unfold Unspent.toJson Json.get
    have : (u.toDict.map fun a => (a.1.toList, a.2.toJson readFloat isFloat)).lookup k.toList =
        some (v.toJson readFloat isFloat) := by
      revert h
      generalize u.toDict = d
      induction d with
      | nil => intro h; cases h
      | cons a d ih =>
        obtain ⟨k', v'⟩ := a
        rw [List.map_cons, List.lookup_cons, List.lookup_cons]
        by_cases e : k = k'
        · subst e
          simp only [beq_self_eq_true, Option.some.injEq]
          rintro rfl
          rfl
        · have e' : k.toList ≠ k'.toList := fun h => e (String.toList_injective h)
          rw [beq_eq_false_iff_ne.mpr e, beq_eq_false_iff_ne.mpr e']
          exact ih
    simp only [this]
  unfold Unspent.fromJson unspentSlots
  simp only [pyMap]
  rw [look "amount" (.int u.amount) rfl, look "confirmations" (.int u.confirmations) rfl,
    look "script" (.str u.script) rfl, look "txid" (.str u.txid) rfl, look "txindex" (.int u.txindex) rfl,
    look "type" (.str u.type) rfl, look "vsize" (.size u.vsize4) rfl, look "segwit" (.flag u.segwit) rfl,
    look "sequence" (.int u.sequence) rfl]
  simp only [Except.bind]
  rw [hg]
  simp only [DictVal.toJson]
  rw [hs]
  rfl

/-! ## Printable text -/

/-- A printable ASCII character. -/
def Printable (c : Char) : Prop := ' ' ≤ c ∧ c ≤ '~'

instance (c : Char) : Decidable (Printable c) := inferInstanceAs (Decidable (_ ∧ _))

theorem printable_iff (c : Char) : (0x20 ≤ c.toNat ∧ c.toNat ≤ 0x7e) ↔ Printable c := by
  unfold Printable
  rw [Char.le_def, Char.le_def, UInt32.le_iff_toNat_le, UInt32.le_iff_toNat_le]
  rfl

theorem printable_digit {c : Char} (h : '0' ≤ c ∧ c ≤ '9') : Printable c := by
  rw [← printable_iff]
  have := (digit_iff c).mpr h
  omega

theorem printable_hexDigit {n : Nat} (h : n < 16) : Printable (hexDigit n) := by
  have : ∀ n : Fin 16, Printable (hexDigit n.val) := by decide
  exact this ⟨n, h⟩

theorem printable_list {s : Str} (h : s.all (fun c => decide (Printable c)) = true) : ∀ c ∈ s, Printable c := by
  simpa using h

theorem printable_append {s t : Str} (hs : ∀ c ∈ s, Printable c) (ht : ∀ c ∈ t, Printable c) :
    ∀ c ∈ s ++ t, Printable c := by
  intro c hc
  rcases List.mem_append.mp hc with h | h
  · exact hs c h
  · exact ht c h

theorem printable_cons {a : Char} {t : Str} (ha : Printable a) (ht : ∀ c ∈ t, Printable c) :
    ∀ c ∈ a :: t, Printable c := by
  intro c hc
  rcases List.mem_cons.mp hc with h | h
  · rw [h]; exact ha
  · exact ht c h

theorem printable_nil : ∀ c ∈ ([] : Str), Printable c := by
  intro c hc; cases hc

theorem printable_unicode (n : Nat) : ∀ c ∈ unicodeEscape n, Printable c :=
  printable_cons (by decide) <| printable_cons (by decide) <|
    printable_cons (printable_hexDigit (Nat.mod_lt _ (by decide))) <|
    printable_cons (printable_hexDigit (Nat.mod_lt _ (by decide))) <|
    printable_cons (printable_hexDigit (Nat.mod_lt _ (by decide))) <|
    printable_cons (printable_hexDigit (Nat.mod_lt _ (by decide))) printable_nil

theorem printable_escape (a : Char) : ∀ c ∈ escapeChar a, Printable c := by
  unfold escapeChar
  split_ifs with h1 h2 h3
  · exact printable_list (by decide)
  · exact printable_list (by decide)
  · exact printable_cons ((printable_iff a).mp h3) printable_nil
  · exact printable_list (by decide)
  · exact printable_list (by decide)
  · exact printable_list (by decide)
  · exact printable_list (by decide)
  · exact printable_list (by decide)
  · exact printable_unicode _
  · exact printable_append (printable_unicode _) (printable_unicode _)

theorem printable_string (s : Str) : ∀ c ∈ stringText s, Printable c := by
  refine printable_cons (by decide) (printable_append ?_ (printable_list (by decide)))
  intro c hc
  obtain ⟨a, -, ha⟩ := List.mem_flatMap.mp hc
  exact printable_escape a c ha

theorem printable_int (n : Int) : ∀ c ∈ intText n, Printable c := by
  have hd : ∀ c ∈ Dec.digitsText n.natAbs, Printable c :=
    fun c hc => printable_digit ((digitsText_spec n.natAbs).1 c hc)
  unfold intText
  split
  · exact printable_cons (by decide) hd
  · exact hd

theorem printable_float {s : Str} (h : Spec.FloatText s) : ∀ c ∈ s, Printable c := by
  cases h with
  | number neg int frac exp hint hne hzero hfrac hexp hsome =>
    refine printable_append (printable_append (printable_append ?_ ?_) ?_) ?_
    · cases neg
      · exact printable_nil
      · exact printable_list (by decide)
    · exact fun c hc => printable_digit (hint c hc)
    · rcases hfrac with rfl | ⟨ds, rfl, -, hd⟩
      · exact printable_nil
      · exact printable_cons (by decide) fun c hc => printable_digit (hd c hc)
    · rcases hexp with rfl | ⟨sign, ds, rfl, hs, -, hd⟩
      · exact printable_nil
      · refine printable_cons (by decide) (printable_append ?_ fun c hc => printable_digit (hd c hc))
        rcases hs with rfl | rfl <;> exact printable_list (by decide)
  | nan => exact printable_list (by decide)
  | inf => exact printable_list (by decide)
  | negInf => exact printable_list (by decide)

mutual

theorem printable_dumps : ∀ j : Json, Spec.Readable readFloat j → ∀ c ∈ j.dumps, Printable c
  | .null, _ => by rw [Json.dumps]; exact printable_list (by decide)
  | .bool true, _ => by rw [Json.dumps]; exact printable_list (by decide)
  | .bool false, _ => by rw [Json.dumps]; exact printable_list (by decide)
  | .int n, _ => by rw [Json.dumps]; exact printable_int n
  | .float f, h => by rw [Spec.Readable] at h; rw [Json.dumps]; exact printable_float h.1
  | .str s, _ => by rw [Json.dumps]; exact printable_string s
  | .arr [], _ => by rw [Json.dumps]; exact printable_list (by decide)
  | .arr (j :: js), h => by
    rw [Spec.Readable, Spec.ReadableList] at h
    rw [Json.dumps]
    exact printable_cons (by decide) (printable_append
      (printable_append (printable_dumps j h.1) (printable_elements js h.2)) (printable_list (by decide)))
  | .obj [], _ => by rw [Json.dumps]; exact printable_list (by decide)
  | .obj ((k, j) :: js), h => by
    rw [Spec.Readable, Spec.ReadableItems] at h
    rw [Json.dumps]
    exact printable_cons (by decide) (printable_append (printable_string k) (printable_cons (by decide)
      (printable_append (printable_append (printable_dumps j h.2.1) (printable_members js h.2.2))
        (printable_list (by decide)))))

theorem printable_elements : ∀ js : List Json, Spec.ReadableList readFloat js → ∀ c ∈ dumpElements js, Printable c
  | [], _ => by rw [dumpElements]; exact printable_nil
  | j :: js, h => by
    rw [Spec.ReadableList] at h
    rw [dumpElements]
    exact printable_cons (by decide) (printable_append (printable_dumps j h.1) (printable_elements js h.2))

theorem printable_members : ∀ js : List (Str × Json), Spec.ReadableItems readFloat js →
    ∀ c ∈ dumpMembers js, Printable c
  | [], _ => by rw [dumpMembers]; exact printable_nil
  | (k, j) :: js, h => by
    rw [Spec.ReadableItems] at h
    rw [dumpMembers]
    exact printable_cons (by decide) (printable_append (printable_string k) (printable_cons (by decide)
      (printable_append (printable_dumps j h.1) (printable_members js h.2))))

end

/-! ## Prepared data -/

/-- The outputs of prepared data as JSON. -/
def jsonPairs (outs : List (Str × Int)) : List Json := outs.map fun o => .arr [.str o.1, .int o.2]

theorem jsonPairs_readable (outs : List (Str × Int)) : Spec.ReadableList readFloat (jsonPairs outs) := by
  induction outs with
  | nil => simp only [jsonPairs, List.map_nil, Spec.ReadableList]
  | cons o outs ih =>
    simp only [jsonPairs, List.map_cons, Spec.ReadableList, Spec.Readable, true_and]
    exact ih

theorem toJsons_readable (floats : Unspent → Bool) (hr : Spec.ReadsQuarters readFloat) (us : List Unspent)
    (hv : ∀ u ∈ us, u.vsize4 < 2 ^ 50) :
    Spec.ReadableList readFloat (us.map fun u => u.toJson readFloat (floats u)) := by
  induction us with
  | nil => simp only [List.map_nil, Spec.ReadableList]
  | cons u us ih =>
    rw [List.map_cons, Spec.ReadableList]
    exact ⟨toJson_readable readFloat hr (hv u List.mem_cons_self), ih fun v h => hv v (List.mem_cons_of_mem _ h)⟩

theorem preparedData_readable (floats : Unspent → Bool) (hr : Spec.ReadsQuarters readFloat) (us : List Unspent)
    (hv : ∀ u ∈ us, u.vsize4 < 2 ^ 50) (outs : List (Str × Int)) :
    Spec.Readable readFloat (preparedData readFloat floats us (jsonPairs outs)) := by
  unfold preparedData
  simp only [Spec.Readable, Spec.ReadableItems, and_true]
  refine ⟨?_, toJsons_readable readFloat floats hr us hv, jsonPairs_readable readFloat outs⟩
  simp only [List.map_cons, List.map_nil]
  decide

theorem pyMap_outputs (outs : List (Str × Int)) :
    pyMap outputOfJson (jsonPairs outs) = .ok (outs.map fun o => (.str o.1, o.2)) := by
  induction outs with
  | nil => rfl
  | cons o outs ih =>
    unfold jsonPairs at ih ⊢
    rw [List.map_cons, pyMap, outputOfJson, ih]
    rfl

/-- A text with a brace is no hexadecimal text. -/
theorem hexToBytes_brace {s : Str} (h : '{' ∈ s) : ∃ e, hexToBytes s = .error e := by
  cases hb : hexToBytes s with
  | error e => exact ⟨e, rfl⟩
  | ok b =>
    exact absurd (hexToBytes_chars hb '{' h) (by decide)

theorem fromHex_error {s : Str} {e : PyErr} (h : fromHex s = .error e) : e = .valueError := by
  induction s using fromHex.induct generalizing e with
  | case1 => rw [fromHex] at h; cases h
  | case2 c rest hsp ih =>
    rw [fromHex.eq_def] at h
    dsimp only at h
    rw [if_pos hsp] at h
    exact ih h
  | case3 c hsp =>
    rw [fromHex.eq_def] at h
    dsimp only at h
    rw [if_neg hsp] at h
    injection h with h
    exact h.symm
  | case4 c hsp d rest' hv lv h1 h2 bs hbs ih =>
    rw [fromHex, if_neg hsp] at h
    simp only [h1, h2, hbs] at h
    cases h
  | case5 c hsp d rest' hv lv h1 h2 e' he ih =>
    rw [fromHex, if_neg hsp] at h
    simp only [h1, h2, he] at h
    injection h with h
    rw [← h]
    exact ih he
  | case6 c hsp d rest' hno =>
    rw [fromHex, if_neg hsp] at h
    split at h
    · rename_i a b e1 e2
      exact absurd e2 (hno a b e1)
    · injection h with h
      exact h.symm

theorem hexToBytes_error {s : Str} {e : PyErr} (h : hexToBytes s = .error e) : e = .valueError := fromHex_error h

theorem deserializeHex_error {s : Str} {e : PyErr} (h : hexToBytes s = .error e) :
    deserializeHex s = .error .valueError := by
  unfold deserializeHex
  have := hexToBytes_error h
  split <;> rw [h, this]

end Bit
