import Verif.Lemmas.JsonSound
import Verif.Lemmas.JsonText
import Verif.Lemmas.Secret
/-
C79, the converse: nothing but JSON is read as prepared data.
-/
namespace Bit

open Bit.Spec

/-- C79. Only texts of the JSON grammar are read (with the words NaN, Infinity and -Infinity, as Python does), and only as the
value they stand for. -/
theorem C79_only (readFloat : Str → PyFloat) (text : Str) (j : Json) (h : jsonLoads readFloat text = .ok j) :
    PyJsonText readFloat text j := loads_sound readFloat h

/-- A character of a hexadecimal text: a digit, small or capital, or white space of ASCII. -/
def HexTextChar (c : Char) : Prop :=
  (∃ n, HexDigit c n) ∨ c = ' ' ∨ c = '\t' ∨ c = '\n' ∨ c = '\r' ∨ c.toNat = 11 ∨ c.toNat = 12

theorem not_hex_text {text : Str} (h : ∃ c ∈ text, ¬ HexTextChar c) : hexToBytes text = .error .valueError := by
  cases hb : hexToBytes text with
  | error e => rw [hexToBytes_error hb]
  | ok b =>
    obtain ⟨c, hc, hn⟩ := h
    refine absurd ?_ hn
    rcases hexToBytes_chars hb c hc with hs | hs
    · simp only [isHexSpace, Bool.or_eq_true, decide_eq_true_eq] at hs
      unfold HexTextChar
      tauto
    · obtain ⟨n, hv⟩ := Option.isSome_iff_exists.mp hs
      exact .inl ⟨n, hexDigit_found hv⟩

/-- C79. `sign_transaction` refuses every text that is neither JSON nor hexadecimal, with or without a list of unspents:
`ValueError`, or the exception of `get_unspents` if the coins have to be asked for. -/
theorem C79_refused (C : Crypto) (readFloat : Str → PyFloat) (ask : Ask) (w : Wallet) (text : Str)
    (hj : ¬ ∃ j, PyJsonText readFloat text j) (hx : ∃ c ∈ text, ¬ HexTextChar c) (us : Option (List Unspent)) :
    ∃ e, (w.signTransaction C readFloat ask text us).2 = .error e ∧
      (e = .valueError ∨ us.getD [] = [] ∧ (w.getUnspents C ask).2 = .error e) := by
  have hd : deserializeHex text = .error .valueError := deserializeHex_error (not_hex_text hx)
  have hf : ∀ l : List Unspent, ∃ e, (w.signFallback C ask text l).2 = .error e ∧
      (e = .valueError ∨ l = [] ∧ (w.getUnspents C ask).2 = .error e) := by
    intro l
    unfold Wallet.signFallback
    cases l with
    | nil =>
      simp only [List.isEmpty_nil, if_true]
      generalize w.getUnspents C ask = r
      obtain ⟨v, got⟩ := r
      cases got with
      | error e => exact ⟨e, rfl, .inr (by simp)⟩
      | ok us => exact ⟨.valueError, by simp only [signTransactionHex, hd], .inl rfl⟩
    | cons u l =>
      exact ⟨.valueError, by simp [signTransactionHex, hd], .inl rfl⟩
  cases hl : jsonLoads readFloat text with
  | ok j => exact absurd ⟨j, C79_only readFloat text j hl⟩ hj
  | error e =>
    have : w.signTransaction C readFloat ask text us = w.signFallback C ask text (us.getD []) := by
      unfold Wallet.signTransaction
      rw [hl]
    rw [this]
    exact hf _

/-! ### a case -/

theorem number_head (neg : Bool) {ds : Str} (h : IntPart ds) (t : Str) :
    ∃ c r, minus neg ++ ds ++ t = c :: r ∧ c ∈ "ntfNI-0123456789\"[{".toList := by
  cases neg with
  | true => exact ⟨_, _, rfl, by decide⟩
  | false =>
    obtain ⟨⟨hne, hd⟩, -⟩ := h
    cases ds with
    | nil => exact absurd rfl hne
    | cons c ds =>
      refine ⟨c, ds ++ t, rfl, ?_⟩
      obtain ⟨h1, h2⟩ := hd c List.mem_cons_self
      have h1 : 48 ≤ c.toNat := h1
      have h2 : c.toNat ≤ 57 := h2
      obtain ⟨k, hk⟩ : ∃ k, c.toNat = k := ⟨_, rfl⟩
      rw [← Char.ofNat_toNat c, hk]
      rw [hk] at h1 h2
      interval_cases k <;> decide

theorem pyValue_head {readFloat : Str → PyFloat} {t : Str} {j : Json} (h : PyValueText readFloat t j) :
    ∃ c r, t = c :: r ∧ c ∈ "ntfNI-0123456789\"[{".toList := by
  cases h with
  | null => exact ⟨_, _, rfl, by decide⟩
  | true => exact ⟨_, _, rfl, by decide⟩
  | false => exact ⟨_, _, rfl, by decide⟩
  | constant h =>
    simp only [List.mem_cons, List.not_mem_nil, or_false] at h
    rcases h with rfl | rfl | rfl <;> exact ⟨_, _, rfl, by decide⟩
  | int neg h => simpa using number_head neg h []
  | float neg h hf he hs =>
    rw [List.append_assoc (minus neg ++ _)]
    exact number_head neg h _
  | string h => exact ⟨_, _, rfl, by decide⟩
  | noElements h => exact ⟨_, _, rfl, by decide⟩
  | array h => exact ⟨_, _, rfl, by decide⟩
  | noMembers h => exact ⟨_, _, rfl, by decide⟩
  | object h => exact ⟨_, _, rfl, by decide⟩

/-- A text that is neither: with the JSON text in Python's own notation. -/
example (readFloat : Str → PyFloat) :
    (¬ ∃ j, PyJsonText readFloat "dict(unspents=[], outputs=[])".toList j) ∧
    ∃ c ∈ "dict(unspents=[], outputs=[])".toList, ¬ HexTextChar c := by
  constructor
  · rintro ⟨j, w, t, w', e, hw, hv, hw'⟩
    obtain ⟨c, r, rfl, hc⟩ := pyValue_head hv
    cases w with
    | nil =>
      injection e with e _
      subst e
      exact absurd hc (by decide)
    | cons d w =>
      injection e with e _
      have := hw d List.mem_cons_self
      rw [← e] at this
      revert this
      decide
  · refine ⟨'(', by decide, ?_⟩
    rintro (⟨n, h⟩ | h)
    · have hm : '(' ∈ "0123456789abcdef".toList ∨ '(' ∈ "0123456789ABCDEF".toList :=
        h.imp List.mem_of_getElem? List.mem_of_getElem?
      revert hm
      decide
    · revert h
      decide

end Bit
