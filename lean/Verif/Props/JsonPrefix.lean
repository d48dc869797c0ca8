import Verif.Lemmas.JsonPrefix
import Verif.Props.JsonGrammar
/-
C82: prepared transactions that were cut off or have something behind them.
-/
namespace Bit
open Bit.Spec (JsonText Blank)
open Concrete

theorem skipSpace_solid : ∀ {s x : Str}, skipSpace s = [] → ¬ Blank x → skipSpace (s ++ x) ≠ []
  | [], [], _, h => absurd blank_nil h
  | [], c :: x, _, h => by
    rw [List.nil_append, skipSpace]
    split
    · rename_i hb
      refine skipSpace_solid (s := []) rfl fun hx => h fun d hd => ?_
      rcases List.mem_cons.mp hd with rfl | hd
      · exact hb
      · exact hx d hd
    · intro h
      cases h
  | c :: s, x, h, hx => by
    rw [skipSpace] at h
    rw [List.cons_append, skipSpace]
    split at h
    · rename_i hb
      rw [if_pos hb]
      exact skipSpace_solid h hx
    · cases h

/-- A text that is an object up to some place is no JSON text if more than white space follows. -/
theorem loads_append (readFloat : Str → PyFloat) {a x t : Str} {j : Json} (ha : skipSpace a = '{' :: t)
    (h : jsonLoads readFloat a = .ok j) (hx : ¬ Blank x) : jsonLoads readFloat (a ++ x) = .error .valueError := by
  unfold jsonLoads at h ⊢
  split at h
  · rename_i j' rest hv
    split at h
    · rename_i he
      have hlen : (skipSpace a).length ≤ a.length := skipSpace_length a
      rw [skipSpace_more (by rw [ha]; intro h; cases h)]
      rw [scanValue_fuel readFloat (by omega)] at hv
      rw [← scanValue_fuel readFloat (fuel := 2 * (a ++ x).length + 1)
        (by rw [List.length_append]; omega)] at hv
      rw [(scan_append readFloat x _).1 _ _ _ hv (.inl ⟨t, ha⟩)]
      dsimp only
      have hne := skipSpace_solid (List.isEmpty_iff.mp he) hx
      rw [if_neg (by simpa using hne)]
    · cases h
  · cases h

theorem skipSpace_object {readFloat : Str → PyFloat} {text : Str} {l : List (Str × Json)}
    (h : JsonText readFloat text (.obj l)) : ∃ t, skipSpace text = '{' :: t := by
  obtain ⟨w, t, w', rfl, hw, hv, -⟩ := h
  rw [List.append_assoc, skipSpace_blank _ _ hw]
  cases hv with
  | noMembers _ => exact ⟨_, skipSpace_cons (by decide) _⟩
  | object _ => exact ⟨_, skipSpace_cons (by decide) _⟩

/-- C82. A text of the JSON grammar for an object is read no more if any of it but white space at its end is missing, or
if anything but white space is behind it. -/
theorem C82_loads (readFloat : Str → PyFloat) (text : Str) (l : List (Str × Json)) (h : JsonText readFloat text (.obj l)) :
    (∀ a x, text = a ++ x → ¬ Blank x → jsonLoads readFloat a = .error .valueError) ∧
    (∀ x, ¬ Blank x → jsonLoads readFloat (text ++ x) = .error .valueError) := by
  obtain ⟨t, ht⟩ := skipSpace_object h
  have hl := loads_jsonText readFloat h
  refine ⟨fun a x e hx => ?_, fun x hx => loads_append readFloat ht hl hx⟩
  cases ha : jsonLoads readFloat a with
  | error e =>
    unfold jsonLoads at ha
    split at ha
    · split at ha
      · cases ha
      · exact ha.symm
    · exact ha.symm
  | ok j =>
    exfalso
    have hne : skipSpace a ≠ [] := by
      intro hn
      unfold jsonLoads at ha
      rw [hn, scanValue_nil] at ha
      cases ha
    rw [e, skipSpace_more hne] at ht
    cases hs : skipSpace a with
    | nil => exact hne hs
    | cons c u =>
      rw [hs] at ht
      injection ht with hc
      rw [hc] at hs
      rw [e, loads_append readFloat hs ha hx] at hl
      cases hl

theorem deserializeHex_blank {a : Str} (h : Blank a) : ∃ e, deserializeHex a = .error e := by
  cases a with
  | nil => exact ⟨_, rfl⟩
  | cons c a =>
    unfold deserializeHex
    rw [if_neg]
    · cases hexToBytes (c :: a) with
      | error e => exact ⟨_, rfl⟩
      | ok b => exact ⟨_, rfl⟩
    · have hc : (hexVal c).isSome = false := by
        rcases h c List.mem_cons_self with rfl | rfl | rfl | rfl <;> decide
      rw [List.all_cons, hc, Bool.false_and]
      decide

theorem sign_refused (C : Crypto) {readFloat : Str → PyFloat} (ask : Ask) (w : Wallet) {a : Str}
    (given : Option (List Unspent)) {e e' : PyErr} (h : jsonLoads readFloat a = .error e)
    (hd : deserializeHex a = .error e') : ∃ e, (w.signTransaction C readFloat ask a given).2 = .error e := by
  unfold Wallet.signTransaction
  rw [h]
  dsimp only
  unfold Wallet.signFallback signTransactionHex
  rw [hd]
  dsimp only
  split
  · exact ⟨_, rfl⟩
  · exact ⟨_, rfl⟩

/-- C82. A JSON text of an object, such as the data of a prepared transaction in any layout, is never signed if any of
it but white space at its end is missing or if anything but white space is behind it: `sign_transaction` raises, for
every key, with and without unspents, whatever the network answers. -/
theorem C82_sign (C : Crypto) (readFloat : Str → PyFloat) (ask : Ask) (w : Wallet) (given : Option (List Unspent))
    (text : Str) (l : List (Str × Json)) (h : JsonText readFloat text (.obj l)) :
    (∀ a x, text = a ++ x → ¬ Blank x → ∃ e, (w.signTransaction C readFloat ask a given).2 = .error e) ∧
    (∀ x, ¬ Blank x → ∃ e, (w.signTransaction C readFloat ask (text ++ x) given).2 = .error e) := by
  obtain ⟨h1, h2⟩ := C82_loads readFloat text l h
  refine ⟨fun a x e hx => ?_, fun x hx => ?_⟩
  · have hd : ∃ e, deserializeHex a = .error e := by
      obtain ⟨t, ht⟩ := skipSpace_object h
      cases hs : skipSpace a with
      | nil =>
        refine deserializeHex_blank fun c hc => ?_
        by_contra hb
        exact skipSpace_solid (s := []) rfl (fun h => hb (h c hc)) hs
      | cons c u =>
        rw [e, skipSpace_append hs] at ht
        injection ht with hc
        rw [hc] at hs
        obtain ⟨e', he⟩ := hexToBytes_brace (skipSpace_mem hs)
        exact ⟨_, deserializeHex_error he⟩
    obtain ⟨e', hd⟩ := hd
    exact sign_refused C ask w given (h1 a x e hx) hd
  · obtain ⟨e', he⟩ := hexToBytes_brace (List.mem_append_left x (brace_of_object h))
    exact sign_refused C ask w given (h2 x hx) (deserializeHex_error he)

/-- C82. What `prepare_transaction` gave is never signed if the end of it was lost, however little, or if anything but
white space was put behind it, a second prepared transaction for instance. -/
theorem C82_prepared {Amount : Type} (C : Crypto) (readFloat : Str → PyFloat)
    (hfloat : Spec.ReadsQuarters readFloat) (floats : Unspent → Bool) (env : Env Amount) (args : TxArgs Amount)
    (hshuffle : ∀ l, (env.shuffle l).Perm l) (ask ask' : Ask) (net : Net) (address : Str) (us : List Unspent)
    (hne : us ≠ []) (hus : ∀ u ∈ us, Spec.Consistent u ∧ u.vsize4 < 2 ^ 50) (text : Str)
    (h : prepareTransaction C readFloat floats env args ask net address us = .ok text) (w : Wallet)
    (given : Option (List Unspent)) :
    (∀ n, n < text.length → ∃ e, (w.signTransaction C readFloat ask' (text.take n) given).2 = .error e) ∧
    (∀ x, ¬ Blank x → ∃ e, (w.signTransaction C readFloat ask' (text ++ x) given).2 = .error e) := by
  obtain ⟨coins, pays, hs, hcoins, ht⟩ := prepared_ok C readFloat floats env args hshuffle ask net address us hne hus h
  have hv := valueText_dumps readFloat _
    (preparedData_proper readFloat hfloat floats coins (fun u hu => (hcoins u hu).2) pays)
  have hj : JsonText readFloat text (preparedData readFloat floats coins (jsonPairs pays)) :=
    ⟨[], text, [], by simp, blank_nil, ht ▸ hv, blank_nil⟩
  have hlast : ∃ t, text = t ++ ['}'] := by
    rw [← ht, preparedData, Json.dumps]
    exact ⟨'{' :: (_ ++ ':' :: (_ ++ _)), by simp only [List.append_assoc, List.cons_append]; rfl⟩
  obtain ⟨h1, h2⟩ := C82_sign C readFloat ask' w given text _ hj
  refine ⟨fun n hn => h1 (text.take n) (text.drop n) (List.take_append_drop n text).symm fun hb => ?_, h2⟩
  obtain ⟨t, rfl⟩ := hlast
  rw [List.length_append, List.length_singleton] at hn
  have := hb '}' (by rw [List.drop_append_of_le_length (by omega)]; simp)
  revert this
  decide

/-! ## Cases -/

/-- The object is needed: a number may lose its last digit and is a number still. -/
example : jsonLoads exactFloat "12".toList = .ok (.int 12) ∧ jsonLoads exactFloat "1".toList = .ok (.int 1) :=
  ⟨rfl, rfl⟩

/-- An object cut within a number and one followed by another. -/
example : JsonText exactFloat "{\"a\":1}".toList (.obj [("a".toList, .int 1)]) ∧
    (jsonLoads exactFloat "{\"a\":1".toList).toOption.isSome = false ∧
    (jsonLoads exactFloat "{\"a\":1}{}".toList).toOption.isSome = false := by
  have v1 : Spec.ValueText exactFloat "1".toList (.int 1) := .int false ⟨⟨by decide, by decide⟩, by decide⟩
  have ka : Spec.StringText "a".toList "a".toList := .plain (by decide) (by decide) (by decide) .nil
  exact ⟨⟨[], _, [], rfl, blank_nil, .object (.last blank_nil ka blank_nil blank_nil v1 blank_nil), blank_nil⟩,
    by decide +kernel, by decide +kernel⟩

/-- A prepared transaction to which `C82_prepared` applies: the whole is signed. -/
example : (∀ u ∈ [plain 70000, unspentB], Spec.Consistent u ∧ u.vsize4 < 2 ^ 50) ∧ ∃ text,
    prepareTransaction crypto exactFloat noFloats envB (argsB true) noNetwork .main segwitB [plain 70000, unspentB] =
      .ok text ∧ 300 < text.length ∧
    ((newWallet (.single keyB)).signTransaction crypto exactFloat noNetwork text none).2.toOption.isSome = true := by
  refine ⟨fun u hu => ?_, ?_⟩
  · rcases List.mem_cons.mp hu with rfl | hu
    · exact ⟨C50_consistent _ _ _ _ _ _ _ _ _ [], by decide⟩
    · rw [List.mem_singleton] at hu
      subst hu
      exact ⟨C50_consistent _ _ _ _ _ _ _ _ _ [], by decide⟩
  · obtain ⟨text, ht⟩ := isSome_ok (x := prepareTransaction crypto exactFloat noFloats envB (argsB true) noNetwork .main
      segwitB [plain 70000, unspentB]) (by decide +kernel)
    refine ⟨text, ht, ?_⟩
    have h : ∀ t, prepareTransaction crypto exactFloat noFloats envB (argsB true) noNetwork .main segwitB
        [plain 70000, unspentB] = .ok t → t = ((prepareTransaction crypto exactFloat noFloats envB (argsB true) noNetwork
          .main segwitB [plain 70000, unspentB]).toOption.getD []) := fun t h => by rw [h]; rfl
    rw [h text ht]
    decide +kernel

end Bit
