import Verif.Spec.Web
import Verif.Lemmas.Decimal
import Verif.Lemmas.Sort
import Mathlib.Data.List.Forall2
import Mathlib.Tactic.IntervalCases
/-
Lemmas on look-ups, loops over pages and replies.
-/
namespace Bit
open Spec (At name Answers AnswersUnchecked window decimal Account Coin Denotes digitsValue)

/-- The call gives `x`; or, unless the server is up, it raises. -/
def Good {α : Type} (up : Bool) (r : Py α) (x : α) : Prop := r = .ok x ∨ (up = false ∧ ∃ e, r = .error e)

theorem Good.of_ok {α : Type} {up : Bool} {r : Py α} {x : α} (h : r = .ok x) : Good up r x := .inl h

theorem Good.bind {α β : Type} {up : Bool} {r : Py α} {x : α} {f : α → Py β} {y : β} (h : Good up r x)
    (hf : Good up (f x) y) : Good up (r >>= f) y := by
  rcases h with h | ⟨hu, e, h⟩
  · rw [h]; exact hf
  · right
    rw [h]
    exact ⟨hu, e, rfl⟩

theorem Good.gives {α : Type} {up : Bool} {r : Py α} {x : α} {P : α → Prop} (h : Good up r x) (hx : P x) :
    Spec.Gives up r P := by
  rcases h with h | h
  · exact .inl ⟨x, h, hx⟩
  · exact .inr h

@[simp] theorem ok_bind {α β : Type} (x : α) (f : α → Py β) : ((Except.ok x : Py α) >>= f) = f x := rfl
@[simp] theorem error_bind {α β : Type} (e : PyErr) (f : α → Py β) : ((Except.error e : Py α) >>= f) = .error e := rfl

/-! ## Look-ups -/

theorem Spec.At.path {j : Json} {keys : List Str} {v : Json} (h : At j keys v) : j.path keys = .ok v := by
  induction h with
  | here j => rfl
  | step hl _ ih =>
    unfold Json.path Json.get
    dsimp only
    rw [hl]
    exact ih

theorem Spec.At.get {j : Json} {key : Str} {v : Json} (h : At j [key] v) : j.get key = .ok v := by
  have := h.path
  unfold Json.path at this
  cases hg : j.get key with
  | error e => rw [hg] at this; cases this
  | ok w =>
    rw [hg] at this
    unfold Json.path at this
    exact this

theorem Spec.At.split {j : Json} (ks : List Str) {ks' : List Str} {v : Json} (h : At j (ks ++ ks') v) :
    ∃ w, j.path ks = .ok w ∧ At w ks' v := by
  induction ks generalizing j with
  | nil => exact ⟨j, rfl, h⟩
  | cons k ks ih =>
    rw [List.cons_append] at h
    cases h with
    | step hl h' =>
      obtain ⟨w, h1, h2⟩ := ih h'
      refine ⟨w, ?_, h2⟩
      unfold Json.path Json.get
      dsimp only
      rw [hl]
      exact h1

theorem Spec.At.under {j w : Json} {ks ks' : List Str} {v : Json} (hw : j.path ks = .ok w) (h : At j (ks ++ ks') v) :
    At w ks' v := by
  obtain ⟨w', h1, h2⟩ := h.split ks
  rw [hw] at h1
  cases h1
  exact h2

theorem Spec.At.has {j : Json} {key : Str} {keys : List Str} {v : Json} (h : At j (key :: keys) v) : j.has key = .ok true := by
  cases h with
  | step hl _ =>
    unfold Json.has
    dsimp only
    rw [hl]
    rfl

theorem asInt_int (n : Int) : (Json.int n).asInt = .ok n := rfl
theorem asStr_str (s : Str) : (Json.str s).asStr = .ok s := rfl
theorem items_arr (l : List Json) : (Json.arr l).items = .ok l := rfl

/-! ## Lists -/

theorem pyMap_forall₂ {α β : Type} {P : α → Json → Prop} {f : Json → Py β} {g : α → β}
    (hf : ∀ x j, P x j → f j = .ok (g x)) {xs : List α} {js : List Json} (h : List.Forall₂ P xs js) :
    pyMap f js = .ok (xs.map g) := by
  induction h with
  | nil => rfl
  | cons h1 _ ih =>
    unfold pyMap
    rw [hf _ _ h1, ih]
    rfl

theorem pyMap_str (l : List Str) : pyMap Json.asStr (l.map .str) = .ok l := by
  induction l with
  | nil => rfl
  | cons x l ih =>
    rw [List.map_cons]
    unfold pyMap
    rw [asStr_str, ih]

theorem pyMap_forall₂_mem {α β : Type} {P : α → Json → Prop} {f : Json → Py β} {g : α → β} {xs : List α} {js : List Json}
    (h : List.Forall₂ P xs js) (hf : ∀ x ∈ xs, ∀ j, P x j → f j = .ok (g x)) : pyMap f js = .ok (xs.map g) := by
  induction h with
  | nil => rfl
  | cons h1 _ ih =>
    unfold pyMap
    rw [hf _ List.mem_cons_self _ h1, ih fun x hx => hf x (List.mem_cons_of_mem _ hx)]
    rfl

theorem window_map {α β : Type} (f : α → β) (size : Nat) (xs : List α) (o : Nat) :
    window size (xs.map f) o = (window size xs o).map f := by
  unfold window
  rw [List.map_take, List.map_drop]

theorem mem_of_mem_window {α : Type} {size : Nat} {xs : List α} {o : Nat} {x : α} (h : x ∈ window size xs o) : x ∈ xs :=
  List.mem_of_mem_drop (List.mem_of_mem_take h)

theorem window_append {α : Type} (size : Nat) (items : List α) (offset : Nat) :
    window size items offset ++ items.drop (offset + size) = items.drop offset := by
  unfold window
  rw [← List.drop_drop, List.take_append_drop]

/-! ## Numbers -/

theorem digitsText_eq (n : Nat) : Dec.digitsText n = decimal n := by
  unfold decimal
  induction n using Nat.strongRecOn with
  | ind n ih =>
    unfold Dec.digitsText
    split
    · rename_i h
      rw [Nat.toDigits_of_lt_base h]
      interval_cases n <;> rfl
    · rename_i h
      rw [ih (n / 10) (by omega), Nat.toDigits_of_base_le (n := n) (by omega) (by omega)]
      congr 2
      have : n % 10 < 10 := Nat.mod_lt _ (by omega)
      generalize n % 10 = m at this
      interval_cases m <;> rfl

theorem parseInt_decimal (n : Nat) : parseInt (decimal n) = .ok n := by
  rw [← digitsText_eq]
  obtain ⟨h1, h2, h3⟩ := digitsText_spec n
  cases ht : Dec.digitsText n with
  | nil => exact absurd ht h3
  | cons c cs =>
    rw [ht] at h1 h2
    have hc := h1 c List.mem_cons_self
    have hm : c ≠ '-' := by rintro rfl; exact absurd hc.1 (by decide)
    have hp : c ≠ '+' := by rintro rfl; exact absurd hc.1 (by decide)
    have e : parseInt (c :: cs) = match Dec.readDigits 0 (c :: cs) with
        | none => .error .valueError
        | some n => .ok ((n : Nat) : Int) := by
      unfold parseInt
      split
      rename_i neg ds heq
      split at heq
      · rename_i h; cases h; exact absurd rfl hm
      · rename_i h; cases h; exact absurd rfl hp
      · cases heq
        rfl
    rw [e, readDigits_value _ h1]
    have : (c :: cs).foldl (fun acc c => acc * 10 + (c.toNat - 48)) 0 = n := h2
    rw [this]

theorem denotes_intText (n : Nat) : Denotes (intText n) n := by
  have e : intText (n : Int) = Dec.digitsText n := by
    unfold intText
    rw [if_neg (by omega), Int.natAbs_natCast]
  obtain ⟨h1, h2, h3⟩ := digitsText_spec n
  rw [e]
  refine ⟨false, Dec.digitsText n, [], ⟨by simpa using h1, h3, by simp⟩, ?_⟩
  unfold Spec.plainValue
  rw [List.append_nil, h2]
  simp

/-! ## Replies -/

theorem okJson_notOk {reply : Reply} (h : reply.status ≠ 200 ∨ reply.status = 200 ∧ ∃ e, reply.json = .error e) :
    ∃ e, okJson reply = .error e := by
  unfold okJson
  rcases h with h | ⟨h, e, he⟩
  · rw [if_neg h]; exact ⟨_, rfl⟩
  · rw [if_pos h]; exact ⟨e, he⟩

theorem answers_okJson {up : Bool} {r : Py Reply} {P : Json → Prop} {α : Type}
    (h : Answers up Spec.NotOk r P) {f : Json → Py α} {x : α} (hf : ∀ j, P j → Good up (f j) x) :
    Good up (r >>= fun r => okJson r >>= f) x := by
  rcases h with ⟨text, j, rfl, hj⟩ | ⟨hu, ⟨e, rfl⟩ | ⟨reply, rfl, h⟩⟩
  · exact hf j hj
  · exact .inr ⟨hu, e, rfl⟩
  · right
    obtain ⟨e, he⟩ := okJson_notOk h
    refine ⟨hu, e, ?_⟩
    show (okJson reply >>= f) = _
    rw [he]
    rfl

/-- A request with a special status `s`. -/
theorem answers_special {up : Bool} {r : Py Reply} {P : Json → Prop} {α : Type} {s : Nat}
    (h : Answers up (Spec.NotOkOr s) r P) (h200 : s ≠ 200) {y : Py α} {f : Json → Py α} {x : α}
    (hf : ∀ j, P j → Good up (f j) x) :
    Good up (r >>= fun r => if r.status = s then y else okJson r >>= f) x := by
  rcases h with ⟨text, j, rfl, hj⟩ | ⟨hu, ⟨e, rfl⟩ | ⟨reply, rfl, h⟩⟩
  · show Good up (if 200 = s then y else _) x
    rw [if_neg (Ne.symm h200)]
    exact hf j hj
  · exact .inr ⟨hu, e, rfl⟩
  · right
    have hs : reply.status ≠ s := by
      rcases h with h | h
      · exact h.2
      · rw [h.1]; exact Ne.symm h200
    obtain ⟨e, he⟩ := okJson_notOk (reply := reply) (by rcases h with h | h; exacts [.inl h.1, .inr h])
    refine ⟨hu, e, ?_⟩
    show (if reply.status = s then y else okJson reply >>= f) = _
    rw [if_neg hs, he]
    rfl

/-- Where no list is found, the look-up raises. -/
theorem path_items_error {j : Json} {keys : List Str} (h : ¬ ∃ l, At j keys (.arr l)) :
    ∃ e, (j.path keys >>= Json.items) = .error e := by
  induction keys generalizing j with
  | nil =>
    unfold Json.path
    cases j with
    | arr l => exact absurd ⟨l, .here _⟩ h
    | _ => exact ⟨_, rfl⟩
  | cons k ks ih =>
    unfold Json.path Json.get
    cases j with
    | obj l =>
      dsimp only
      cases hl : l.lookup k with
      | none => exact ⟨_, rfl⟩
      | some v =>
        dsimp only
        exact ih fun ⟨l', h'⟩ => h ⟨l', .step hl h'⟩
    | _ => exact ⟨_, rfl⟩

theorem answers_unchecked {up : Bool} {r : Py Reply} {keys : List Str} {P : Json → Prop} {α : Type}
    (h : AnswersUnchecked up r keys P) {f : Json → Py α} {g : List Json → Py α}
    (hfg : ∀ j, f j = (j.path keys >>= Json.items) >>= g) {x : α} (hf : ∀ j, P j → Good up (f j) x) :
    Good up (r >>= fun r => r.json >>= f) x := by
  rcases h with ⟨reply, j, rfl, hjson, hj⟩ | ⟨hu, ⟨e, rfl⟩ | ⟨reply, rfl, hn⟩⟩
  · show Good up (reply.json >>= f) x
    rw [hjson]
    exact hf j hj
  · exact .inr ⟨hu, e, rfl⟩
  · show Good up (reply.json >>= f) x
    cases hj : reply.json with
    | error e => exact .inr ⟨hu, e, rfl⟩
    | ok j =>
      obtain ⟨e, he⟩ := path_items_error (j := j) (keys := keys) fun ⟨l, hl⟩ => hn ⟨j, l, hj, hl⟩
      refine .inr ⟨hu, e, ?_⟩
      show f j = _
      rw [hfg, he]
      rfl

/-! ## Loops -/

theorem countedLoop_good {α : Type} {up : Bool} (get : Nat → Py Json) (items : Json → Py (List α)) (size : Nat)
    (hsize : 0 < size) (xs : List α)
    (hget : ∀ o, 0 < o → (∃ j, get o = .ok j ∧ Good up (items j) (window size xs o)) ∨ up = false ∧ ∃ e, get o = .error e)
    (fuel offset : Nat) (total : Int) (htotal : total = xs.length - offset) (hfuel : total.toNat ≤ fuel) (page : Json)
    (hpage : Good up (items page) (window size xs offset)) (acc : List α) :
    Good up (countedLoop get items size fuel total offset page acc) (acc ++ xs.drop offset) := by
  induction fuel generalizing offset total acc page with
  | zero =>
    left
    rw [List.drop_eq_nil_of_le (show xs.length ≤ offset by omega), List.append_nil]
    rfl
  | succ fuel ih =>
    unfold countedLoop
    by_cases ht : total > 0
    · rw [if_pos ht]
      rcases hpage with hpage | ⟨hu, e, hpage⟩
      · rw [hpage]
        dsimp only
        rcases hget (offset + size) (by omega) with ⟨j, h1, h2⟩ | ⟨hu, e, h⟩
        · rw [h1]
          dsimp only
          have := ih (offset + size) (total - size) (by omega) (by omega) j h2 (acc ++ window size xs offset)
          rw [List.append_assoc, window_append] at this
          exact this
        · rw [h]
          exact .inr ⟨hu, e, rfl⟩
      · rw [hpage]
        exact .inr ⟨hu, e, rfl⟩
    · rw [if_neg ht]
      left
      rw [List.drop_eq_nil_of_le (show xs.length ≤ offset by omega), List.append_nil]

theorem window_getLast {α : Type} (size : Nat) (items : List α) (k : Nat) (hsize : 0 < size) :
    (items.length ≤ k ∧ (window size items k).getLast? = none) ∨
    ∃ i, ∃ h : i < items.length, k ≤ i ∧ (window size items k).getLast? = some items[i] ∧
      window size items k ++ items.drop (i + 1) = items.drop k := by
  by_cases hk : items.length ≤ k
  · left
    refine ⟨hk, ?_⟩
    unfold window
    rw [List.drop_eq_nil_of_le hk]
    simp
  · right
    have hlen : (window size items k).length = min size (items.length - k) := by
      unfold window; rw [List.length_take, List.length_drop]
    refine ⟨k + min size (items.length - k) - 1, by omega, by omega, ?_, ?_⟩
    · rw [List.getLast?_eq_getElem?, hlen]
      unfold window
      rw [List.getElem?_take, List.getElem?_drop, if_pos (by omega), List.getElem?_eq_getElem (by omega)]
      congr 2
      omega
    · have e : k + min size (items.length - k) - 1 + 1 = k + min size (items.length - k) := by omega
      rw [e]
      by_cases hs : size ≤ items.length - k
      · rw [Nat.min_eq_left hs]; exact window_append size items k
      · rw [Nat.min_eq_right (by omega)]
        have : window size items k = items.drop k := by
          unfold window
          exact List.take_of_length_le (by rw [List.length_drop]; omega)
        rw [this, List.drop_eq_nil_of_le (show items.length ≤ k + (items.length - k) by omega), List.append_nil]

/-- With enough fuel the loop ends, and well. -/
theorem cursorLoop_good {α : Type} {up : Bool} (get : α → Py (List α)) (size : Nat) (hsize : 0 < size) (items : List α)
    (hget : ∀ i (h : i < items.length), Good up (get items[i]) (window size items (i + 1)))
    (fuel k : Nat) (hfuel : items.length - k ≤ fuel) (acc : List α) :
    ∃ r, cursorLoop get fuel (window size items k) acc = some r ∧ Good up r (acc ++ items.drop k) := by
  induction fuel generalizing k acc with
  | zero =>
    rcases window_getLast size items k hsize with ⟨h1, h2⟩ | ⟨i, h, h1, h2, h3⟩
    · unfold cursorLoop
      rw [h2]
      refine ⟨_, rfl, .inl ?_⟩
      rw [List.drop_eq_nil_of_le h1, List.append_nil]
    · omega
  | succ fuel ih =>
    rcases window_getLast size items k hsize with ⟨h1, h2⟩ | ⟨i, h, h1, h2, h3⟩
    · unfold cursorLoop
      rw [h2]
      refine ⟨_, rfl, .inl ?_⟩
      rw [List.drop_eq_nil_of_le h1, List.append_nil]
    · unfold cursorLoop
      rw [h2]
      dsimp only
      rcases hget i h with hg | ⟨hu, e, hg⟩
      · rw [hg]
        dsimp only
        have := ih (i + 1) (by omega) (acc ++ window size items k)
        rw [List.append_assoc, h3] at this
        exact this
      · rw [hg]
        exact ⟨_, rfl, .inr ⟨hu, e, rfl⟩⟩

/-- More fuel does not change a finished run. -/
theorem cursorLoop_mono {α : Type} (get : α → Py (List α)) (fuel : Nat) (page acc : List α) (r : Py (List α)) (n : Nat)
    (h : cursorLoop get fuel page acc = some r) : cursorLoop get (fuel + n) page acc = some r := by
  induction fuel generalizing page acc with
  | zero =>
    unfold cursorLoop at h ⊢
    cases hl : page.getLast? with
    | none => rw [hl] at h; exact h
    | some x => rw [hl] at h; cases h
  | succ fuel ih =>
    rw [Nat.add_right_comm]
    unfold cursorLoop at h ⊢
    cases hl : page.getLast? with
    | none => rw [hl] at h; exact h
    | some x =>
      rw [hl] at h
      dsimp only at h ⊢
      cases hb : get x with
      | error e => rw [hb] at h; exact h
      | ok p =>
        rw [hb] at h
        exact ih _ _ h

theorem linkLoop_good {α : Type} {up : Bool} (get : Str → Py (LinkedPage α)) (size : Nat) (hsize : 0 < size)
    (items : List α) (link : Nat → Str)
    (hget : ∀ o, Good up (get (link o))
      ⟨window size items o, if o + size < items.length then some (link (o + size)) else none⟩)
    (fuel o : Nat) (hfuel : items.length - o ≤ fuel) (acc : List α) :
    ∃ r, linkLoop get fuel (if o < items.length then some (link o) else none) acc = some r ∧
      Good up r (acc ++ items.drop o) := by
  induction fuel generalizing o acc with
  | zero =>
    rw [if_neg (by omega)]
    unfold linkLoop
    exact ⟨_, rfl, .inl (by rw [List.drop_eq_nil_of_le (show items.length ≤ o by omega), List.append_nil])⟩
  | succ fuel ih =>
    by_cases ho : o < items.length
    · rw [if_pos ho]
      unfold linkLoop
      dsimp only
      rcases hget o with h | ⟨hu, e, h⟩
      · rw [h]
        dsimp only
        have := ih (o + size) (by omega) (acc ++ window size items o)
        rw [List.append_assoc, window_append] at this
        exact this
      · rw [h]
        exact ⟨_, rfl, .inr ⟨hu, e, rfl⟩⟩
    · rw [if_neg ho]
      unfold linkLoop
      exact ⟨_, rfl, .inl (by rw [List.drop_eq_nil_of_le (show items.length ≤ o by omega), List.append_nil])⟩

theorem linkLoop_mono {α : Type} (get : Str → Py (LinkedPage α)) (fuel : Nat) (next : Option Str) (acc : List α)
    (r : Py (List α)) (n : Nat) (h : linkLoop get fuel next acc = some r) : linkLoop get (fuel + n) next acc = some r := by
  induction fuel generalizing next acc with
  | zero =>
    unfold linkLoop at h ⊢
    cases next with
    | none => exact h
    | some l => cases h
  | succ fuel ih =>
    rw [Nat.add_right_comm]
    unfold linkLoop at h ⊢
    cases next with
    | none => exact h
    | some l =>
      dsimp only at h ⊢
      cases hb : get l with
      | error e => rw [hb] at h; exact h
      | ok p =>
        rw [hb] at h
        exact ih _ _ h

end Bit
