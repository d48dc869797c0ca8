import Verif.Props.Submit
import Verif.Props.Rates
import Verif.Spec.Digits
import Verif.Concrete.Crypto
/-
C94: how many digits the conversions of a thread have, over any history of calls.
-/
namespace Bit
open Bit.Spec (value Denotes Number Fits trunc netOf NodeBalance CalculatesWith ConnectedTo Gives Account Coin)

/-! ## Rounded products -/

/-- A product of at least `10^prec` is rounded to a multiple of ten. -/
theorem mul_large {prec : Nat} (hp : 1 ≤ prec) (a b : Dec) (h : (10 : ℚ) ^ prec ≤ value a * value b) :
    ∃ m : Int, (a.mul prec b).toInt = 10 * m := by
  unfold Dec.mul
  rw [← value_product] at h
  generalize hd : (⟨a.neg != b.neg, a.coeff * b.coeff, a.exp + b.exp⟩ : Dec) = d at h
  have hpos : (0 : ℚ) < 10 ^ prec := by positivity
  have hneg : d.neg = false := by
    cases hn : d.neg with
    | false => rfl
    | true =>
      exfalso
      unfold value at h
      rw [hn] at h
      have : (0 : ℚ) ≤ d.coeff * (10 : ℚ) ^ d.exp :=
        mul_nonneg (Nat.cast_nonneg _) (zpow_nonneg (by norm_num) _)
      simp only [if_true] at h
      linarith
  have hv : (10 : ℚ) ^ prec ≤ d.coeff * (10 : ℚ) ^ d.exp := by
    unfold value at h
    rw [hneg] at h
    simpa using h
  -- the exponent of the result is positive
  have key : ∀ c : Nat, ∀ e : Int, 1 ≤ e → ∃ m : Int, Dec.toInt ⟨false, c, e⟩ = 10 * m := by
    intro c e he
    refine ⟨((c * 10 ^ (e.toNat - 1) : Nat) : Int), ?_⟩
    unfold Dec.toInt
    dsimp only
    rw [if_pos (by omega : 0 ≤ e)]
    obtain ⟨i, hi⟩ : ∃ i, e.toNat = i + 1 := ⟨e.toNat - 1, by omega⟩
    rw [hi]
    simp only [Nat.add_sub_cancel, Bool.false_eq_true, if_false]
    push_cast
    rw [pow_succ]
    ring
  rcases fix_cases prec hp d with ⟨h1, h2⟩ | ⟨j, c, hj, h2, -, hc, -, hlow⟩
  · rw [h2]
    have hlt : (d.coeff : ℚ) < 10 ^ prec := by
      exact_mod_cast (digits_le_iff d.coeff prec hp).mp h1
    have he : 1 ≤ d.exp := by
      by_contra hcon
      have h10 : (10 : ℚ) ^ d.exp ≤ 1 := zpow_le_one_of_nonpos₀ (by norm_num) (by omega)
      have : (d.coeff : ℚ) * (10 : ℚ) ^ d.exp ≤ d.coeff * 1 := mul_le_mul_of_nonneg_left h10 (by positivity)
      linarith
    obtain ⟨n, co, e⟩ := d
    cases hneg
    exact key _ _ he
  · rw [h2]
    have he : 1 ≤ d.exp + j := by
      by_contra hcon
      have h10 : (10 : ℚ) ^ (d.exp + j) ≤ 1 := zpow_le_one_of_nonpos₀ (by norm_num) (by omega)
      have hlow' : (2 : ℚ) * d.coeff ≤ (2 * c + 1) * 10 ^ j := by
        have : ((2 * d.coeff : Nat) : ℚ) ≤ ((2 * (c * 10 ^ j) + 10 ^ j : Nat) : ℚ) := by exact_mod_cast hlow
        push_cast at this
        linarith
      have hc' : (c : ℚ) + 1 ≤ 10 ^ prec := by exact_mod_cast hc
      have e1 : (2 : ℚ) * (d.coeff * (10 : ℚ) ^ d.exp) ≤ (2 * c + 1) * (10 : ℚ) ^ (d.exp + j) := by
        rw [zpow_add₀ (by norm_num : (10 : ℚ) ≠ 0), zpow_natCast]
        have := mul_le_mul_of_nonneg_right hlow' (zpow_nonneg (by norm_num) _ : (0 : ℚ) ≤ (10 : ℚ) ^ d.exp)
        linarith
      have e2 : (2 * (c : ℚ) + 1) * (10 : ℚ) ^ (d.exp + j) ≤ (2 * c + 1) * 1 :=
        mul_le_mul_of_nonneg_left h10 (by positivity)
      linarith
    obtain ⟨n, co, e⟩ := d
    cases hneg
    exact key _ _ he

theorem timesAmount_large {prec : Nat} (hp : 1 ≤ prec) (rate : Int) {amount : Str} {q : ℚ} (hq : Number amount q)
    (h : (10 : ℚ) ^ prec ≤ rate * q) : ∃ m : Int, timesAmount prec rate amount = .ok (10 * m) := by
  obtain ⟨d, hd, rfl⟩ := parse_number hq
  unfold timesAmount
  rw [hd]
  obtain ⟨m, hm⟩ := mul_large hp (Dec.ofInt rate) d (by rwa [value_ofInt])
  refine ⟨m, ?_⟩
  dsimp only
  rw [hm]

/-! ## The state over a history -/

theorem after_append (C : Crypto) (s : ThreadState) (calls : List ThreadCall) (c : ThreadCall) :
    s.after C (calls ++ [c]) = ((s.after C calls).call C c).1 := by
  unfold ThreadState.after
  rw [List.foldl_append]
  rfl

theorem call_lists (C : Crypto) (s : ThreadState) (c : ThreadCall) :
    (s.call C c).1.lists = match c with
      | .connect n t => connectToNode s.lists n t
      | _ => s.lists := by
  cases c <;> rfl

theorem connectToNode_net (lists : Lists) (n : Nat) (t : Bool) (net : Net) (q : Query) :
    connectToNode lists n t net q = if netOf t = net then [.node n] else lists net q := by
  cases t <;> cases net <;> cases q <;> rfl

/-- The list of a network: its last node, or the services at first. -/
theorem after_lists (C : Crypto) (now : Int) (calls : List ThreadCall) (net : Net) :
    (∃ n, ConnectedTo net n calls ∧ ∀ q, ((ThreadState.start now).after C calls).lists net q = [.node n]) ∨
    (∀ m t, ThreadCall.connect m t ∈ calls → netOf t ≠ net) ∧
      ∀ q, ((ThreadState.start now).after C calls).lists net q = initialLists net q := by
  induction calls using List.reverseRecOn with
  | nil => exact .inr ⟨by simp, fun q => rfl⟩
  | append_singleton calls c ih =>
    rw [after_append, call_lists]
    have other : (∀ m t, c = .connect m t → netOf t ≠ net) →
        (∃ n, ConnectedTo net n (calls ++ [c]) ∧ ∀ q, ((ThreadState.start now).after C calls).lists net q = [.node n]) ∨
        (∀ m t, ThreadCall.connect m t ∈ calls ++ [c] → netOf t ≠ net) ∧
          ∀ q, ((ThreadState.start now).after C calls).lists net q = initialLists net q := by
      intro hc
      rcases ih with ⟨n, ⟨before, t, rest, rfl, ht, hr⟩, hl⟩ | ⟨hno, hl⟩
      · refine .inl ⟨n, ⟨before, t, rest ++ [c], by simp, ht, ?_⟩, hl⟩
        intro m t' hm
        rcases List.mem_append.mp hm with hm | hm
        · exact hr m t' hm
        · exact hc m t' (List.mem_singleton.mp hm).symm
      · refine .inr ⟨?_, hl⟩
        intro m t' hm
        rcases List.mem_append.mp hm with hm | hm
        · exact hno m t' hm
        · exact hc m t' (List.mem_singleton.mp hm).symm
    cases c with
    | connect n t =>
      by_cases ht : netOf t = net
      · refine .inl ⟨n, ⟨calls, t, [], rfl, ht, by simp⟩, fun q => ?_⟩
        dsimp only
        rw [connectToNode_net, if_pos ht]
      · have := other (by intro m t' e; cases e; exact ht)
        dsimp only
        simp only [connectToNode_net, if_neg ht]
        exact this
    | _ => exact other (by intro m t' e; cases e)

theorem connectedTo_unique {net : Net} {n m : Nat} {calls : List ThreadCall} (h : ConnectedTo net n calls)
    (h' : ConnectedTo net m calls) : n = m := by
  obtain ⟨b, t, r, rfl, ht, hr⟩ := h
  obtain ⟨b', t', r', e, ht', hr'⟩ := h'
  rcases List.append_eq_append_iff.mp e with ⟨a, hb, ha⟩ | ⟨a, hb, ha⟩
  · cases a with
    | nil =>
      simp only [List.nil_append, List.cons.injEq, ThreadCall.connect.injEq] at ha
      exact ha.1.1
    | cons x a =>
      simp only [List.cons_append, List.cons.injEq] at ha
      exact absurd ht' (hr m t' (by rw [ha.2]; simp))
  · cases a with
    | nil =>
      simp only [List.nil_append, List.cons.injEq, ThreadCall.connect.injEq] at ha
      exact ha.1.1.symm
    | cons x a =>
      simp only [List.cons_append, List.cons.injEq] at ha
      exact absurd ht (hr' n t (by rw [ha.2]; simp))

theorem lists_connected (C : Crypto) (now : Int) {calls : List ThreadCall} {net : Net} {n : Nat} (h : ConnectedTo net n calls)
    (q : Query) : ((ThreadState.start now).after C calls).lists net q = [.node n] := by
  rcases after_lists C now calls net with ⟨m, hm, hl⟩ | ⟨hno, -⟩
  · rw [hl, connectedTo_unique h hm]
  · obtain ⟨b, t, r, rfl, ht, -⟩ := h
    exact absurd ht (hno n t (by simp))

theorem initial_no_node (net : Net) : (initialLists net .balance).any Service.isNode = false := by
  cases net <;> rfl

theorem nodeBalance_snoc (calls : List ThreadCall) (c : ThreadCall) :
    NodeBalance (calls ++ [c]) ↔ NodeBalance calls ∨
      ∃ n t o address, ThreadCall.connect n t ∈ calls ∧ c = .balance o (netOf t) address := by
  constructor
  · rintro ⟨before, n, t, between, o, address, rest, e⟩
    rcases List.eq_nil_or_concat rest with rfl | ⟨rest', x, rfl⟩
    · have e' : calls ++ [c] = (before ++ .connect n t :: between) ++ [.balance o (netOf t) address] := by
        rw [e]; simp
      obtain ⟨h1, h2⟩ := List.append_inj' e' rfl
      refine .inr ⟨n, t, o, address, by rw [h1]; simp, by simpa using h2⟩
    · have e' : calls ++ [c] = (before ++ .connect n t :: (between ++ .balance o (netOf t) address :: rest')) ++ [x] := by
        rw [e]; simp
      obtain ⟨h1, -⟩ := List.append_inj' e' rfl
      exact .inl ⟨before, n, t, between, o, address, rest', h1⟩
  · rintro (⟨before, n, t, between, o, address, rest, rfl⟩ | ⟨n, t, o, address, hm, rfl⟩)
    · exact ⟨before, n, t, between, o, address, rest ++ [c], by simp⟩
    · obtain ⟨a, b, rfl⟩ := List.append_of_mem hm
      exact ⟨a, n, t, b, o, address, [], by simp⟩

theorem firstAnswer_single {α : Type} (ignored : PyErr → Bool) (r : Py α) : (firstAnswer ignored [r]).1 = 1 := by
  cases r with
  | ok a => rfl
  | error e =>
    unfold firstAnswer
    split <;> rfl

/-- C94. Over any history of calls, the decimal numbers of a thread have nine digits if the balance of an address was
ever asked for from a connected node, and 28 otherwise: no other call changes that, and nothing sets it back. -/
theorem C94_precision (C : Crypto) (now : Int) (calls : List ThreadCall) :
    CalculatesWith calls ((ThreadState.start now).after C calls).prec := by
  induction calls using List.reverseRecOn with
  | nil =>
    refine .inr ⟨?_, rfl⟩
    rintro ⟨before, n, t, between, o, address, rest, e⟩
    have := congrArg List.length e
    simp at this
  | append_singleton calls c ih =>
    rw [after_append]
    have keep : ((((ThreadState.start now).after C calls).call C c).1.prec = ((ThreadState.start now).after C calls).prec) →
        (∀ n t o address, ThreadCall.connect n t ∈ calls → c ≠ .balance o (netOf t) address) →
        CalculatesWith (calls ++ [c]) (((ThreadState.start now).after C calls).call C c).1.prec := by
      intro h1 h2
      rw [h1]
      have : NodeBalance (calls ++ [c]) ↔ NodeBalance calls := by
        rw [nodeBalance_snoc]
        constructor
        · rintro (h | ⟨n, t, o, address, hm, he⟩)
          · exact h
          · exact absurd he (h2 n t o address hm)
        · exact .inl
      unfold CalculatesWith
      rw [this]
      exact ih
    cases c with
    | balance o net address =>
      rcases after_lists C now calls net with ⟨n, ⟨b, t, r, hb, ht, -⟩, hl⟩ | ⟨hno, hl⟩
      · refine .inl ⟨?_, ?_⟩
        · rw [nodeBalance_snoc]
          exact .inr ⟨n, t, o, address, by rw [hb]; simp, by rw [ht]⟩
        · unfold ThreadState.call ask
          dsimp only
          rw [hl]
          have e : (firstAnswer networkIgnored (List.map (serviceBalance o net address) [Service.node n])).1 = 1 :=
            firstAnswer_single _ _
          simp only [e]
          rfl
      · refine keep ?_ ?_
        · unfold ThreadState.call
          dsimp only
          rw [hl]
          rw [if_neg]
          intro hany
          rw [List.any_eq_true] at hany
          obtain ⟨x, hx, hn⟩ := hany
          have := initial_no_node net
          rw [List.any_eq_false] at this
          exact this x (List.mem_of_mem_take hx) hn
        · intro n t o' address' hm he
          cases he
          exact hno n t hm rfl
    | _ => exact keep rfl (by intros; simp)

theorem digits_pos' {calls : List ThreadCall} {P : Nat} (h : CalculatesWith calls P) : 9 ≤ P := by
  rcases h with ⟨-, rfl⟩ | ⟨-, rfl⟩ <;> omega

theorem digits_prec (C : Crypto) (now : Int) {calls : List ThreadCall} {P : Nat} (h : CalculatesWith calls P) :
    ((ThreadState.start now).after C calls).prec = P := by
  rcases h with ⟨h, rfl⟩ | ⟨h, rfl⟩ <;> rcases C94_precision C now calls with ⟨h', e⟩ | ⟨h', e⟩
  · exact e
  · exact absurd h h'
  · exact absurd h' h
  · exact e

/-! ## The cached rates of the bitcoin units -/

theorem cached_caches (prec : Nat) (limit now : Int) (answers : List (Py Int)) (amount currency unit : Str) (k : Nat)
    (hu : (unit, k) ∈ bitcoinUnits) (caches : RateCaches)
    (h : (caches unit).satoshis = none ∨ (caches unit).satoshis = some ((10 ^ k : Nat) : Int)) :
    ((currencyToSatoshiCached prec limit now answers amount currency caches).1 unit).satoshis = none ∨
    ((currencyToSatoshiCached prec limit now answers amount currency caches).1 unit).satoshis =
      some ((10 ^ k : Nat) : Int) := by
  unfold currencyToSatoshiCached
  cases precisionOf currency with
  | none => exact h
  | some p =>
    dsimp only
    cases (caches currency).hit now limit with
    | some r => exact h
    | none =>
      dsimp only
      cases hr : exchangeRate answers currency with
      | error e => exact h
      | ok r =>
        dsimp only
        split
        · next hc =>
          subst hc
          rw [(unit_rate unit k hu answers).1] at hr
          exact .inr (congrArg some (Except.ok.inj hr).symm)
        · exact h

theorem cached_text_caches (prec : Nat) (limit now : Int) (answers : List (Py Int)) (num : Int) (currency : Str)
    (caches : RateCaches) : (satoshiToCurrencyCached prec limit now answers num currency caches).1 =
      (currencyToSatoshiCached prec limit now answers ['1'] currency caches).1 := by
  unfold satoshiToCurrencyCached
  rcases currencyToSatoshiCached prec limit now answers ['1'] currency caches with ⟨c, b, (e | r)⟩ <;> rfl

theorem after_caches (C : Crypto) (now : Int) (calls : List ThreadCall) (unit : Str) (k : Nat)
    (hu : (unit, k) ∈ bitcoinUnits) :
    (((ThreadState.start now).after C calls).caches unit).satoshis = none ∨
    (((ThreadState.start now).after C calls).caches unit).satoshis = some ((10 ^ k : Nat) : Int) := by
  induction calls using List.reverseRecOn with
  | nil => exact .inl rfl
  | append_singleton calls c ih =>
    rw [after_append]
    cases c with
    | toSatoshiCached web now' amount currency => exact cached_caches _ _ _ _ _ _ _ _ hu _ ih
    | toCurrencyCached web now' num currency =>
      unfold ThreadState.call
      dsimp only
      rw [cached_text_caches]
      exact cached_caches _ _ _ _ _ _ _ _ hu _ ih
    | _ => exact ih

theorem hit_cases {c : CachedRate} {r : Int} (h : c.satoshis = none ∨ c.satoshis = some r) (now limit : Int) :
    c.hit now limit = some r ∨ c.hit now limit = none := by
  unfold CachedRate.hit
  rcases h with h | h
  · rw [h]
    exact .inr rfl
  · rw [h]
    dsimp only
    split
    · exact .inr rfl
    · split
      · exact .inr rfl
      · exact .inl rfl

/-- The cached conversion from a bitcoin unit multiplies by its rate, over any history. -/
theorem cached_unit (C : Crypto) (now : Int) (calls : List ThreadCall) (web : Web) (t : Int) (amount unit : Str) (k : Nat)
    (hu : (unit, k) ∈ bitcoinUnits) :
    (((ThreadState.start now).after C calls).call C (.toSatoshiCached web t amount unit)).2 =
      .number (timesAmount ((ThreadState.start now).after C calls).prec ((10 ^ k : Nat) : Int) amount) := by
  unfold ThreadState.call currencyToSatoshiCached
  dsimp only
  rw [(unit_rate unit k hu []).2]
  dsimp only
  rcases hit_cases (after_caches C now calls unit k hu) t ((ThreadState.start now).after C calls).limit with h | h
  · rw [h]
  · rw [h, (unit_rate unit k hu _).1]

theorem pow_unit_lt {unit : Str} {k P : Nat} (hu : (unit, k) ∈ bitcoinUnits) (hP : 9 ≤ P) :
    (((10 ^ k : Nat) : Int)).natAbs < 10 ^ P := by
  have hk : k ≤ 8 := by
    unfold bitcoinUnits at hu
    simp only [List.mem_cons, Prod.mk.injEq, List.not_mem_nil, or_false] at hu
    omega
  rw [Int.natAbs_natCast]
  exact Nat.pow_lt_pow_right (by norm_num) (by omega)

/-! ## The conversions -/

/-- C94. Conversions from a bitcoin unit, cached or not, after any history of calls: an amount whose number of satoshi
has no more digits than the thread calculates with is converted exactly; a larger one always becomes a multiple of
ten satoshi. -/
theorem C94_to_satoshi (C : Crypto) (now : Int) (calls : List ThreadCall) (P : Nat) (hP : CalculatesWith calls P) (unit : Str)
    (k : Nat) (hu : (unit, k) ∈ bitcoinUnits) (amount : Str) (q : ℚ) (hq : Number amount q) (web : Web) (time : Int)
    (call : ThreadCall) (hcall : call = .toSatoshi web amount unit ∨ call = .toSatoshiCached web time amount unit) :
    (Fits P (10 ^ k * q) →
      (((ThreadState.start now).after C calls).call C call).2 = .number (.ok (trunc (10 ^ k * q)))) ∧
    (10 ^ P ≤ 10 ^ k * q →
      ∃ m : Int, (((ThreadState.start now).after C calls).call C call).2 = .number (.ok (10 * m))) := by
  have hp := digits_pos' hP
  have e : (((ThreadState.start now).after C calls).call C call).2 =
      .number (timesAmount P ((10 ^ k : Nat) : Int) amount) := by
    rcases hcall with rfl | rfl
    · show ThreadResult.number (currencyToSatoshi _ _ amount unit) = _
      unfold currencyToSatoshi
      rw [(unit_rate unit k hu _).1, digits_prec C now hP]
    · rw [cached_unit C now calls web time amount unit k hu, digits_prec C now hP]
  have ek : (((10 ^ k : Nat) : Int) : ℚ) * q = 10 ^ k * q := by push_cast; rfl
  rw [e]
  refine ⟨fun h => ?_, fun h => ?_⟩
  · rw [timesAmount_exact P (by omega) _ amount q hq (by rwa [ek]), ek]
  · obtain ⟨m, hm⟩ := timesAmount_large (prec := P) (by omega) ((10 ^ k : Nat) : Int) hq (by rwa [ek])
    exact ⟨m, by rw [hm]⟩

theorem unit_text (P : Nat) (hP : 9 ≤ P) (unit : Str) (k num : Nat) (hu : (unit, k) ∈ bitcoinUnits) :
    (num < 10 ^ P → ∃ text, formatAmount P num ((10 ^ k : Nat) : Int) k = .ok text ∧
      Denotes text ((num : ℚ) / 10 ^ k)) ∧
    (10 ^ P ≤ num → formatAmount P num ((10 ^ k : Nat) : Int) k = .error .invalidOperation) := by
  obtain ⟨hr, hpl⟩ := unit_rate unit k hu []
  have e : satoshiToCurrency P [] num unit = formatAmount P num ((10 ^ k : Nat) : Int) k := by
    unfold satoshiToCurrency
    rw [hr, hpl]
  rw [← e]
  refine ⟨fun h => ?_, fun h => C58_too_long P (by omega) [] unit k num hu h⟩
  obtain ⟨text, h1, h2, -⟩ := C58_roundtrip P (by omega) [] [] unit k num hu h
  exact ⟨text, h1, h2⟩

/-- C94. Conversions to a bitcoin unit, cached or not, after any history of calls: an amount of satoshi with no more
digits than the thread calculates with gives the text of exactly that amount; for a larger one the call raises. -/
theorem C94_to_currency (C : Crypto) (now : Int) (calls : List ThreadCall) (P : Nat) (hP : CalculatesWith calls P) (unit : Str)
    (k : Nat) (hu : (unit, k) ∈ bitcoinUnits) (num : Nat) (web : Web) (time : Int)
    (call : ThreadCall) (hcall : call = .toCurrency web num unit ∨ call = .toCurrencyCached web time num unit) :
    (num < 10 ^ P → ∃ text, (((ThreadState.start now).after C calls).call C call).2 = .text (.ok text) ∧
      Denotes text ((num : ℚ) / 10 ^ k)) ∧
    (10 ^ P ≤ num →
      (((ThreadState.start now).after C calls).call C call).2 = .text (.error .invalidOperation)) := by
  have hp := digits_pos' hP
  have e : (((ThreadState.start now).after C calls).call C call).2 =
      .text (formatAmount P num ((10 ^ k : Nat) : Int) k) := by
    rcases hcall with rfl | rfl
    · show ThreadResult.text (satoshiToCurrency _ _ num unit) = _
      unfold satoshiToCurrency
      rw [(unit_rate unit k hu _).1, (unit_rate unit k hu []).2, digits_prec C now hP]
    · show ThreadResult.text (satoshiToCurrencyCached _ _ time _ num unit _).2.2 = _
      rw [digits_prec C now hP]
      rw [cached_formatting P (by omega) _ _ _ unit _ ((10 ^ k : Nat) : Int) k num (unit_rate unit k hu []).2 ?_
        (pow_unit_lt hu hp)]
      rcases hit_cases (after_caches C now calls unit k hu) time ((ThreadState.start now).after C calls).limit with h | h
      · exact .inl h
      · exact .inr ⟨h, (unit_rate unit k hu _).1⟩
  rw [e]
  obtain ⟨h1, h2⟩ := unit_text P hp unit k num hu
  exact ⟨fun h => (h1 h).imp fun text ht => ⟨by rw [ht.1], ht.2⟩, fun h => by rw [h2 h]⟩

/-! ## The unspents of a node -/

theorem node_entry_any {prec : Nat} (hp : 1 ≤ prec) {a : Account} {c : Coin} {j : Json} (h : Spec.NodeCoin a c j) :
    ∃ amount : Int, nodeEntry prec j = .ok { unspentOf a c with amount := amount } ∧
      (c.value < 10 ^ prec → amount = c.value) ∧ (10 ^ prec ≤ c.value → ∃ m, amount = 10 * m) := by
  by_cases hv : c.value < 10 ^ prec
  · exact ⟨c.value, node_entry hp hv h, fun _ => rfl, fun h => absurd hv (by omega)⟩
  obtain ⟨⟨f, h1, hf⟩, h2, h3, h4, h5⟩ := h
  have hlarge : (10 : ℚ) ^ prec ≤ ((10 ^ 8 : Int) : ℚ) * ((c.value : ℚ) / 10 ^ 8) := by
    have : ((10 ^ prec : Nat) : ℚ) ≤ (c.value : ℚ) := by exact_mod_cast not_lt.mp hv
    push_cast at this ⊢
    linarith
  obtain ⟨m, hm⟩ := timesAmount_large hp (10 ^ 8) hf hlarge
  have hamount : jsonAmount prec "btc".toList (.float f) = .ok (10 * m) := hm
  refine ⟨10 * m, ?_, fun h => absurd h hv, fun _ => ⟨m, rfl⟩⟩
  unfold nodeEntry
  rw [show j.get "amount".toList = _ from h1.get, ok_bind, hamount, ok_bind,
    show j.get "confirmations".toList = _ from h2.get, ok_bind, asInt_int, ok_bind,
    show j.get "scriptPubKey".toList = _ from h3.get, ok_bind, asStr_str, ok_bind,
    show j.get "txid".toList = _ from h4.get, ok_bind, asStr_str, ok_bind,
    show j.get "vout".toList = _ from h5.get, ok_bind, asInt_int, ok_bind]
  rfl

theorem rpc_gives {up : Bool} {rpc : Rpc} {method : Str} {params : List Json} {Q : Json → Prop} {α : Type}
    (h : Spec.NodeAnswers up (rpc method params) Q) {f : Json → Py α} {R : α → Prop}
    (hf : ∀ v, Q v → ∃ x, f v = .ok x ∧ R x) : Gives up (rpcCall rpc method params >>= f) R := by
  rcases h with ⟨reply, j, v, hr, hs, hj, herr, hres, hv⟩ | h
  · obtain ⟨x, hx, hR⟩ := hf v hv
    refine Good.gives (x := x) ?_ hR
    refine rpc_good (P := (· = v)) (.inl ⟨reply, j, v, hr, hs, hj, herr, hres, rfl⟩) fun w hw => .inl ?_
    rw [hw, hx]
  · rcases rpc_good (P := fun _ => False) (f := fun _ => (.ok () : Py Unit)) (x := ()) (.inr h) (fun v hv => hv.elim)
      with h' | ⟨hu, e, he⟩
    · exfalso
      have h3 := rpc_good (P := fun _ => False) (f := fun _ => (.ok true : Py Bool)) (x := false)
        (.inr h) (fun v hv => hv.elim)
      cases hc : rpcCall rpc method params with
      | error e => rw [hc] at h'; cases h'
      | ok v =>
        rw [hc] at h3
        rcases h3 with h3 | ⟨-, e, h3⟩ <;> cases h3
    · cases hc : rpcCall rpc method params with
      | error e => exact .inr ⟨hu, e, rfl⟩
      | ok v => rw [hc] at he; cases he

theorem pyMap_exists {α β : Type} {Q : α → Json → Prop} {f : Json → Py β} {R : α → β → Prop} {xs : List α}
    {js : List Json} (h : List.Forall₂ Q xs js) (hf : ∀ x j, Q x j → ∃ y, f j = .ok y ∧ R x y) :
    ∃ ys, pyMap f js = .ok ys ∧ List.Forall₂ R xs ys := by
  induction h with
  | nil => exact ⟨[], rfl, .nil⟩
  | cons h1 _ ih =>
    obtain ⟨y, hy, hR⟩ := hf _ _ h1
    obtain ⟨ys, hys, hRs⟩ := ih
    refine ⟨y :: ys, ?_, .cons hR hRs⟩
    unfold pyMap
    rw [hy, hys]

/-- C94. The unspents from a connected node that tells the truth about an address, after any history of calls: every
coin is described once and rightly, apart from its amount; the amount is right if it has no more digits than the thread
calculates with, and is a multiple of ten satoshi otherwise. -/
theorem C94_unspent (C : Crypto) (now : Int) (calls : List ThreadCall) (P : Nat) (hP : CalculatesWith calls P)
    (net : Net) (n : Nat) (hn : ConnectedTo net n calls) (up : Bool) (o : Outside) (address : Str) (a : Account)
    (received : List Str) (h : Spec.Node up (o.rpc n) address a received) (fuel : Nat) :
    ∃ r, (((ThreadState.start now).after C calls).call C (.unspent o net fuel address)).2 = .coins (some r) ∧
      Gives up r fun l => ∃ us coins, l = some us ∧ coins.Perm a.coins ∧
        List.Forall₂ (fun (c : Coin) (u : Unspent) => a.Describes c { u with amount := c.value } ∧
          (c.value < 10 ^ P → u.amount = c.value) ∧ (10 ^ P ≤ c.value → ∃ m, u.amount = 10 * m)) coins us := by
  have hp := digits_pos' hP
  obtain ⟨coins, hperm, hc⟩ := h.unspent
  have key : Gives up (nodeUnspent P (o.rpc n) address) fun us => List.Forall₂ (fun (c : Coin) (u : Unspent) =>
      a.Describes c { u with amount := c.value } ∧ (c.value < 10 ^ P → u.amount = c.value) ∧
      (10 ^ P ≤ c.value → ∃ m, u.amount = 10 * m)) coins us := by
    unfold nodeUnspent
    refine rpc_gives hc fun v hv => ?_
    obtain ⟨l, rfl, hf⟩ := hv
    rw [items_arr, ok_bind]
    refine pyMap_exists hf fun c j hj => ?_
    obtain ⟨amount, h1, h2, h3⟩ := node_entry_any (prec := P) (by omega) hj
    exact ⟨_, h1, unspentOf_describes a c, h2, h3⟩
  show ∃ r, ThreadResult.coins (networkUnspent C _ o _ net fuel address) = _ ∧ _
  unfold networkUnspent
  rw [lists_connected C now hn, digits_prec C now hP]
  dsimp only [List.map]
  unfold serviceUnspent
  dsimp only
  rcases key with ⟨us, he, hus⟩ | ⟨hu, e, he⟩
  · rw [he]
    exact ⟨_, rfl, .inl ⟨_, rfl, us, coins, rfl, hperm, hus⟩⟩
  · rw [he]
    show ∃ r, ThreadResult.coins (firstFinished networkIgnored [some (.error e)]) = _ ∧ _
    unfold firstFinished
    split
    · exact ⟨_, rfl, .inr ⟨hu, _, rfl⟩⟩
    · exact ⟨_, rfl, .inr ⟨hu, _, rfl⟩⟩

/-! ## Cases -/

/-- A node with the number 1, as in `C71_node_balance_rounded`, and no web. -/
def outsideN : Outside := ⟨fun _ => .error .requestsConnection, fun _ => nodeB float1234⟩

/-- The node is connected, and a balance is asked for. -/
def callsN : List ThreadCall := [.connect 1 false, .balance outsideN .main "a".toList]

example : CalculatesWith [.connect 1 false] 28 := by
  refine .inr ⟨?_, rfl⟩
  rintro ⟨before, n, t, between, o, address, rest, e⟩
  rcases before with _ | ⟨b, _ | ⟨b', l⟩⟩ <;> simp at e

example : CalculatesWith callsN 9 := .inl ⟨⟨[], 1, false, [], outsideN, "a".toList, [], rfl⟩, rfl⟩

example : ConnectedTo .main 1 callsN := ⟨[], false, [.balance outsideN .main "a".toList], rfl, rfl, by simp⟩

example : ThreadState.prec ((ThreadState.start 0).after Concrete.crypto callsN) = 9 := by decide +kernel

/-- Limitation. With a node connected, 12.34567891 bitcoin are converted exactly and the coin of that amount is
reported so. After the balance of an address has been asked for, the same calls give a satoshi less, with the cached
conversion that payments use as well, and that amount of satoshi cannot be written in bitcoin. -/
theorem C94_changed :
    (let s := (ThreadState.start 0).after Concrete.crypto [.connect 1 false]
     (s.call Concrete.crypto (.toSatoshi outsideN.web "12.34567891".toList "btc".toList)).2 = .number (.ok 1234567891) ∧
     (s.call Concrete.crypto (.toSatoshiCached outsideN.web 0 "12.34567891".toList "btc".toList)).2 =
        .number (.ok 1234567891) ∧
     (s.call Concrete.crypto (.toCurrency outsideN.web 1234567891 "btc".toList)).2 =
        .text (.ok "12.34567891".toList) ∧
     (networkUnspent Concrete.crypto s.prec outsideN s.lists .main 9 "a".toList).map
        (·.map (·.map (·.map Unspent.amount))) = some (.ok (some [1234567891]))) ∧
    (let s := (ThreadState.start 0).after Concrete.crypto callsN
     (s.call Concrete.crypto (.toSatoshi outsideN.web "12.34567891".toList "btc".toList)).2 = .number (.ok 1234567890) ∧
     (s.call Concrete.crypto (.toSatoshiCached outsideN.web 0 "12.34567891".toList "btc".toList)).2 =
        .number (.ok 1234567890) ∧
     (s.call Concrete.crypto (.toCurrency outsideN.web 1234567891 "btc".toList)).2 =
        .text (.error .invalidOperation) ∧
     (networkUnspent Concrete.crypto s.prec outsideN s.lists .main 9 "a".toList).map
        (·.map (·.map (·.map Unspent.amount))) = some (.ok (some [1234567890]))) := by
  decide +kernel

end Bit
