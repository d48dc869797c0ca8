import Verif.Spec.Program
import Verif.Props.Digits
import Verif.Props.LedgerWeb
import Verif.Props.Quotes
/-
C97: payments in currencies made by a program over a history of calls, with the services, fees and rates it meets.
-/
namespace Bit
open Concrete
open Bit.Spec (Number Fits trunc netOf NodeBalance CalculatesWith threadCalls ProgramDigits AmountIs Needs RateQuoted FeeQuoted
  rateTime feeTime Converted FeeUsed digitsValue plainValue)

/-! ## The state of the thread over a history -/

/-- Calls that change the services asked or the precision. -/
def ThreadCall.matters : ThreadCall → Bool
  | .connect .. => true
  | .balance .. => true
  | _ => false

theorem nodeBalance_sublist (calls : List ThreadCall) : NodeBalance calls ↔
    ∃ n t o address, [ThreadCall.connect n t, .balance o (netOf t) address].Sublist calls := by
  constructor
  · rintro ⟨before, n, t, between, o, address, rest, rfl⟩
    refine ⟨n, t, o, address, ?_⟩
    refine (List.Sublist.cons_cons _ ?_).trans (List.sublist_append_right _ _)
    refine List.Sublist.trans ?_ (List.sublist_append_right _ _)
    exact List.Sublist.cons_cons _ (List.nil_sublist _)
  · rintro ⟨n, t, o, address, h⟩
    obtain ⟨r₁, r₂, rfl, h1, h2⟩ := List.cons_sublist_iff.mp h
    obtain ⟨a, b, rfl⟩ := List.append_of_mem h1
    obtain ⟨c, d, rfl⟩ := List.append_of_mem (List.singleton_sublist.mp h2)
    exact ⟨a, n, t, b ++ c, o, address, d, by simp⟩

theorem nodeBalance_filter (calls : List ThreadCall) :
    NodeBalance (calls.filter ThreadCall.matters) ↔ NodeBalance calls := by
  rw [nodeBalance_sublist, nodeBalance_sublist]
  constructor
  · rintro ⟨n, t, o, address, h⟩
    exact ⟨n, t, o, address, h.trans List.filter_sublist⟩
  · rintro ⟨n, t, o, address, h⟩
    refine ⟨n, t, o, address, ?_⟩
    have := h.filter ThreadCall.matters
    exact this

theorem calculatesWith_filter {calls calls' : List ThreadCall}
    (h : calls.filter ThreadCall.matters = calls'.filter ThreadCall.matters) (P : Nat) :
    CalculatesWith calls P ↔ CalculatesWith calls' P := by
  unfold CalculatesWith
  rw [← nodeBalance_filter calls, ← nodeBalance_filter calls', h]

theorem convert_call (C : Crypto) (s : ThreadState) (web : Web) (now : Int) (amount currency : Str) :
    s.call C (.toSatoshiCached web now amount currency) =
      ((s.convert web now amount currency).1, .number (s.convert web now amount currency).2) := rfl

/-- The conversions of a payment are calls of the thread. -/
theorem convertAll_calls (C : Crypto) (rates : Nat → Web × Int) (outputs : List (Str × Str × Str)) :
    ∀ (s : ThreadState) (i : Nat), ∃ calls, (s.convertAll rates i outputs).1 = s.after C calls ∧
      calls.filter ThreadCall.matters = [] := by
  induction outputs with
  | nil => exact fun s i => ⟨[], rfl, rfl⟩
  | cons o rest ih =>
    obtain ⟨dest, amount, currency⟩ := o
    intro s i
    have e := convert_call C s (rates i).1 (rates i).2 amount currency
    unfold ThreadState.convertAll
    rcases hr : s.convert (rates i).1 (rates i).2 amount currency with ⟨s', (err | n)⟩
    · rw [hr] at e
      exact ⟨[.toSatoshiCached (rates i).1 (rates i).2 amount currency], (congrArg Prod.fst e).symm, rfl⟩
    · rw [hr] at e
      obtain ⟨calls, h1, h2⟩ := ih s' (i + 1)
      refine ⟨.toSatoshiCached (rates i).1 (rates i).2 amount currency :: calls, ?_, h2⟩
      have : s.after C (.toSatoshiCached (rates i).1 (rates i).2 amount currency :: calls) = s'.after C calls := by
        show ThreadState.after C (s.call C _).1 calls = _
        rw [e]
      rw [this, ← h1]
      dsimp only
      rcases ThreadState.convertAll rates s' (i + 1) rest with ⟨s'', (_ | _)⟩ <;> rfl

theorem fee_thread (p : Program) (fee : Option Int) (world : Surround) :
    (p.fee fee world).1.thread = p.thread ∧ (p.fee fee world).1.feeLimit = p.feeLimit := by
  unfold Program.fee
  cases fee with
  | none => exact ⟨rfl, rfl⟩
  | some f =>
    dsimp only
    split <;> exact ⟨rfl, rfl⟩

/-- The thread after a payment: as it was, or after the conversions. -/
theorem create_thread (C : Crypto) (p : Program) (w : Wallet) (args : TxArgs (Str × Str)) (src : Source) (world : Surround) :
    (p.create C w args src world).1.thread = p.thread ∨
    (p.create C w args src world).1.thread = (p.thread.convertAll world.rates 0 args.outputs).1 := by
  unfold Program.create
  rcases w.source C (p.ask C world w.signer.net) src with ⟨w', (e | us), own⟩
  · exact .inl rfl
  dsimp only
  cases returnAddress C w'.signer us with
  | error e => exact .inl rfl
  | ok default =>
    dsimp only
    have hf := (fee_thread p args.fee world).1
    rcases hp' : p.fee args.fee world with ⟨p', (e | fee)⟩ <;> rw [hp'] at hf
    · exact .inl hf
    · dsimp only at hf ⊢
      rw [hf]
      right
      rcases p.thread.convertAll world.rates 0 args.outputs with ⟨thread, (e | outputs)⟩
      · rfl
      · dsimp only
        rcases sanitizeArgs C (world.env fee) (args.inSatoshi outputs) us default w'.signer.net with e | ⟨x, y⟩ <;> rfl

theorem thread_append (C : Crypto) (s : ThreadState) (a b : List ThreadCall) :
    s.after C (a ++ b) = (s.after C a).after C b := by
  unfold ThreadState.after
  rw [List.foldl_append]

theorem program_append (C : Crypto) (p : Program) (calls : List ProgramCall) (c : ProgramCall) :
    p.after C (calls ++ [c]) = (p.after C calls).call C c := by
  unfold Program.after
  rw [List.foldl_append]
  rfl

theorem threadCalls_append (a b : List ProgramCall) : threadCalls (a ++ b) = threadCalls a ++ threadCalls b := by
  unfold threadCalls
  rw [List.filterMap_append]

/-- The thread of a program is in a state that calls of the thread alone could have led to. -/
theorem thread_history (C : Crypto) (now : Int) (calls : List ProgramCall) :
    ∃ tcalls, ((Program.start now).after C calls).thread = (ThreadState.start now).after C tcalls ∧
      tcalls.filter ThreadCall.matters = (threadCalls calls).filter ThreadCall.matters := by
  induction calls using List.reverseRecOn with
  | nil => exact ⟨[], rfl, rfl⟩
  | append_singleton calls c ih =>
    obtain ⟨tcalls, h1, h2⟩ := ih
    rw [program_append, threadCalls_append, List.filter_append, ← h2]
    cases c with
    | thread c =>
      refine ⟨tcalls ++ [c], ?_, by rw [List.filter_append]; rfl⟩
      rw [thread_append, ← h1]
      rfl
    | fee fast web t => exact ⟨tcalls, h1, (List.append_nil _).symm⟩
    | setFeeCacheTime s => exact ⟨tcalls, h1, (List.append_nil _).symm⟩
    | create w args src world =>
      rcases create_thread C ((Program.start now).after C calls) w args src world with h | h
      · exact ⟨tcalls, h.trans h1, (List.append_nil _).symm⟩
      · obtain ⟨more, g1, g2⟩ := convertAll_calls C world.rates args.outputs ((Program.start now).after C calls).thread 0
        refine ⟨tcalls ++ more, ?_, by rw [List.filter_append, g2]; rfl⟩
        rw [thread_append, ← h1, ← g1]
        exact h

theorem program_digits (C : Crypto) (now : Int) {calls : List ProgramCall} {P : Nat} (h : ProgramDigits calls P) :
    ((Program.start now).after C calls).thread.prec = P := by
  obtain ⟨tcalls, h1, h2⟩ := thread_history C now calls
  rw [h1]
  exact digits_prec C now ((calculatesWith_filter h2 P).mpr h)

/-- The known rates of the bitcoin units are right. -/
def UnitsRight (s : ThreadState) : Prop := ∀ unit k, (unit, k) ∈ bitcoinUnits →
  (s.caches unit).satoshis = none ∨ (s.caches unit).satoshis = some ((10 ^ k : Nat) : Int)

theorem program_units (C : Crypto) (now : Int) (calls : List ProgramCall) :
    UnitsRight ((Program.start now).after C calls).thread := by
  obtain ⟨tcalls, h1, -⟩ := thread_history C now calls
  intro unit k hu
  rw [h1]
  exact after_caches C now tcalls unit k hu

theorem convert_keeps (s : ThreadState) (web : Web) (now : Int) (amount currency : Str) :
    (s.convert web now amount currency).1.prec = s.prec ∧ (s.convert web now amount currency).1.limit = s.limit ∧
    (s.convert web now amount currency).1.lists = s.lists ∧
    (UnitsRight s → UnitsRight (s.convert web now amount currency).1) :=
  ⟨rfl, rfl, rfl, fun h unit k hu => cached_caches _ _ _ _ _ _ _ _ hu _ (h unit k hu)⟩

/-- Amounts that can be expressed are converted exactly. -/
theorem convert_unit {s : ThreadState} {P : Nat} (hp : 1 ≤ P) (hP : s.prec = P) (hu : UnitsRight s) {amount : Str × Str} {n : Int}
    (h : AmountIs P amount n) (web : Web) (now : Int) : (s.convert web now amount.1 amount.2).2 = .ok n := by
  obtain ⟨k, q, h1, h2, h3, rfl⟩ := h
  unfold ThreadState.convert currencyToSatoshiCached
  dsimp only
  rw [(unit_rate amount.2 k h1 []).2]
  dsimp only
  have ek : (((10 ^ k : Nat) : Int) : ℚ) * q = 10 ^ k * q := by push_cast; rfl
  have e : timesAmount s.prec ((10 ^ k : Nat) : Int) amount.1 = .ok (trunc (10 ^ k * q)) := by
    rw [hP, timesAmount_exact P hp _ amount.1 q h2 (by rwa [ek]), ek]
  rcases hit_cases (hu amount.2 k h1) now s.limit with h | h
  · rw [h]
    exact e
  · rw [h, (unit_rate amount.2 k h1 _).1]
    exact e

theorem convertAll_units {P : Nat} (hp : 1 ≤ P) (rates : Nat → Web × Int) {outputs : List (Str × Str × Str)}
    {pays : List (Str × Int)} (h : List.Forall₂ (fun o p => p.1 = o.1 ∧ AmountIs P o.2 p.2) outputs pays) :
    ∀ (s : ThreadState) (i : Nat), s.prec = P → UnitsRight s → (s.convertAll rates i outputs).2 = .ok pays := by
  induction h with
  | nil => exact fun _ _ _ _ => rfl
  | @cons o p os ps ho _ ih =>
    obtain ⟨dest, amount, currency⟩ := o
    obtain ⟨e1, e2⟩ := ho
    intro s i hP hu
    have h1 := convert_unit hp hP hu e2 (rates i).1 (rates i).2
    obtain ⟨k1, -, -, k4⟩ := convert_keeps s (rates i).1 (rates i).2 amount currency
    unfold ThreadState.convertAll
    rcases hr : s.convert (rates i).1 (rates i).2 amount currency with ⟨s', r⟩
    rw [hr] at h1 k1 k4
    dsimp only at h1 k1 k4 ⊢
    rw [h1]
    have := ih s' (i + 1) (k1.trans hP) (k4 hu)
    rcases hr' : ThreadState.convertAll rates s' (i + 1) os with ⟨s'', r'⟩
    rw [hr'] at this
    dsimp only at this ⊢
    rw [hr', this]
    dsimp only at e1 ⊢
    rw [← e1]

/-! ## Payments -/

theorem program_signer (C : Crypto) (ask : Ask) (w : Wallet) (src : Source) : (w.source C ask src).1.signer = w.signer := by
  have hg : (w.getUnspents C ask).1.signer = w.signer := by
    unfold Wallet.getUnspents
    split
    · rfl
    · split
      · rfl
      · split
        · rfl
        · dsimp only
          split
          · rfl
          · rfl
          · split <;> rfl
  unfold Wallet.source
  cases src with
  | stored => dsimp only; split <;> first | exact hg | rfl
  | given us => dsimp only; split <;> first | exact hg | rfl

theorem feeOf_env {Amount : Type} (p : Program) (args : TxArgs Amount) (outputs : List (Str × Int)) (world : Surround) (fee : Int)
    (h : (p.fee args.fee world).2 = .ok fee) : feeOf (world.env fee) (args.inSatoshi outputs) = fee := by
  unfold Program.fee at h
  unfold feeOf TxArgs.inSatoshi Surround.env
  dsimp only
  cases hf : args.fee with
  | none => rfl
  | some f =>
    rw [hf] at h
    dsimp only at h ⊢
    split
    · next hne =>
      rw [if_pos hne] at h
      exact Except.ok.inj h
    · rfl

/-- A call for which the fee and the amounts are found is the call of `Model/Wallet` with them. -/
theorem create_found_eq (C : Crypto) (p : Program) (w : Wallet) (args : TxArgs (Str × Str)) (src : Source) (world : Surround) (fee : Int)
    (hfee : (p.fee args.fee world).2 = .ok fee) (pays : List (Str × Int))
    (hpays : (p.thread.convertAll world.rates 0 args.outputs).2 = .ok pays) :
    (p.create C w args src world).2 =
      w.createTransaction C (world.env fee) (args.inSatoshi pays) (p.ask C world w.signer.net) src := by
  have hs := program_signer C (p.ask C world w.signer.net) w src
  unfold Program.create Wallet.createTransaction
  rcases hw : w.source C (p.ask C world w.signer.net) src with ⟨w', (e | us), own⟩
  · rfl
  dsimp only
  cases returnAddress C w'.signer us with
  | error e => rfl
  | ok default =>
    dsimp only
    have hf := (fee_thread p args.fee world).1
    rcases hp' : p.fee args.fee world with ⟨p', r⟩
    rw [hp'] at hf hfee
    dsimp only at hf hfee ⊢
    rw [hfee]
    dsimp only
    rw [hf]
    rcases hc : p.thread.convertAll world.rates 0 args.outputs with ⟨thread, r'⟩
    rw [hc] at hpays
    dsimp only at hpays ⊢
    rw [hpays]
    dsimp only
    rcases sanitizeArgs C (world.env fee) (args.inSatoshi pays) us default w'.signer.net with e | ⟨x, y⟩ <;> rfl

/-- If a transaction is returned, the fee and the amounts were found. -/
theorem create_found (C : Crypto) (p : Program) (w : Wallet) (args : TxArgs (Str × Str)) (src : Source) (world : Surround) (r : Str)
    (h : (p.create C w args src world).2.2 = .ok r) :
    ∃ fee pays, (p.fee args.fee world).2 = .ok fee ∧ (p.thread.convertAll world.rates 0 args.outputs).2 = .ok pays := by
  unfold Program.create at h
  rcases hw : w.source C (p.ask C world w.signer.net) src with ⟨w', (e | us), own⟩
  · rw [hw] at h; cases h
  rw [hw] at h
  dsimp only at h
  cases hr : returnAddress C w'.signer us with
  | error e => rw [hr] at h; cases h
  | ok default =>
    rw [hr] at h
    dsimp only at h
    have hf := (fee_thread p args.fee world).1
    rcases hp' : p.fee args.fee world with ⟨p', (e | fee)⟩
    · rw [hp'] at h; cases h
    · rw [hp'] at h hf
      dsimp only at h hf
      rw [hf] at h
      rcases hc : p.thread.convertAll world.rates 0 args.outputs with ⟨thread, (e | pays)⟩
      · rw [hc] at h; cases h
      · exact ⟨fee, pays, rfl, rfl⟩

/-! ## Where rates and fees come from -/

theorem needs_mono {calls : List ProgramCall} (more : List ProgramCall) {currency : Str} {r t : Int}
    (h : RateQuoted calls currency r t) : RateQuoted (calls ++ more) currency r t := by
  obtain ⟨before, call, rest, web, P, rfl, h⟩ := h
  exact ⟨before, call, rest ++ more, web, P, by simp, h⟩

theorem cached_source {prec : Nat} {limit now : Int} {answers : List (Py Int)} {amount currency cur : Str} {caches : RateCaches}
    {r t : Int} (h : (currencyToSatoshiCached prec limit now answers amount currency caches).1 cur = ⟨some r, t⟩) :
    caches cur = ⟨some r, t⟩ ∨ (cur = currency ∧ t = now ∧ exchangeRate answers currency = .ok r) := by
  unfold currencyToSatoshiCached at h
  cases hp : precisionOf currency with
  | none => rw [hp] at h; exact .inl h
  | some p =>
    rw [hp] at h
    dsimp only at h
    cases hh : (caches currency).hit now limit with
    | some x => rw [hh] at h; exact .inl h
    | none =>
      rw [hh] at h
      dsimp only at h
      cases hr : exchangeRate answers currency with
      | error e => rw [hr] at h; exact .inl h
      | ok x =>
        rw [hr] at h
        dsimp only at h
        split at h
        · next hc =>
          right
          simp only [CachedRate.mk.injEq, Option.some.injEq] at h
          exact ⟨hc, h.2.symm, by rw [h.1]⟩
        · exact .inl h

theorem convertAll_source (rates : Nat → Web × Int) (outputs : List (Str × Str × Str)) :
    ∀ (s : ThreadState) (i : Nat) (cur : Str) (r t : Int), (s.convertAll rates i outputs).1.caches cur = ⟨some r, t⟩ →
      s.caches cur = ⟨some r, t⟩ ∨ ∃ j o, outputs[j]? = some o ∧ o.2.2 = cur ∧ (rates (i + j)).2 = t ∧
        exchangeRate (rateAnswers s.prec (rates (i + j)).1 cur) cur = .ok r := by
  induction outputs with
  | nil => exact fun s i cur r t h => .inl h
  | cons o rest ih =>
    obtain ⟨dest, amount, currency⟩ := o
    intro s i cur r t h
    unfold ThreadState.convertAll at h
    have hsrc : (s.convert (rates i).1 (rates i).2 amount currency).1.caches cur = ⟨some r, t⟩ →
        s.caches cur = ⟨some r, t⟩ ∨ ∃ j o, ((dest, amount, currency) :: rest)[j]? = some o ∧ o.2.2 = cur ∧
          (rates (i + j)).2 = t ∧ exchangeRate (rateAnswers s.prec (rates (i + j)).1 cur) cur = .ok r := by
      intro h
      rcases cached_source h with g | ⟨rfl, rfl, g⟩
      · exact .inl g
      · exact .inr ⟨0, _, rfl, rfl, rfl, g⟩
    obtain ⟨k1, -, -, -⟩ := convert_keeps s (rates i).1 (rates i).2 amount currency
    rcases hr : s.convert (rates i).1 (rates i).2 amount currency with ⟨s', (e | n)⟩ <;> rw [hr] at h hsrc k1
    · exact hsrc h
    · dsimp only at h hsrc k1
      have h' : (s'.convertAll rates (i + 1) rest).1.caches cur = ⟨some r, t⟩ := by
        rcases hr' : ThreadState.convertAll rates s' (i + 1) rest with ⟨s'', (e | os)⟩ <;> rw [hr'] at h <;> exact h
      rcases ih s' (i + 1) cur r t h' with h | ⟨j, o, h1, h2, h3, h4⟩
      · exact hsrc h
      · refine .inr ⟨j + 1, o, h1, h2, ?_, ?_⟩
        · rw [← h3]; congr 2; omega
        · rw [← k1, ← h4]; congr 4; omega

/-- Every known rate was got from services in a call of the history. -/
theorem rates_quoted (C : Crypto) (now : Int) (calls : List ProgramCall) (cur : Str) (r t : Int)
    (h : ((Program.start now).after C calls).thread.caches cur = ⟨some r, t⟩) : RateQuoted calls cur r t := by
  induction calls using List.reverseRecOn generalizing r t with
  | nil => cases h
  | append_singleton calls c ih =>
    rw [program_append] at h
    obtain ⟨P, hP⟩ : ∃ P, ProgramDigits calls P := ⟨_, C94_precision C now (threadCalls calls)⟩
    have hprec := program_digits C now hP
    have last : ∀ web, Needs cur web t c → exchangeRate (rateAnswers P web cur) cur = .ok r →
        RateQuoted (calls ++ [c]) cur r t := fun web h1 h2 => ⟨calls, c, [], web, P, rfl, h1, hP, h2⟩
    cases c with
    | thread c =>
      cases c with
      | toSatoshiCached web t' amount currency =>
        rcases cached_source h with g | ⟨rfl, rfl, g⟩
        · exact needs_mono _ (ih r t g)
        · rw [hprec] at g
          exact last web ⟨rfl, rfl, rfl⟩ g
      | toCurrencyCached web t' num currency =>
        have h : (currencyToSatoshiCached ((Program.start now).after C calls).thread.prec
            ((Program.start now).after C calls).thread.limit t'
            (rateAnswers ((Program.start now).after C calls).thread.prec web currency) ['1'] currency
            ((Program.start now).after C calls).thread.caches).1 cur = ⟨some r, t⟩ := by
          rw [← cached_text_caches _ _ _ _ num]
          exact h
        rcases cached_source h with g | ⟨rfl, rfl, g⟩
        · exact needs_mono _ (ih r t g)
        · rw [hprec] at g
          exact last web ⟨rfl, rfl, rfl⟩ g
      | _ => exact needs_mono _ (ih r t h)
    | fee fast web t' => exact needs_mono _ (ih r t h)
    | setFeeCacheTime s => exact needs_mono _ (ih r t h)
    | create w args src world =>
      rcases create_thread C ((Program.start now).after C calls) w args src world with e | e
      · refine needs_mono _ (ih r t ?_)
        rw [← e]
        exact h
      · have h : (((Program.start now).after C calls).thread.convertAll world.rates 0 args.outputs).1.caches cur = ⟨some r, t⟩ := by
          rw [← e]
          exact h
        rcases convertAll_source world.rates args.outputs _ 0 cur r t h with h | ⟨j, o, h1, h2, h3, h4⟩
        · exact needs_mono _ (ih r t h)
        · rw [hprec] at h4
          rw [Nat.zero_add] at h3 h4
          exact last _ ⟨j, o, h1, h2, Prod.ext rfl h3⟩ h4

theorem getLastD_snoc {α : Type} (l : List α) (a d : α) : (l ++ [a]).getLastD d = a := by simp

theorem convertAll_limit (rates : Nat → Web × Int) (outputs : List (Str × Str × Str)) :
    ∀ (s : ThreadState) (i : Nat), (s.convertAll rates i outputs).1.limit = s.limit ∧
      (s.convertAll rates i outputs).1.lists = s.lists ∧ (s.convertAll rates i outputs).1.prec = s.prec := by
  induction outputs with
  | nil => exact fun s i => ⟨rfl, rfl, rfl⟩
  | cons o rest ih =>
    obtain ⟨dest, amount, currency⟩ := o
    intro s i
    unfold ThreadState.convertAll
    obtain ⟨k1, k2, k3, -⟩ := convert_keeps s (rates i).1 (rates i).2 amount currency
    rcases hr : s.convert (rates i).1 (rates i).2 amount currency with ⟨s', (e | n)⟩ <;> rw [hr] at k1 k2 k3
    · exact ⟨k2, k3, k1⟩
    · obtain ⟨g1, g2, g3⟩ := ih s' (i + 1)
      dsimp only at k1 k2 k3 ⊢
      rcases hr' : ThreadState.convertAll rates s' (i + 1) rest with ⟨s'', (e | os)⟩ <;> rw [hr'] at g1 g2 g3 <;>
        exact ⟨g1.trans k2, g2.trans k3, g3.trans k1⟩

theorem create_limit (C : Crypto) (p : Program) (w : Wallet) (args : TxArgs (Str × Str)) (src : Source) (world : Surround) :
    (p.create C w args src world).1.thread.limit = p.thread.limit ∧
    (p.create C w args src world).1.thread.lists = p.thread.lists := by
  rcases create_thread C p w args src world with h | h <;> rw [h]
  · exact ⟨rfl, rfl⟩
  · obtain ⟨h1, h2, -⟩ := convertAll_limit world.rates args.outputs p.thread 0
    exact ⟨h1, h2⟩

/-- What a payment does to the fees known. -/
theorem create_fees (C : Crypto) (p : Program) (w : Wallet) (args : TxArgs (Str × Str)) (src : Source) (world : Surround) :
    (p.create C w args src world).1.feeLimit = p.feeLimit ∧
    ((p.create C w args src world).1.fees = p.fees ∨
      (p.create C w args src world).1.fees = (getFeeCached true p.feeLimit world.feeTime (feeAnswer world.feeWeb true) p.fees).1) := by
  have key : (p.fee args.fee world).1.feeLimit = p.feeLimit ∧ ((p.fee args.fee world).1.fees = p.fees ∨
      (p.fee args.fee world).1.fees = (getFeeCached true p.feeLimit world.feeTime (feeAnswer world.feeWeb true) p.fees).1) := by
    unfold Program.fee
    cases args.fee with
    | none => exact ⟨rfl, .inr rfl⟩
    | some f =>
      dsimp only
      split
      · exact ⟨rfl, .inl rfl⟩
      · exact ⟨rfl, .inr rfl⟩
  unfold Program.create
  rcases w.source C (p.ask C world w.signer.net) src with ⟨w', (e | us), own⟩
  · exact ⟨rfl, .inl rfl⟩
  dsimp only
  cases returnAddress C w'.signer us with
  | error e => exact ⟨rfl, .inl rfl⟩
  | ok default =>
    dsimp only
    rcases hp' : p.fee args.fee world with ⟨p', (e | fee)⟩ <;> rw [hp'] at key
    · exact key
    · dsimp only at key ⊢
      rcases p'.thread.convertAll world.rates 0 args.outputs with ⟨thread, (e | outputs)⟩
      · exact key
      · dsimp only
        rcases sanitizeArgs C (world.env fee) (args.inSatoshi outputs) us default w'.signer.net with e | ⟨x, y⟩ <;> exact key

theorem program_limit (C : Crypto) (now : Int) (calls : List ProgramCall) :
    ((Program.start now).after C calls).thread.limit = rateTime calls ∧
    ((Program.start now).after C calls).feeLimit = feeTime calls := by
  induction calls using List.reverseRecOn with
  | nil => exact ⟨rfl, rfl⟩
  | append_singleton calls c ih =>
    rw [program_append]
    unfold rateTime feeTime at ih ⊢
    rw [List.filterMap_append, List.filterMap_append]
    cases c with
    | thread c =>
      cases c with
      | setCacheTime s => exact ⟨(getLastD_snoc _ _ _).symm, ih.2.trans (by simp)⟩
      | _ => exact ⟨ih.1.trans (by simp), ih.2.trans (by simp)⟩
    | fee fast web t => exact ⟨ih.1.trans (by simp), ih.2.trans (by simp)⟩
    | setFeeCacheTime s => exact ⟨ih.1.trans (by simp), (getLastD_snoc _ _ _).symm⟩
    | create w args src world =>
      have e1 := (create_limit C ((Program.start now).after C calls) w args src world).1
      have e2 := (create_fees C ((Program.start now).after C calls) w args src world).1
      refine ⟨e1.trans ?_, e2.trans ?_⟩
      · exact ih.1.trans (by simp)
      · exact ih.2.trans (by simp)

theorem feeCached_source {limit now default : Int} {answer : Py Int} {c : CachedFee} {f t : Int}
    (h : (feeCached limit now default answer c).1 = ⟨some f, t⟩) : c = ⟨some f, t⟩ ∨ (answer = .ok f ∧ t = now) := by
  obtain ⟨fee, last⟩ := c
  have new : ∀ {x : Int}, (⟨some x, now⟩ : CachedFee) = ⟨some f, t⟩ → (Except.ok x : Py Int) = .ok f ∧ t = now := by
    intro x hx
    simp only [CachedFee.mk.injEq, Option.some.injEq] at hx
    exact ⟨by rw [hx.1], hx.2.symm⟩
  unfold feeCached at h
  cases fee <;> cases answer <;> dsimp only at h <;> (repeat' split at h) <;>
    first
    | exact .inl h
    | exact .inr (new h)

theorem getFee_source {fast : Bool} {limit now : Int} {answer : Py Int} {s : FeeCaches} {f t : Int}
    (h : (getFeeCached fast limit now answer s).1.fast = ⟨some f, t⟩) :
    s.fast = ⟨some f, t⟩ ∨ (fast = true ∧ answer = .ok f ∧ t = now) := by
  unfold getFeeCached at h
  cases fast with
  | true =>
    rcases feeCached_source h with h | h
    · exact .inl h
    · exact .inr ⟨rfl, h⟩
  | false => exact .inl h

/-- Every known fee was recommended in a call of the history. -/
theorem fees_quoted (C : Crypto) (now : Int) (calls : List ProgramCall) (f t : Int)
    (h : ((Program.start now).after C calls).fees.fast = ⟨some f, t⟩) : FeeQuoted calls f t := by
  induction calls using List.reverseRecOn generalizing f t with
  | nil => cases h
  | append_singleton calls c ih =>
    rw [program_append] at h
    have keep : FeeQuoted calls f t → FeeQuoted (calls ++ [c]) f t := by
      rintro ⟨call, hc, h⟩
      exact ⟨call, List.mem_append_left _ hc, h⟩
    have hm : c ∈ calls ++ [c] := List.mem_append_right _ List.mem_cons_self
    cases c with
    | thread c => exact keep (ih f t h)
    | fee fast web t' =>
      rcases getFee_source h with h | ⟨rfl, h1, h2⟩
      · exact keep (ih f t h)
      · exact ⟨_, hm, web, h1, rfl, rfl, h2.symm⟩
    | setFeeCacheTime s => exact keep (ih f t h)
    | create w args src world =>
      rcases (create_fees C ((Program.start now).after C calls) w args src world).2 with e | e
      · exact keep (ih f t (by rw [← e]; exact h))
      · have h : (getFeeCached true ((Program.start now).after C calls).feeLimit world.feeTime (feeAnswer world.feeWeb true)
            ((Program.start now).after C calls).fees).1.fast = ⟨some f, t⟩ := by rw [← e]; exact h
        rcases getFee_source h with h | ⟨-, h1, h2⟩
        · exact keep (ih f t h)
        · exact ⟨_, hm, world.feeWeb, h1, rfl, h2.symm⟩

/-! ## The amounts of a payment -/

theorem hit_some {c : CachedRate} {now limit r : Int} (h : c.hit now limit = some r) :
    ∃ t, c = ⟨some r, t⟩ ∧ r ≠ 0 ∧ now - t ≤ limit := by
  obtain ⟨sat, t⟩ := c
  unfold CachedRate.hit at h
  cases sat with
  | none => cases h
  | some x =>
    dsimp only at h
    split at h
    · cases h
    · next h0 =>
      split at h
      · cases h
      · next h1 =>
        cases h
        exact ⟨t, rfl, h0, by omega⟩

theorem convert_ok {s : ThreadState} {web : Web} {now : Int} {amount currency : Str} {n : Int}
    (h : (s.convert web now amount currency).2 = .ok n) : ∃ rate, timesAmount s.prec rate amount = .ok n ∧
      ((rate ≠ 0 ∧ ∃ t, s.caches currency = ⟨some rate, t⟩ ∧ now - t ≤ s.limit) ∨
        exchangeRate (rateAnswers s.prec web currency) currency = .ok rate) := by
  unfold ThreadState.convert currencyToSatoshiCached at h
  dsimp only at h
  cases hp : precisionOf currency with
  | none => rw [hp] at h; cases h
  | some p =>
    rw [hp] at h
    dsimp only at h
    cases hh : (s.caches currency).hit now s.limit with
    | some r =>
      rw [hh] at h
      obtain ⟨t, h1, h2, h3⟩ := hit_some hh
      exact ⟨r, h, .inl ⟨h2, t, h1, h3⟩⟩
    | none =>
      rw [hh] at h
      dsimp only at h
      cases hr : exchangeRate (rateAnswers s.prec web currency) currency with
      | error e => rw [hr] at h; cases h
      | ok r => rw [hr] at h; exact ⟨r, h, .inr rfl⟩

theorem convertAll_ok (rates : Nat → Web × Int) (outputs : List (Str × Str × Str)) :
    ∀ (s : ThreadState) (i : Nat) (pays : List (Str × Int)), (s.convertAll rates i outputs).2 = .ok pays →
      pays.length = outputs.length ∧ ∀ j o p, outputs[j]? = some o → pays[j]? = some p → p.1 = o.1 ∧
        ∃ rate, timesAmount s.prec rate o.2.1 = .ok p.2 ∧
          ((rate ≠ 0 ∧ ∃ t, s.caches o.2.2 = ⟨some rate, t⟩ ∧ (rates (i + j)).2 - t ≤ s.limit) ∨
            ∃ l o', l ≤ j ∧ outputs[l]? = some o' ∧ o'.2.2 = o.2.2 ∧
              exchangeRate (rateAnswers s.prec (rates (i + l)).1 o.2.2) o.2.2 = .ok rate ∧
              (l = j ∨ (rates (i + j)).2 - (rates (i + l)).2 ≤ s.limit)) := by
  induction outputs with
  | nil =>
    intro s i pays h
    cases h
    exact ⟨rfl, fun j o p h => by cases h⟩
  | cons o rest ih =>
    obtain ⟨dest, amount, currency⟩ := o
    intro s i pays h
    unfold ThreadState.convertAll at h
    obtain ⟨k1, k2, -, -⟩ := convert_keeps s (rates i).1 (rates i).2 amount currency
    have hsrc := fun {cur : Str} {r t : Int} =>
      cached_source (prec := s.prec) (limit := s.limit) (now := (rates i).2)
        (answers := rateAnswers s.prec (rates i).1 currency) (amount := amount) (currency := currency) (cur := cur)
        (caches := s.caches) (r := r) (t := t)
    have hsrc : ∀ {cur : Str} {r t : Int}, (s.convert (rates i).1 (rates i).2 amount currency).1.caches cur = ⟨some r, t⟩ →
        s.caches cur = ⟨some r, t⟩ ∨ (cur = currency ∧ t = (rates i).2 ∧
          exchangeRate (rateAnswers s.prec (rates i).1 currency) currency = .ok r) := hsrc
    have hok := fun {n : Int} => convert_ok (s := s) (web := (rates i).1) (now := (rates i).2) (amount := amount)
      (currency := currency) (n := n)
    rcases hr : s.convert (rates i).1 (rates i).2 amount currency with ⟨s', (e | n)⟩ <;> rw [hr] at h hsrc k1 k2 hok
    · cases h
    dsimp only at h hsrc k1 k2 hok
    rcases hr' : ThreadState.convertAll rates s' (i + 1) rest with ⟨s'', (e | os)⟩ <;> rw [hr'] at h
    · cases h
    cases h
    obtain ⟨g1, g2⟩ := ih s' (i + 1) os (by rw [hr'])
    refine ⟨by simp [g1], ?_⟩
    intro j o p ho hp
    cases j with
    | zero =>
      simp only [List.getElem?_cons_zero, Option.some.injEq] at ho hp
      subst ho hp
      obtain ⟨rate, h1, h2⟩ := hok rfl
      refine ⟨rfl, rate, h1, ?_⟩
      rcases h2 with h2 | h2
      · exact .inl h2
      · exact .inr ⟨0, _, le_refl _, rfl, rfl, h2, .inl rfl⟩
    | succ j =>
      rw [List.getElem?_cons_succ] at ho hp
      obtain ⟨e, rate, h1, h2⟩ := g2 j o p ho hp
      have ei : i + 1 + j = i + (j + 1) := by omega
      rw [k1] at h1
      refine ⟨e, rate, h1, ?_⟩
      rw [ei, k2, k1] at h2
      rcases h2 with ⟨h2, t, h3, h4⟩ | ⟨l, o', h2, h3, h4, h5, h6⟩
      · rcases hsrc h3 with h5 | ⟨e1, rfl, h5⟩
        · exact .inl ⟨h2, t, h5, h4⟩
        · refine .inr ⟨0, _, Nat.zero_le _, rfl, e1.symm, ?_, .inr h4⟩
          rw [e1]
          exact h5
      · have el : i + 1 + l = i + (l + 1) := by omega
        rw [el] at h5 h6
        refine .inr ⟨l + 1, o', by omega, h3, h4, h5, ?_⟩
        rcases h6 with rfl | h6
        · exact .inl rfl
        · exact .inr h6

theorem converted_of {C : Crypto} {now : Int} {calls : List ProgramCall} {P : Nat} (hP : ProgramDigits calls P) {world : Surround}
    {outputs : List (Str × Str × Str)} {pays : List (Str × Int)}
    (h : (((Program.start now).after C calls).thread.convertAll world.rates 0 outputs).2 = .ok pays) :
    pays.length = outputs.length ∧ ∀ j o p, outputs[j]? = some o → pays[j]? = some p →
      p.1 = o.1 ∧ Converted calls P world outputs j o.2.1 o.2.2 p.2 := by
  have hp := digits_pos' hP
  obtain ⟨h1, h2⟩ := convertAll_ok world.rates outputs _ 0 pays h
  refine ⟨h1, fun j o p ho hpp => ?_⟩
  obtain ⟨e, rate, h3, h4⟩ := h2 j o p ho hpp
  rw [program_digits C now hP, (program_limit C now calls).1] at *
  refine ⟨e, rate, ?_, ?_⟩
  · intro q hq hf
    have := timesAmount_exact P (by omega) rate o.2.1 q hq hf
    rw [h3] at this
    exact Except.ok.inj this
  · rcases h4 with ⟨h5, t, h6, h7⟩ | ⟨l, o', h5, h6, h7, h8, h9⟩
    · rw [Nat.zero_add] at h7
      exact .inl ⟨h5, t, rates_quoted C now calls _ _ _ h6, h7⟩
    · rw [Nat.zero_add] at h8 h9
      rw [Nat.zero_add] at h9
      exact .inr ⟨l, o', h5, h6, h7, h8, h9⟩

/-- The rate of a bitcoin unit does not come from the web. -/
theorem converted_unit {calls : List ProgramCall} {P : Nat} {world : Surround} {outputs : List (Str × Str × Str)} {j : Nat}
    {amount : Str × Str} {n m : Int} (h : Converted calls P world outputs j amount.1 amount.2 n) (hm : AmountIs P amount m) : n = m := by
  obtain ⟨k, q, h1, h2, h3, rfl⟩ := hm
  obtain ⟨rate, g1, g2⟩ := h
  have key : rate = ((10 ^ k : Nat) : Int) := by
    rcases g2 with ⟨-, t, ⟨-, -, -, web, P', -, -, -, e⟩, -⟩ | ⟨i, o, -, -, -, e, -⟩ <;>
      rw [(unit_rate amount.2 k h1 _).1] at e <;> exact (Except.ok.inj e).symm
  have ek : (((10 ^ k : Nat) : Int) : ℚ) * q = 10 ^ k * q := by push_cast; rfl
  have := g1 q h2
  rw [key, ek] at this
  exact this h3

theorem feeUsed_of {C : Crypto} {now : Int} {calls : List ProgramCall} {given : Option Int} {world : Surround} {f : Int}
    (h : (((Program.start now).after C calls).fee given world).2 = .ok f) : FeeUsed calls world given f := by
  have key : ∀ {p : Program}, p = (Program.start now).after C calls →
      (getFeeCached true p.feeLimit world.feeTime (feeAnswer world.feeWeb true) p.fees).2.2 = .ok f →
      (feeAnswer world.feeWeb true = .ok f ∨
      (f ≠ 0 ∧ ∃ t, FeeQuoted calls f t ∧ world.feeTime - t ≤ feeTime calls) ∨
      ∃ e, feeAnswer world.feeWeb true = .error e ∧ feesIgnored e = true ∧ ((∃ t, FeeQuoted calls f t) ∨ f = 72)) := by
    intro p hp h
    have hl : p.feeLimit = feeTime calls := by rw [hp]; exact (program_limit C now calls).2
    have hq : ∀ f t, p.fees.fast = ⟨some f, t⟩ → FeeQuoted calls f t := by
      intro f t h; rw [hp] at h; exact fees_quoted C now calls f t h
    unfold getFeeCached at h
    rw [if_pos rfl] at h
    dsimp only at h
    rw [hl] at h
    rcases hc : p.fees.fast with ⟨(_ | g), last⟩ <;> rw [hc] at h <;> unfold feeCached at h <;>
      cases ha : feeAnswer world.feeWeb true <;> rw [ha] at h <;> dsimp only at h
    · split at h
      · next hi => exact .inr (.inr ⟨_, rfl, hi, .inr (Except.ok.inj h).symm⟩)
      · cases h
    · exact .inl h
    · have hg := hq g last hc
      split at h
      · split at h
        · next hi =>
          have := Except.ok.inj h
          subst this
          exact .inr (.inr ⟨_, rfl, hi, .inl ⟨last, hg⟩⟩)
        · cases h
      · next hn =>
        have := Except.ok.inj h
        subst this
        push Not at hn
        exact .inr (.inl ⟨hn.1, last, hg, hn.2⟩)
    · have hg := hq g last hc
      split at h
      · exact .inl h
      · next hn =>
        have := Except.ok.inj h
        subst this
        push Not at hn
        exact .inr (.inl ⟨hn.1, last, hg, hn.2⟩)
  unfold Program.fee at h
  cases given with
  | none => exact .inr ⟨.inl rfl, key rfl h⟩
  | some g =>
    dsimp only at h
    split at h
    · next hne =>
      have := Except.ok.inj h
      subst this
      exact .inl ⟨rfl, hne⟩
    · next he =>
      have he : g = 0 := by simpa using he
      subst he
      exact .inr ⟨.inr rfl, key rfl h⟩

/-! ## The property -/

/-- C97. What `create_transaction` makes of amounts in currencies and of the fee, after any history of calls and whatever it
meets on the web: it is the call with certain amounts in satoshi and a certain fee (to which the other properties
apply). Every amount is the whole part of the product with a rate that services gave in this call or not too long before;
the fee is the given one, or the recommended one, likewise. -/
theorem C97_created (C : Crypto) (now : Int) (calls : List ProgramCall) (P : Nat) (hP : ProgramDigits calls P) (w : Wallet)
    (args : TxArgs (Str × Str)) (src : Source) (world : Surround) (r : Str)
    (h : (((Program.start now).after C calls).create C w args src world).2.2 = .ok r) :
    ∃ fee pays, FeeUsed calls world args.fee fee ∧ pays.length = args.outputs.length ∧
      (∀ j o p, args.outputs[j]? = some o → pays[j]? = some p →
        p.1 = o.1 ∧ Converted calls P world args.outputs j o.2.1 o.2.2 p.2 ∧ ∀ n, AmountIs P o.2 n → p.2 = n) ∧
      askedFee (world.env fee) (args.inSatoshi pays) = fee ∧
      (((Program.start now).after C calls).create C w args src world).2 =
        w.createTransaction C (world.env fee) (args.inSatoshi pays)
          (((Program.start now).after C calls).ask C world w.signer.net) src := by
  obtain ⟨fee, pays, h1, h2⟩ := create_found C _ w args src world r h
  obtain ⟨h3, h4⟩ := converted_of hP h2
  refine ⟨fee, pays, feeUsed_of h1, h3, ?_, ?_, create_found_eq C _ w args src world fee h1 pays h2⟩
  · intro j o p ho hp
    obtain ⟨e, hc⟩ := h4 j o p ho hp
    exact ⟨e, hc, fun n hn => converted_unit hc hn⟩
  · rw [← feeOf_asked]
    exact feeOf_env _ args pays world fee h1

/-- C97. Working without the network: if unspents and a fee are given and all amounts are in bitcoin units (and can be expressed with
the digits the program calculates with), the result of `create_transaction`, a transaction or an error, and what becomes of the key object
depend on nothing outside but random choices: not on what services, fee server and rates would answer, nor on the
time, nor on what the program did before. -/
theorem C97_offline (C : Crypto) (now now' : Int) (calls calls' : List ProgramCall) (P P' : Nat) (hP : ProgramDigits calls P)
    (hP' : ProgramDigits calls' P') (w : Wallet) (args : TxArgs (Str × Str)) (f : Int) (hf : args.fee = some f) (hf0 : f ≠ 0)
    (pays : List (Str × Int))
    (hpays : List.Forall₂ (fun o p => p.1 = o.1 ∧ AmountIs P o.2 p.2 ∧ AmountIs P' o.2 p.2) args.outputs pays)
    (us : List Unspent) (hne : us ≠ []) (world world' : Surround) (hflips : world.flips = world'.flips)
    (hshuffle : world.shuffle = world'.shuffle) :
    (((Program.start now).after C calls).create C w args (.given us) world).2 =
      (((Program.start now').after C calls').create C w args (.given us) world').2 ∧
    (((Program.start now).after C calls).create C w args (.given us) world).2 =
      w.createTransaction C ⟨.ok, f, world.flips, world.shuffle⟩ (args.inSatoshi pays) (fun _ => .error .connectionError)
        (.given us) := by
  have key : ∀ (now : Int) (calls : List ProgramCall) (P : Nat) (_ : ProgramDigits calls P) (world : Surround)
      (_ : List.Forall₂ (fun o p => p.1 = o.1 ∧ AmountIs P o.2 p.2) args.outputs pays),
      (((Program.start now).after C calls).create C w args (.given us) world).2 =
      w.createTransaction C ⟨.ok, f, world.flips, world.shuffle⟩ (args.inSatoshi pays) (fun _ => .error .connectionError)
        (.given us) := by
    intro now calls P hP world hp
    have hpos := digits_pos' hP
    rw [create_found_eq C _ w args (.given us) world f (by unfold Program.fee; rw [hf]; dsimp only; rw [if_pos hf0]) pays
      (convertAll_units (by omega) world.rates hp _ 0 (program_digits C now hP) (program_units C now calls))]
    have hsrc : ∀ ask, w.source C ask (.given us) = (w, .ok us, false) := by
      intro ask
      unfold Wallet.source
      dsimp only
      rw [if_neg (by simpa using hne)]
    unfold Wallet.createTransaction
    rw [hsrc, hsrc]
    rfl
  have k1 := key now calls P hP world (hpays.imp fun _ _ h => ⟨h.1, h.2.1⟩)
  have k2 := key now' calls' P' hP' world' (hpays.imp fun _ _ h => ⟨h.1, h.2.2⟩)
  refine ⟨?_, k1⟩
  rw [k1, k2, hflips, hshuffle]

theorem program_lists (C : Crypto) (now : Int) (calls : List ProgramCall) (net : Net)
    (h : ∀ n t, netOf t = net → ProgramCall.thread (.connect n t) ∉ calls) :
    ((Program.start now).after C calls).thread.lists net = initialLists net := by
  induction calls using List.reverseRecOn with
  | nil => rfl
  | append_singleton calls c ih =>
    have ih := ih fun n t e hm => h n t e (List.mem_append_left _ hm)
    rw [program_append]
    cases c with
    | thread c =>
      show (((Program.start now).after C calls).thread.call C c).1.lists net = _
      rw [call_lists]
      cases c with
      | connect n t =>
        have hne : netOf t ≠ net := fun e => h n t e (List.mem_append_right _ List.mem_cons_self)
        dsimp only
        rw [← ih]
        unfold connectToNode
        cases t <;> cases net <;> simp_all [netOf]
      | _ => exact ih
    | fee fast web t => exact ih
    | setFeeCacheTime s => exact ih
    | create w args src world =>
      show (((Program.start now).after C calls).create C w args src world).1.thread.lists net = _
      rw [(create_limit C _ w args src world).2]
      exact ih

/-- The services as the program sees them. -/
theorem program_online {C : Crypto} {now : Int} {calls : List ProgramCall} {P : Nat} (hP : ProgramDigits calls P) {net : Net}
    (hnode : ∀ n t, netOf t = net → ProgramCall.thread (.connect n t) ∉ calls) {L : Spec.Ledger} (hsmall : ∀ c ∈ L, c.value < 10 ^ P)
    {world : Surround} (hfuel : L.length ≤ world.fuel) :
    Online C world.outside net L (((Program.start now).after C calls).ask C world net) where
  asks := ⟨P, world.fuel, ((Program.start now).after C calls).thread.lists, by have := digits_pos' hP; omega, hsmall, hfuel,
    program_lists C now calls net hnode, fun address r h => by
      unfold Program.ask
      rw [program_digits C now hP, h]⟩

open _root_.Spec.Ledger in
/-- C97. From the text of an amount to the chain. After any history of calls in which no node was connected for the
network of the key, if services report the unspent outputs of the key as the chain has them whenever they answer, and
`create_transaction` returns: the transaction is one that a node takes (if the fee is not negative), and when it is confirmed, every
script of others has what it had plus the amounts paid to it (exactly the number of satoshi of an amount in a bitcoin
unit), the key loses the payments and the fee, and change goes to the key or to the address given for it. -/
theorem C97_pays (C : Crypto) (k : PrivKey) (hk : KeyLaws C k) (L : Spec.Ledger) (hL : L.WF) (now : Int)
    (calls : List ProgramCall) (P : Nat) (hP : ProgramDigits calls P)
    (hnode : ∀ n t, netOf t = k.net → ProgramCall.thread (.connect n t) ∉ calls) (hsmall : ∀ c ∈ L, c.value < 10 ^ P)
    (world : Surround) (hfuel : L.length ≤ world.fuel) (hshuffle : ∀ l, (world.shuffle l).Perm l)
    (hrep : ReportsKey false C world.outside L k) (w : Wallet) (hw : w.signer = .single k) (args : TxArgs (Str × Str)) (r : Str)
    (h : (((Program.start now).after C calls).create C w args (.given []) world).2.2 = .ok r) :
    ∃ (t : Spec.Tx) (pays : List (Str × Int)) (rate fee c : Int) (changeScript : Bytes),
      t.WF ∧ r = bytesToHex t.encode ∧ pays.length = args.outputs.length ∧
      (∀ j o p, args.outputs[j]? = some o → pays[j]? = some p →
        p.1 = o.1 ∧ Converted calls P world args.outputs j o.2.1 o.2.2 p.2 ∧ ∀ n, AmountIs P o.2 n → p.2 = n) ∧
      FeeUsed calls world args.fee rate ∧ (args.absoluteFee = true → fee = rate) ∧
      (0 ≤ rate → args.outputs ≠ [] → Valid C.hashing L t) ∧ 0 ≤ c ∧
      (args.combine = true → c = held C k L - fee - (pays.map Prod.snd).sum) ∧
      (match args.leftover with
        | some (a :: l) => addressToScriptpubkey C (a :: l) = .ok (some changeScript)
        | _ => changeScript ∈ keyScripts C k) ∧
      let L' := L.apply C.doubleSha256 t
      (worth L' : Int) = worth L - fee ∧
      (∀ s, s ∉ keyScripts C k →
        (L'.balance s : Int) = L.balance s + paidTo C s pays + if s = changeScript then c else 0) ∧
      (held C k L' : Int) = held C k L - fee - (pays.map Prod.snd).sum - c +
        ((keyScripts C k).map fun s => paidTo C s pays + if s = changeScript then c else 0).sum := by
  obtain ⟨rate, pays, h1, h2, h3, h4, h5⟩ := C97_created C now calls P hP w args (.given []) world r h
  have hnet : w.signer.net = k.net := by rw [hw]; rfl
  have hon := program_online (C := C) (now := now) hP (net := w.signer.net) (fun n t e => hnode n t (e.trans hnet)) hsmall hfuel
  have hh : Honest C k L (((Program.start now).after C calls).ask C world w.signer.net) := by
    refine honest_services hk hrep ?_
    rw [← hnet]
    exact hon
  rw [h5] at h
  obtain ⟨t, pays', fee, c, changeScript, g1, g2, g3, ⟨us, sel, change, hb⟩, g5, g6, g7, g8, g9, g10⟩ :=
    C87_moves C k hk L hL (world.env rate) hshuffle (args.inSatoshi pays) _ hh w hw r h
  have epays : pays' = pays := by
    have : List.Forall₂ (· = ·) pays' pays := by
      refine (g3.flip).imp fun p o hp => Prod.ext hp.1 (Except.ok.inj hp.2).symm
    rwa [List.forall₂_eq_eq_eq] at this
  subst epays
  refine ⟨t, pays', rate, fee, c, changeScript, g1, g2, h2, h3, h1, ?_, ?_, g5, g6, g7, g8, g9, g10⟩
  · intro habs
    rw [← h4]
    exact hb.absolute habs
  · intro hr hne
    obtain ⟨t', v1, v2, -, v4, v5⟩ := C87_valid C k hk L hL (world.env rate) hshuffle (args.inSatoshi pays')
      (by rw [h4]; exact hr) _ hh w hw r h
    obtain rfl : t = t' := encode_inj' g1 v1 (bytesToHex_injective (g2.symm.trans v2))
    refine v5 (v4 ?_)
    show pays' ≠ []
    intro e
    rw [e] at h2
    exact hne (List.length_eq_zero_iff.mp h2.symm)

/-- C97. And `send`: under the same conditions, if it returns, what it returns is the id of the transaction that
`create_transaction` would have returned (see `C97_pays`), and a service of the network took that transaction, after those before it in the
list had been tried. -/
theorem C97_send (C : Crypto) (k : PrivKey) (hk : KeyLaws C k) (L : Spec.Ledger) (hL : L.WF) (now : Int)
    (calls : List ProgramCall) (P : Nat) (hP : ProgramDigits calls P)
    (hnode : ∀ n t, netOf t = k.net → ProgramCall.thread (.connect n t) ∉ calls) (hsmall : ∀ c ∈ L, c.value < 10 ^ P)
    (world : Surround) (hfuel : L.length ≤ world.fuel) (hshuffle : ∀ l, (world.shuffle l).Perm l)
    (hrep : ReportsKey false C world.outside L k) (w : Wallet) (hw : w.signer = .single k) (args : TxArgs (Str × Str)) (id : Str)
    (h : (((Program.start now).after C calls).send C w args (.given []) world).2.2.2 = .ok id) :
    ∃ t : Spec.Tx, (((Program.start now).after C calls).create C w args (.given []) world).2.2 = .ok (bytesToHex t.encode) ∧
      SentBy C (servicePush world.pushing k.net) (initialLists k.net .broadcast) t
        (((Program.start now).after C calls).send C w args (.given []) world).2.2.1 id := by
  have hnet : w.signer.net = k.net := by rw [hw]; rfl
  have hlists := (create_limit C ((Program.start now).after C calls) w args (.given []) world).2
  rcases hc : ((Program.start now).after C calls).create C w args (.given []) world with ⟨p', w', r⟩
  rw [hc] at hlists
  have hl : p'.thread.lists w.signer.net .broadcast = initialLists k.net .broadcast := by
    have := program_lists C now calls k.net hnode
    rw [hnet]
    show p'.thread.lists k.net .broadcast = _
    rw [show p'.thread.lists = _ from hlists, this]
  unfold Program.send at h ⊢
  rw [hc] at h ⊢
  cases r with
  | error e => cases h
  | ok text =>
    dsimp only at h ⊢
    rw [hl, hnet] at h ⊢
    obtain ⟨t, -, -, -, -, -, e1, e2, -⟩ := C97_pays C k hk L hL now calls P hP hnode hsmall world hfuel hshuffle hrep w hw args
      text (by rw [hc])
    rcases pushAll_cases (servicePush world.pushing k.net) text none (initialLists k.net .broadcast) with
      ⟨pre, s, rest, h1, h2, h3, h4⟩ | ⟨pre, s, rest, e, h1, h2, h3, h4, h5⟩ | ⟨h1, r, h2, h3⟩
    · rw [h4] at h ⊢
      dsimp only at h ⊢
      subst e2
      refine ⟨t, rfl, e1, ⟨pre, s, rest, h1, h2, h3, rfl⟩, ?_⟩
      have := calcTxid_of C t e1 (!t.inputs.all fun i => i.witness.isEmpty)
      have e : (if (!t.inputs.all fun i => i.witness.isEmpty) = true then t.encodeExtended else t.encodeLegacy) =
          t.encode := by
        unfold Spec.Tx.encode
        cases t.inputs.all fun i => i.witness.isEmpty <;> rfl
      rw [e] at this
      rw [this] at h
      exact (Except.ok.inj h).symm
    · rw [h5] at h; cases h
    · rw [h3] at h
      rcases h2 with rfl | rfl <;> cases h

/-! ## A program -/

/-- A program asked for the fee at the time 100, and for the worth of a dollar at the time 110. -/
def callsP : List ProgramCall :=
  [.fee true (feeWeb (.ok (feeReply 3 1))) 100,
    .thread (.toSatoshiCached (quotesWeb (.ok bitpayReply) "0.00002314".toList) 110 "1".toList "usd".toList)]

/-- At the time 150 neither the server for fees nor the services for rates can be reached. -/
def worldP : Surround :=
  { outside := outsideFor ledgerB .main scriptOfB downB, fuel := 3, feeWeb := fun _ => .error .requestsConnection, feeTime := 150
    rates := fun _ => (fun _ => .error .requestsConnection, 150), pushing := laterB, flips := fun _ => true, shuffle := fun l => l }

/-- A tenth of a thousandth of a bitcoin, and five dollars. -/
def argsP : TxArgs (Str × Str) :=
  { outputs := [(addrA, "0.1".toList, "mbtc".toList), (addrA, "5".toList, "usd".toList)], fee := none, absoluteFee := false
    leftover := none, combine := true, message := none, messageIsHex := false, replaceByFee := false }

theorem digits_P : ProgramDigits callsP 28 := by
  refine .inr ⟨?_, rfl⟩
  rintro ⟨before, n, t, between, o, address, rest, h⟩
  have := congrArg List.length h
  simp [callsP, threadCalls] at this
  omega

theorem nodes_P (n : Nat) (t : Bool) (_ : netOf t = keyB.net) : ProgramCall.thread (.connect n t) ∉ callsP := by
  simp [callsP]

/-- A tenth of a thousandth of a bitcoin are 10000 satoshi. -/
theorem amount_P : AmountIs 28 ("0.1".toList, "mbtc".toList) 10000 := by
  refine ⟨5, 1 / 10, by decide, .inl ⟨false, "0".toList, "1".toList, ⟨by decide, by decide, by decide⟩, ?_⟩,
    ⟨10000, 0, by norm_num, by norm_num⟩, by norm_num [trunc]⟩
  have : digitsValue ("0".toList ++ "1".toList) = 1 := by decide
  have h2 : "1".toList.length = 1 := by decide
  unfold plainValue
  rw [this, h2]
  norm_num

/-- The program can create the transaction, and send it: the second service takes it. -/
theorem created_P : ((((Program.start 0).after crypto callsP).create crypto (newWallet (.single keyB)) argsP (.given [])
    worldP).2.2.toOption.isSome) = true := by decide +kernel

theorem sent_P : ((((Program.start 0).after crypto callsP).send crypto (newWallet (.single keyB)) argsP (.given [])
    worldP).2.2.2.toOption.isSome) = true := by decide +kernel

/-- The only fee that the program was told is 3. -/
theorem fee_P {f t : Int} (h : FeeQuoted callsP f t) : f = 3 := by
  obtain ⟨call, hc, web, h1, h2⟩ := h
  simp only [callsP, List.mem_cons, List.not_mem_nil, or_false] at hc
  rcases hc with rfl | rfl
  · obtain ⟨-, h3, -⟩ := h2
    rw [← h3] at h1
    have : feeAnswer (feeWeb (.ok (feeReply 3 1))) true = .ok 3 := by decide +kernel
    rw [this] at h1
    exact (Except.ok.inj h1).symm
  · exact h2.elim

/-- The only rate of the dollar that the program was told is 2314. -/
theorem rate_P {r t : Int} (h : RateQuoted callsP "usd".toList r t) : r = 2314 := by
  obtain ⟨before, call, rest, web, P, h1, h2, h3, h4⟩ := h
  have hmem : call ∈ callsP := by rw [h1]; simp
  have hP : P = 28 := by
    rcases h3 with ⟨⟨b, n, t, b', o, a, r, e⟩, -⟩ | ⟨-, e⟩
    · exfalso
      have hm : ThreadCall.connect n t ∈ threadCalls before := by rw [e]; simp
      unfold threadCalls at hm
      obtain ⟨c, hc, hc'⟩ := List.mem_filterMap.mp hm
      have : c ∈ callsP := by rw [h1]; exact List.mem_append_left _ hc
      simp only [callsP, List.mem_cons, List.not_mem_nil, or_false] at this
      rcases this with rfl | rfl <;> simp at hc'
    · exact e
  simp only [callsP, List.mem_cons, List.not_mem_nil, or_false] at hmem
  rcases hmem with rfl | rfl
  · exact h2.elim
  · obtain ⟨-, h5, -⟩ := h2
    rw [← h5, hP] at h4
    have : exchangeRate (rateAnswers 28 (quotesWeb (.ok bitpayReply) "0.00002314".toList) "usd".toList) "usd".toList =
        .ok 2314 := by decide +kernel
    rw [this] at h4
    exact (Except.ok.inj h4).symm

open _root_.Spec.Ledger in
/-- `C97_pays` applies: a node takes the transaction; the payments are of 10000 satoshi, and of five times 2314. -/
example : ∃ (t : Spec.Tx) (pays : List (Str × Int)), Valid crypto.hashing ledgerB t ∧ pays[0]? = some (addrA, 10000) ∧
    pays[1]? = some (addrA, 11570) := by
  obtain ⟨r, hr⟩ := isSome_ok created_P
  obtain ⟨t, pays, rate, fee, c, cs, -, -, h3, h4, h5, -, h7, -⟩ := C97_pays crypto keyB (toy_laws keyB (by decide)) ledgerB
    ledgerB_wf 0 callsP 28 digits_P nodes_P ledgerB_values worldP (by decide) (fun _ => List.Perm.refl _) reports_B
    (newWallet (.single keyB)) rfl argsP r hr
  have hrate : 0 ≤ rate := by
    rcases h5 with ⟨h, -⟩ | ⟨-, h | ⟨-, _, h, -⟩ | ⟨_, -, -, ⟨_, h⟩ | h⟩⟩
    · cases h
    · cases h
    · rw [fee_P h]; decide
    · rw [fee_P h]; decide
    · rw [h]; decide
  have hlen : pays.length = 2 := h3
  refine ⟨t, pays, h7 hrate (by decide), ?_, ?_⟩
  · have e0 : pays[0]? = some pays[0] := List.getElem?_eq_getElem (by omega)
    obtain ⟨a1, -, a3⟩ := h4 0 _ pays[0] rfl e0
    rw [e0]
    exact congrArg some (Prod.ext a1 (a3 10000 amount_P))
  · have e1 : pays[1]? = some pays[1] := List.getElem?_eq_getElem (by omega)
    obtain ⟨a1, ⟨rate, b1, b2⟩, -⟩ := h4 1 _ pays[1] rfl e1
    have hr : rate = 2314 := by
      rcases b2 with ⟨-, _, h, -⟩ | ⟨i, o, -, -, -, h, -⟩
      · exact rate_P h
      · have : exchangeRate (rateAnswers 28 (fun _ => .error .requestsConnection) "usd".toList) "usd".toList =
          .error .connectionError := by decide +kernel
        exact absurd (this.symm.trans h) (by simp)
    rw [hr] at b1
    have := b1 5 (.inl ⟨false, "5".toList, [], ⟨by decide, by decide, by decide⟩, by
      have : digitsValue ("5".toList ++ []) = 5 := by decide
      unfold plainValue
      rw [this]
      norm_num⟩) ⟨11570, 0, by norm_num, by norm_num⟩
    rw [e1]
    refine congrArg some (Prod.ext a1 (this.trans ?_))
    norm_num [trunc]

/-- `C97_send` applies: some service took a transaction. -/
example : ∃ t id calls, SentBy crypto (servicePush laterB .main) (initialLists .main .broadcast) t calls id := by
  obtain ⟨id, hid⟩ := isSome_ok sent_P
  obtain ⟨t, -, h⟩ := C97_send crypto keyB (toy_laws keyB (by decide)) ledgerB
    ledgerB_wf 0 callsP 28 digits_P nodes_P ledgerB_values worldP (by decide) (fun _ => List.Perm.refl _) reports_B
    (newWallet (.single keyB)) rfl argsP id hid
  exact ⟨t, id, _, h⟩

/-- Payments in bitcoin units only, with a fee: `C97_offline` applies to two programs, before and after the calls. -/
example (us : List Unspent) (hne : us ≠ []) (world : Surround) :
    let args : TxArgs (Str × Str) := { argsP with outputs := [(addrA, "0.1".toList, "mbtc".toList)], fee := some 2 }
    let away : Surround := { world with outside := worldP.outside, feeWeb := worldP.feeWeb, rates := worldP.rates }
    (((Program.start 0).after crypto callsP).create crypto (newWallet (.single keyB)) args (.given us) world).2 =
      (((Program.start 7).after crypto []).create crypto (newWallet (.single keyB)) args (.given us) away).2 := by
  intro args away
  refine (C97_offline crypto 0 7 callsP [] 28 28 digits_P (.inr ⟨?_, rfl⟩) _ args 2 rfl (by decide) [(addrA, 10000)]
    (.cons ⟨rfl, amount_P, amount_P⟩ .nil) us hne world away rfl rfl).1
  rintro ⟨before, n, t, between, o, address, rest, h⟩
  cases before <;> simp [threadCalls] at h

end Bit
