import Verif.Model.Keygen
/-
Invariants of the search for an address.
-/
namespace Bit

/-- The steps of the search, case by case. -/
inductive Move (C : Crypto) (pre : Str) : VanityState → VanityStep → VanityState → Prop
  | stop {st : VanityState} {i : Nat} : st.workers[i]? = some .check → st.matched = true →
      Move C pre st (.work i) (st.moved i .done)
  | go {st : VanityState} {i : Nat} : st.workers[i]? = some .check → st.matched = false →
      Move C pre st (.work i) (st.moved i .lock)
  | lock {st : VanityState} {i : Nat} : st.workers[i]? = some .lock → st.locked = false →
      Move C pre st (.work i) ({ st with locked := true }.moved i .read)
  | read {st : VanityState} {i : Nat} : st.workers[i]? = some .read →
      Move C pre st (.work i) (st.moved i (.write st.counter))
  | write {st : VanityState} {i : Nat} {v : Int} : st.workers[i]? = some (.write v) →
      Move C pre st (.work i) ({ st with counter := cInt (v + 1), locked := false }.moved i .generate)
  | found {st : VanityState} {i : Nat} {s : Bytes} {a : Str} : st.workers[i]? = some (.found s a) →
      Move C pre st (.work i) ({ st with matched := true }.moved i (.put s a))
  | put {st : VanityState} {i : Nat} {s : Bytes} {a : Str} : st.workers[i]? = some (.put s a) →
      Move C pre st (.work i) ({ st with queue := st.queue ++ [(s, a)] }.moved i .done)
  | hit {st : VanityState} {i : Nat} {s : Bytes} : st.workers[i]? = some .generate → ecPrivateKey s = .ok s →
      pre <+: b58encodeCheck C (0x00 :: C.hash160 (C.pubkey s true)) →
      Move C pre st (.draw i s) (st.moved i (.found s (b58encodeCheck C (0x00 :: C.hash160 (C.pubkey s true)))))
  | miss {st : VanityState} {i : Nat} {s : Bytes} : st.workers[i]? = some .generate → ecPrivateKey s = .ok s →
      ¬ pre <+: b58encodeCheck C (0x00 :: C.hash160 (C.pubkey s true)) →
      Move C pre st (.draw i s) (st.moved i .check)
  | idle {st : VanityState} : st.locked = false → st.main = .waiting 0 → st.counter = 0 → Move C pre st .look st
  | leave {st : VanityState} : st.locked = false → st.main = .waiting st.counter → st.counter ≠ 0 →
      Move C pre st .look { st with main := .getting }
  | note {st : VanityState} {k : Int} : st.locked = false → st.main = .waiting k → st.counter ≠ k →
      Move C pre st .look { st with main := .waiting st.counter }
  | take {st : VanityState} {j : Nat} {s : Bytes} {a : Str} : st.main = .getting → st.queue[j]? = some (s, a) →
      Move C pre st (.get j) { st with queue := st.queue.eraseIdx j, main := .reported s a }

theorem vanityStep_move {C : Crypto} {pre : Str} {st st' : VanityState} {e : VanityStep}
    (h : vanityStep C pre st e = some st') : Move C pre st e st' := by
  unfold vanityStep at h
  cases e with
  | work i =>
    dsimp only at h
    cases hw : st.workers[i]? with
    | none => rw [hw] at h; cases h
    | some w =>
      rw [hw] at h
      dsimp only at h
      cases w with
      | check =>
        unfold workStep at h
        injection h with h
        subst h
        cases hm : st.matched
        · exact .go hw hm
        · exact .stop hw hm
      | lock =>
        unfold workStep at h
        cases hl : st.locked
        · rw [hl] at h
          injection h with h
          subst h
          exact .lock hw hl
        · rw [hl] at h; cases h
      | read => injection h with h; subst h; exact .read hw
      | write v => injection h with h; subst h; exact .write hw
      | generate => cases h
      | found s a => injection h with h; subst h; exact .found hw
      | put s a => injection h with h; subst h; exact .put hw
      | done => cases h
  | draw i s =>
    dsimp only at h
    cases hw : st.workers[i]? with
    | none => rw [hw] at h; cases h
    | some w =>
      rw [hw] at h
      cases w with
      | generate =>
        unfold drawStep at h
        dsimp only at h
        by_cases hs : ecPrivateKey s = .ok s
        · rw [if_pos hs] at h
          injection h with h
          subst h
          by_cases hp : pre <+: b58encodeCheck C (0x00 :: C.hash160 (C.pubkey s true))
          · rw [if_pos (List.isPrefixOf_iff_prefix.mpr hp)]
            exact .hit hw hs hp
          · rw [if_neg (fun h => hp (List.isPrefixOf_iff_prefix.mp h))]
            exact .miss hw hs hp
        · rw [if_neg hs] at h; cases h
      | _ => cases h
  | look =>
    dsimp only at h
    unfold lookStep at h
    cases hm : st.main with
    | waiting k =>
      rw [hm] at h
      dsimp only at h
      by_cases hl' : st.locked = true
      · rw [if_pos hl'] at h; cases h
      · have hl : st.locked = false := by simpa using hl'
        rw [if_neg hl'] at h
        by_cases hk : st.counter = k
        · rw [if_pos hk] at h
          by_cases h0 : st.counter = 0
          · rw [if_pos h0] at h
            injection h with h
            subst h
            refine .idle hl ?_ h0
            rw [hm, ← hk, h0]
          · rw [if_neg h0] at h
            injection h with h
            subst h
            refine .leave hl ?_ h0
            rw [hm, hk]
        · rw [if_neg hk] at h
          injection h with h
          subst h
          exact .note hl hm hk
    | getting => rw [hm] at h; cases h
    | reported s a => rw [hm] at h; cases h
  | get j =>
    dsimp only at h
    unfold getStep at h
    cases hm : st.main with
    | waiting k => rw [hm] at h; cases h
    | reported s a => rw [hm] at h; cases h
    | getting =>
      rw [hm] at h
      dsimp only at h
      cases hq : st.queue[j]? with
      | none => rw [hq] at h; cases h
      | some p =>
        rw [hq] at h
        injection h with h
        subst h
        exact .take hm hq

/-- An invariant over the steps done so far holds at the end of every run. -/
theorem run_invariant {C : Crypto} {pre : Str} (P : List VanityStep → VanityState → Prop)
    (hstep : ∀ es st e st', P es st → Move C pre st e st' → P (es ++ [e]) st')
    {st st' : VanityState} {es : List VanityStep} (done : List VanityStep) (h0 : P done st)
    (h : vanityRun C pre st es = some st') : P (done ++ es) st' := by
  induction es generalizing st done with
  | nil =>
    unfold vanityRun at h
    injection h with h
    subst h
    rw [List.append_nil]
    exact h0
  | cons e es ih =>
    unfold vanityRun at h
    cases hs : vanityStep C pre st e with
    | none => rw [hs] at h; cases h
    | some s1 =>
      rw [hs] at h
      have := ih (done ++ [e]) (hstep done st e s1 h0 (vanityStep_move hs)) h
      rw [List.append_assoc] at this
      exact this

theorem getElem?_moved {st : VanityState} {i : Nat} {w0 w : WorkerAt} (h : st.workers[i]? = some w0) (j : Nat) :
    (st.moved i w).workers[j]? = if i = j then some w else st.workers[j]? := by
  unfold VanityState.moved
  have hi : i < st.workers.length := by
    rw [List.getElem?_eq_some_iff] at h
    exact h.1
  dsimp only
  rw [List.getElem?_set]
  by_cases hij : i = j
  · rw [if_pos hij, if_pos hij, if_pos hi]
  · rw [if_neg hij, if_neg hij]

/-! ## What is reported -/

/-- What an entry of the queue must satisfy. -/
structure GoodEntry (C : Crypto) (pre : Str) (es : List VanityStep) (s : Bytes) (a : Str) : Prop where
  drawn : ∃ i, VanityStep.draw i s ∈ es
  secret : ecPrivateKey s = .ok s
  address : a = b58encodeCheck C (0x00 :: C.hash160 (C.pubkey s true))
  starts : pre <+: a

theorem GoodEntry.mono {C : Crypto} {pre : Str} {es : List VanityStep} {s : Bytes} {a : Str} {e : VanityStep}
    (h : GoodEntry C pre es s a) : GoodEntry C pre (es ++ [e]) s a :=
  ⟨h.drawn.imp fun _ hi => List.mem_append_left _ hi, h.secret, h.address, h.starts⟩

structure SoundInv (C : Crypto) (pre : Str) (es : List VanityStep) (st : VanityState) : Prop where
  found : ∀ (j : Nat) s a, st.workers[j]? = some (.found s a) → GoodEntry C pre es s a
  put : ∀ (j : Nat) s a, st.workers[j]? = some (.put s a) → GoodEntry C pre es s a
  queue : ∀ s a, (s, a) ∈ st.queue → GoodEntry C pre es s a
  main : ∀ s a, st.main = .reported s a → GoodEntry C pre es s a

theorem soundInv_init (C : Crypto) (pre : Str) (n : Nat) : SoundInv C pre [] (vanityInit n) := by
  refine ⟨?_, ?_, ?_, ?_⟩
  · intro j s a h
    have := List.mem_of_getElem? h
    rw [vanityInit, List.mem_replicate] at this
    cases this.2
  · intro j s a h
    have := List.mem_of_getElem? h
    rw [vanityInit, List.mem_replicate] at this
    cases this.2
  · intro s a h; cases h
  · intro s a h; cases h

/-- A worker moves to a place without an entry. -/
theorem SoundInv.plain {C : Crypto} {pre : Str} {es : List VanityStep} {st : VanityState} {e : VanityStep}
    (h : SoundInv C pre es st) (st' : VanityState) {i : Nat} {w0 w : WorkerAt} (hw : st.workers[i]? = some w0)
    (hworkers : st'.workers = st.workers) (hqueue : st'.queue = st.queue) (hmain : st'.main = st.main)
    (h1 : ∀ s a, w ≠ .found s a) (h2 : ∀ s a, w ≠ .put s a) : SoundInv C pre (es ++ [e]) (st'.moved i w) := by
  have hw' : st'.workers[i]? = some w0 := by rw [hworkers]; exact hw
  refine ⟨?_, ?_, ?_, ?_⟩
  · intro j s a hj
    rw [getElem?_moved hw'] at hj
    split at hj
    · exact absurd (Option.some.inj hj) (h1 s a)
    · rw [hworkers] at hj; exact (h.found j s a hj).mono
  · intro j s a hj
    rw [getElem?_moved hw'] at hj
    split at hj
    · exact absurd (Option.some.inj hj) (h2 s a)
    · rw [hworkers] at hj; exact (h.put j s a hj).mono
  · intro s a hq
    rw [VanityState.moved, hqueue] at hq
    exact (h.queue s a hq).mono
  · intro s a hm
    rw [VanityState.moved, hmain] at hm
    exact (h.main s a hm).mono

theorem SoundInv.mono {C : Crypto} {pre : Str} {es : List VanityStep} {st : VanityState} {e : VanityStep}
    (h : SoundInv C pre es st) : SoundInv C pre (es ++ [e]) st :=
  ⟨fun j s a hj => (h.found j s a hj).mono, fun j s a hj => (h.put j s a hj).mono,
    fun s a hq => (h.queue s a hq).mono, fun s a hm => (h.main s a hm).mono⟩

theorem soundInv_step {C : Crypto} {pre : Str} (es : List VanityStep) (st : VanityState) (e : VanityStep)
    (st' : VanityState) (h : SoundInv C pre es st) (hm : Move C pre st e st') :
    SoundInv C pre (es ++ [e]) st' := by
  cases hm with
  | stop hw _ => exact h.plain st hw rfl rfl rfl (by intro s a h; cases h) (by intro s a h; cases h)
  | go hw _ => exact h.plain st hw rfl rfl rfl (by intro s a h; cases h) (by intro s a h; cases h)
  | lock hw _ => exact h.plain _ hw rfl rfl rfl (by intro s a h; cases h) (by intro s a h; cases h)
  | read hw => exact h.plain st hw rfl rfl rfl (by intro s a h; cases h) (by intro s a h; cases h)
  | write hw => exact h.plain _ hw rfl rfl rfl (by intro s a h; cases h) (by intro s a h; cases h)
  | miss hw _ _ => exact h.plain st hw rfl rfl rfl (by intro s a h; cases h) (by intro s a h; cases h)
  | @found i s a hw =>
    have hw' : ({ st with matched := true } : VanityState).workers[i]? = some (.found s a) := hw
    refine ⟨?_, ?_, fun s a hq => (h.queue s a hq).mono, fun s a hm => (h.main s a hm).mono⟩
    · intro j s' a' hj
      rw [getElem?_moved hw'] at hj
      split at hj
      · cases hj
      · exact (h.found j s' a' hj).mono
    · intro j s' a' hj
      rw [getElem?_moved hw'] at hj
      split at hj
      · injection hj with hj
        injection hj with h1 h2
        subst h1 h2
        exact (h.found i _ _ hw).mono
      · exact (h.put j s' a' hj).mono
  | @put i s a hw =>
    have hp := h.plain (e := .work i) st hw rfl rfl rfl (w := .done) (by intro s a h; cases h)
      (by intro s a h; cases h)
    refine ⟨hp.found, hp.put, ?_, hp.main⟩
    intro s' a' hq
    rcases List.mem_append.mp hq with hq | hq
    · exact (h.queue s' a' hq).mono
    · rw [List.mem_singleton] at hq
      injection hq with h1 h2
      subst h1 h2
      exact (h.put i _ _ hw).mono
  | @hit i s hw hs hp =>
    refine ⟨?_, ?_, fun s a hq => (h.queue s a hq).mono, fun s a hm => (h.main s a hm).mono⟩
    · intro j s' a' hj
      rw [getElem?_moved hw] at hj
      split at hj
      · injection hj with hj
        injection hj with h1 h2
        subst h1 h2
        exact ⟨⟨i, List.mem_append_right _ List.mem_cons_self⟩, hs, rfl, hp⟩
      · exact (h.found j s' a' hj).mono
    · intro j s' a' hj
      rw [getElem?_moved hw] at hj
      split at hj
      · cases hj
      · exact (h.put j s' a' hj).mono
  | idle _ _ _ => exact h.mono
  | leave _ _ _ =>
    exact ⟨h.mono.found, h.mono.put, h.mono.queue, by intro s a h; cases h⟩
  | note _ _ _ =>
    exact ⟨h.mono.found, h.mono.put, h.mono.queue, by intro s a h; cases h⟩
  | @take j s a _ hq =>
    refine ⟨h.mono.found, h.mono.put, fun s a hq => h.mono.queue s a (List.mem_of_mem_eraseIdx hq), ?_⟩
    intro s' a' hm
    injection hm with h1 h2
    subst h1 h2
    exact h.mono.queue _ _ (List.mem_of_getElem? hq)

/-! ## Nobody waits in vain -/

structure AliveInv (st : VanityState) : Prop where
  matched : st.matched = true → st.queue ≠ [] ∨ (∃ (i : Nat) (s : Bytes) (a : Str), st.workers[i]? = some (.put s a)) ∨
    ∃ s a, st.main = .reported s a
  stopped : ∀ i : Nat, st.workers[i]? = some .done → st.matched = true
  put : ∀ (i : Nat) s a, st.workers[i]? = some (.put s a) → st.matched = true

theorem aliveInv_init (n : Nat) : AliveInv (vanityInit n) := by
  refine ⟨(by intro h; cases h), ?_, ?_⟩
  · intro i h
    have := List.mem_of_getElem? h
    rw [vanityInit, List.mem_replicate] at this
    cases this.2
  · intro i s a h
    have := List.mem_of_getElem? h
    rw [vanityInit, List.mem_replicate] at this
    cases this.2

theorem AliveInv.plain {st : VanityState} (h : AliveInv st) (st' : VanityState) {i : Nat} {w0 w : WorkerAt}
    (hw : st.workers[i]? = some w0) (hworkers : st'.workers = st.workers) (hqueue : st'.queue = st.queue)
    (hmain : st'.main = st.main) (hmatched : st'.matched = st.matched) (h0 : ∀ s a, w0 ≠ .put s a)
    (h1 : w = .done → st.matched = true) (h2 : ∀ s a, w ≠ .put s a) : AliveInv (st'.moved i w) := by
  have hw' : st'.workers[i]? = some w0 := by rw [hworkers]; exact hw
  refine ⟨?_, ?_, ?_⟩
  · intro hm
    rw [VanityState.moved, hmatched] at hm
    rcases h.matched hm with hq | ⟨j, s, a, hj⟩ | hr
    · exact .inl (by rw [VanityState.moved, hqueue]; exact hq)
    · refine .inr (.inl ⟨j, s, a, ?_⟩)
      rw [getElem?_moved hw', if_neg, hworkers]
      · exact hj
      · rintro rfl
        rw [hw] at hj
        exact absurd (Option.some.inj hj) (h0 s a)
    · exact .inr (.inr (by rw [VanityState.moved, hmain]; exact hr))
  · intro j hj
    rw [getElem?_moved hw'] at hj
    rw [VanityState.moved, hmatched]
    split at hj
    · exact h1 (Option.some.inj hj)
    · rw [hworkers] at hj; exact h.stopped j hj
  · intro j s a hj
    rw [getElem?_moved hw'] at hj
    rw [VanityState.moved, hmatched]
    split at hj
    · exact absurd (Option.some.inj hj) (h2 s a)
    · rw [hworkers] at hj; exact h.put j s a hj

theorem aliveInv_step {C : Crypto} {pre : Str} (st : VanityState) (e : VanityStep)
    (st' : VanityState) (h : AliveInv st) (hm : Move C pre st e st') : AliveInv st' := by
  cases hm with
  | stop hw hm =>
    exact h.plain st hw rfl rfl rfl rfl (by intro s a h; cases h) (fun _ => hm) (by intro s a h; cases h)
  | go hw _ =>
    exact h.plain st hw rfl rfl rfl rfl (by intro s a h; cases h) (by intro h; cases h) (by intro s a h; cases h)
  | lock hw _ =>
    exact h.plain _ hw rfl rfl rfl rfl (by intro s a h; cases h) (by intro h; cases h) (by intro s a h; cases h)
  | read hw =>
    exact h.plain st hw rfl rfl rfl rfl (by intro s a h; cases h) (by intro h; cases h) (by intro s a h; cases h)
  | write hw =>
    exact h.plain _ hw rfl rfl rfl rfl (by intro s a h; cases h) (by intro h; cases h) (by intro s a h; cases h)
  | miss hw _ _ =>
    exact h.plain st hw rfl rfl rfl rfl (by intro s a h; cases h) (by intro h; cases h) (by intro s a h; cases h)
  | hit hw _ _ =>
    exact h.plain st hw rfl rfl rfl rfl (by intro s a h; cases h) (by intro h; cases h) (by intro s a h; cases h)
  | @found i s a hw =>
    have hw' : ({ st with matched := true } : VanityState).workers[i]? = some (.found s a) := hw
    refine ⟨fun _ => .inr (.inl ⟨i, s, a, ?_⟩), fun _ _ => rfl, fun _ _ _ _ => rfl⟩
    rw [getElem?_moved hw', if_pos rfl]
  | @put i s a hw =>
    have hw' : ({ st with queue := st.queue ++ [(s, a)] } : VanityState).workers[i]? = some (.put s a) := hw
    have hm := h.put i s a hw
    refine ⟨fun _ => .inl (by simp [VanityState.moved]), fun _ _ => hm, fun _ _ _ _ => hm⟩
  | idle _ _ _ => exact h
  | leave _ hw _ =>
    refine ⟨fun hm => ?_, h.stopped, h.put⟩
    rcases h.matched hm with hq | hp | ⟨s, a, hr⟩
    · exact .inl hq
    · exact .inr (.inl hp)
    · rw [hw] at hr; cases hr
  | note _ hw _ =>
    refine ⟨fun hm => ?_, h.stopped, h.put⟩
    rcases h.matched hm with hq | hp | ⟨s, a, hr⟩
    · exact .inl hq
    · exact .inr (.inl hp)
    · rw [hw] at hr; cases hr
  | take _ _ => exact ⟨fun _ => .inr (.inr ⟨_, _, rfl⟩), h.stopped, h.put⟩

/-! ## The counter -/

/-- The worker holds the lock. -/
def WorkerAt.inside : WorkerAt → Bool
  | .read => true
  | .write _ => true
  | _ => false

/-- The worker has counted a key and not yet generated it. -/
def WorkerAt.generating : WorkerAt → Bool
  | .generate => true
  | _ => false

/-- Number of keys drawn. -/
def draws (es : List VanityStep) : Nat := es.countP fun e => match e with | .draw _ _ => true | _ => false

structure CountInv (es : List VanityStep) (st : VanityState) : Prop where
  locked : ∀ (i : Nat) w, st.workers[i]? = some w → w.inside = true → st.locked = true
  alone : ∀ (i j : Nat) w w', st.workers[i]? = some w → st.workers[j]? = some w' → w.inside = true → w'.inside = true → i = j
  value : ∀ (i : Nat) v, st.workers[i]? = some (.write v) → v = st.counter
  counter : st.counter = cInt ((draws es + st.workers.countP WorkerAt.generating : Nat) : Int)

theorem cInt_succ (n : Int) : cInt (cInt n + 1) = cInt (n + 1) := by
  unfold cInt
  omega

theorem countInv_init (n : Nat) : CountInv [] (vanityInit n) := by
  have hc : ∀ (i : Nat) w, (vanityInit n).workers[i]? = some w → w = .check := by
    intro i w h
    have := List.mem_of_getElem? h
    rw [vanityInit, List.mem_replicate] at this
    exact this.2
  refine ⟨?_, ?_, ?_, ?_⟩
  · intro i w h hi; rw [hc i w h] at hi; cases hi
  · intro i j w w' h _ hi; rw [hc i w h] at hi; cases hi
  · intro i v h; cases hc i _ h
  · have : (vanityInit n).workers.countP WorkerAt.generating = 0 := by
      rw [List.countP_eq_zero]
      intro w hw
      rw [vanityInit, List.mem_replicate] at hw
      rw [hw.2]
      simp [WorkerAt.generating]
    rw [this]
    rfl

theorem countP_moved {st : VanityState} {i : Nat} {w0 w : WorkerAt} (h : st.workers[i]? = some w0) :
    (st.moved i w).workers.countP WorkerAt.generating + (if w0.generating then 1 else 0) =
      st.workers.countP WorkerAt.generating + (if w.generating then 1 else 0) := by
  obtain ⟨hi, e⟩ := List.getElem?_eq_some_iff.mp h
  unfold VanityState.moved
  dsimp only
  rw [List.countP_set hi, e]
  have : (if w0.generating = true then 1 else 0) ≤ st.workers.countP WorkerAt.generating := by
    split
    · rename_i hg
      exact List.countP_pos_iff.mpr ⟨w0, List.mem_of_getElem? h, hg⟩
    · omega
  omega

theorem draws_append (es : List VanityStep) (e : VanityStep) :
    draws (es ++ [e]) = draws es + match e with | .draw _ _ => 1 | _ => 0 := by
  unfold draws
  rw [List.countP_append]
  cases e <;> rfl

/-- A worker moves outside the lock, and the state of the lock and the counter are unchanged. -/
theorem CountInv.plain {es : List VanityStep} {st : VanityState} {e : VanityStep} (h : CountInv es st)
    (st' : VanityState) {i : Nat} {w0 w : WorkerAt} (hw : st.workers[i]? = some w0)
    (hworkers : st'.workers = st.workers) (hlocked : st'.locked = st.locked) (hcounter : st'.counter = st.counter)
    (h1 : w.inside = false)
    (h2 : draws (es ++ [e]) + (if w.generating then 1 else 0) = draws es + (if w0.generating then 1 else 0)) :
    CountInv (es ++ [e]) (st'.moved i w) := by
  have hw' : st'.workers[i]? = some w0 := by rw [hworkers]; exact hw
  have hn : ∀ (j : Nat) (w' : WorkerAt), (st'.moved i w).workers[j]? = some w' → w'.inside = true → i ≠ j ∧ st.workers[j]? = some w' := by
    intro j w' hj hin
    rw [getElem?_moved hw'] at hj
    split at hj
    · rw [← Option.some.inj hj, h1] at hin; cases hin
    · rw [hworkers] at hj; exact ⟨by assumption, hj⟩
  refine ⟨?_, ?_, ?_, ?_⟩
  · intro j w' hj hin
    rw [VanityState.moved, hlocked]
    exact h.locked j w' (hn j w' hj hin).2 hin
  · intro j k w1 w2 hj hk h1 h2
    exact h.alone j k w1 w2 (hn j w1 hj h1).2 (hn k w2 hk h2).2 h1 h2
  · intro j v hj
    rw [VanityState.moved, hcounter]
    exact h.value j v (hn j _ hj rfl).2
  · have hc := countP_moved (w := w) hw'
    rw [hworkers] at hc
    have : (st'.moved i w).counter = st.counter := by rw [VanityState.moved, hcounter]
    rw [this, h.counter]
    congr 2
    omega

theorem CountInv.same {es : List VanityStep} {st : VanityState} {e : VanityStep} (h : CountInv es st)
    (st' : VanityState) (hworkers : st'.workers = st.workers) (hlocked : st'.locked = st.locked)
    (hcounter : st'.counter = st.counter) (he : draws (es ++ [e]) = draws es) : CountInv (es ++ [e]) st' := by
  refine ⟨?_, ?_, ?_, ?_⟩
  · intro i w hi hin; rw [hworkers] at hi; rw [hlocked]; exact h.locked i w hi hin
  · intro i j w w' hi hj; rw [hworkers] at hi hj; exact h.alone i j w w' hi hj
  · intro i v hi; rw [hworkers] at hi; rw [hcounter]; exact h.value i v hi
  · rw [hcounter, he, hworkers]; exact h.counter

theorem countInv_step {C : Crypto} {pre : Str} (es : List VanityStep) (st : VanityState) (e : VanityStep)
    (st' : VanityState) (h : CountInv es st) (hm : Move C pre st e st') : CountInv (es ++ [e]) st' := by
  have hd := draws_append es e
  cases hm with
  | stop hw _ => exact h.plain st hw rfl rfl rfl rfl (by rw [hd]; rfl)
  | go hw _ => exact h.plain st hw rfl rfl rfl rfl (by rw [hd]; rfl)
  | miss hw _ _ => exact h.plain st hw rfl rfl rfl rfl (by rw [hd]; rfl)
  | hit hw _ _ => exact h.plain st hw rfl rfl rfl rfl (by rw [hd]; rfl)
  | found hw => exact h.plain _ hw rfl rfl rfl rfl (by rw [hd]; rfl)
  | put hw => exact h.plain _ hw rfl rfl rfl rfl (by rw [hd]; rfl)
  | idle _ _ _ => exact h.same st rfl rfl rfl (by rw [hd]; rfl)
  | leave _ _ _ => exact h.same _ rfl rfl rfl (by rw [hd]; rfl)
  | note _ _ _ => exact h.same _ rfl rfl rfl (by rw [hd]; rfl)
  | take _ _ => exact h.same _ rfl rfl rfl (by rw [hd]; rfl)
  | @lock i hw hl =>
    have hw' : ({ st with locked := true } : VanityState).workers[i]? = some .lock := hw
    have hnone : ∀ (j : Nat) (w : WorkerAt), st.workers[j]? = some w → w.inside = true → False := by
      intro j w hj hin
      have := h.locked j w hj hin
      rw [hl] at this; cases this
    refine ⟨fun _ _ _ _ => rfl, ?_, ?_, ?_⟩
    · intro j k w1 w2 hj hk h1 h2
      rw [getElem?_moved hw'] at hj hk
      split at hj <;> split at hk
      · omega
      · exact (hnone k w2 hk h2).elim
      · exact (hnone j w1 hj h1).elim
      · exact (hnone j w1 hj h1).elim
    · intro j v hj
      rw [getElem?_moved hw'] at hj
      split at hj
      · cases hj
      · exact (hnone j _ hj rfl).elim
    · have hc := countP_moved (w := .read) hw'
      rw [hd]
      refine h.counter.trans ?_
      congr 2
      simp only [WorkerAt.generating, Bool.false_eq_true, if_false] at hc ⊢
      omega
  | @read i hw =>
    have hin : WorkerAt.inside .read = true := rfl
    have hback : ∀ (j : Nat) (w' : WorkerAt), (st.moved i (.write st.counter)).workers[j]? = some w' → w'.inside = true → j = i := by
      intro j w' hj hin'
      rw [getElem?_moved hw] at hj
      split at hj
      · omega
      · exact h.alone j i w' .read hj hw hin' rfl
    refine ⟨fun _ _ _ _ => h.locked i .read hw rfl, ?_, ?_, ?_⟩
    · intro j k w1 w2 hj hk h1 h2
      rw [hback j w1 hj h1, hback k w2 hk h2]
    · intro j v hj
      have := hback j _ hj rfl
      subst this
      rw [getElem?_moved hw, if_pos rfl] at hj
      injection hj with hj
      injection hj with hj
      exact hj.symm
    · have hc := countP_moved (w := .write st.counter) hw
      have : (st.moved i (.write st.counter)).counter = st.counter := rfl
      rw [this, hd]
      refine h.counter.trans ?_
      congr 2
      simp only [WorkerAt.generating, Bool.false_eq_true, if_false] at hc ⊢
      omega
  | @write i v hw =>
    have hw' : ({ st with counter := cInt (v + 1), locked := false } : VanityState).workers[i]? = some (.write v) := hw
    have hnone : ∀ (j : Nat) (w' : WorkerAt), ({ st with counter := cInt (v + 1), locked := false }.moved i .generate).workers[j]? = some w' →
        w'.inside = true → False := by
      intro j w' hj hin'
      rw [getElem?_moved hw'] at hj
      split at hj
      · rw [← Option.some.inj hj] at hin'; cases hin'
      · have := h.alone j i w' (.write v) hj hw hin' rfl
        omega
    refine ⟨fun j w' hj hin => (hnone j w' hj hin).elim, fun j k w1 w2 hj _ h1 _ => (hnone j w1 hj h1).elim,
      fun j v' hj => (hnone j _ hj rfl).elim, ?_⟩
    have hc := countP_moved (w := .generate) hw'
    rw [hd]
    refine (congrArg (fun x => cInt (x + 1)) ((h.value i v hw).trans h.counter)).trans ?_
    dsimp only
    rw [cInt_succ]
    congr 1
    simp only [WorkerAt.generating, Bool.false_eq_true, if_false, if_true] at hc ⊢
    omega

end Bit
