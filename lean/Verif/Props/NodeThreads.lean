import Verif.Model.NodeThreads
import Mathlib.Data.List.Basic
/-
C104: threads that use the services while other threads connect to nodes.
-/
namespace Bit

variable {α : Type}

/-- The services the thread `i` has called, in order. -/
def calledBy (i : Nat) (log : List (NodeEvent α)) : List Service :=
  log.reverse.filterMap fun e => match e with
    | .asked j s _ => if j = i then some s else none
    | .given j s _ => if j = i then some s else none
    | _ => none

/-- What they gave to a question. -/
def repliesTo (i : Nat) (log : List (NodeEvent α)) : List (Py α) :=
  log.reverse.filterMap fun e => match e with
    | .asked j _ r => if j = i then some r else none
    | _ => none

/-- What they gave to a broadcast. -/
def receiptsOf (i : Nat) (log : List (NodeEvent α)) : List (Py Bool) :=
  log.reverse.filterMap fun e => match e with
    | .given j _ r => if j = i then some r else none
    | _ => none

/-- Another connection on `net` was begun after the one of thread `j` had returned, and has itself returned. -/
def Replaced (net : Net) (j : Nat) (log : List (NodeEvent α)) : Prop :=
  ∃ after before j' n', log = after ++ .connecting j' n' net :: before ∧ .connected j' n' net ∈ after ∧
    ∃ n, .connected j n net ∈ before

/-- What a question that begins after `log` may be working with: the services there were at first, if no connection on its
network has returned; or one node alone, whose connection has begun and has not been replaced. -/
def SourceAfter (lists0 : Lists) (net : Net) (q : Query) (log : List (NodeEvent α)) (source : List Service) : Prop :=
  (source = lists0 net q ∧ ∀ j n, .connected j n net ∉ log) ∨
  ∃ j n, source = [.node n] ∧ .connecting j n net ∈ log ∧ ¬ Replaced net j log

/-- The exceptions after which the next service is tried. -/
def TriesOn (e : PyErr) : Prop :=
  e = .connectionError ∨ e = .requestsConnection ∨ e = .requestsTimeout ∨ e = .excessiveAddress

/-- How a question ends that could call `available` services and had these `replies`. -/
def Answers (available : Nat) (replies : List (Py α)) (r : Py α) : Prop :=
  (∃ failed, replies = failed ++ [r] ∧ (∀ x ∈ failed, ∃ e, x = .error e ∧ TriesOn e) ∧ ∀ e, r = .error e → ¬ TriesOn e) ∨
  (replies.length = available ∧ (∀ x ∈ replies, ∃ e, x = .error e ∧ TriesOn e) ∧ r = .error .connectionError)

/-- How a broadcast ends that could call `available` services and had these `replies`. -/
def Broadcasts (available : Nat) (replies : List (Py Bool)) (r : BroadcastEnd) : Prop :=
  (∃ last failed, replies = failed ++ [last] ∧ (∀ x ∈ failed, x = .ok false ∨ ∃ e, x = .error e ∧ TriesOn e) ∧
    ((last = .ok true ∧ r = .accepted) ∨ ∃ e, last = .error e ∧ ¬ TriesOn e ∧ r = .raised e)) ∨
  (replies.length = available ∧ (∀ x ∈ replies, x = .ok false ∨ ∃ e, x = .error e ∧ TriesOn e) ∧
    ((.ok false ∈ replies ∧ r = .failed) ∨ (.ok false ∉ replies ∧ r = .unreachable)))

/-- The thread an event belongs to. -/
def NodeEvent.who : NodeEvent α → Nat
  | .connecting i _ _ | .connected i _ _ | .began i _ _ | .asked i _ _ | .given i _ _ | .answered i _ | .finished i _ => i

namespace NodeWorld

/-- the thread `j` is connecting to `n` and has not yet replaced the list for `q` -/
def Owes (w : NodeWorld α) (j n : Nat) (net : Net) (q : Query) : Prop :=
  ∃ todo, w.phase j = .connecting n net todo ∧ q ∈ todo

/-- where the value of the attribute comes from -/
def Attr (lists0 : Lists) (w : NodeWorld α) : Prop := ∀ net q,
  (w.lists net q = lists0 net q ∧ ∀ j n, .connecting j n net ∈ w.log → w.Owes j n net q) ∨
  ∃ j n, w.lists net q = [.node n] ∧ .connecting j n net ∈ w.log ∧
    ∀ a b j' n', w.log = a ++ .connecting j' n' net :: b → (∃ m, .connected j m net ∈ b) → w.Owes j' n' net q

/-- what is known of the threads from the log -/
structure Known (job : Nat → NodeJob) (w : NodeWorld α) : Prop where
  start : ∀ e ∈ w.log, w.phase e.who ≠ .start
  connecting : ∀ i n net todo, w.phase i = .connecting n net todo → .connecting i n net ∈ w.log
  connected : ∀ i n net, .connected i n net ∈ w.log → w.phase i = .over ∧ .connecting i n net ∈ w.log
  answered : ∀ i r, .answered i r ∈ w.log → w.phase i = .over
  finished : ∀ i r, .finished i r ∈ w.log → w.phase i = .over
  jobConnect : ∀ i n net, .connecting i n net ∈ w.log → ∃ t, job i = .connect n t ∧ net = if t then .test else .main
  jobAsk : ∀ i net q, .began i net q ∈ w.log → job i = .ask net q ∨ (q = .broadcast ∧ job i = .broadcast net)

/-- how far a call has come with its source -/
def CallOk (w : NodeWorld α) (i : Nat) (source : List Service) : Prop :=
  match w.phase i with
  | .start | .connecting .. => False
  | .asking rest => calledBy i w.log ++ rest = source ∧ (repliesTo i w.log).length = (calledBy i w.log).length ∧
      ∀ more, firstAnswer networkIgnored (repliesTo i w.log ++ more) =
        ((calledBy i w.log).length + (firstAnswer networkIgnored more).1, (firstAnswer networkIgnored more).2)
  | .answer r => (calledBy i w.log <+: source) ∧ (repliesTo i w.log).length = (calledBy i w.log).length ∧
      ∀ more, (calledBy i w.log).length + more.length = source.length →
        firstAnswer networkIgnored (repliesTo i w.log ++ more) = ((calledBy i w.log).length, r)
  | .sending rest success => calledBy i w.log ++ rest = source ∧ (receiptsOf i w.log).length = (calledBy i w.log).length ∧
      ∀ more, broadcastLoop none (receiptsOf i w.log ++ more) =
        ((calledBy i w.log).length + (broadcastLoop success more).1, (broadcastLoop success more).2)
  | .sent r => (calledBy i w.log <+: source) ∧ (receiptsOf i w.log).length = (calledBy i w.log).length ∧
      ∀ more, (calledBy i w.log).length + more.length = source.length →
        broadcastLoop none (receiptsOf i w.log ++ more) = ((calledBy i w.log).length, r)
  | .over => (calledBy i w.log <+: source) ∧
      (∀ r, .answered i r ∈ w.log → (repliesTo i w.log).length = (calledBy i w.log).length ∧
        ∀ more, (calledBy i w.log).length + more.length = source.length →
        firstAnswer networkIgnored (repliesTo i w.log ++ more) = ((calledBy i w.log).length, r)) ∧
      (∀ r, .finished i r ∈ w.log → (receiptsOf i w.log).length = (calledBy i w.log).length ∧
        ∀ more, (calledBy i w.log).length + more.length = source.length →
        broadcastLoop none (receiptsOf i w.log ++ more) = ((calledBy i w.log).length, r))

def Calls (lists0 : Lists) (w : NodeWorld α) : Prop :=
  ∀ i net q post pre, w.log = post ++ .began i net q :: pre → ∃ source, SourceAfter lists0 net q pre source ∧ w.CallOk i source

/-- the invariant of every run -/
structure Good (lists0 : Lists) (job : Nat → NodeJob) (w : NodeWorld α) : Prop where
  attr : w.Attr lists0
  known : w.Known job
  calls : w.Calls lists0

theorem good_init (lists0 : Lists) (job : Nat → NodeJob) : (init lists0 : NodeWorld α).Good lists0 job := by
  refine ⟨fun net q => .inl ⟨rfl, fun j n h => by simp [init] at h⟩, ?_, ?_⟩
  · constructor <;> simp [init]
  · intro i net q post pre h
    simp [init] at h

/-- what a question that begins now works with -/
theorem Attr.source {lists0 : Lists} {job : Nat → NodeJob} {w : NodeWorld α} (h : w.Attr lists0) (hk : w.Known job)
    (net : Net) (q : Query) : SourceAfter lists0 net q w.log (w.lists net q) := by
  rcases h net q with ⟨h1, h2⟩ | ⟨j, n, h1, h2, h3⟩
  · refine .inl ⟨h1, fun j n hj => ?_⟩
    obtain ⟨h4, h5⟩ := hk.connected j n net hj
    obtain ⟨todo, h6, _⟩ := h2 j n h5
    rw [h4] at h6
    cases h6
  · refine .inr ⟨j, n, h1, h2, ?_⟩
    rintro ⟨a, b, j', n', h4, h5, h6⟩
    obtain ⟨todo, h7, _⟩ := h3 a b j' n' h4 h6
    obtain ⟨h8, _⟩ := hk.connected j' n' net (by rw [h4]; exact List.mem_append_left _ h5)
    rw [h8] at h7
    cases h7

/-- steps that do not touch the attributes and begin no connection -/
theorem Attr.pass {lists0 : Lists} {w w' : NodeWorld α} (h : w.Attr lists0) (hl : w'.lists = w.lists)
    (hlog : w'.log = w.log ∨ ∃ e, w'.log = e :: w.log ∧ ∀ j n net, e ≠ .connecting j n net)
    (hp : ∀ j n net q, w.Owes j n net q → w'.Owes j n net q) : w'.Attr lists0 := by
  have hmem : ∀ j n net, .connecting j n net ∈ w'.log ↔ .connecting j n net ∈ w.log := by
    intro j n net
    rcases hlog with h | ⟨e, h, he⟩
    · rw [h]
    · rw [h, List.mem_cons]
      exact ⟨fun h => h.resolve_left (fun h => he j n net h.symm), .inr⟩
  intro net q
  rcases h net q with ⟨h1, h2⟩ | ⟨j, n, h1, h2, h3⟩
  · exact .inl ⟨by rw [hl, h1], fun j n hj => hp _ _ _ _ (h2 j n ((hmem j n net).1 hj))⟩
  · refine .inr ⟨j, n, by rw [hl, h1], (hmem j n net).2 h2, ?_⟩
    intro a b j' n' hs hb
    rcases hlog with h | ⟨e, h, he⟩
    · exact hp _ _ _ _ (h3 a b j' n' (by rw [← h, hs]) hb)
    · rw [h] at hs
      cases a with
      | nil => exact absurd (List.cons.inj hs).1 (he j' n' net)
      | cons x a => exact hp _ _ _ _ (h3 a b j' n' (List.cons.inj hs).2 hb)

theorem phase_goto (w : NodeWorld α) (i j : Nat) (p : NodePhase α) :
    (w.goto i p).phase j = if j = i then p else w.phase j := rfl

theorem calledBy_cons (i : Nat) (e : NodeEvent α) (log : List (NodeEvent α)) :
    calledBy i (e :: log) = calledBy i log ++ calledBy i [e] := by
  rw [calledBy, List.reverse_cons, List.filterMap_append]
  rfl

theorem repliesTo_cons (i : Nat) (e : NodeEvent α) (log : List (NodeEvent α)) :
    repliesTo i (e :: log) = repliesTo i log ++ repliesTo i [e] := by
  rw [repliesTo, List.reverse_cons, List.filterMap_append]
  rfl

theorem receiptsOf_cons (i : Nat) (e : NodeEvent α) (log : List (NodeEvent α)) :
    receiptsOf i (e :: log) = receiptsOf i log ++ receiptsOf i [e] := by
  rw [receiptsOf, List.reverse_cons, List.filterMap_append]
  rfl

theorem other_event {i : Nat} {e : NodeEvent α} (h : e.who ≠ i) :
    calledBy i [e] = [] ∧ repliesTo i [e] = [] ∧ receiptsOf i [e] = [] := by
  cases e <;> simp_all [calledBy, repliesTo, receiptsOf, NodeEvent.who]

theorem no_event {i : Nat} {log : List (NodeEvent α)} (h : ∀ e ∈ log, e.who ≠ i) :
    calledBy i log = [] ∧ repliesTo i log = [] ∧ receiptsOf i log = [] := by
  induction log with
  | nil => simp [calledBy, repliesTo, receiptsOf]
  | cons e log ih =>
    obtain ⟨h1, h2, h3⟩ := ih (fun e he => h e (List.mem_cons_of_mem _ he))
    obtain ⟨h4, h5, h6⟩ := other_event (h e List.mem_cons_self)
    rw [calledBy_cons, repliesTo_cons, receiptsOf_cons, h1, h2, h3, h4, h5, h6]
    simp

/-- a call is not affected by steps of other threads -/
theorem CallOk.other {w w' : NodeWorld α} {i k : Nat} {source : List Service} (h : w.CallOk i source) (hi : i ≠ k)
    (hp : w'.phase i = w.phase i) (hlog : w'.log = w.log ∨ ∃ e, w'.log = e :: w.log ∧ e.who = k) : w'.CallOk i source := by
  have h1 : calledBy i w'.log = calledBy i w.log ∧ repliesTo i w'.log = repliesTo i w.log ∧
      receiptsOf i w'.log = receiptsOf i w.log ∧ (∀ r, .answered i r ∈ w'.log ↔ .answered i r ∈ w.log) ∧
      (∀ r, .finished i r ∈ w'.log ↔ .finished i r ∈ w.log) := by
    rcases hlog with hl | ⟨e, hl, he⟩
    · simp [hl]
    · obtain ⟨h4, h5, h6⟩ := other_event (i := i) (e := e) (by rw [he]; exact fun h => hi h.symm)
      rw [hl, calledBy_cons, repliesTo_cons, receiptsOf_cons, h4, h5, h6]
      refine ⟨by simp, by simp, by simp, fun r => ?_, fun r => ?_⟩ <;>
      · rw [List.mem_cons]
        refine ⟨fun h => h.resolve_left ?_, .inr⟩
        rintro rfl
        exact hi he
  obtain ⟨h1, h2, h3, h4, h5⟩ := h1
  unfold CallOk at h ⊢
  simp only [hp, h1, h2, h3, h4, h5]
  exact h

/-- the calls after a step of thread `k` -/
theorem Calls.step {lists0 : Lists} {w w' : NodeWorld α} (h : w.Calls lists0) (k : Nat)
    (hp : ∀ i, i ≠ k → w'.phase i = w.phase i)
    (hlog : w'.log = w.log ∨ ∃ e, w'.log = e :: w.log ∧ e.who = k)
    (hold : ∀ source, w.CallOk k source → w'.CallOk k source)
    (hnew : ∀ net q, w'.log = .began k net q :: w.log → ∃ source, SourceAfter lists0 net q w.log source ∧ w'.CallOk k source) :
    w'.Calls lists0 := by
  intro i net q post pre hs
  have old : ∀ post', w.log = post' ++ .began i net q :: pre → ∃ source, SourceAfter lists0 net q pre source ∧ w'.CallOk i source := by
    intro post' hs'
    obtain ⟨source, h1, h2⟩ := h i net q post' pre hs'
    refine ⟨source, h1, ?_⟩
    by_cases hi : i = k
    · subst hi
      exact hold source h2
    · exact h2.other hi (hp i hi) hlog
  rcases hlog with hl | ⟨e, hl, he⟩
  · exact old post (by rw [← hl, hs])
  · rw [hl] at hs
    cases post with
    | nil =>
      obtain ⟨rfl, rfl⟩ := List.cons.inj hs
      have : i = k := he
      subst this
      exact hnew net q hl
    | cons x post => exact old post (List.cons.inj hs).2

/-- what is known after a step of thread `k` to `p` that shows `es` -/
theorem Known.step {job : Nat → NodeJob} {w w' : NodeWorld α} (h : w.Known job) (k : Nat) (p : NodePhase α) (es : List (NodeEvent α))
    (hp : w'.phase = fun i => if i = k then p else w.phase i) (hlog : w'.log = es ++ w.log)
    (hk : w.phase k ≠ .over) (hps : p ≠ .start) (hes : ∀ e ∈ es, e.who = k)
    (h1 : ∀ n net todo, p = .connecting n net todo → .connecting k n net ∈ es ∨ .connecting k n net ∈ w.log)
    (h2 : ∀ n net, .connected k n net ∈ es → p = .over ∧ .connecting k n net ∈ w.log)
    (h3 : ∀ r, .answered k r ∈ es → p = .over) (h4 : ∀ r, .finished k r ∈ es → p = .over)
    (h5 : ∀ n net, .connecting k n net ∈ es → ∃ t, job k = .connect n t ∧ net = if t then .test else .main)
    (h6 : ∀ net q, .began k net q ∈ es → job k = .ask net q ∨ (q = .broadcast ∧ job k = .broadcast net)) : w'.Known job := by
  have who : ∀ {e}, e ∈ es → e.who = k := fun {e} he => hes e he
  constructor
  · intro e he
    rw [hlog, List.mem_append] at he
    rw [hp]
    by_cases hi : e.who = k
    · simpa [hi] using hps
    · simp only [hi, if_false]
      exact h.start e (he.resolve_left fun h => hi (hes e h))
  · intro i n net todo hi
    rw [hp] at hi
    rw [hlog, List.mem_append]
    by_cases hk' : i = k
    · subst hk'
      simp only [if_true] at hi
      exact h1 n net todo hi
    · simp only [hk', if_false] at hi
      exact .inr (h.connecting i n net todo hi)
  · intro i n net hi
    rw [hlog, List.mem_append] at hi
    rw [hlog, hp, List.mem_append]
    rcases hi with hi | hi
    · have : i = k := who hi
      subst this
      obtain ⟨a, b⟩ := h2 n net hi
      exact ⟨by simp [a], .inr b⟩
    · obtain ⟨a, b⟩ := h.connected i n net hi
      have : i ≠ k := fun h => hk (h ▸ a)
      exact ⟨by simp [this, a], .inr b⟩
  · intro i r hi
    rw [hlog, List.mem_append] at hi
    rw [hp]
    rcases hi with hi | hi
    · have : i = k := who hi
      subst this
      simp [h3 r hi]
    · have a := h.answered i r hi
      have : i ≠ k := fun h => hk (h ▸ a)
      simp [this, a]
  · intro i r hi
    rw [hlog, List.mem_append] at hi
    rw [hp]
    rcases hi with hi | hi
    · have : i = k := who hi
      subst this
      simp [h4 r hi]
    · have a := h.finished i r hi
      have : i ≠ k := fun h => hk (h ▸ a)
      simp [this, a]
  · intro i n net hi
    rw [hlog, List.mem_append] at hi
    rcases hi with hi | hi
    · have : i = k := who hi
      subst this
      exact h5 n net hi
    · exact h.jobConnect i n net hi
  · intro i net q hi
    rw [hlog, List.mem_append] at hi
    rcases hi with hi | hi
    · have : i = k := who hi
      subst this
      exact h6 net q hi
    · exact h.jobAsk i net q hi

theorem quiet {w : NodeWorld α} {job : Nat → NodeJob} (hk : w.Known job) {i : Nat} (h : w.phase i = .start) :
    calledBy i w.log = [] ∧ repliesTo i w.log = [] ∧ receiptsOf i w.log = [] :=
  no_event fun e he hw => hk.start e he (by rw [hw, h])


theorem owes_goto {w w' : NodeWorld α} {k : Nat} (hp : ∀ i, i ≠ k → w'.phase i = w.phase i)
    (hk : ∀ n net todo q, w.phase k = .connecting n net todo → q ∈ todo → w'.Owes k n net q) (j n : Nat) (net : Net) (q : Query)
    (h : w.Owes j n net q) : w'.Owes j n net q := by
  obtain ⟨todo, h1, h2⟩ := h
  by_cases hj : j = k
  · subst hj
    exact hk n net todo q h1 h2
  · exact ⟨todo, by rw [hp j hj, h1], h2⟩

/-- a step of a question or a broadcast that has begun -/
theorem Good.call_step {lists0 : Lists} {job : Nat → NodeJob} {w : NodeWorld α} (h : w.Good lists0 job) (k : Nat) (p : NodePhase α)
    (es : List (NodeEvent α)) (hes : es = [] ∨ ∃ e, es = [e] ∧ e.who = k ∧ (∀ n net, e ≠ .connecting k n net) ∧
      (∀ n net, e ≠ .connected k n net) ∧ (∀ net q, e ≠ .began k net q))
    (hc : ∀ n net todo, w.phase k ≠ .connecting n net todo) (hk : w.phase k ≠ .over) (hps : p ≠ .start)
    (hpc : ∀ n net todo, p ≠ .connecting n net todo) (h3 : ∀ r, .answered k r ∈ es → p = .over) (h4 : ∀ r, .finished k r ∈ es → p = .over)
    (hold : ∀ source, w.CallOk k source → CallOk ⟨w.lists, fun i => if i = k then p else w.phase i, es ++ w.log⟩ k source) :
    Good lists0 job ⟨w.lists, fun i => if i = k then p else w.phase i, es ++ w.log⟩ := by
  have hlog : es ++ w.log = w.log ∨ ∃ e, es ++ w.log = e :: w.log ∧ e.who = k := by
    rcases hes with rfl | ⟨e, rfl, h1, _⟩
    · exact .inl rfl
    · exact .inr ⟨e, rfl, h1⟩
  have not : ∀ e ∈ es, e.who = k ∧ (∀ n net, e ≠ .connecting k n net) ∧
      (∀ n net, e ≠ .connected k n net) ∧ (∀ net q, e ≠ .began k net q) := by
    intro e he
    rcases hes with rfl | ⟨e', rfl, h1⟩
    · cases he
    · rw [List.mem_singleton] at he
      rw [he]
      exact h1
  have hpo : ∀ i, i ≠ k → (if i = k then p else w.phase i) = w.phase i := fun i hi => if_neg hi
  refine ⟨h.attr.pass rfl ?_ ?_, ?_, ?_⟩
  · rcases hlog with hl | ⟨e, hl, he⟩
    · exact .inl hl
    · refine .inr ⟨e, hl, ?_⟩
      rintro j n net rfl
      have : es = [.connecting j n net] := List.append_cancel_right (hl.trans rfl : es ++ w.log = [.connecting j n net] ++ w.log)
      have hj : j = k := he
      subst hj
      exact (not (.connecting j n net) (by rw [this]; exact List.mem_singleton.2 rfl)).2.1 n net rfl
  · exact owes_goto (k := k) hpo (fun n net todo q h1 => absurd h1 (hc n net todo))
  · refine h.known.step k p es rfl rfl hk hps (fun e he => (not e he).1) ?_ ?_ h3 h4 ?_ ?_
    · exact fun n net todo hp => absurd hp (hpc n net todo)
    · exact fun n net he => absurd rfl ((not _ he).2.2.1 n net)
    · exact fun n net he => absurd rfl ((not _ he).2.1 n net)
    · exact fun net q he => absurd rfl ((not _ he).2.2.2 net q)
  · refine h.calls.step k hpo hlog hold ?_
    intro net q hl
    have : es = [.began k net q] := List.append_cancel_right (hl.trans rfl : es ++ w.log = [.began k net q] ++ w.log)
    exact absurd rfl ((not (.began k net q) (by rw [this]; exact List.mem_singleton.2 rfl)).2.2.2 net q)

theorem calledBy_cons_asked (i : Nat) (s : Service) (r : Py α) (log : List (NodeEvent α)) :
    calledBy i (.asked i s r :: log) = calledBy i log ++ [s] := by
  rw [calledBy_cons]
  simp [calledBy]

theorem repliesTo_cons_asked (i : Nat) (s : Service) (r : Py α) (log : List (NodeEvent α)) :
    repliesTo i (.asked i s r :: log) = repliesTo i log ++ [r] := by
  rw [repliesTo_cons]
  simp [repliesTo]

theorem calledBy_cons_given (i : Nat) (s : Service) (r : Py Bool) (log : List (NodeEvent α)) :
    calledBy i (.given i s r :: log) = calledBy i log ++ [s] := by
  rw [calledBy_cons]
  simp [calledBy]

theorem receiptsOf_cons_given (i : Nat) (s : Service) (r : Py Bool) (log : List (NodeEvent α)) :
    receiptsOf i (.given i s r :: log) = receiptsOf i log ++ [r] := by
  rw [receiptsOf_cons]
  simp [receiptsOf]

/-- a connection begins -/
theorem Good.connect_start {lists0 : Lists} {job : Nat → NodeJob} {w : NodeWorld α} (h : w.Good lists0 job) (k n : Nat) (t : Bool)
    (net : Net) (hph : w.phase k = .start) (hj : job k = .connect n t) (hnet : net = if t then .test else .main) :
    ((w.goto k (.connecting n net [.balance, .transactions, .transactionById, .unspent, .broadcast])).see
      (.connecting k n net)).Good lists0 job := by
  have hpo : ∀ i, i ≠ k → ((w.goto k (.connecting n net [.balance, .transactions, .transactionById, .unspent, .broadcast])).see
      (.connecting k n net)).phase i = w.phase i := fun i hi => if_neg hi
  have hown : ∀ q, ((w.goto k (.connecting n net [.balance, .transactions, .transactionById, .unspent, .broadcast])).see
      (.connecting k n net)).Owes k n net q := fun q => ⟨_, if_pos rfl, by cases q <;> simp⟩
  have howes := owes_goto (w := w) hpo (fun n net todo q h1 => by rw [hph] at h1; cases h1)
  refine ⟨?_, ?_, ?_⟩
  · intro net' q
    rcases h.attr net' q with ⟨h1, h2⟩ | ⟨j, m, h1, h2, h3⟩
    · refine .inl ⟨h1, fun j m hm => ?_⟩
      rcases List.mem_cons.1 hm with hm | hm
      · cases hm
        exact hown q
      · exact howes _ _ _ _ (h2 j m hm)
    · refine .inr ⟨j, m, h1, List.mem_cons_of_mem _ h2, ?_⟩
      intro a b j' n' hs hb
      cases a with
      | nil =>
        cases (List.cons.inj hs).1
        exact hown q
      | cons x a => exact howes _ _ _ _ (h3 a b j' n' (List.cons.inj hs).2 hb)
  · refine h.known.step k _ [.connecting k n net] rfl rfl (by rw [hph]; exact fun h => by cases h) (fun h => by cases h) ?_ ?_ ?_ ?_ ?_ ?_ ?_
    · intro e he
      rw [List.mem_singleton.1 he]
      rfl
    · intro n' net' todo hp
      cases hp
      exact .inl (List.mem_singleton.2 rfl)
    · intro n' net' he
      cases List.mem_singleton.1 he
    · intro r he
      cases List.mem_singleton.1 he
    · intro r he
      cases List.mem_singleton.1 he
    · intro n' net' he
      cases List.mem_singleton.1 he
      exact ⟨t, hj, hnet⟩
    · intro net' q he
      cases List.mem_singleton.1 he
  · refine h.calls.step k hpo (.inr ⟨_, rfl, rfl⟩) ?_ ?_
    · intro source hc
      rw [CallOk, hph] at hc
      exact hc.elim
    · intro net' q hl
      cases (List.cons.inj hl).1

/-- a connection replaces one list -/
theorem Good.connect_assign {lists0 : Lists} {job : Nat → NodeJob} {w : NodeWorld α} (h : w.Good lists0 job) (k n : Nat)
    (net : Net) (q : Query) (todo : List Query) (hph : w.phase k = .connecting n net (q :: todo)) :
    ({ w with lists := assignList w.lists net q [.node n] }.goto k (.connecting n net todo)).Good lists0 job := by
  have hpo : ∀ i, i ≠ k → ({ w with lists := assignList w.lists net q [.node n] }.goto k (.connecting n net todo)).phase i =
    w.phase i := fun i hi => if_neg hi
  have hin := h.known.connecting k n net _ hph
  refine ⟨?_, ?_, ?_⟩
  · intro net' q'
    by_cases hq : net' = net ∧ q' = q
    · obtain ⟨rfl, rfl⟩ := hq
      refine .inr ⟨k, n, by simp [goto, assignList], hin, ?_⟩
      rintro a b j' n' hs ⟨m, hm⟩
      have := (h.known.connected k m net' (by
        rw [show w.log = _ from hs]
        exact List.mem_append_right _ (List.mem_cons_of_mem _ hm))).1
      rw [hph] at this
      cases this
    · have hl : ({ w with lists := assignList w.lists net q [.node n] }.goto k (.connecting n net todo)).lists net' q' =
          w.lists net' q' := if_neg hq
      have howes : ∀ j m, w.Owes j m net' q' →
          ({ w with lists := assignList w.lists net q [.node n] }.goto k (.connecting n net todo)).Owes j m net' q' := by
        rintro j m ⟨todo', h1, h2⟩
        by_cases hj : j = k
        · subst hj
          rw [hph] at h1
          cases h1
          refine ⟨todo, if_pos rfl, ?_⟩
          exact (List.mem_cons.1 h2).resolve_left fun h => hq ⟨rfl, h⟩
        · exact ⟨todo', by rw [hpo j hj, h1], h2⟩
      rcases h.attr net' q' with ⟨h1, h2⟩ | ⟨j, m, h1, h2, h3⟩
      · exact .inl ⟨hl.trans h1, fun j m hm => howes _ _ (h2 j m hm)⟩
      · exact .inr ⟨j, m, hl.trans h1, h2, fun a b j' n' hs hb => howes _ _ (h3 a b j' n' hs hb)⟩
  · refine h.known.step k _ [] rfl rfl (by rw [hph]; exact fun h => by cases h) (fun h => by cases h) ?_ ?_ ?_ ?_ ?_ ?_ ?_
    · intro e he
      cases he
    · intro n' net' todo hp
      cases hp
      exact .inr hin
    · intro n' net' he
      cases he
    · intro r he
      cases he
    · intro r he
      cases he
    · intro n' net' he
      cases he
    · intro net' q he
      cases he
  · refine h.calls.step k hpo (.inl rfl) ?_ ?_
    · intro source hc
      rw [CallOk, hph] at hc
      exact hc.elim
    · intro net' q hl
      exact absurd (congrArg List.length (show w.log = _ from hl)) (by simp)

/-- a connection returns -/
theorem Good.connect_end {lists0 : Lists} {job : Nat → NodeJob} {w : NodeWorld α} (h : w.Good lists0 job) (k n : Nat)
    (net : Net) (hph : w.phase k = .connecting n net []) :
    ((w.goto k .over).see (.connected k n net)).Good lists0 job := by
  have hpo : ∀ i, i ≠ k → ((w.goto k .over).see (.connected k n net)).phase i = w.phase i := fun i hi => if_neg hi
  have hin := h.known.connecting k n net _ hph
  refine ⟨h.attr.pass rfl (.inr ⟨_, rfl, fun j n net h => by cases h⟩) ?_, ?_, ?_⟩
  · refine owes_goto hpo ?_
    intro n' net' todo q h1 h2
    rw [hph] at h1
    cases h1
    cases h2
  · refine h.known.step k _ [.connected k n net] rfl rfl (by rw [hph]; exact fun h => by cases h) (fun h => by cases h) ?_ ?_ ?_ ?_ ?_ ?_ ?_
    · intro e he
      rw [List.mem_singleton.1 he]
      rfl
    · intro n' net' todo hp
      cases hp
    · intro n' net' he
      cases List.mem_singleton.1 he
      exact ⟨rfl, hin⟩
    · intro r he
      cases List.mem_singleton.1 he
    · intro r he
      cases List.mem_singleton.1 he
    · intro n' net' he
      cases List.mem_singleton.1 he
    · intro net' q he
      cases List.mem_singleton.1 he
  · refine h.calls.step k hpo (.inr ⟨_, rfl, rfl⟩) ?_ ?_
    · intro source hc
      rw [CallOk, hph] at hc
      exact hc.elim
    · intro net' q hl
      cases (List.cons.inj hl).1

/-- a question or a broadcast begins -/
theorem Good.begin {lists0 : Lists} {job : Nat → NodeJob} {w : NodeWorld α} (h : w.Good lists0 job) (k : Nat)
    (net : Net) (q : Query) (p : NodePhase α) (hph : w.phase k = .start)
    (hj : job k = .ask net q ∨ (q = .broadcast ∧ job k = .broadcast net))
    (hp : p = .asking (w.lists net q) ∨ p = .sending (w.lists net q) none) :
    ((w.goto k p).see (.began k net q)).Good lists0 job := by
  have hpo : ∀ i, i ≠ k → ((w.goto k p).see (.began k net q)).phase i = w.phase i := fun i hi => if_neg hi
  have hpk : ((w.goto k p).see (.began k net q)).phase k = p := if_pos rfl
  refine ⟨h.attr.pass rfl (.inr ⟨_, rfl, fun j n net h => by cases h⟩) ?_, ?_, ?_⟩
  · refine owes_goto hpo ?_
    intro n' net' todo q h1 h2
    rw [hph] at h1
    cases h1
  · refine h.known.step k p [.began k net q] rfl rfl (by rw [hph]; exact fun h => by cases h) ?_ ?_ ?_ ?_ ?_ ?_ ?_ ?_
    · rcases hp with rfl | rfl <;> exact fun h => by cases h
    · intro e he
      rw [List.mem_singleton.1 he]
      rfl
    · intro n' net' todo hp'
      rcases hp with rfl | rfl <;> cases hp'
    · intro n' net' he
      cases List.mem_singleton.1 he
    · intro r he
      cases List.mem_singleton.1 he
    · intro r he
      cases List.mem_singleton.1 he
    · intro n' net' he
      cases List.mem_singleton.1 he
    · intro net' q he
      cases List.mem_singleton.1 he
      exact hj
  · refine h.calls.step k hpo (.inr ⟨_, rfl, rfl⟩) ?_ ?_
    · intro source hc
      rw [CallOk, hph] at hc
      exact hc.elim
    · intro net' q' hl
      cases (List.cons.inj hl).1
      refine ⟨_, h.attr.source h.known net q, ?_⟩
      obtain ⟨h1, h2, h3⟩ := quiet h.known hph
      have e1 : calledBy k ((w.goto k p).see (.began k net q)).log = [] := by
        rw [show ((w.goto k p).see (.began k net q)).log = .began k net q :: w.log from rfl, calledBy_cons, h1]
        rfl
      have e2 : repliesTo k ((w.goto k p).see (.began k net q)).log = [] := by
        rw [show ((w.goto k p).see (.began k net q)).log = .began k net q :: w.log from rfl, repliesTo_cons, h2]
        rfl
      have e3 : receiptsOf k ((w.goto k p).see (.began k net q)).log = [] := by
        rw [show ((w.goto k p).see (.began k net q)).log = .began k net q :: w.log from rfl, receiptsOf_cons, h3]
        rfl
      unfold CallOk
      rw [hpk, e1, e2, e3]
      rcases hp with rfl | rfl <;> simp

theorem good_move {lists0 : Lists} {job : Nat → NodeJob} {w : NodeWorld α} (h : w.Good lists0 job) (k : Nat) (r : Py α) (b : Py Bool) :
    (w.move job k r b).Good lists0 job := by
  unfold move
  split
  · rename_i hph
    split
    · rename_i n t hj
      exact h.connect_start k n t _ hph hj (by cases t <;> rfl)
    · rename_i net q hj
      exact h.begin k net q _ hph (.inl hj) (.inl rfl)
    · rename_i net hj
      exact h.begin k net .broadcast _ hph (.inr ⟨rfl, hj⟩) (.inr rfl)
  · rename_i n net q todo hph
    exact h.connect_assign k n net q todo hph
  · rename_i n net hph
    exact h.connect_end k n net hph
  · rename_i hph
    refine h.call_step k _ [] (.inl rfl) (by simp [hph]) (by simp [hph]) (by simp) (by simp) (by simp) (by simp) ?_
    intro source hc
    simp only [CallOk, hph, List.nil_append, if_true, List.append_nil] at hc ⊢
    obtain ⟨h1, h2, h3⟩ := hc
    refine ⟨h1 ▸ List.prefix_refl _, h2, fun more hm => ?_⟩
    have : more = [] := List.eq_nil_of_length_eq_zero (by rw [← h1] at hm; omega)
    rw [this, h3 []]
    rfl
  · rename_i s rest hph
    have hother : ∀ r : Py α, [(.asked k s r : NodeEvent α)] = [] ∨ ∃ e : NodeEvent α, [(.asked k s r : NodeEvent α)] = [e] ∧ e.who = k ∧
        (∀ n net, e ≠ .connecting k n net) ∧ (∀ n net, e ≠ .connected k n net) ∧ (∀ net q, e ≠ .began k net q) :=
      fun r => .inr ⟨_, rfl, rfl, nofun, nofun, nofun⟩
    have hstop : ∀ r : Py α, (∀ more, firstAnswer networkIgnored (r :: more) = (1, r)) →
        ((w.goto k (.answer r)).see (.asked k s r)).Good lists0 job := by
      intro r hr
      refine h.call_step k _ [.asked k s r] (hother r) (by simp [hph]) (by simp [hph]) (by simp) (by simp) (by simp) (by simp) ?_
      intro source hc
      simp only [CallOk, hph, if_true, List.singleton_append, calledBy_cons_asked, repliesTo_cons_asked] at hc ⊢
      obtain ⟨h1, h2, h3⟩ := hc
      refine ⟨⟨rest, by rw [← h1]; simp⟩, by simp [h2], fun more _ => ?_⟩
      rw [List.append_assoc, List.singleton_append, h3, hr]
      simp
    split
    · exact hstop _ (fun more => rfl)
    · rename_i e
      split
      · rename_i he
        refine h.call_step k _ [.asked k s (.error e)] (hother _) (by simp [hph]) (by simp [hph]) (by simp) (by simp) (by simp) (by simp) ?_
        intro source hc
        simp only [CallOk, hph, if_true, List.singleton_append, calledBy_cons_asked, repliesTo_cons_asked] at hc ⊢
        obtain ⟨h1, h2, h3⟩ := hc
        refine ⟨by rw [← h1]; simp, by simp [h2], fun more => ?_⟩
        rw [List.append_assoc, List.singleton_append, h3, firstAnswer, if_pos he]
        simp only [List.length_append, List.length_singleton]
        rw [show ∀ a b : Nat, a + (b + 1) = a + 1 + b by omega]
      · rename_i he
        exact hstop _ (fun more => by rw [firstAnswer, if_neg he])
  · rename_i r' hph
    refine h.call_step k _ [.answered k r'] (.inr ⟨_, rfl, rfl, nofun, nofun, nofun⟩)
      (by simp [hph]) (by simp [hph]) (by simp) (by simp) (by simp) (by simp) ?_
    intro source hc
    have e1 : calledBy k (NodeEvent.answered k r' :: w.log) = calledBy k w.log := by
      rw [calledBy_cons]
      exact List.append_nil _
    have e2 : repliesTo k (NodeEvent.answered k r' :: w.log) = repliesTo k w.log := by
      rw [repliesTo_cons]
      exact List.append_nil _
    simp only [CallOk, hph, if_true, List.singleton_append, e1, e2] at hc ⊢
    obtain ⟨h1, h2, h3⟩ := hc
    refine ⟨h1, fun r hr => ?_, fun r hr => ?_⟩
    · rcases List.mem_cons.1 hr with hr | hr
      · cases hr
        exact ⟨h2, h3⟩
      · have := h.known.answered k r hr
        rw [hph] at this
        cases this
    · have := h.known.finished k r ((List.mem_cons.1 hr).resolve_left (fun h => by cases h))
      rw [hph] at this
      cases this
  · rename_i success hph
    refine h.call_step k _ [] (.inl rfl) (by simp [hph]) (by simp [hph]) (by simp) (by simp) (by simp) (by simp) ?_
    intro source hc
    simp only [CallOk, hph, List.nil_append, if_true, List.append_nil] at hc ⊢
    obtain ⟨h1, h2, h3⟩ := hc
    refine ⟨h1 ▸ List.prefix_refl _, h2, fun more hm => ?_⟩
    have : more = [] := List.eq_nil_of_length_eq_zero (by rw [← h1] at hm; omega)
    rw [this, h3 []]
    rfl
  · rename_i s rest success hph
    have hother : ∀ r : Py Bool, [(.given k s r : NodeEvent α)] = [] ∨ ∃ e : NodeEvent α, [(.given k s r : NodeEvent α)] = [e] ∧ e.who = k ∧
        (∀ n net, e ≠ .connecting k n net) ∧ (∀ n net, e ≠ .connected k n net) ∧ (∀ net q, e ≠ .began k net q) :=
      fun r => .inr ⟨_, rfl, rfl, nofun, nofun, nofun⟩
    have hstop : ∀ (r : Py Bool) (x : BroadcastEnd), (∀ more, broadcastLoop success (r :: more) = (1, x)) →
        ((w.goto k (.sent x)).see (.given k s r)).Good lists0 job := by
      intro r x hr
      refine h.call_step k _ [.given k s r] (hother r) (by simp [hph]) (by simp [hph]) (by simp) (by simp) (by simp) (by simp) ?_
      intro source hc
      simp only [CallOk, hph, if_true, List.singleton_append, calledBy_cons_given, receiptsOf_cons_given] at hc ⊢
      obtain ⟨h1, h2, h3⟩ := hc
      refine ⟨⟨rest, by rw [← h1]; simp⟩, by simp [h2], fun more _ => ?_⟩
      rw [List.append_assoc, List.singleton_append, h3, hr]
      simp
    have hgo : ∀ (r : Py Bool) (x : Option Bool), (∀ more, broadcastLoop success (r :: more) =
          ((broadcastLoop x more).1 + 1, (broadcastLoop x more).2)) →
        ((w.goto k (.sending rest x)).see (.given k s r)).Good lists0 job := by
      intro r x hr
      refine h.call_step k _ [.given k s r] (hother r) (by simp [hph]) (by simp [hph]) (by simp) (by simp) (by simp) (by simp) ?_
      intro source hc
      simp only [CallOk, hph, if_true, List.singleton_append, calledBy_cons_given, receiptsOf_cons_given] at hc ⊢
      obtain ⟨h1, h2, h3⟩ := hc
      refine ⟨by rw [← h1]; simp, by simp [h2], fun more => ?_⟩
      rw [List.append_assoc, List.singleton_append, h3, hr]
      simp only [List.length_append, List.length_singleton]
      rw [show ∀ a b : Nat, a + (b + 1) = a + 1 + b by omega]
    split
    · exact hstop _ _ (fun more => rfl)
    · exact hgo _ _ (fun more => rfl)
    · rename_i e
      split
      · rename_i he
        exact hgo _ _ (fun more => by rw [broadcastLoop, if_pos he])
      · rename_i he
        exact hstop _ _ (fun more => by rw [broadcastLoop, if_neg he])
  · rename_i r' hph
    refine h.call_step k _ [.finished k r'] (.inr ⟨_, rfl, rfl, nofun, nofun, nofun⟩)
      (by simp [hph]) (by simp [hph]) (by simp) (by simp) (by simp) (by simp) ?_
    intro source hc
    have e1 : calledBy k (NodeEvent.finished k r' :: w.log) = calledBy k w.log := by
      rw [calledBy_cons]
      exact List.append_nil _
    have e2 : receiptsOf k (NodeEvent.finished k r' :: w.log) = receiptsOf k w.log := by
      rw [receiptsOf_cons]
      exact List.append_nil _
    simp only [CallOk, hph, if_true, List.singleton_append, e1, e2] at hc ⊢
    obtain ⟨h1, h2, h3⟩ := hc
    refine ⟨h1, fun r hr => ?_, fun r hr => ?_⟩
    · have := h.known.answered k r ((List.mem_cons.1 hr).resolve_left (fun h => by cases h))
      rw [hph] at this
      cases this
    · rcases List.mem_cons.1 hr with hr | hr
      · cases hr
        exact ⟨h2, h3⟩
      · have := h.known.finished k r hr
        rw [hph] at this
        cases this
  · exact h

theorem good_run (lists0 : Lists) (job : Nat → NodeJob) (schedule : List (Nat × Py α × Py Bool)) :
    ((init lists0).run job schedule).Good lists0 job := by
  suffices ∀ w : NodeWorld α, w.Good lists0 job → (w.run job schedule).Good lists0 job from this _ (good_init lists0 job)
  induction schedule with
  | nil => exact fun w h => h
  | cons a schedule ih => exact fun w h => ih _ (good_move h a.1 a.2.1 a.2.2)

theorem triesOn_iff (e : PyErr) : networkIgnored e = true ↔ TriesOn e := by
  cases e <;> simp [networkIgnored, TriesOn]

theorem answers_of (l : List (Py α)) (r : Py α) : ∀ m, l.length ≤ m →
    (∀ more, l.length + more.length = m → firstAnswer networkIgnored (l ++ more) = (l.length, r)) → Answers m l r := by
  induction l with
  | nil =>
    intro m _ h
    cases m with
    | zero =>
      have := (Prod.mk.inj (h [] rfl)).2
      exact .inr ⟨rfl, fun x hx => (by cases hx), this.symm⟩
    | succ m =>
      have := (Prod.mk.inj (h (List.replicate (m + 1) (.error .typeError)) (by simp))).1
      cases this
  | cons x l ih =>
    intro m hm h
    cases x with
    | ok a =>
      have h1 := h (List.replicate (m - (l.length + 1)) (.error .typeError)) (by simp at hm ⊢; omega)
      obtain ⟨h2, h3⟩ := Prod.mk.inj h1
      have : l = [] := List.eq_nil_of_length_eq_zero (by simpa using h2.symm)
      subst this
      exact .inl ⟨[], by rw [← h3]; rfl, fun x hx => (by cases hx), fun e he => (by rw [← h3] at he; cases he)⟩
    | error e =>
      by_cases he : networkIgnored e = true
      · have h1 : Answers (m - 1) l r := by
          refine ih (m - 1) (by simp at hm; omega) fun more hmore => ?_
          have h2 := h more (by simp at hm ⊢; omega)
          rw [List.cons_append, firstAnswer, if_pos he] at h2
          obtain ⟨h3, h4⟩ := Prod.mk.inj h2
          exact Prod.ext (by simpa using h3) h4
        rcases h1 with ⟨f, h2, h3, h4⟩ | ⟨h2, h3, h4⟩
        · refine .inl ⟨.error e :: f, by rw [h2]; rfl, ?_, h4⟩
          intro x hx
          rcases List.mem_cons.1 hx with rfl | hx
          · exact ⟨e, rfl, (triesOn_iff e).1 he⟩
          · exact h3 x hx
        · refine .inr ⟨by simp at hm ⊢; omega, ?_, h4⟩
          intro x hx
          rcases List.mem_cons.1 hx with rfl | hx
          · exact ⟨e, rfl, (triesOn_iff e).1 he⟩
          · exact h3 x hx
      · have h1 := h (List.replicate (m - (l.length + 1)) (.error .typeError)) (by simp at hm ⊢; omega)
        rw [List.cons_append, firstAnswer, if_neg he] at h1
        obtain ⟨h2, h3⟩ := Prod.mk.inj h1
        have : l = [] := List.eq_nil_of_length_eq_zero (by simpa using h2.symm)
        subst this
        refine .inl ⟨[], by rw [← h3]; rfl, fun x hx => (by cases hx), fun e' he' => ?_⟩
        rw [← h3] at he'
        cases he'
        exact fun h => he ((triesOn_iff e).2 h)

theorem broadcasts_of (l : List (Py Bool)) (r : BroadcastEnd) : ∀ m success, l.length ≤ m →
    (∀ more, l.length + more.length = m → broadcastLoop success (l ++ more) = (l.length, r)) →
    (∃ last failed, l = failed ++ [last] ∧ (∀ x ∈ failed, x = .ok false ∨ ∃ e, x = .error e ∧ TriesOn e) ∧
      ((last = .ok true ∧ r = .accepted) ∨ ∃ e, last = .error e ∧ ¬ TriesOn e ∧ r = .raised e)) ∨
    (l.length = m ∧ (∀ x ∈ l, x = .ok false ∨ ∃ e, x = .error e ∧ TriesOn e) ∧
      (((success = some false ∨ .ok false ∈ l) ∧ r = .failed) ∨
        (¬ (success = some false ∨ .ok false ∈ l) ∧ r = .unreachable))) := by
  induction l with
  | nil =>
    intro m success _ h
    cases m with
    | zero =>
      have := (Prod.mk.inj (h [] rfl)).2
      refine .inr ⟨rfl, fun x hx => (by cases hx), ?_⟩
      by_cases hs : success = some false
      · simp [hs] at this ⊢
        exact this.symm
      · simp [hs] at this ⊢
        exact this.symm
    | succ m =>
      have := (Prod.mk.inj (h (List.replicate (m + 1) (.error .typeError)) (by simp))).1
      cases this
  | cons x l ih =>
    intro m success hm h
    have stop : ∀ y, (∀ more, broadcastLoop success (x :: more) = (1, y)) → l = [] ∧ y = r := by
      intro y hy
      have h1 := h (List.replicate (m - (l.length + 1)) (.error .typeError)) (by simp at hm ⊢; omega)
      rw [List.cons_append, hy] at h1
      obtain ⟨h2, h3⟩ := Prod.mk.inj h1
      exact ⟨List.eq_nil_of_length_eq_zero (by simpa using h2.symm), h3⟩
    have go : ∀ s', (∀ more, broadcastLoop success (x :: more) = ((broadcastLoop s' more).1 + 1, (broadcastLoop s' more).2)) →
        ∀ more, l.length + more.length = m - 1 → broadcastLoop s' (l ++ more) = (l.length, r) := by
      intro s' hs more hmore
      have h2 := h more (by simp at hm ⊢; omega)
      rw [List.cons_append, hs] at h2
      obtain ⟨h3, h4⟩ := Prod.mk.inj h2
      exact Prod.ext (by simpa using h3) h4
    have pass : ∀ s', (x = .ok false ∨ ∃ e, x = .error e ∧ TriesOn e) →
        ((s' = some false ∨ .ok false ∈ l) ↔ (success = some false ∨ .ok false ∈ x :: l)) →
        (∀ more, l.length + more.length = m - 1 → broadcastLoop s' (l ++ more) = (l.length, r)) →
        (∃ last failed, x :: l = failed ++ [last] ∧ (∀ x ∈ failed, x = .ok false ∨ ∃ e, x = .error e ∧ TriesOn e) ∧
          ((last = .ok true ∧ r = .accepted) ∨ ∃ e, last = .error e ∧ ¬ TriesOn e ∧ r = .raised e)) ∨
        ((x :: l).length = m ∧ (∀ y ∈ x :: l, y = .ok false ∨ ∃ e, y = .error e ∧ TriesOn e) ∧
          (((success = some false ∨ .ok false ∈ x :: l) ∧ r = .failed) ∨
            (¬ (success = some false ∨ .ok false ∈ x :: l) ∧ r = .unreachable))) := by
      intro s' hx hiff hl
      rcases ih (m - 1) s' (by simp at hm; omega) hl with ⟨last, f, h2, h3, h4⟩ | ⟨h2, h3, h4⟩
      · refine .inl ⟨last, x :: f, by rw [h2]; rfl, ?_, h4⟩
        intro y hy
        rcases List.mem_cons.1 hy with rfl | hy
        · exact hx
        · exact h3 y hy
      · refine .inr ⟨by simp at hm ⊢; omega, ?_, by rw [← hiff]; exact h4⟩
        intro y hy
        rcases List.mem_cons.1 hy with rfl | hy
        · exact hx
        · exact h3 y hy
    cases x with
    | ok b =>
      cases b with
      | true =>
        obtain ⟨rfl, rfl⟩ := stop .accepted (fun _ => rfl)
        exact .inl ⟨.ok true, [], rfl, fun x hx => (by cases hx), .inl ⟨rfl, rfl⟩⟩
      | false => exact pass (some false) (.inl rfl) (by simp) (go (some false) (fun _ => rfl))
    | error e =>
      by_cases he : networkIgnored e = true
      · exact pass success (.inr ⟨e, rfl, (triesOn_iff e).1 he⟩) (by simp) (go success (fun _ => by rw [broadcastLoop, if_pos he]))
      · obtain ⟨rfl, rfl⟩ := stop (.raised e) (fun _ => by rw [broadcastLoop, if_neg he])
        exact .inl ⟨.error e, [], rfl, fun x hx => (by cases hx), .inr ⟨e, rfl, fun h => he ((triesOn_iff e).2 h), rfl⟩⟩

end NodeWorld

/-- C104: whatever other threads do, a question or a broadcast works with one list of services from beginning to end: the
one there was at first, if no connection to a node on its network had returned when it began, or one node alone, whose
connection had begun and had not been replaced by a later one. It calls the services of that list in order, and its end is
determined by what they gave to it, as in a program with one thread. -/
theorem C104_call (lists0 : Lists) (job : Nat → NodeJob) (schedule : List (Nat × Py α × Py Bool)) (i : Nat) (net : Net)
    (q : Query) (log post pre : List (NodeEvent α)) (hlog : ((NodeWorld.init lists0).run job schedule).log = log)
    (hb : log = post ++ .began i net q :: pre) :
    (job i = .ask net q ∨ (q = .broadcast ∧ job i = .broadcast net)) ∧
    ∃ source, SourceAfter lists0 net q pre source ∧ calledBy i log <+: source ∧
      (∀ r, .answered i r ∈ log → (repliesTo i log).length = (calledBy i log).length ∧
        Answers source.length (repliesTo i log) r) ∧
      (∀ r, .finished i r ∈ log → (receiptsOf i log).length = (calledBy i log).length ∧
        Broadcasts source.length (receiptsOf i log) r) := by
  have hg := NodeWorld.good_run lists0 job schedule
  have hin : .began i net q ∈ log := by
    rw [hb]
    exact List.mem_append_right _ List.mem_cons_self
  obtain ⟨source, h1, h2⟩ := hg.calls i net q post pre (hlog.trans hb)
  refine ⟨hg.known.jobAsk i net q (hlog ▸ hin), source, h1, ?_⟩
  have ha := hg.known.answered i
  have hf := hg.known.finished i
  unfold NodeWorld.CallOk at h2
  rw [hlog] at h2 ha hf
  split at h2
  · exact h2.elim
  · exact h2.elim
  · rename_i hph
    refine ⟨⟨_, h2.1⟩, fun r hr => ?_, fun r hr => ?_⟩
    · have := ha r hr
      rw [hph] at this
      cases this
    · have := hf r hr
      rw [hph] at this
      cases this
  · rename_i hph
    refine ⟨h2.1, fun r hr => ?_, fun r hr => ?_⟩
    · have := ha r hr
      rw [hph] at this
      cases this
    · have := hf r hr
      rw [hph] at this
      cases this
  · rename_i hph
    refine ⟨⟨_, h2.1⟩, fun r hr => ?_, fun r hr => ?_⟩
    · have := ha r hr
      rw [hph] at this
      cases this
    · have := hf r hr
      rw [hph] at this
      cases this
  · rename_i hph
    refine ⟨h2.1, fun r hr => ?_, fun r hr => ?_⟩
    · have := ha r hr
      rw [hph] at this
      cases this
    · have := hf r hr
      rw [hph] at this
      cases this
  · refine ⟨h2.1, fun r hr => ?_, fun r hr => ?_⟩
    · obtain ⟨h3, h4⟩ := h2.2.1 r hr
      exact ⟨h3, NodeWorld.answers_of _ _ _ (by rw [h3]; exact h2.1.length_le) (by rw [h3]; exact h4)⟩
    · obtain ⟨h3, h4⟩ := h2.2.2 r hr
      refine ⟨h3, ?_⟩
      have := NodeWorld.broadcasts_of _ r source.length none (by rw [h3]; exact h2.1.length_le) (by rw [h3]; exact h4)
      simpa [Broadcasts] using this

/-- C104: once a connection to a node has returned, and no other node has been connected to on that network, every question
and every broadcast that begins then calls this node alone. -/
theorem C104_settled (lists0 : Lists) (job : Nat → NodeJob) (schedule : List (Nat × Py α × Py Bool)) (i j n : Nat) (net : Net)
    (q : Query) (log post pre : List (NodeEvent α)) (hlog : ((NodeWorld.init lists0).run job schedule).log = log)
    (hb : log = post ++ .began i net q :: pre) (hc : .connected j n net ∈ pre)
    (honly : ∀ j' n', .connecting j' n' net ∈ pre → n' = n) : ∀ s ∈ calledBy i log, s = .node n := by
  obtain ⟨_, source, h1, h2, _⟩ := C104_call lists0 job schedule i net q log post pre hlog hb
  rcases h1 with ⟨_, h1⟩ | ⟨j', n', rfl, h3, _⟩
  · exact absurd hc (h1 j n)
  · intro s hs
    rw [List.mem_singleton.1 (h2.subset hs), honly j' n' h3]

/-- C104: a connection on one network changes nothing on the other. -/
theorem C104_other_network (lists0 : Lists) (job : Nat → NodeJob) (schedule : List (Nat × Py α × Py Bool)) (i : Nat) (net : Net)
    (q : Query) (log post pre : List (NodeEvent α)) (hlog : ((NodeWorld.init lists0).run job schedule).log = log)
    (hb : log = post ++ .began i net q :: pre)
    (hother : ∀ j n t, job j = .connect n t → net ≠ if t then .test else .main) : calledBy i log <+: lists0 net q := by
  obtain ⟨_, source, h1, h2, _⟩ := C104_call lists0 job schedule i net q log post pre hlog hb
  rcases h1 with ⟨rfl, _⟩ | ⟨j', n', rfl, h3, _⟩
  · exact h2
  · obtain ⟨t, h4, h5⟩ := (NodeWorld.good_run lists0 job schedule).known.jobConnect j' n' net (by
      rw [hlog, hb]
      exact List.mem_append_right _ (List.mem_cons_of_mem _ h3))
    exact absurd h5 (hother j' n' t h4)

/-- C104: a connection that no other thread interrupts does what it does in a program with one thread, whatever the others
have done before. -/
theorem C104_alone (job : Nat → NodeJob) (w : NodeWorld α) (k n : Nat) (t : Bool) (hj : job k = .connect n t)
    (hk : w.phase k = .start) (schedule : List (Nat × Py α × Py Bool)) (hlen : schedule.length = 7)
    (hall : ∀ a ∈ schedule, a.1 = k) :
    (w.run job schedule).lists = connectToNode w.lists n t ∧
    (w.run job schedule).log = .connected k n (if t then .test else .main) :: .connecting k n (if t then .test else .main) :: w.log ∧
    ∀ i, i ≠ k → (w.run job schedule).phase i = w.phase i := by
  obtain ⟨a1, a2, a3, a4, a5, a6, a7, rfl⟩ : ∃ a1 a2 a3 a4 a5 a6 a7, schedule = [a1, a2, a3, a4, a5, a6, a7] := by
    match schedule, hlen with
    | [a1, a2, a3, a4, a5, a6, a7], _ => exact ⟨_, _, _, _, _, _, _, rfl⟩
  simp only [List.mem_cons, List.not_mem_nil, or_false, forall_eq_or_imp, forall_eq] at hall
  obtain ⟨h1, h2, h3, h4, h5, h6, h7⟩ := hall
  cases t <;>
  · simp only [NodeWorld.run, List.foldl_cons, List.foldl_nil, h1, h2, h3, h4, h5, h6, h7]
    simp [NodeWorld.move, hk, hj, NodeWorld.goto, NodeWorld.see]
    refine ⟨?_, ?_⟩
    · funext net q
      cases net <;> cases q <;> simp [assignList, connectToNode]
    · intro i hi
      simp [hi]

/-- The threads of the two schedules below: two connections, two questions and a broadcast. -/
def tornJobs (n m : Nat) : Nat → NodeJob
  | 0 => .connect n false
  | 1 => .connect m false
  | 2 => .ask .main .balance
  | 3 => .ask .main .unspent
  | _ => .broadcast .main

/-- C104: two connections that run at the same time can leave the class with the coins from one node and the broadcast to
the other, and it stays so after both have returned: coins are then asked from the one and transactions given to the other. -/
theorem C104_torn (lists0 : Lists) (n m : Nat) (r : Py α) (hr : ∀ e, r = .error e → ¬ TriesOn e) :
    ∃ (schedule : List (Nat × Py α × Py Bool)) (post between pre : List (NodeEvent α)),
      let log := ((NodeWorld.init lists0).run (tornJobs n m) schedule).log
      log = post ++ .began 4 .main .broadcast :: between ++ .began 3 .main .unspent :: pre ∧
      .connected 0 n .main ∈ pre ∧ .connected 1 m .main ∈ pre ∧
      calledBy 3 log = [.node n] ∧ calledBy 4 log = [.node m] ∧
      .answered 3 r ∈ log ∧ .finished 4 .accepted ∈ log := by
  have hstep : ((NodeWorld.init lists0).run (tornJobs n m) ([0, 1, 0, 0, 0, 1, 1, 1, 1, 0, 0, 0, 1, 1, 3, 3, 3, 4, 4, 4].map
      fun i => (i, r, .ok true))).log =
      [.finished 4 .accepted, .given 4 (.node m) (.ok true)] ++ .began 4 .main .broadcast ::
        [.answered 3 r, .asked 3 (.node n) r] ++ .began 3 .main .unspent ::
        [.connected 1 m .main, .connected 0 n .main, .connecting 1 m .main, .connecting 0 n .main] := by
    cases r with
    | ok a => rfl
    | error e =>
      have he : networkIgnored e = false := by
        cases h : networkIgnored e with
        | false => rfl
        | true => exact absurd ((NodeWorld.triesOn_iff e).1 h) (hr e rfl)
      simp [NodeWorld.run, NodeWorld.move, NodeWorld.goto, NodeWorld.see, NodeWorld.init, tornJobs, assignList, he]
  refine ⟨_, _, _, _, hstep, ?_⟩
  rw [hstep]
  simp [calledBy]

/-- C104: while a connection is being made, the balance can come from the node and the coins, asked for later, still from the
services there were before. -/
theorem C104_between (lists0 : Lists) (n m : Nat) (r : Py α) (hr : ∀ e, r = .error e → ¬ TriesOn e) (s : Service)
    (rest : List Service) (hs : lists0 .main .unspent = s :: rest) :
    ∃ (schedule : List (Nat × Py α × Py Bool)) (post between pre : List (NodeEvent α)),
      let log := ((NodeWorld.init lists0).run (tornJobs n m) schedule).log
      log = post ++ .began 3 .main .unspent :: between ++ .began 2 .main .balance :: pre ∧
      calledBy 2 log = [.node n] ∧ calledBy 3 log = [s] ∧ .answered 2 r ∈ between ∧ .answered 3 r ∈ log := by
  have hstep : ((NodeWorld.init lists0).run (tornJobs n m) ([0, 0, 2, 2, 2, 3, 3, 3].map
      fun i => (i, r, .ok true))).log =
      [.answered 3 r, .asked 3 s r] ++ .began 3 .main .unspent ::
        [.answered 2 r, .asked 2 (.node n) r] ++ .began 2 .main .balance :: [.connecting 0 n .main] := by
    cases r with
    | ok a =>
      simp [NodeWorld.run, NodeWorld.move, NodeWorld.goto, NodeWorld.see, NodeWorld.init, tornJobs, assignList, hs]
    | error e =>
      have he : networkIgnored e = false := by
        cases h : networkIgnored e with
        | false => rfl
        | true => exact absurd ((NodeWorld.triesOn_iff e).1 h) (hr e rfl)
      simp [NodeWorld.run, NodeWorld.move, NodeWorld.goto, NodeWorld.see, NodeWorld.init, tornJobs, assignList, he, hs]
  refine ⟨_, _, _, _, hstep, ?_⟩
  rw [hstep]
  simp [calledBy]

/-- A question that began before the connection, failed at the first service and goes on with the second after the connection
has returned; a question that begins then; and one on the other network. -/
def nodeJobsEx : Nat → NodeJob
  | 0 => .connect 7 false
  | 1 => .ask .main .balance
  | 2 => .ask .main .balance
  | 3 => .ask .test .balance
  | _ => .broadcast .main

def nodeScheduleEx : List (Nat × Py Int × Py Bool) :=
  [(1, .ok 0, .ok true), (0, .ok 0, .ok true), (1, .error .requestsTimeout, .ok true), (0, .ok 0, .ok true), (0, .ok 0, .ok true),
   (0, .ok 0, .ok true), (0, .ok 0, .ok true), (0, .ok 0, .ok true), (0, .ok 0, .ok true), (2, .ok 0, .ok true), (2, .ok 40, .ok true),
   (1, .ok 50, .ok true), (1, .ok 0, .ok true), (2, .ok 0, .ok true), (3, .ok 0, .ok true), (3, .ok 60, .ok true), (3, .ok 0, .ok true),
   (4, .ok 0, .ok true), (4, .ok 0, .ok false), (4, .ok 0, .ok true), (4, .ok 0, .ok true)]

/-- what can be seen of them -/
example : ((NodeWorld.init initialLists).run nodeJobsEx nodeScheduleEx).log =
    [.finished 4 .failed, .given 4 (.node 7) (.ok false), .began 4 .main .broadcast,
     .answered 3 (.ok 60), .asked 3 .blockchair (.ok 60), .began 3 .test .balance, .answered 2 (.ok 40), .answered 1 (.ok 50),
     .asked 1 .blockstream (.ok 50), .asked 2 (.node 7) (.ok 40), .began 2 .main .balance, .connected 0 7 .main,
     .asked 1 .blockchair (.error .requestsTimeout), .connecting 0 7 .main, .began 1 .main .balance] := rfl

/-- the hypotheses of C104_settled for the thread 2 -/
example : ∀ s ∈ calledBy 2 ((NodeWorld.init initialLists).run nodeJobsEx nodeScheduleEx).log, s = .node 7 :=
  C104_settled initialLists nodeJobsEx nodeScheduleEx 2 0 7 .main .balance _
    [.finished 4 .failed, .given 4 (.node 7) (.ok false), .began 4 .main .broadcast,
     .answered 3 (.ok 60), .asked 3 .blockchair (.ok 60), .began 3 .test .balance, .answered 2 (.ok 40), .answered 1 (.ok 50),
     .asked 1 .blockstream (.ok 50), .asked 2 (.node 7) (.ok 40)]
    [.connected 0 7 .main, .asked 1 .blockchair (.error .requestsTimeout), .connecting 0 7 .main, .began 1 .main .balance]
    rfl rfl List.mem_cons_self (by simp)

/-- the hypotheses of C104_other_network for the thread 3 -/
example : calledBy 3 ((NodeWorld.init initialLists).run nodeJobsEx nodeScheduleEx).log <+:
    [.blockchair, .blockstream, .bitcore, .smartbit] := by
  refine C104_other_network initialLists nodeJobsEx nodeScheduleEx 3 .test .balance _
    [.finished 4 .failed, .given 4 (.node 7) (.ok false), .began 4 .main .broadcast,
     .answered 3 (.ok 60), .asked 3 .blockchair (.ok 60)] _ rfl rfl ?_
  intro j n t h
  match j, h with
  | 0, h =>
    cases h
    simp
  | 1, h => cases h
  | 2, h => cases h
  | 3, h => cases h
  | j + 4, h => cases h

/-- the hypotheses of C104_alone -/
example : ((NodeWorld.init (α := Int) initialLists).run nodeJobsEx (List.replicate 7 (0, .ok 0, .ok true))).lists =
    connectToNode initialLists 7 false :=
  (C104_alone nodeJobsEx _ 0 7 false rfl rfl _ rfl (by simp)).1

/-- the hypotheses of C104_torn and C104_between -/
example : (∀ e, (.ok 5 : Py Int) = .error e → ¬ TriesOn e) ∧
    initialLists .main .unspent = .blockstream :: [.blockchair, .smartbit, .blockchain, .bitcore] :=
  ⟨fun _ h => (by cases h), rfl⟩

end Bit
