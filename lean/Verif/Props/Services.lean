import Verif.Lemmas.Web
import Verif.Lemmas.Sort
import Mathlib.Data.List.Induction
/-
C59: failover between services. C60: broadcast. C61: connecting to a node.
-/
namespace Bit

/-! ## C59 -/

/-- C59. The answer of the first service that does not fail with an ignored error is the result, an answer
as well as an error; the services after it are not called. If there is none, every service is called once
and the result is `ConnectionError`. -/
theorem C59_first_answer {α : Type} (ignored : PyErr → Bool) (outcomes : List (Py α)) :
    (∃ (failed : List PyErr) (r : Py α) (rest : List (Py α)),
      outcomes = failed.map .error ++ r :: rest ∧ (∀ e ∈ failed, ignored e = true) ∧
      (∀ e, r = .error e → ignored e = false) ∧ firstAnswer ignored outcomes = (failed.length + 1, r)) ∨
    (∃ failed : List PyErr, outcomes = failed.map .error ∧ (∀ e ∈ failed, ignored e = true) ∧
      firstAnswer ignored outcomes = (outcomes.length, .error .connectionError)) := by
  induction outcomes with
  | nil => right; exact ⟨[], rfl, by simp, rfl⟩
  | cons o os ih =>
    cases o with
    | ok a => left; exact ⟨[], .ok a, os, rfl, by simp, by simp, rfl⟩
    | error e =>
      cases hi : ignored e with
      | false =>
        left
        refine ⟨[], .error e, os, rfl, by simp, ?_, by unfold firstAnswer; rw [hi]; rfl⟩
        intro e' he'
        simp only [Except.error.injEq] at he'
        rw [← he', hi]
      | true =>
        have hstep : firstAnswer ignored (.error e :: os) = ((firstAnswer ignored os).1 + 1, (firstAnswer ignored os).2) := by
          simp only [firstAnswer, hi, if_true]
        rcases ih with ⟨failed, r, rest, h1, h2, h3, h4⟩ | ⟨failed, h1, h2, h3⟩
        · left
          refine ⟨e :: failed, r, rest, by rw [h1]; rfl, ?_, h3, by rw [hstep, h4]; rfl⟩
          intro x hx
          rcases List.mem_cons.mp hx with rfl | hx
          · exact hi
          · exact h2 x hx
        · right
          refine ⟨e :: failed, by rw [h1]; rfl, ?_, by rw [hstep, h3]; rfl⟩
          intro x hx
          rcases List.mem_cons.mp hx with rfl | hx
          · exact hi
          · exact h2 x hx

/-- C59. If builtin `ConnectionError` is itself an ignored error, as it is in `NetworkAPI`, a query raises
it exactly when every service fails with an ignored error. -/
theorem C59_connection_error {α : Type} (ignored : PyErr → Bool) (hi : ignored .connectionError = true)
    (outcomes : List (Py α)) :
    (firstAnswer ignored outcomes).2 = .error .connectionError ↔
      ∀ o ∈ outcomes, ∃ e, o = .error e ∧ ignored e = true := by
  rcases C59_first_answer ignored outcomes with ⟨failed, r, rest, h1, h2, h3, h4⟩ | ⟨failed, h1, h2, h3⟩
  · rw [h4]
    constructor
    · intro h
      have := h3 _ h
      rw [hi] at this
      cases this
    · intro h
      obtain ⟨e, he, hie⟩ := h r (by rw [h1]; simp)
      rw [h3 e he] at hie
      cases hie
  · rw [h3]
    refine ⟨fun _ o ho => ?_, fun _ => rfl⟩
    rw [h1, List.mem_map] at ho
    obtain ⟨e, he, rfl⟩ := ho
    exact ⟨e, rfl, h2 e he⟩

/-- C59. The errors that make a network query go on to the next service. -/
theorem C59_ignored (e : PyErr) : networkIgnored e = true ↔
    e = .connectionError ∨ e = .requestsConnection ∨ e = .requestsTimeout ∨ e = .excessiveAddress := by
  cases e <;> simp [networkIgnored]

/-- C59. The errors that make a query for an exchange rate go on to the next service. -/
theorem C59_rates_ignored (e : PyErr) : ratesIgnored e = true ↔
    e = .requestsConnection ∨ e = .requestsHTTP ∨ e = .requestsTimeout := by
  cases e <;> simp [ratesIgnored]

/-- A case: the first service times out, the second answers. -/
example : ask (α := Int) initialLists .main .balance
    (fun s => if s = .blockchair then .error .requestsTimeout else if s = .blockstream then .ok 7 else .ok 8) =
    (2, .ok 7) := by decide

/-- Limitation. An HTTP error of Bitcore, whose `get_balance` calls `raise_for_status`
(bit/network/services.py:617), is not ignored: the query fails although the services after it would
answer. -/
theorem C59_http_error_aborts (world : Service → Py Int)
    (h1 : world .blockchair = .error .connectionError) (h2 : world .blockstream = .error .connectionError)
    (h3 : world .bitcore = .error .requestsHTTP) :
    ask initialLists .main .balance world = (3, .error .requestsHTTP) := by
  simp [ask, initialLists, firstAnswer, h1, h2, h3, networkIgnored]

/-! ## C60 -/

/-- The service does not accept, and the broadcast goes on to the next one. -/
def Passed (o : Py Bool) : Prop := o = .ok false ∨ ∃ e, o = .error e ∧ networkIgnored e = true

/-- The four ways a broadcast can end. -/
def BroadcastCases (success : Option Bool) (outcomes : List (Py Bool)) : Prop :=
    (∃ pre rest, outcomes = pre ++ .ok true :: rest ∧ (∀ o ∈ pre, Passed o) ∧
      broadcastLoop success outcomes = (pre.length + 1, .accepted)) ∨
    (∃ pre e rest, outcomes = pre ++ .error e :: rest ∧ (∀ o ∈ pre, Passed o) ∧ networkIgnored e = false ∧
      broadcastLoop success outcomes = (pre.length + 1, .raised e)) ∨
    ((∀ o ∈ outcomes, Passed o) ∧ (success = some false ∨ .ok false ∈ outcomes) ∧
      broadcastLoop success outcomes = (outcomes.length, .failed)) ∨
    ((∀ o ∈ outcomes, ∃ e, o = .error e ∧ networkIgnored e = true) ∧ success = none ∧
      broadcastLoop success outcomes = (outcomes.length, .unreachable))

theorem broadcastLoop_spec (success : Option Bool) (hs : success ≠ some true) (outcomes : List (Py Bool)) :
    BroadcastCases success outcomes := by
  induction outcomes generalizing success with
  | nil =>
    right; right
    rcases success with _ | b
    · right; exact ⟨by simp, rfl, rfl⟩
    · cases b
      · left; exact ⟨by simp, .inl rfl, rfl⟩
      · exact absurd rfl hs
  | cons o os ih =>
    have step : ∀ (s : Option Bool), s ≠ some true → Passed o → (s = some false → success = some false ∨ o = .ok false) →
        (s = none → success = none ∧ ∃ e, o = .error e ∧ networkIgnored e = true) →
        broadcastLoop success (o :: os) = ((broadcastLoop s os).1 + 1, (broadcastLoop s os).2) →
        BroadcastCases success (o :: os) := by
      intro s hs' ho hf hn hstep
      rcases ih s hs' with ⟨pre, rest, h1, h2, h3⟩ | ⟨pre, e, rest, h1, h2, h3, h4⟩ | ⟨h1, h2, h3⟩ | ⟨h1, h2, h3⟩
      · left
        refine ⟨o :: pre, rest, by rw [h1]; rfl, ?_, by rw [hstep, h3]; rfl⟩
        intro x hx
        rcases List.mem_cons.mp hx with rfl | hx
        · exact ho
        · exact h2 x hx
      · right; left
        refine ⟨o :: pre, e, rest, by rw [h1]; rfl, ?_, h3, by rw [hstep, h4]; rfl⟩
        intro x hx
        rcases List.mem_cons.mp hx with rfl | hx
        · exact ho
        · exact h2 x hx
      · right; right; left
        refine ⟨?_, ?_, by rw [hstep, h3]; rfl⟩
        · intro x hx
          rcases List.mem_cons.mp hx with rfl | hx
          · exact ho
          · exact h1 x hx
        · rcases h2 with h2 | h2
          · rcases hf h2 with h | h
            · exact .inl h
            · exact .inr (by rw [h]; exact List.mem_cons_self)
          · exact .inr (List.mem_cons_of_mem _ h2)
      · right; right; right
        refine ⟨?_, (hn h2).1, by rw [hstep, h3]; rfl⟩
        intro x hx
        rcases List.mem_cons.mp hx with rfl | hx
        · exact (hn h2).2
        · exact h1 x hx
    cases o with
    | ok b =>
      cases b with
      | true => left; exact ⟨[], os, rfl, by simp, rfl⟩
      | false =>
        exact step (some false) (by simp) (.inl rfl) (fun _ => .inr rfl) (by simp) rfl
    | error e =>
      cases hi : networkIgnored e with
      | false =>
        right; left
        exact ⟨[], e, os, rfl, by simp, hi, by unfold broadcastLoop; rw [hi]; rfl⟩
      | true =>
        exact step success hs (.inr ⟨e, rfl, hi⟩) (fun h => .inl h) (fun h => ⟨h, e, rfl, hi⟩)
          (by simp only [broadcastLoop, hi, if_true])

/-- C60. Broadcast returns exactly when some service accepts and all before it refuse or fail with an
ignored error; that service is the last one called. An error that is not ignored, before any acceptance,
passes through. Otherwise every service is called once and `ConnectionError` is raised, with the message
that the broadcast failed if some service answered that it did, and else that no service is reachable. -/
theorem C60_broadcast (lists : Lists) (net : Net) (world : Service → Py Bool) :
    let outcomes := (lists net .broadcast).map world
    (∃ pre rest, outcomes = pre ++ .ok true :: rest ∧ (∀ o ∈ pre, Passed o) ∧
      broadcastTx lists net world = (pre.length + 1, .accepted)) ∨
    (∃ pre e rest, outcomes = pre ++ .error e :: rest ∧ (∀ o ∈ pre, Passed o) ∧ networkIgnored e = false ∧
      broadcastTx lists net world = (pre.length + 1, .raised e)) ∨
    ((∀ o ∈ outcomes, Passed o) ∧ .ok false ∈ outcomes ∧
      broadcastTx lists net world = (outcomes.length, .failed)) ∨
    ((∀ o ∈ outcomes, ∃ e, o = .error e ∧ networkIgnored e = true) ∧
      broadcastTx lists net world = (outcomes.length, .unreachable)) := by
  intro outcomes
  rcases broadcastLoop_spec none (by simp) outcomes with h | h | ⟨h1, h2, h3⟩ | ⟨h1, _, h3⟩
  · exact .inl h
  · exact .inr (.inl h)
  · refine .inr (.inr (.inl ⟨h1, ?_, h3⟩))
    rcases h2 with h2 | h2
    · cases h2
    · exact h2
  · exact .inr (.inr (.inr ⟨h1, h3⟩))

/-- A case: one service refuses, the others cannot be reached. -/
example : broadcastTx initialLists .main
    (fun s => if s = .blockstream then .ok false else .error .requestsTimeout) = (5, .failed) := by decide

/-- C60. A node that answers with an error refuses the transaction; it does not raise. -/
theorem C60_node_refusal {rpc : Rpc} {text : Str} {r : Reply}
    (hr : rpc "sendrawtransaction".toList [.str text] = .ok r) (hstatus : r.status = 200 ∨ r.status = 500)
    {j err : Json} (hj : r.json = .ok j) (herr : Spec.At j [Spec.name "error"] err) (hnull : err ≠ .null) :
    nodeBroadcast rpc text = .ok false := by
  have : rpcCall rpc "sendrawtransaction".toList [.str text] = .error .nodeException := by
    unfold rpcCall
    rw [hr]
    dsimp only
    rw [if_pos hstatus, hj, ok_bind, show j.has "error".toList = _ from herr.has, ok_bind, if_pos rfl,
      show j.get "error".toList = _ from herr.get, ok_bind]
    cases err with
    | null => exact absurd rfl hnull
    | _ => rfl
  unfold nodeBroadcast
  rw [this]

/-- C60. A node that answers without an error accepts it. -/
theorem C60_node_accepts {rpc : Rpc} {text : Str} {r : Reply}
    (hr : rpc "sendrawtransaction".toList [.str text] = .ok r) (hstatus : r.status = 200)
    {j result : Json} (hj : r.json = .ok j) (herr : Spec.At j [Spec.name "error"] .null)
    (hresult : Spec.At j [Spec.name "result"] result) : nodeBroadcast rpc text = .ok true := by
  have : rpcCall rpc "sendrawtransaction".toList [.str text] = .ok result := by
    unfold rpcCall
    rw [hr]
    dsimp only
    rw [if_pos (.inl hstatus), hj, ok_bind, show j.has "error".toList = _ from herr.has, ok_bind, if_pos rfl,
      show j.get "error".toList = _ from herr.get, ok_bind]
    exact hresult.get
  unfold nodeBroadcast
  rw [this]

/-- A case: the reply of a node to a transaction that spends a spent output. -/
example : nodeBroadcast (fun _ _ => .ok ⟨500, [], .ok (.obj [("result".toList, .null),
    ("error".toList, .obj [("code".toList, .int (-25)), ("message".toList, .str "bad-txns-inputs-missingorspent".toList)])])⟩)
    "00".toList = .ok false :=
  C60_node_refusal rfl (.inr rfl) rfl (.step rfl (.here _)) (by simp)

/-! ## C61 -/

/-- The lists after a history of connections: the name of the node and whether it is for the test
network. -/
def connected : List (Nat × Bool) → Lists := List.foldl (fun lists c => connectToNode lists c.1 c.2) initialLists

/-- The node last connected for a network. -/
def lastNode (net : Net) (history : List (Nat × Bool)) : Option Nat :=
  ((history.filter fun c => c.2 == (net == .test)).getLast?).map (·.1)

theorem connectToNode_same (lists : Lists) (n : Nat) (net : Net) (q : Query) :
    connectToNode lists n (net == .test) net q = [.node n] := by
  cases net <;> cases q <;> rfl

theorem connectToNode_other (lists : Lists) (n : Nat) (net : Net) (q : Query) (t : Bool) (h : (t == (net == .test)) = false) :
    connectToNode lists n t net q = lists net q := by
  revert h
  cases net <;> cases t <;> cases q <;> intro h <;> first | rfl | cases h

/-- C61. After any history of connections, every query on a network goes to the node last connected for
that network and to no other service; without one it goes to the initial services. Connections for the
other network make no difference. -/
theorem C61_connected (history : List (Nat × Bool)) (net : Net) (q : Query) :
    connected history net q =
      match lastNode net history with
      | some n => [.node n]
      | none => initialLists net q := by
  unfold connected lastNode
  induction history using List.reverseRecOn with
  | nil => rfl
  | append_singleton h c ih =>
    rw [List.foldl_append, List.filter_append]
    obtain ⟨n, t⟩ := c
    cases ht : t == (net == .test) with
    | true =>
      have : t = (net == .test) := by simpa using ht
      subst this
      simp only [List.foldl_cons, List.foldl_nil, connectToNode_same]
      rw [List.filter_cons_of_pos (by simp), List.getLast?_append]
      rfl
    | false =>
      rw [List.filter_cons_of_neg (by simp [ht])]
      simp only [List.foldl_cons, List.foldl_nil, List.filter_nil, List.append_nil]
      rw [connectToNode_other _ _ _ _ _ ht]
      exact ih

/-- C61. Then a query has the outcome of the call to that node, and makes no other call. A failure with an
ignored error is a `ConnectionError`. -/
theorem C61_query {α : Type} (history : List (Nat × Bool)) (net : Net) (q : Query) (n : Nat)
    (h : lastNode net history = some n) (world : Service → Py α) :
    ask (connected history) net q world = (1,
      match world (.node n) with
      | .ok a => .ok a
      | .error e => .error (if networkIgnored e then .connectionError else e)) := by
  unfold ask
  rw [C61_connected, h]
  rw [show [Service.node n].map world = [world (.node n)] from rfl]
  cases world (.node n) with
  | ok a => rfl
  | error e => cases hi : networkIgnored e <;> simp [firstAnswer, hi]

/-- A case: two connections for the main network and one for the test network. -/
example : lastNode .main [(1, false), (2, true), (3, false)] = some 3 ∧
    lastNode .test [(1, false), (2, true), (3, false)] = some 2 ∧
    connected [(1, false), (2, true), (3, false)] .main .unspent = [.node 3] := by decide

end Bit
