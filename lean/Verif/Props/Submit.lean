import Verif.Props.Web
import Verif.Spec.Submit
/-
C69: where transactions are sent to. C70: transactions by id. C71: queries to a node.
-/
namespace Bit
open Bit.Spec (At name Gives Answers AnswersText Account Coin Submits TruthfulTx NodeAnswers)

/-! ## C69 -/

theorem pushRequest_submits {net : Net} {s : Service} (hs : s ∈ initialLists net .broadcast) (text : Str) :
    ∃ r, pushRequest net s text = some r ∧ Submits net text r := by
  cases net with
  | main =>
    simp only [initialLists, List.mem_cons, List.not_mem_nil, or_false] at hs
    rcases hs with rfl | rfl | rfl | rfl | rfl
    · exact ⟨_, rfl, _, _, [], by decide, .inl rfl⟩
    · exact ⟨_, rfl, _, _, [], by decide, .inl rfl⟩
    · exact ⟨_, rfl, _, _, [], by decide, .inl rfl⟩
    · exact ⟨_, rfl, _, _, [], by decide, .inr rfl⟩
    · exact ⟨_, rfl, _, _, [], by decide, .inl rfl⟩
  | test =>
    simp only [initialLists, List.mem_cons, List.not_mem_nil, or_false] at hs
    rcases hs with rfl | rfl | rfl | rfl
    · exact ⟨_, rfl, _, _, [], by decide, .inl rfl⟩
    · exact ⟨_, rfl, _, _, [], by decide, .inl rfl⟩
    · exact ⟨_, rfl, _, _, _, by decide, .inr rfl⟩
    · exact ⟨_, rfl, _, _, [], by decide, .inr rfl⟩

theorem initialLists_noNode {net : Net} {q : Query} {s : Service} (hs : s ∈ initialLists net q) (n : Nat) :
    s ≠ .node n := by
  rintro rfl
  revert hs
  cases net <;> cases q <;> simp [initialLists]

theorem servicePush_web {o : Outside} {net : Net} {s : Service} (hs : s ∈ initialLists net .broadcast) (text : Str) :
    ∃ r, Submits net text r ∧ servicePush o net s text =
      match o.web r with
      | .error e => .error e
      | .ok reply => .ok (reply.status == 200) := by
  obtain ⟨r, h1, h2⟩ := pushRequest_submits hs text
  refine ⟨r, h2, ?_⟩
  cases s with
  | node n => exact absurd rfl (initialLists_noNode hs n)
  | _ =>
    unfold servicePush
    dsimp only
    rw [h1]
    rfl

/-- C69. No request submits a transaction to both networks. -/
theorem C69_networks_apart (text text' : Str) (r : Request) : ¬ (Submits .main text r ∧ Submits .test text' r) := by
  rintro ⟨⟨url, field, rest, h1, h2⟩, ⟨url', field', rest', h3, h4⟩⟩
  have hurl : url = url' := by
    rcases h2 with rfl | rfl <;> rcases h4 with h4 | h4 <;> cases h4 <;> rfl
  subst hurl
  have : ∀ p ∈ Spec.submitUrls .main, ∀ q ∈ Spec.submitUrls .test, p.1 ≠ q.1 := by decide
  exact this _ h1 _ h3 rfl

/-- C69. A broadcast over the services of a network that returns: some request that submits exactly this text to this
network was answered with status 200. -/
theorem C69_accepted (o : Outside) {lists : Lists} {net : Net} (hl : lists net = initialLists net) (text : Str)
    (h : (pushAll (servicePush o net) text none (lists net .broadcast)).2 = .accepted) :
    ∃ r reply, Submits net text r ∧ o.web r = .ok reply ∧ reply.status = 200 := by
  rw [hl] at h
  rcases pushAll_cases (servicePush o net) text none (initialLists net .broadcast) with
    ⟨pre, s, rest, h1, -, h3, -⟩ | ⟨pre, s, rest, e, -, -, -, -, h5⟩ | ⟨-, r, h2, h3⟩
  · obtain ⟨r, h4, h5⟩ := servicePush_web (o := o) (net := net) (s := s) (by rw [h1]; simp) text
    rw [h5] at h3
    cases hw : o.web r with
    | error e => rw [hw] at h3; cases h3
    | ok reply =>
      rw [hw] at h3
      refine ⟨r, reply, h4, hw, ?_⟩
      have := Except.ok.inj h3
      simpa using this
  · rw [h5] at h
    cases h
  · rw [h3] at h
    rcases h2 with rfl | rfl <;> cases h

theorem pushAll_congr {push push' : Service → Str → Py Bool} {text : Str} {l : List Service}
    (h : ∀ s ∈ l, push s text = push' s text) (success : Option Bool) :
    pushAll push text success l = pushAll push' text success l := by
  induction l generalizing success with
  | nil => rfl
  | cons s l ih =>
    have ih := fun success => ih (fun s hs => h s (List.mem_cons_of_mem _ hs)) success
    unfold pushAll
    rw [h s List.mem_cons_self]
    cases push' s text with
    | error e => dsimp only; rw [ih]
    | ok b =>
      cases b with
      | true => rfl
      | false => dsimp only; rw [ih]

/-- C69. A broadcast uses no other requests: its calls and its result are the same for any two worlds that agree on the
requests that submit this text to this network. In particular a transaction of one network is never offered to the
other. -/
theorem C69_only_submits (o o' : Outside) {lists : Lists} {net : Net} (hl : lists net = initialLists net) (text : Str)
    (h : ∀ r, Submits net text r → o.web r = o'.web r) :
    pushAll (servicePush o net) text none (lists net .broadcast) =
      pushAll (servicePush o' net) text none (lists net .broadcast) := by
  rw [hl]
  refine pushAll_congr (fun s hs => ?_) none
  obtain ⟨r, h1, h2⟩ := pushRequest_submits hs text
  cases s with
  | node n => exact absurd rfl (initialLists_noNode hs n)
  | _ =>
    unfold servicePush
    dsimp only
    rw [h1]
    dsimp only
    rw [h r h2]

/-- C69. With a node connected, the node is the only one that is given the transaction. -/
theorem C69_node (o : Outside) (history : List (Nat × Bool)) (net : Net) (n : Nat)
    (hn : lastNode net history = some n) (text : Str)
    (h : (pushAll (servicePush o net) text none (connected history net .broadcast)).2 = .accepted) :
    (pushAll (servicePush o net) text none (connected history net .broadcast)).1 = [(.node n, text)] ∧
    ∃ v, rpcCall (o.rpc n) (name "sendrawtransaction") [.str text] = .ok v := by
  rw [C61_connected, hn] at h ⊢
  dsimp only at h ⊢
  unfold pushAll at h ⊢
  cases hp : servicePush o net (.node n) text with
  | error e =>
    rw [hp] at h
    dsimp only at h
    split at h <;> cases h
  | ok b =>
    rw [hp] at h
    cases b with
    | false => cases h
    | true =>
      refine ⟨rfl, ?_⟩
      have hp : nodeBroadcast (o.rpc n) text = .ok true := hp
      unfold nodeBroadcast at hp
      cases hr : rpcCall (o.rpc n) (name "sendrawtransaction") [.str text] with
      | ok v => exact ⟨v, rfl⟩
      | error e =>
        rw [show rpcCall (o.rpc n) "sendrawtransaction".toList [.str text] = _ from hr] at hp
        cases e <;> cases hp

/-- A case: the first service refuses, the second takes the transaction. -/
example : (pushAll (servicePush ⟨fun r => .ok ⟨if r = .post "https://blockstream.info/api/tx".toList
    [("data".toList, "00".toList)] then 200 else 400, [], .error .valueError⟩, fun _ _ _ => .error .requestsTimeout⟩ .main)
    "00".toList none (initialLists .main .broadcast)) =
    ([(.blockchair, "00".toList), (.blockstream, "00".toList)], .accepted) := by decide +kernel

/-- Limitation. On the test network Bitcore is told that the coin is `BCH`. -/
theorem C69_bitcore_test_coin (text : Str) : ∃ url fields, pushRequest .test .bitcore text = some (.postJson url fields) ∧
    ("coin".toList, "BCH".toList) ∈ fields := ⟨_, _, rfl, by simp⟩

/-! ## C70 -/

theorem answers_text {up : Bool} {failure : Reply → Prop} {r : Py Reply} {text : Str} (h : AnswersText up failure r text)
    {f : Reply → Py (Option Str)} (hok : ∀ j, f ⟨200, text, j⟩ = .ok (some text))
    (hfail : ∀ reply, failure reply → ∃ e, f reply = .error e) : Gives up (r >>= f) (· = some text) := by
  rcases h with ⟨j, rfl⟩ | ⟨hu, ⟨e, rfl⟩ | ⟨reply, rfl, hf⟩⟩
  · exact .inl ⟨_, hok j, rfl⟩
  · exact .inr ⟨hu, e, rfl⟩
  · exact .inr ⟨hu, hfail reply hf⟩

theorem truthy_of_at {j : Json} {key : Str} {keys : List Str} {v : Json} (h : At j (key :: keys) v) : j.truthy = true := by
  cases h with
  | step hl _ =>
    rename_i l _ _
    cases l with
    | nil => cases hl
    | cons => rfl

theorem C70_blockchair {up : Bool} {web : Web} {net : Net} {txid : Str} {tx : Option Str}
    (h : Spec.BlockchairTx up web net txid tx) : Gives up (blockchairById web net txid) (· = tx) := by
  have hurl : blockchairBase net ++ "raw/transaction/".toList ++ txid = Spec.blockchairTxUrl net txid := by
    cases net <;> exact congrArg (· ++ txid) (by decide)
  unfold Spec.BlockchairTx at h
  rw [← hurl] at h
  unfold blockchairById
  cases tx with
  | some text =>
    refine (answers_special h (by decide) fun j hj => .inl ?_).gives rfl
    obtain ⟨data, h1, h2⟩ := hj.split [name "data"]
    have h1 : j.get "data".toList = .ok data := by
      unfold Json.path at h1
      cases hg : j.get "data".toList with
      | error e => rw [show j.get (name "data") = _ from hg] at h1; cases h1
      | ok v =>
        rw [show j.get (name "data") = _ from hg] at h1
        cases h1
        rfl
    rw [h1, ok_bind, if_pos (truthy_of_at h2), show data.path [txid, "raw_transaction".toList] = _ from h2.path, ok_bind]
    rfl
  | none =>
    rcases h with ⟨reply, hr, hs⟩ | h
    · left
      refine ⟨none, ?_, rfl⟩
      rw [hr, ok_bind, if_pos hs]
    · refine (answers_special h (by decide) fun j hj => .inl ?_).gives rfl
      rcases hj with hj | hj | hj <;>
        rw [show j.get "data".toList = _ from hj.get, ok_bind, if_neg (by simp [Json.truthy])]

theorem C70_blockstream {up : Bool} {web : Web} {net : Net} {txid : Str} {tx : Option Str}
    (h : Spec.BlockstreamTx up web net txid tx) : Gives up (blockstreamById web net txid) (· = tx) := by
  have hurl : blockstreamBase net ++ "tx/".toList ++ txid ++ "/hex".toList =
      Spec.blockstreamUrl net ++ name "tx/" ++ txid ++ name "/hex" := by
    cases net <;> rfl
  unfold Spec.BlockstreamTx at h
  rw [← hurl] at h
  unfold blockstreamById
  cases tx with
  | some text =>
    refine answers_text h (fun j => ?_) fun reply hf => ?_
    · rw [if_neg (by simp), if_neg (by simp)]
    · rw [if_neg hf.2, if_pos hf.1]
      exact ⟨_, rfl⟩
  | none =>
    rcases h with ⟨reply, hr, hs⟩ | ⟨hu, ⟨e, hr⟩ | ⟨reply, hr, hs⟩⟩
    · rw [hr, ok_bind, if_pos hs]
      exact .inl ⟨_, rfl, rfl⟩
    · rw [hr]
      exact .inr ⟨hu, e, rfl⟩
    · rw [hr, ok_bind]
      split
      · exact .inl ⟨_, rfl, rfl⟩
      · exact .inr ⟨hu, _, rfl⟩

theorem C70_smartbit {up : Bool} {web : Web} {net : Net} {txid : Str} {tx : Option Str}
    (h : Spec.SmartbitTx up web net txid tx) : Gives up (smartbitById web net txid) (· = tx) := by
  have hurl : smartbitBase net ++ "tx/".toList ++ txid ++ "/hex".toList ++ "?limit=1000".toList =
      Spec.smartbitTxUrl net txid := by
    rw [List.append_assoc (_ ++ txid)]
    cases net <;> exact congrArg (· ++ txid ++ name "/hex?limit=1000") (by decide)
  unfold Spec.SmartbitTx at h
  rw [← hurl] at h
  unfold smartbitById
  cases tx with
  | some text =>
    refine (answers_special h (by decide) fun j hj => .inl ?_).gives rfl
    obtain ⟨x, l, h1, h2⟩ := hj
    rw [show j.get "hex".toList = _ from h1.get, ok_bind, items_arr, ok_bind]
    dsimp only
    rw [show x.get "hex".toList = _ from h2.get, ok_bind]
    rfl
  | none =>
    rcases h with ⟨reply, hr, hs⟩ | ⟨hu, ⟨e, hr⟩ | ⟨reply, hr, hs⟩⟩
    · rw [hr, ok_bind, if_pos hs]
      exact .inl ⟨_, rfl, rfl⟩
    · rw [hr]
      exact .inr ⟨hu, e, rfl⟩
    · rw [hr, ok_bind]
      split
      · exact .inl ⟨_, rfl, rfl⟩
      · obtain ⟨e, he⟩ := okJson_notOk (.inl hs)
        rw [he]
        exact .inr ⟨hu, _, rfl⟩

theorem C70_blockchain {up : Bool} {web : Web} {txid : Str} {tx : Option Str}
    (h : Spec.BlockchainTx up web txid tx) : Gives up (blockchainById web txid) (· = tx) := by
  have hurl : blockchainBase ++ "rawtx/".toList ++ txid ++ "?limit=0&format=hex".toList =
      "https://blockchain.info/rawtx/".toList ++ txid ++ name "?limit=0&format=hex" := by
    exact congrArg (· ++ txid ++ name "?limit=0&format=hex") (by decide)
  unfold Spec.BlockchainTx at h
  rw [← hurl] at h
  unfold blockchainById
  cases tx with
  | some text =>
    refine answers_text h (fun j => ?_) fun reply hf => ?_
    · rw [if_neg (by simp), if_neg (by simp)]
    · rw [if_neg (show ¬ (reply.status = 500 ∧ reply.text = "Transaction not found".toList) from hf.2),
        if_pos (show reply.status ≠ 200 from hf.1)]
      exact ⟨_, rfl⟩
  | none =>
    rcases h with ⟨j, hr⟩ | ⟨hu, ⟨e, hr⟩ | ⟨reply, hr, hs⟩⟩
    · rw [hr, ok_bind, if_pos ⟨rfl, rfl⟩]
      exact .inl ⟨_, rfl, rfl⟩
    · rw [hr]
      exact .inr ⟨hu, e, rfl⟩
    · rw [hr, ok_bind]
      split
      · exact .inl ⟨_, rfl, rfl⟩
      · exact .inr ⟨hu, _, rfl⟩

/-- C70. If the services tell the truth about a transaction id whenever they answer, the query gives the text of the
transaction, or `None` if there is none with the id; or it raises. If they all answer it does not raise. -/
theorem C70_by_id {up : Bool} {o : Outside} {net : Net} {txid : Str} {tx : Option Str}
    (h : TruthfulTx up o.web net txid tx) {lists : Lists} (hl : lists net = initialLists net) :
    Gives up (networkById o lists net txid) (· = tx) := by
  have key : ∀ s ∈ initialLists net .transactionById, Gives up (serviceById o net txid s) (· = tx) := by
    intro s hs
    cases s with
    | blockchair => exact C70_blockchair h.blockchair
    | blockstream => exact C70_blockstream h.blockstream
    | bitcore => exfalso; revert hs; cases net <;> simp [initialLists]
    | smartbit => exact C70_smartbit h.smartbit
    | blockchain =>
      cases net with
      | main => exact C70_blockchain (h.blockchain rfl)
      | test => exfalso; revert hs; simp [initialLists]
    | node n => exact absurd rfl (initialLists_noNode hs n)
  have rest : ∀ l : List Service, (∀ s ∈ l, s ∈ initialLists net .transactionById) →
      ∀ r ∈ l.map (serviceById o net txid), Gives false r (· = tx) := by
    intro l hl r hr
    obtain ⟨s, hs, rfl⟩ := List.mem_map.1 hr
    exact (key s (hl s hs)).weaken
  unfold networkById ask
  rw [hl]
  cases net with
  | main =>
    exact firstAnswer_up _ _ _ (key .blockchair (by simp [initialLists]))
      (rest [.blockstream, .smartbit, .blockchain] (by simp [initialLists]))
  | test =>
    exact firstAnswer_up _ _ _ (key .blockchair (by simp [initialLists]))
      (rest [.blockstream, .smartbit] (by simp [initialLists]))

/-- A case: Blockchair does not answer, Blockstream knows the transaction, the others answer with an error. -/
def webT : Web
  | .get url _ =>
    if url = "https://blockstream.info/api/tx/aa/hex".toList then .ok ⟨200, "0100".toList, .error .valueError⟩
    else if url = "https://api.blockchair.com/bitcoin/raw/transaction/aa".toList then .error .requestsTimeout
    else .ok ⟨503, [], .error .valueError⟩
  | _ => .error .requestsConnection

example : TruthfulTx false webT .main "aa".toList (some "0100".toList) ∧
    networkById ⟨webT, fun _ _ _ => .error .requestsTimeout⟩ initialLists .main "aa".toList = .ok (some "0100".toList) := by
  have h1 : webT (.get (Spec.blockchairTxUrl .main "aa".toList) []) = .error .requestsTimeout := by
    unfold webT
    dsimp only
    rw [if_neg (by decide), if_pos (by decide)]
  have h2 : webT (.get (Spec.blockstreamUrl .main ++ name "tx/" ++ "aa".toList ++ name "/hex") []) =
      .ok ⟨200, "0100".toList, .error .valueError⟩ := by
    unfold webT
    dsimp only
    rw [if_pos (by decide)]
  have h3 : webT (.get (Spec.smartbitTxUrl .main "aa".toList) []) = .ok ⟨503, [], .error .valueError⟩ := by
    unfold webT
    dsimp only
    rw [if_neg (by decide), if_neg (by decide)]
  have h4 : webT (.get ("https://blockchain.info/rawtx/".toList ++ "aa".toList ++ name "?limit=0&format=hex") []) =
      .ok ⟨503, [], .error .valueError⟩ := by
    unfold webT
    dsimp only
    rw [if_neg (by decide), if_neg (by decide)]
  refine ⟨⟨.inr ⟨rfl, .inl ⟨_, h1⟩⟩, .inl ⟨_, h2⟩, .inr ⟨rfl, .inr ⟨_, h3, .inl ⟨?_, ?_⟩⟩⟩,
    fun _ => .inr ⟨rfl, .inr ⟨_, h4, ?_, ?_⟩⟩⟩, by decide +kernel⟩
  · show 503 ≠ 200; decide
  · show 503 ≠ 400; decide
  · show 503 ≠ 200; decide
  · show ¬ (503 = 500 ∧ _); simp

/-! ## C71 -/

theorem rpc_good {up : Bool} {rpc : Rpc} {method : Str} {params : List Json} {P : Json → Prop} {α : Type}
    (h : NodeAnswers up (rpc method params) P) {f : Json → Py α} {x : α} (hf : ∀ v, P v → Good up (f v) x) :
    Good up (rpcCall rpc method params >>= f) x := by
  rcases h with ⟨reply, j, v, hr, hs, hj, herr, hres, hv⟩ | ⟨hu, h⟩
  · have : rpcCall rpc method params = .ok v := by
      unfold rpcCall
      rw [hr]
      dsimp only
      rw [if_pos (.inl hs), hj, ok_bind, show j.has "error".toList = _ from herr.has, ok_bind, if_pos rfl,
        show j.get "error".toList = _ from herr.get, ok_bind]
      exact hres.get
    rw [this]
    exact hf v hv
  · have : ∃ e, rpcCall rpc method params = .error e := by
      unfold rpcCall
      rcases h with ⟨e, hr⟩ | ⟨reply, hr, h⟩
      · rw [hr]
        cases e <;> exact ⟨_, rfl⟩
      · rw [hr]
        dsimp only
        by_cases hs : reply.status = 200 ∨ reply.status = 500
        · rw [if_pos hs]
          rcases h with ⟨h1, h2⟩ | ⟨e, he⟩ | ⟨j, err, hj, herr, hnull⟩
          · exact absurd hs (by simp [h1, h2])
          · rw [he]; exact ⟨e, rfl⟩
          · rw [hj, ok_bind, show j.has "error".toList = _ from herr.has, ok_bind, if_pos rfl,
              show j.get "error".toList = _ from herr.get, ok_bind]
            cases err with
            | null => exact absurd rfl hnull
            | _ => exact ⟨_, rfl⟩
        · rw [if_neg hs]
          exact ⟨_, rfl⟩
    obtain ⟨e, he⟩ := this
    rw [he]
    exact .inr ⟨hu, e, rfl⟩

theorem node_entry {prec : Nat} (hp : 1 ≤ prec) {a : Account} {c : Coin} (hv : c.value < 10 ^ prec) {j : Json}
    (h : Spec.NodeCoin a c j) : nodeEntry prec j = .ok (unspentOf a c) := by
  obtain ⟨⟨f, h1, hf⟩, h2, h3, h4, h5⟩ := h
  have hamount : jsonAmount prec "btc".toList (.float f) = .ok (c.value : Int) := by
    show currencyToSatoshi prec [] f.repr "btc".toList = _
    exact amount_exact (rate := 10 ^ 8) hp hv (by decide) hf (by push_cast; ring)
  unfold nodeEntry
  rw [show j.get "amount".toList = _ from h1.get, ok_bind, hamount, ok_bind,
    show j.get "confirmations".toList = _ from h2.get, ok_bind, asInt_int, ok_bind,
    show j.get "scriptPubKey".toList = _ from h3.get, ok_bind, asStr_str, ok_bind,
    show j.get "txid".toList = _ from h4.get, ok_bind, asStr_str, ok_bind,
    show j.get "vout".toList = _ from h5.get, ok_bind, asInt_int, ok_bind]
  rfl

/-- C71. A node that tells the truth about an address of its wallet: the unspents are exactly those of the address; or
the call raises. -/
theorem C71_node_unspent {prec : Nat} (hp : 1 ≤ prec) {up : Bool} {rpc : Rpc} {address : Str} {a : Account}
    {received : List Str} (h : Spec.Node up rpc address a received) (hv : ∀ c ∈ a.coins, c.value < 10 ^ prec) :
    Gives up (nodeUnspent prec rpc address) a.Lists := by
  obtain ⟨coins, hperm, hc⟩ := h.unspent
  refine Good.gives (x := coins.map (unspentOf a)) ?_ ⟨coins, hperm, forall₂_unspentOf a coins⟩
  refine rpc_good hc fun v ⟨l, hl, hf⟩ => .inl ?_
  subst hl
  rw [items_arr, ok_bind]
  exact pyMap_forall₂_mem hf fun c hc' j hj => node_entry hp (hv c (hperm.subset hc')) hj

/-- C71. The transactions are those that pay to the address; or the call raises. -/
theorem C71_node_transactions {up : Bool} {rpc : Rpc} {address : Str} {a : Account} {received : List Str}
    (h : Spec.Node up rpc address a received) : Gives up (nodeTransactions rpc address) (· = received) := by
  refine Good.gives (x := received) ?_ rfl
  refine rpc_good h.received fun v hv => .inl ?_
  rcases hv with ⟨rfl, rfl⟩ | ⟨x, rfl, hx⟩
  · rfl
  · rw [items_arr, ok_bind]
    dsimp only
    rw [show x.get "txids".toList = _ from hx.get, ok_bind, items_arr, ok_bind, pyMap_str]

/-- C71. With a node connected for the network of an address, the network layer gives what this node says. -/
theorem C71_connected_unspent (C : Crypto) {prec : Nat} (hp : 1 ≤ prec) {up : Bool} {o : Outside} {net : Net}
    {history : List (Nat × Bool)} {n : Nat} (hn : lastNode net history = some n) {address : Str} {a : Account}
    {received : List Str} (h : Spec.Node up (o.rpc n) address a received) (hv : ∀ c ∈ a.coins, c.value < 10 ^ prec)
    (fuel : Nat) :
    ∃ r, networkUnspent C prec o (connected history) net fuel address = some r ∧
      Gives up r fun l => ∃ us, l = some us ∧ a.Lists us := by
  unfold networkUnspent
  rw [C61_connected, hn]
  dsimp only [List.map]
  unfold serviceUnspent
  dsimp only
  rcases C71_node_unspent hp h hv with ⟨us, he, hus⟩ | ⟨hu, e, he⟩
  · rw [he]
    exact ⟨_, rfl, .inl ⟨_, rfl, us, rfl, hus⟩⟩
  · rw [he]
    unfold someList firstFinished
    split
    · exact ⟨_, rfl, .inr ⟨hu, _, rfl⟩⟩
    · exact ⟨_, rfl, .inr ⟨hu, _, rfl⟩⟩

/-- C71. A node that cannot be reached is a `ConnectionError` in every query and in a broadcast. -/
theorem C71_unreachable {rpc : Rpc} (h : ∀ method params, rpc method params = .error .requestsConnection)
    (prec : Nat) (text : Str) :
    nodeBalance rpc text = .error .connectionError ∧ nodeTransactions rpc text = .error .connectionError ∧
    nodeById rpc text = .error .connectionError ∧ nodeUnspent prec rpc text = .error .connectionError ∧
    nodeBroadcast rpc text = .error .connectionError := by
  have e : ∀ method params, rpcCall rpc method params = .error .connectionError := by
    intro method params
    unfold rpcCall
    rw [h]
  unfold nodeBalance nodeTransactions nodeById nodeUnspent nodeBroadcast
  rw [e, e, e, e, e]
  exact ⟨rfl, rfl, rfl, rfl, rfl⟩

example : ∃ rpc : Rpc, ∀ method params, rpc method params = .error .requestsConnection :=
  ⟨fun _ _ => .error .requestsConnection, fun _ _ => rfl⟩

/-- C71. With a node connected for the network, `get_transaction_by_id` gives the text of the transaction that this
node, the one connected last, has for the id; or it raises. -/
theorem C71_connected_transaction {up : Bool} {o : Outside} {net : Net} {history : List (Nat × Bool)} {n : Nat}
    (hn : lastNode net history = some n) {txid raw : Str}
    (h : NodeAnswers up (o.rpc n (name "getrawtransaction") [.str txid, .bool false]) (· = .str raw)) :
    Gives up (networkById o (connected history) net txid) (· = some raw) := by
  have hg : Good up (nodeById (o.rpc n) txid) (some raw) := by
    refine rpc_good h fun v hv => .inl ?_
    subst hv
    rfl
  unfold networkById ask
  rw [C61_connected, hn]
  dsimp only [List.map]
  unfold serviceById
  dsimp only
  rcases hg with he | ⟨hu, e, he⟩
  · rw [he]
    exact .inl ⟨some raw, rfl, by rfl⟩
  · rw [he]
    refine .inr ⟨hu, ?_⟩
    unfold firstAnswer
    split
    · exact ⟨_, rfl⟩
    · exact ⟨_, rfl⟩

/-- C71. Likewise for `get_transactions`. -/
theorem C71_connected_transactions {up : Bool} {o : Outside} {net : Net} {history : List (Nat × Bool)} {n : Nat}
    (hn : lastNode net history = some n) {address : Str} {a : Account} {received : List Str}
    (h : Spec.Node up (o.rpc n) address a received) (fuel : Nat) :
    ∃ r, networkTransactions o (connected history) net fuel address = some r ∧ Gives up r (· = received) := by
  unfold networkTransactions
  rw [C61_connected, hn]
  dsimp only [List.map]
  unfold serviceTransactions
  dsimp only
  rcases C71_node_transactions h with ⟨l, he, hl⟩ | ⟨hu, e, he⟩
  · rw [he]
    exact ⟨_, rfl, .inl ⟨_, rfl, hl⟩⟩
  · rw [he]
    unfold firstFinished
    split
    · exact ⟨_, rfl, .inr ⟨hu, _, rfl⟩⟩
    · exact ⟨_, rfl, .inr ⟨hu, _, rfl⟩⟩

/-- A case: two nodes are connected, the second to the main network, and asked for a transaction. -/
example : networkById ⟨fun _ => .error .requestsConnection, fun n _ _ => .ok ⟨200, [], .ok (.obj [("error".toList, .null),
      ("result".toList, .str (if n = 7 then "07".toList else "03".toList))])⟩⟩
    (connected [(3, false), (7, false), (3, true)]) .main "aa".toList = .ok (some "07".toList) := by
  have h := C71_connected_transaction (up := true) (o := ⟨fun _ => .error .requestsConnection, fun n _ _ =>
      .ok ⟨200, [], .ok (.obj [("error".toList, .null),
      ("result".toList, .str (if n = 7 then "07".toList else "03".toList))])⟩⟩) (net := .main)
    (history := [(3, false), (7, false), (3, true)]) (n := 7) (by decide) (txid := "aa".toList) (raw := "07".toList)
    (.inl ⟨_, _, _, rfl, rfl, rfl, .step rfl (.here _), .step rfl (.here _), rfl⟩)
  rcases h with ⟨x, hx, rfl⟩ | ⟨h, -⟩
  · exact hx
  · cases h

/-- Limitation. `get_balance` of a node is not the balance of the address but everything ever paid to it, also what has
been spent: if the node says (in a float that is exact) that `received` satoshi of at most nine digits were received,
this is the result. -/
theorem C71_node_balance_is_received {rpc : Rpc} {address : Str} {f : PyFloat} {received : Nat}
    (h : NodeAnswers true (rpc (name "getreceivedbyaddress") [.str address, .int 0]) (· = .float f))
    (hf : Spec.value f.exact = (received : ℚ) / 10 ^ 8) (hr : received < 10 ^ 9) :
    nodeBalance rpc address = .ok received := by
  have : Good true (nodeBalance rpc address) (received : Int) := by
    refine rpc_good h fun v hv => .inl ?_
    subst hv
    show Except.ok (f.exact.mul 9 (Dec.ofInt (10 ^ 8))).toInt = _
    have e : Spec.value f.exact * ((10 ^ 8 : Int) : ℚ) = received := by rw [hf]; push_cast; ring
    rw [toInt_value, mul_exact (by norm_num), value_ofInt, e, trunc_natCast]
    rw [value_ofInt, e]
    exact fits_natCast hr
  rcases this with h | ⟨h, -⟩
  · exact h
  · cases h

/-- The float 12.34567891. -/
def float1234 : PyFloat := ⟨⟨false, 12345678910000000172431100509129464626312255859375, -48⟩, "12.34567891".toList⟩

/-- A node that knows of one payment, of 12.34567891 bitcoin. -/
def nodeB (amount : PyFloat) : Rpc := fun method _ =>
  .ok ⟨200, [], .ok (.obj [("error".toList, .null), ("result".toList,
    if method = "getreceivedbyaddress".toList then .float amount
    else if method = "listreceivedbyaddress".toList then .arr [.obj [("txids".toList, .arr [.str "aa".toList])]]
    else .arr [.obj [("amount".toList, .float amount), ("confirmations".toList, .int 3),
      ("scriptPubKey".toList, .str "51".toList), ("txid".toList, .str "aa".toList), ("vout".toList, .int 1)]])])⟩

/-- Limitation. From ten bitcoin on, the balance from a node is rounded to nine digits; the unspents are exact. -/
theorem C71_node_balance_rounded : nodeBalance (nodeB float1234) "a".toList = .ok 1234567890 ∧
    (nodeUnspent 28 (nodeB float1234) "a".toList).map (List.map Unspent.amount) = .ok [1234567891] := by
  decide +kernel

/-- A case of a node that tells the truth: `C71_node_unspent` and `C71_node_transactions` apply. -/
def accountN : Account := ⟨10, "51".toList, [⟨⟨"aa".toList, 1, 1234567891, some 8⟩, none⟩], ["aa".toList], []⟩

example : Spec.Node true (nodeB float1234) "a".toList accountN ["aa".toList] := by
  refine ⟨⟨accountN.coins, .refl _, .inl ⟨_, _, _, rfl, rfl, rfl, .step rfl (.here _), .step rfl (.here _), _, rfl,
    .cons ⟨⟨float1234, .step rfl (.here _), .inl ⟨false, "12".toList, "34567891".toList,
      ⟨by decide, by decide, by decide⟩, ?_⟩⟩, .step rfl (.here _), .step rfl (.here _), .step rfl (.here _),
      .step rfl (.here _)⟩ .nil⟩⟩,
    .inl ⟨_, _, _, rfl, rfl, rfl, .step rfl (.here _), .step rfl (.here _), .inr ⟨_, rfl, .step rfl (.here _)⟩⟩⟩
  have : Spec.digitsValue ("12".toList ++ "34567891".toList) = 1234567891 := by decide
  have h2 : "34567891".toList.length = 8 := by decide
  unfold Spec.plainValue
  rw [this, h2]
  show _ = ((1234567891 : Nat) : ℚ) / 10 ^ 8
  norm_num

end Bit
