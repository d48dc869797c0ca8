import Verif.Lemmas.Web
import Verif.Concrete.Server
import Verif.Props.Rates
/-
C62: queries in pages, service by service. The pages are those of `Spec/Web`, for lists of any length. `up` says whether
the server answers every request; without it any request may fail.
-/
namespace Bit
open Spec (At name Gives Answers AnswersUnchecked Account Coin window decimal)

/-! ## Blockchair -/

theorem blockchairUrl_eq (net : Net) (address : Str) : blockchairAddress net address = Spec.blockchairUrl net address := by
  cases net <;> exact congrArg (· ++ address) (by decide)

theorem blockchairRequest_eq (net : Net) (address : Str) (offset : Nat) :
    blockchairRequest net address offset =
      .get (Spec.blockchairUrl net address) [(name "offset", decimal offset), (name "limit", name "1000")] := by
  unfold blockchairRequest
  rw [blockchairUrl_eq, digitsText_eq]
  rfl

/-- The items of a page below the address. -/
structure ChairPage (a : Account) (coins : List Coin) (txs : List Str) (offset : Nat) (w : Json) : Prop where
  script : At w [name "address", name "script_hex"] (.str a.script)
  coinCount : At w [name "address", name "unspent_output_count"] (.int coins.length)
  txCount : At w [name "address", name "transaction_count"] (.int txs.length)
  txs : At w [name "transactions"] (.arr ((window 1000 txs offset).map .str))
  utxo : ∃ us, At w [name "utxo"] (.arr us) ∧ List.Forall₂ Spec.BlockchairCoin (window 1000 coins offset) us

theorem chairPage {a : Account} {address : Str} {coins : List Coin} {txs : List Str} {offset : Nat} {j : Json}
    (h : Spec.BlockchairPage a address coins txs offset j) :
    ∃ w, j.path [name "data", address] = .ok w ∧ ChairPage a coins txs offset w := by
  obtain ⟨-, h2, h3, h4, h5, us, h6, h7⟩ := h
  obtain ⟨w, hw, h2'⟩ := Spec.At.split [name "data", address] h2
  exact ⟨w, hw, h2', h3.under (ks := [name "data", address]) hw, h4.under (ks := [name "data", address]) hw,
    h5.under (ks := [name "data", address]) hw, us, h6.under (ks := [name "data", address]) hw, h7⟩

theorem blockchair_page {up : Bool} {web : Web} {net : Net} {address : Str} {a : Account} {coins : List Coin}
    {txs : List Str} (h : Spec.BlockchairPages up web net address a coins txs) (o : Nat) (ho : 0 < o) :
    (∃ w, blockchairPage web net address o = .ok w ∧ ChairPage a coins txs o w) ∨
      up = false ∧ ∃ e, blockchairPage web net address o = .error e := by
  have h := h o
  rw [if_neg (by omega), ← blockchairRequest_eq] at h
  unfold blockchairPage
  rcases h with ⟨text, j, h, hj⟩ | ⟨hu, ⟨e, h⟩ | ⟨reply, h, hr⟩⟩
  · left
    obtain ⟨w, hw, hp⟩ := chairPage hj
    exact ⟨w, by rw [h]; exact hw, hp⟩
  · exact .inr ⟨hu, e, by rw [h]; rfl⟩
  · obtain ⟨e, he⟩ := okJson_notOk hr
    refine .inr ⟨hu, e, ?_⟩
    rw [h]
    show (okJson reply >>= _) = _
    rw [he]
    rfl

theorem blockchair_txs {a : Account} {coins : List Coin} {txs : List Str} {o : Nat} {w : Json}
    (h : ChairPage a coins txs o w) : blockchairTxs w = .ok (window 1000 txs o) := by
  unfold blockchairTxs
  rw [show w.get "transactions".toList = _ from h.txs.get]
  exact pyMap_str _

/-- C62. Blockchair, transactions: the query gives the whole list in order; or it raises, if the server may fail. -/
theorem C62_blockchair_transactions {up : Bool} {web : Web} {net : Net} {address : Str} {a : Account}
    {coins : List Coin} {txs : List Str} (h : Spec.BlockchairPages up web net address a coins txs) :
    Gives up (blockchairTransactions web net address) (· = txs) := by
  refine Good.gives (x := txs) ?_ rfl
  have h0 := h 0
  rw [if_pos rfl, ← blockchairRequest_eq] at h0
  unfold blockchairTransactions
  refine answers_special h0 (by decide) fun j hj => ?_
  obtain ⟨w, hw, hp⟩ := chairPage hj
  rw [show j.path ["data".toList, address] = _ from hw, ok_bind,
    show w.path ["address".toList, "transaction_count".toList] = _ from hp.txCount.path, ok_bind, asInt_int, ok_bind]
  have := countedLoop_good (up := up) (blockchairPage web net address) blockchairTxs 1000 (by decide) txs
    (fun o ho => by
      rcases blockchair_page h o ho with ⟨w, hw, hp⟩ | h
      · exact .inl ⟨w, hw, .inl (blockchair_txs hp)⟩
      · exact .inr h)
    (txs.length : Int).toNat 0 txs.length (by omega) (by omega) w (.inl (blockchair_txs hp)) []
  simpa using this

/-- The object made of a coin. -/
def unspentOf (a : Account) (c : Coin) : Unspent := plainUnspent c.value (a.confirmations c) a.script c.txid c.index

theorem unspentOf_describes (a : Account) (c : Coin) : a.Describes c (unspentOf a c) := by
  unfold unspentOf plainUnspent mkUnspent Unspent.withType
  exact ⟨rfl, rfl, rfl, rfl, rfl, rfl⟩

theorem forall₂_unspentOf (a : Account) (coins : List Coin) :
    List.Forall₂ a.Describes coins (coins.map (unspentOf a)) := by
  induction coins with
  | nil => exact .nil
  | cons c l ih => exact .cons (unspentOf_describes a c) ih

theorem blockchair_entry {a : Account} {c : Coin} {j : Json} (h : Spec.BlockchairCoin c j) :
    blockchairEntry a.tip a.script j = .ok (unspentOf a c) := by
  obtain ⟨h1, h2, h3, h4⟩ := h
  unfold blockchairEntry
  rw [show j.get "value".toList = _ from h1.get, ok_bind, asInt_int, ok_bind,
    show j.get "block_id".toList = _ from h2.get, ok_bind, asInt_int, ok_bind,
    show j.get "transaction_hash".toList = _ from h3.get, ok_bind, asStr_str, ok_bind,
    show j.get "index".toList = _ from h4.get, ok_bind, asInt_int, ok_bind]
  unfold unspentOf Spec.Account.confirmations
  cases c.height with
  | none => rfl
  | some b => dsimp only; rw [if_pos (by omega)]

theorem blockchair_utxos {a : Account} {coins : List Coin} {txs : List Str} {o : Nat} {w : Json}
    (h : ChairPage a coins txs o w) :
    blockchairUtxos a.tip a.script w = .ok (window 1000 (coins.map (unspentOf a)) o) := by
  obtain ⟨us, h1, h2⟩ := h.utxo
  unfold blockchairUtxos
  rw [show w.get "utxo".toList = _ from h1.get, ok_bind, items_arr, ok_bind, window_map]
  exact pyMap_forall₂ (fun c j hj => blockchair_entry hj) h2

/-- C62. Blockchair, unspents: the query gives all of them in order; or it raises, if the server may fail. -/
theorem C62_blockchair_unspent {up : Bool} {web : Web} {net : Net} {address : Str} {a : Account}
    {coins : List Coin} {txs : List Str} (h : Spec.BlockchairPages up web net address a coins txs) :
    Gives up (blockchairUnspent web net address) fun r => ∃ us, r = some us ∧ List.Forall₂ a.Describes coins us := by
  refine Good.gives (x := some (coins.map (unspentOf a))) ?_ ⟨_, rfl, forall₂_unspentOf a coins⟩
  have h0 := h 0
  rw [if_pos rfl, ← blockchairRequest_eq] at h0
  unfold blockchairUnspent
  refine answers_special h0 (by decide) fun j hj => ?_
  obtain ⟨w, hw, hp⟩ := chairPage hj
  rw [show j.path ["context".toList, "state".toList] = _ from hj.1.path, ok_bind, asInt_int, ok_bind,
    show j.path ["data".toList, address] = _ from hw, ok_bind,
    show w.path ["address".toList, "script_hex".toList] = _ from hp.script.path, ok_bind, asStr_str, ok_bind,
    show w.path ["address".toList, "unspent_output_count".toList] = _ from hp.coinCount.path, ok_bind, asInt_int, ok_bind]
  have hl : (coins.map (unspentOf a)).length = coins.length := List.length_map _
  have := countedLoop_good (up := up) (blockchairPage web net address) (blockchairUtxos a.tip a.script) 1000 (by decide)
    (coins.map (unspentOf a))
    (fun o ho => by
      rcases blockchair_page h o ho with ⟨w, hw, hp⟩ | h
      · exact .inl ⟨w, hw, .inl (blockchair_utxos hp)⟩
      · exact .inr h)
    (coins.length : Int).toNat 0 coins.length (by omega) (by omega) w (.inl (blockchair_utxos hp)) []
  refine this.bind (.inl ?_)
  simp

/-- Limitation. The status 404 for the first request is taken for an address without transactions. The query for
unspents gives `None` then. -/
theorem C62_blockchair_not_found {web : Web} {net : Net} {address : Str} {reply : Reply} (h : reply.status = 404)
    (hw : web (blockchairRequest net address 0) = .ok reply) :
    blockchairTransactions web net address = .ok [] ∧ blockchairUnspent web net address = .ok none := by
  unfold blockchairTransactions blockchairUnspent
  rw [hw]
  exact ⟨if_pos h, if_pos h⟩

/-! ## Blockstream -/

theorem blockstreamUrl_eq (net : Net) : blockstreamBase net = Spec.blockstreamUrl net := by cases net <;> rfl

theorem forall₂_map_right {α β γ : Type} {P : α → β → Prop} {f : α → γ} {g : β → Py γ} (hg : ∀ x j, P x j → g j = .ok (f x))
    {xs : List α} {js : List β} (h : List.Forall₂ P xs js) : pyMap g js = .ok (xs.map f) := by
  induction h with
  | nil => rfl
  | cons h1 _ ih =>
    unfold pyMap
    rw [hg _ _ h1, ih]
    rfl

theorem blockstream_txids {ids : List Str} {j : Json} (h : Spec.TxList (name "txid") ids j) :
    blockstreamTxids j = .ok ids := by
  obtain ⟨l, rfl, h⟩ := h
  unfold blockstreamTxids
  rw [items_arr, ok_bind]
  have := forall₂_map_right (f := id) (g := fun tx : Json => do let t ← tx.get "txid".toList; t.asStr)
    (fun x j hj => by rw [show j.get "txid".toList = _ from hj.get]; rfl) h
  rw [List.map_id] at this
  exact this

theorem blockstream_first {up : Bool} {web : Web} {request : Request} {ids : List Str}
    (h : Answers up (Spec.NotOkOr 400) (web request) (Spec.TxList (name "txid") ids)) :
    Good up (blockstreamFirst web request) (some ids) := by
  unfold blockstreamFirst
  refine answers_special h (by decide) fun j hj => ?_
  rw [blockstream_txids hj]
  exact .inl rfl

theorem blockstreamChain_eq (net : Net) (address after : Str) : blockstreamChain net address after =
    .get (Spec.blockstreamUrl net ++ name "address/" ++ address ++ name "/txs/chain/" ++ after) [] := by
  unfold blockstreamChain blockstreamAddress
  rw [blockstreamUrl_eq]
  rfl

theorem blockstream_next {up : Bool} {web : Web} {net : Net} {address : Str} {confirmed : List Str}
    (h : Spec.BlockstreamChain up web net address confirmed) (i : Nat) (hi : i < confirmed.length) :
    Good up (blockstreamNext web net address confirmed[i]) (window 25 confirmed (i + 1)) := by
  have h := h.2 i hi
  rw [← blockstreamChain_eq] at h
  unfold blockstreamNext
  exact answers_unchecked h (g := pyMap fun tx => do let t ← tx.get "txid".toList; t.asStr) (fun j => rfl)
    fun j hj => .inl (blockstream_txids hj)

theorem blockstream_chain {up : Bool} {web : Web} {net : Net} {address : Str} {confirmed : List Str}
    (h : Spec.BlockstreamChain up web net address confirmed) (fuel : Nat) (hfuel : confirmed.length ≤ fuel) :
    Good up (blockstreamFirst web (blockstreamChain net address [])) (some (window 25 confirmed 0)) ∧
    ∃ r, cursorLoop (blockstreamNext web net address) fuel (window 25 confirmed 0) [] = some r ∧ Good up r confirmed := by
  constructor
  · have h1 := h.1
    rw [show Request.get (Spec.blockstreamUrl net ++ name "address/" ++ address ++ name "/txs/chain/") [] =
      blockstreamChain net address [] by rw [blockstreamChain_eq, List.append_nil]] at h1
    exact blockstream_first h1
  · have := cursorLoop_good (up := up) (blockstreamNext web net address) 25 (by decide) confirmed (blockstream_next h)
      fuel 0 (by omega) []
    simpa using this

/-- C62. Blockstream, transactions on the main network: the server shows at most 50 of the unconfirmed transactions.
If there are fewer, the query gives all confirmed and then all unconfirmed ones; or it raises, if the server may fail.
If there are 50 or more it raises. The query ends. -/
theorem C62_blockstream_transactions {up : Bool} {web : Web} {address : Str} {confirmed unconfirmed : List Str}
    (hm : Spec.BlockstreamMempool up web .main address unconfirmed)
    (hc : Spec.BlockstreamChain up web .main address confirmed) (fuel : Nat) (hfuel : confirmed.length ≤ fuel) :
    ∃ r, blockstreamTransactions web address fuel = some r ∧
      if unconfirmed.length < 50 then Gives up r (· = confirmed ++ unconfirmed)
      else r = .error .excessiveAddress ∨ up = false ∧ ∃ e, r = .error e := by
  have raises : ∀ e, up = false → if unconfirmed.length < 50 then Gives up (.error e : Py (List Str)) (· = confirmed ++ unconfirmed)
      else (.error e : Py (List Str)) = .error .excessiveAddress ∨ up = false ∧ ∃ e', (.error e : Py (List Str)) = .error e' := by
    intro e hu
    split
    · exact .inr ⟨hu, e, rfl⟩
    · exact .inr ⟨hu, e, rfl⟩
  have hm' : Good up (blockstreamFirst web (.get (blockstreamAddress .main address ++ "/txs/mempool".toList) []))
      (some (unconfirmed.take 50)) := by
    unfold Spec.BlockstreamMempool at hm
    rw [← blockstreamUrl_eq] at hm
    exact blockstream_first hm
  unfold blockstreamTransactions
  rcases hm' with hm' | ⟨hu, e, hm'⟩
  · rw [hm']
    dsimp only
    by_cases hl : unconfirmed.length < 50
    · rw [if_neg (by rw [List.length_take]; omega), List.take_of_length_le (by omega)]
      obtain ⟨h1, r, h2, h3⟩ := blockstream_chain hc fuel hfuel
      rcases h1 with h1 | ⟨hu, e, h1⟩
      · rw [h1]
        dsimp only
        rw [h2]
        rcases h3 with rfl | ⟨hu, e, rfl⟩
        · refine ⟨_, rfl, ?_⟩
          rw [if_pos hl]
          exact .inl ⟨_, rfl, rfl⟩
        · exact ⟨_, rfl, raises e hu⟩
      · rw [h1]
        exact ⟨_, rfl, raises e hu⟩
    · rw [if_pos (by rw [List.length_take]; omega)]
      refine ⟨_, rfl, ?_⟩
      rw [if_neg hl]
      exact .inl rfl
  · rw [hm']
    exact ⟨_, rfl, raises e hu⟩

/-- C62. Blockstream, transactions on the test network: the confirmed ones only, all of them; or the query raises, if
the server may fail. -/
theorem C62_blockstream_test_confirmed_only {up : Bool} {web : Web} {address : Str} {confirmed : List Str}
    (hc : Spec.BlockstreamChain up web .test address confirmed) (fuel : Nat) (hfuel : confirmed.length ≤ fuel) :
    ∃ r, blockstreamTransactionsTest web address fuel = some r ∧ Gives up r (· = confirmed) := by
  unfold blockstreamTransactionsTest
  obtain ⟨h1, r, h2, h3⟩ := blockstream_chain hc fuel hfuel
  rcases h1 with h1 | ⟨hu, e, h1⟩
  · rw [h1]
    exact ⟨r, h2, h3.gives rfl⟩
  · rw [h1]
    exact ⟨_, rfl, .inr ⟨hu, e, rfl⟩⟩

theorem blockstream_tip {up : Bool} {web : Web} {net : Net} {tip : Nat} (h : Spec.BlockstreamTip up web net tip) :
    Good up (blockstreamTip web net) tip := by
  unfold Spec.BlockstreamTip at h
  rw [← blockstreamUrl_eq] at h
  unfold blockstreamTip
  rcases h with ⟨j, h⟩ | ⟨hu, ⟨e, h⟩ | ⟨reply, h, hs⟩⟩
  · left
    rw [show web (.get (blockstreamBase net ++ "blocks/tip/height".toList) []) = _ from h, ok_bind, if_pos rfl]
    exact parseInt_decimal tip
  · exact .inr ⟨hu, e, by rw [show web (.get (blockstreamBase net ++ "blocks/tip/height".toList) []) = _ from h]; rfl⟩
  · right
    refine ⟨hu, .connectionError, ?_⟩
    rw [show web (.get (blockstreamBase net ++ "blocks/tip/height".toList) []) = _ from h, ok_bind, if_neg hs]

theorem blockstream_entry {a : Account} {c : Coin} {j : Json} (h : Spec.BlockstreamCoin c j) :
    blockstreamEntry a.tip a.script j = .ok (unspentOf a c) := by
  obtain ⟨h1, h2, h3, h4, h5⟩ := h
  unfold blockstreamEntry
  rw [show j.get "value".toList = _ from h1.get, ok_bind, asInt_int, ok_bind,
    show j.path ["status".toList, "confirmed".toList] = _ from h2.path, ok_bind,
    show j.get "txid".toList = _ from h4.get, show j.get "vout".toList = _ from h5.get]
  unfold unspentOf Spec.Account.confirmations
  cases hc : c.height with
  | none => rfl
  | some b =>
    rw [show j.path ["status".toList, "block_height".toList] = _ from (h3 b hc).path]
    rfl

/-- C62. Blockstream, unspents on the main network: all of them, each once, with fewest confirmations first; or the
query raises, if the server may fail. -/
theorem C62_blockstream_unspent (C : Crypto) {up : Bool} {web : Web} {address : Str} {a : Account} {coins : List Coin}
    (ht : Spec.BlockstreamTip up web .main a.tip) (hu : Spec.BlockstreamUtxo up web .main address coins)
    (hscript : Gives up (scriptHex C address) (· = a.script)) :
    Gives up (blockstreamUnspent C web address) fun us =>
      (∃ l, l.Perm coins ∧ List.Forall₂ a.Describes l us) ∧ us.Pairwise fun u v => u.confirmations ≤ v.confirmations := by
  unfold Spec.BlockstreamUtxo at hu
  rw [← blockstreamUrl_eq] at hu
  unfold blockstreamUnspent
  rcases blockstream_tip ht with ht | ⟨hd, e, ht⟩
  · rw [ht, ok_bind]
    rcases hu with ⟨text, j, h, l, rfl, hl⟩ | ⟨hd, ⟨e, h⟩ | ⟨reply, h, hs⟩⟩
    · rw [show web (blockstreamUtxoRequest .main address) = _ from h, ok_bind, if_neg (by simp), if_neg (by simp)]
      rcases hscript with ⟨_, hscript, rfl⟩ | ⟨hd, e, he⟩
      swap
      · rw [he]
        exact .inr ⟨hd, e, rfl⟩
      left
      rw [hscript, ok_bind]
      dsimp only
      rw [ok_bind, items_arr, ok_bind, pyMap_forall₂ (fun c j hj => blockstream_entry (a := a) hj) hl, ok_bind]
      refine ⟨_, rfl, ?_, ?_⟩
      · have hp := (pySorted_perm (fun u v : Unspent => decide (u.confirmations ≤ v.confirmations))
          (coins.map (unspentOf a))).symm
        have : Relation.Comp (List.Forall₂ a.Describes) List.Perm coins
            (pySorted (fun u v : Unspent => decide (u.confirmations ≤ v.confirmations)) (coins.map (unspentOf a))) :=
          ⟨_, forall₂_unspentOf a coins, hp⟩
        rw [List.forall₂_comp_perm_eq_perm_comp_forall₂] at this
        obtain ⟨l, h1, h2⟩ := this
        exact ⟨l, h1.symm, h2⟩
      · have := pySorted_pairwise (le := fun (u v : Unspent) => decide (u.confirmations ≤ v.confirmations))
          (by intro a b c; simp only [decide_eq_true_eq]; omega)
          (by intro a b; by_cases h : a.confirmations ≤ b.confirmations <;> simp [h]; omega) (coins.map (unspentOf a))
        exact this.imp (by intro a b h; simpa using h)
    · exact .inr ⟨hd, e, by rw [show web (blockstreamUtxoRequest .main address) = _ from h]; rfl⟩
    · right
      rw [show web (blockstreamUtxoRequest .main address) = _ from h, ok_bind]
      rcases hs with hs | ⟨hs, e, he⟩
      · rw [if_pos (show reply.status ≠ 200 from hs)]
        split
        · exact ⟨hd, _, rfl⟩
        · exact ⟨hd, _, rfl⟩
      · rw [if_neg (by omega), if_neg (by omega), he]
        cases scriptHex C address with
        | error e => exact ⟨hd, e, rfl⟩
        | ok x => exact ⟨hd, e, rfl⟩
  · rw [ht]
    exact .inr ⟨hd, e, rfl⟩

/-- C62. Blockstream, unspents on the test network: all of them in order; or the query raises, if the server may
fail. -/
theorem C62_blockstream_test_unspent (C : Crypto) {up : Bool} {web : Web} {address : Str} {a : Account} {coins : List Coin}
    (ht : Spec.BlockstreamTip up web .test a.tip) (hu : Spec.BlockstreamUtxo up web .test address coins)
    (hscript : Gives up (scriptHex C address) (· = a.script)) :
    Gives up (blockstreamUnspentTest C web address) (List.Forall₂ a.Describes coins) := by
  unfold Spec.BlockstreamUtxo at hu
  rw [← blockstreamUrl_eq] at hu
  unfold blockstreamUnspentTest
  rcases blockstream_tip ht with ht | ⟨hd, e, ht⟩
  · rw [ht, ok_bind]
    rcases hu with ⟨text, j, h, l, rfl, hl⟩ | ⟨hd, ⟨e, h⟩ | ⟨reply, h, hs⟩⟩
    · rw [show web (blockstreamUtxoRequest .test address) = _ from h, ok_bind, if_neg (by simp), if_neg (by simp)]
      rcases hscript with ⟨_, hscript, rfl⟩ | ⟨hd, e, he⟩
      swap
      · rw [he]
        exact .inr ⟨hd, e, rfl⟩
      left
      rw [hscript, ok_bind]
      dsimp only
      rw [ok_bind, items_arr, ok_bind, pyMap_forall₂ (fun c j hj => blockstream_entry (a := a) hj) hl]
      exact ⟨_, rfl, forall₂_unspentOf a coins⟩
    · exact .inr ⟨hd, e, by rw [show web (blockstreamUtxoRequest .test address) = _ from h]; rfl⟩
    · right
      rw [show web (blockstreamUtxoRequest .test address) = _ from h, ok_bind]
      rcases hs with ⟨h1, h2⟩ | ⟨hs, e, he⟩
      · rw [if_neg h2, if_pos h1]
        exact ⟨hd, _, rfl⟩
      · rw [if_neg (by omega), if_neg (by omega), he]
        cases scriptHex C address with
        | error e => exact ⟨hd, e, rfl⟩
        | ok x => exact ⟨hd, e, rfl⟩
  · rw [ht]
    exact .inr ⟨hd, e, rfl⟩

/-- C62. An address with too many entries for Blockstream is reported as excessive on the main network; any other
status than 200 is a `ConnectionError`. -/
theorem C62_blockstream_excessive (C : Crypto) {web : Web} {address : Str} {tip : Nat}
    (ht : Spec.BlockstreamTip true web .main tip) {reply : Reply} (h : reply.status ≠ 200)
    (hw : web (.get (Spec.blockstreamUrl .main ++ name "address/" ++ address ++ name "/utxo") []) = .ok reply) :
    blockstreamUnspent C web address = .error
      (if reply.status = 400 ∧ reply.text = "Too many history entries".toList then .excessiveAddress
       else .connectionError) := by
  unfold blockstreamUnspent
  rcases blockstream_tip ht with ht | ⟨hd, e, ht⟩
  · rw [ht, ok_bind, show web (blockstreamUtxoRequest .main address) = _ from hw, ok_bind]
    by_cases hx : reply.status = 400 ∧ reply.text = "Too many history entries".toList
    · rw [if_pos hx, if_pos hx]
    · rw [if_neg hx, if_neg hx, if_pos h]
  · cases hd

/-- Limitation. On the test network such an address is taken for one without unspents. -/
theorem C62_blockstream_test_too_many (C : Crypto) {web : Web} {address : Str} {tip : Nat}
    (ht : Spec.BlockstreamTip true web .test tip) {reply : Reply} (h : reply.status = 400)
    (hw : web (.get (Spec.blockstreamUrl .test ++ name "address/" ++ address ++ name "/utxo") []) = .ok reply) :
    blockstreamUnspentTest C web address = .ok [] := by
  unfold blockstreamUnspentTest
  rcases blockstream_tip ht with ht | ⟨hd, e, ht⟩
  · rw [ht, ok_bind, show web (blockstreamUtxoRequest .test address) = _ from hw, ok_bind, if_pos h]
  · cases hd

/-- Limitation. The status of the later pages is not looked at: if the request for the second page is answered with an
error, and the body of this answer happens to be the JSON text `[]`, the result is the first 25 confirmed transactions,
and no error. -/
theorem C62_blockstream_unchecked {web : Web} {address : Str} {confirmed : List Str}
    (h1 : Answers true (Spec.NotOkOr 400)
      (web (.get (Spec.blockstreamUrl .main ++ name "address/" ++ address ++ name "/txs/mempool") []))
      (Spec.TxList (name "txid") []))
    (h2 : Answers true (Spec.NotOkOr 400)
      (web (.get (Spec.blockstreamUrl .main ++ name "address/" ++ address ++ name "/txs/chain/") []))
      (Spec.TxList (name "txid") (window 25 confirmed 0)))
    (hlen : 25 ≤ confirmed.length) {status : Nat} {text : Str}
    (h3 : web (.get (Spec.blockstreamUrl .main ++ name "address/" ++ address ++ name "/txs/chain/" ++ confirmed[24]) []) =
      .ok { status := status, text := text, json := .ok (.arr []) }) (fuel : Nat) :
    blockstreamTransactions web address (fuel + 2) = some (.ok (confirmed.take 25)) := by
  have g1 : blockstreamFirst web (.get (blockstreamAddress .main address ++ "/txs/mempool".toList) []) = .ok (some []) := by
    rw [← blockstreamUrl_eq] at h1
    rcases blockstream_first h1 with h | ⟨h, -⟩
    · exact h
    · cases h
  have g2 : blockstreamFirst web (blockstreamChain .main address []) = .ok (some (window 25 confirmed 0)) := by
    rw [show Request.get (Spec.blockstreamUrl .main ++ name "address/" ++ address ++ name "/txs/chain/") [] =
      blockstreamChain .main address [] by rw [blockstreamChain_eq, List.append_nil]] at h2
    rcases blockstream_first h2 with h | ⟨h, -⟩
    · exact h
    · cases h
  have g3 : blockstreamNext web .main address confirmed[24] = .ok [] := by
    unfold blockstreamNext
    rw [blockstreamChain_eq, h3]
    rfl
  have hlast : (window 25 confirmed 0).getLast? = some confirmed[24] := by
    unfold window
    rw [List.drop_zero, List.getLast?_eq_getElem?, List.length_take, Nat.min_eq_left hlen,
      List.getElem?_take_of_lt (by decide), List.getElem?_eq_getElem]
  unfold blockstreamTransactions
  rw [g1]
  dsimp only [List.length]
  rw [if_neg (by decide), g2]
  dsimp only
  unfold cursorLoop
  rw [hlast]
  dsimp only
  rw [g3]
  dsimp only
  unfold cursorLoop
  simp [window]

/-- Limitation. A reply with the status 400 to either of the first requests for transactions is taken for an address
without any, even if the other request shows some. -/
theorem C62_blockstream_bad_request {web : Web} {address : Str} {reply : Reply} (h : reply.status = 400)
    (hw : web (.get (Spec.blockstreamUrl .main ++ name "address/" ++ address ++ name "/txs/mempool") []) = .ok reply)
    (fuel : Nat) : blockstreamTransactions web address fuel = some (.ok []) := by
  have : blockstreamFirst web (.get (blockstreamAddress .main address ++ "/txs/mempool".toList) []) = .ok none := by
    unfold blockstreamFirst
    rw [show web (.get (blockstreamAddress .main address ++ "/txs/mempool".toList) []) = _ from hw, ok_bind, if_pos h]
  unfold blockstreamTransactions
  rw [this]

/-! ## Amounts -/

theorem fits_natCast {prec n : Nat} (hn : n < 10 ^ prec) : Spec.Fits prec (n : ℚ) :=
  ⟨n, 0, by rwa [Int.natAbs_natCast], by push_cast; simp⟩

theorem trunc_natCast (n : Nat) : Spec.trunc (n : ℚ) = n := by
  unfold Spec.trunc
  rw [if_pos (by positivity)]
  exact Int.floor_natCast n

theorem amount_exact {prec n : Nat} (hp : 1 ≤ prec) (hn : n < 10 ^ prec) {unit : Str} {rate : Int}
    (hr : exchangeRate [] unit = .ok rate) {s : Str} {q : ℚ} (hs : Spec.Number s q) (hq : rate * q = n) :
    currencyToSatoshi prec [] s unit = .ok n := by
  rw [C57_to_satoshi prec hp [] unit rate hr s q hs (by rw [hq]; exact fits_natCast hn), hq, trunc_natCast]

theorem satoshi_amount {prec n : Nat} (hp : 1 ≤ prec) (hn : n < 10 ^ prec) :
    jsonAmount prec "satoshi".toList (.int n) = .ok n := by
  show currencyToSatoshi prec [] (intText n) "satoshi".toList = _
  exact amount_exact (rate := 1) hp hn (by decide) (.inl (denotes_intText n)) (by push_cast; ring)

theorem btc_amount {prec n : Nat} (hp : 1 ≤ prec) (hn : n < 10 ^ prec) {s : Str}
    (hs : Spec.Denotes s ((n : ℚ) / 10 ^ 8)) : jsonAmount prec "btc".toList (.str s) = .ok n := by
  show currencyToSatoshi prec [] s "btc".toList = _
  exact amount_exact (rate := 10 ^ 8) hp hn (by decide) (.inl hs) (by push_cast; ring)

/-! ## Bitcore -/

theorem bitcoreUrl_eq (net : Net) (address : Str) : bitcoreAddress net address = Spec.bitcoreUrl net address := by
  cases net <;> exact congrArg (· ++ address) (by decide)

theorem bitcoreRequest_none (net : Net) (address : Str) : bitcoreRequest net address none =
    .get (Spec.bitcoreUrl net address ++ name "/?unspent=true&limit=100") [] := by
  unfold bitcoreRequest
  rw [bitcoreUrl_eq, List.append_nil]
  rfl

theorem bitcoreRequest_some (net : Net) (address id : Str) : bitcoreRequest net address (some id) =
    .get (Spec.bitcoreUrl net address ++ name "/?unspent=true&limit=100" ++ name "&since=" ++ id) [] := by
  unfold bitcoreRequest
  rw [bitcoreUrl_eq, List.append_assoc (Spec.bitcoreUrl net address ++ name "/?unspent=true&limit=100")]
  rfl

def bitcoreItem (a : Account) (c : Coin × Str) : Unspent × Py Str := (unspentOf a c.1, .ok c.2)

theorem bitcore_entry {prec : Nat} (hp : 1 ≤ prec) {a : Account} {c : Coin × Str} (hv : c.1.value < 10 ^ prec) {j : Json}
    (h : Spec.BitcoreCoin a c j) : bitcoreEntry prec j = .ok (bitcoreItem a c) := by
  obtain ⟨h1, h2, h3, h4, h5, h6⟩ := h
  unfold bitcoreEntry
  rw [show j.get "value".toList = _ from h2.get, ok_bind, satoshi_amount hp hv, ok_bind,
    show j.get "confirmations".toList = _ from h3.get, ok_bind, asInt_int, ok_bind,
    show j.get "script".toList = _ from h4.get, ok_bind, asStr_str, ok_bind,
    show j.get "mintTxid".toList = _ from h5.get, ok_bind, asStr_str, ok_bind,
    show j.get "mintIndex".toList = _ from h6.get, ok_bind, asInt_int, ok_bind,
    show j.get "_id".toList = _ from h1.get]
  rfl

theorem bitcore_page {prec : Nat} (hp : 1 ≤ prec) {a : Account} {coins : List (Coin × Str)}
    (hv : ∀ c ∈ coins, c.1.value < 10 ^ prec) {o : Nat} {j : Json} (h : Spec.BitcorePage a coins o j) :
    bitcorePage prec j = .ok (window 100 (coins.map (bitcoreItem a)) o) := by
  obtain ⟨l, rfl, h⟩ := h
  unfold bitcorePage
  rw [items_arr, ok_bind, window_map]
  exact pyMap_forall₂_mem h fun c hc j hj => bitcore_entry hp (hv c (mem_of_mem_window hc)) hj

/-- C62. Bitcore, unspents: all of them in order; or the query raises, if the server may fail. It ends. The decimal
context must have a precision that is enough for the amounts. -/
theorem C62_bitcore_unspent {prec : Nat} (hp : 1 ≤ prec) {up : Bool} {web : Web} {net : Net} {address : Str} {a : Account}
    {coins : List (Coin × Str)} (h : Spec.BitcorePages up web net address a coins)
    (hv : ∀ c ∈ coins, c.1.value < 10 ^ prec) (fuel : Nat) (hfuel : coins.length ≤ fuel) :
    ∃ r, bitcoreUnspent prec web net address fuel = some r ∧
      Gives up r (List.Forall₂ a.Describes (coins.map Prod.fst)) := by
  obtain ⟨h0, hn⟩ := h
  have hget : ∀ i (hi : i < (coins.map (bitcoreItem a)).length),
      Good up (bitcoreNext prec web net address (coins.map (bitcoreItem a))[i])
        (window 100 (coins.map (bitcoreItem a)) (i + 1)) := by
    intro i hi
    rw [List.length_map] at hi
    have h := hn i hi
    rw [← bitcoreRequest_some] at h
    rw [List.getElem_map]
    unfold bitcoreNext bitcoreItem
    rw [ok_bind]
    exact answers_unchecked h (g := pyMap (bitcoreEntry prec)) (fun j => rfl) fun j hj => .inl (bitcore_page hp hv hj)
  rw [← bitcoreRequest_none] at h0
  have h0' : Good up (web (bitcoreRequest net address none) >>= fun r => okJson r >>= bitcorePage prec)
      (window 100 (coins.map (bitcoreItem a)) 0) := answers_okJson h0 fun j hj => .inl (bitcore_page hp hv hj)
  obtain ⟨r, h1, h2⟩ := cursorLoop_good (up := up) (bitcoreNext prec web net address) 100 (by decide) _ hget fuel 0
    (by rw [List.length_map]; omega) []
  unfold bitcoreUnspent
  rcases h0' with h0' | ⟨hu, e, h0'⟩
  · rw [h0']
    dsimp only
    rw [h1]
    rcases h2 with rfl | ⟨hu, e, rfl⟩
    · refine ⟨_, rfl, .inl ⟨_, rfl, ?_⟩⟩
      have := forall₂_unspentOf a (coins.map Prod.fst)
      rw [List.map_map] at this
      simpa [List.map_map, Function.comp_def, bitcoreItem] using this
    · exact ⟨_, rfl, .inr ⟨hu, e, rfl⟩⟩
  · rw [h0']
    exact ⟨_, rfl, .inr ⟨hu, e, rfl⟩⟩

/-! ## Blockchain.info -/

theorem blockchainUrl_eq (address : Str) : blockchainAddress address = Spec.blockchainUrl address :=
  congrArg (· ++ address ++ "?format=json".toList) (by decide)

theorem blockchainRequest_eq (address : Str) (offset : Nat) :
    blockchainRequest address offset = .get (Spec.blockchainUrl address) [(name "offset", decimal offset)] := by
  unfold blockchainRequest
  rw [blockchainUrl_eq, digitsText_eq]
  rfl

theorem blockchain_txs {txs : List Str} {o : Nat} {j : Json} (h : Spec.BlockchainTxs txs o j) :
    blockchainTxs j = .ok (window 50 txs o) := by
  obtain ⟨-, l, h1, h2⟩ := h
  unfold blockchainTxs
  rw [show j.get "txs".toList = _ from h1.get, ok_bind, items_arr, ok_bind]
  have := forall₂_map_right (f := id) (g := fun tx : Json => do let t ← tx.get "hash".toList; t.asStr)
    (fun x j hj => by rw [show j.get "hash".toList = _ from hj.get]; rfl) h2
  rw [List.map_id] at this
  exact this

theorem get_eq_path (j : Json) (key : Str) : j.get key = j.path [key] := by
  unfold Json.path
  cases j.get key <;> rfl

/-- C62. Blockchain.info, transactions: the whole list in order; or the query raises, if the server may fail. -/
theorem C62_blockchain_transactions {up : Bool} {web : Web} {address : Str} {txs : List Str}
    (h : Spec.BlockchainTxPages up web address txs) : Gives up (blockchainTransactions web address) (· = txs) := by
  refine Good.gives (x := txs) ?_ rfl
  obtain ⟨h0, hn⟩ := h
  rw [← blockchainRequest_eq] at h0
  unfold blockchainTransactions
  refine answers_okJson h0 fun j hj => ?_
  rw [show j.get "n_tx".toList = _ from hj.1.get, ok_bind, asInt_int, ok_bind]
  have := countedLoop_good (up := up) (blockchainPage web address) blockchainTxs 50 (by decide) txs
    (fun o ho => by
      have h := hn o ho
      rw [← blockchainRequest_eq] at h
      unfold blockchainPage
      rcases h with ⟨reply, j, h, hj, hp⟩ | ⟨hu, ⟨e, h⟩ | ⟨reply, h, hno⟩⟩
      · exact .inl ⟨j, by rw [h]; exact hj, .inl (blockchain_txs hp)⟩
      · exact .inr ⟨hu, e, by rw [h]; rfl⟩
      · rw [h, ok_bind]
        cases hj : reply.json with
        | error e => exact .inr ⟨hu, e, rfl⟩
        | ok j =>
          refine .inl ⟨j, rfl, .inr ⟨hu, ?_⟩⟩
          obtain ⟨e, he⟩ := path_items_error (j := j) (keys := [name "txs"]) fun ⟨l, hl⟩ => hno ⟨j, l, hj, hl⟩
          refine ⟨e, ?_⟩
          unfold blockchainTxs
          rw [get_eq_path]
          have : ∀ {α β γ : Type} (x : Py α) (f : α → Py β) (g : β → Py γ) (e : PyErr), (x >>= f) = .error e →
              (x >>= fun l => f l >>= g) = .error e := by
            intro α β γ x f g e hx
            cases x with
            | error e' => rw [error_bind] at hx ⊢; cases hx; rfl
            | ok y =>
              rw [ok_bind] at hx ⊢
              rw [hx]
              rfl
          exact this _ _ _ _ he)
    (txs.length : Int).toNat 0 txs.length (by omega) (by omega) j (.inl (blockchain_txs hj)) []
  simpa using this

theorem blockchain_entry {a : Account} {c : Coin} {j : Json} (h : Spec.BlockchainCoin a c j) :
    blockchainEntry j = .ok (unspentOf a c) := by
  obtain ⟨h1, h2, h3, h4, h5⟩ := h
  unfold blockchainEntry
  rw [show j.get "value".toList = _ from h1.get, ok_bind, asInt_int, ok_bind,
    show j.get "confirmations".toList = _ from h2.get, ok_bind, asInt_int, ok_bind,
    show j.get "script".toList = _ from h3.get, ok_bind, asStr_str, ok_bind,
    show j.get "tx_hash_big_endian".toList = _ from h4.get, ok_bind, asStr_str, ok_bind,
    show j.get "tx_output_n".toList = _ from h5.get, ok_bind, asInt_int, ok_bind]
  rfl

theorem blockchainUnspentRequest_eq (address : Str) : blockchainUnspentRequest address =
    .get "https://blockchain.info/unspent".toList
      [(name "active", address), (name "offset", name "0"), (name "limit", name "1000")] := by
  unfold blockchainUnspentRequest
  rw [show blockchainBase ++ "unspent".toList = "https://blockchain.info/unspent".toList by decide]
  rfl

/-- C62. Blockchain.info, unspents: the server shows at most 1000. If there are fewer the query gives all of them, in
reverse order; or it raises, if the server may fail. If there are 1000 or more it raises. -/
theorem C62_blockchain_unspent {up : Bool} {web : Web} {address : Str} {a : Account} {coins : List Coin}
    (h : Spec.BlockchainUtxo up web address a coins) :
    if coins.length < 1000 then
      Gives up (blockchainUnspent web address) (List.Forall₂ a.Describes coins.reverse)
    else blockchainUnspent web address = .error .excessiveAddress ∨
      up = false ∧ ∃ e, blockchainUnspent web address = .error e := by
  unfold Spec.BlockchainUtxo at h
  rw [← blockchainUnspentRequest_eq] at h
  rcases h with ⟨rfl, reply, h1, h2⟩ | h
  · rw [if_pos (by decide)]
    refine .inl ⟨[], ?_, .nil⟩
    unfold blockchainUnspent
    rw [h2, ok_bind, if_pos h1]
  · by_cases hl : coins.length < 1000
    · rw [if_pos hl]
      refine Good.gives (x := coins.reverse.map (unspentOf a)) ?_ (forall₂_unspentOf a _)
      unfold blockchainUnspent
      refine answers_special h (by decide) fun j ⟨l, h1, h2⟩ => .inl ?_
      rw [show j.get "unspent_outputs".toList = _ from h1.get, ok_bind, items_arr, ok_bind,
        pyMap_forall₂ (fun c j hj => blockchain_entry hj) h2, ok_bind, List.take_of_length_le (by omega),
        if_neg (by rw [List.length_map]; omega), List.map_reverse]
    · rw [if_neg hl]
      unfold blockchainUnspent
      rcases h with ⟨text, j, h, l, h1, h2⟩ | ⟨hu, ⟨e, h⟩ | ⟨reply, h, hs⟩⟩
      · left
        rw [h, ok_bind, if_neg (by simp)]
        show (j.get "unspent_outputs".toList >>= _) = _
        rw [show j.get "unspent_outputs".toList = _ from h1.get, ok_bind, items_arr, ok_bind,
          pyMap_forall₂ (fun c j hj => blockchain_entry hj) h2, ok_bind,
          if_pos (by rw [List.length_map, List.length_take]; omega)]
      · exact .inr ⟨hu, e, by rw [h]; rfl⟩
      · right
        obtain ⟨e, he⟩ := okJson_notOk (reply := reply) (by rcases hs with hs | hs; exacts [.inl hs.1, .inr hs])
        refine ⟨hu, e, ?_⟩
        rw [h, ok_bind, if_neg (by rcases hs with hs | hs; exacts [hs.2, by omega]), he]
        rfl

/-- Limitation. A failure of the server with status 500 is taken for an address without unspents. -/
theorem C62_blockchain_failure_is_empty {web : Web} {address : Str} {reply : Reply} (h : reply.status = 500)
    (hw : web (.get "https://blockchain.info/unspent".toList
      [(name "active", address), (name "offset", name "0"), (name "limit", name "1000")]) = .ok reply) :
    blockchainUnspent web address = .ok [] := by
  rw [← blockchainUnspentRequest_eq] at hw
  unfold blockchainUnspent
  rw [hw, ok_bind, if_pos h]

/-! ## Smartbit -/

theorem smartbitUrl_eq (net : Net) (address : Str) : smartbitAddress net address = Spec.smartbitUrl net address := by
  cases net <;> exact congrArg (· ++ address) (by decide)

theorem linkOf_next {link : Nat → Str} (hlink : ∀ o, link o ≠ []) (length offset : Nat) :
    linkOf (Spec.nextLink link length offset) = .ok (if offset < length then some (link offset) else none) := by
  unfold Spec.nextLink linkOf
  split
  · rw [if_pos (by unfold Json.truthy; exact decide_eq_true (hlink offset))]
    rfl
  · rfl

theorem smartbit_txs {link : Nat → Str} (hlink : ∀ o, link o ≠ []) {txs : List Str} {o : Nat} {j : Json}
    (h : Spec.SmartbitTxs link txs o j) : ∃ w, j.get "address".toList = .ok w ∧ w.has "transactions".toList = .ok true ∧
      smartbitTxs w = .ok ⟨window 1000 txs o, if o + 1000 < txs.length then some (link (o + 1000)) else none⟩ := by
  obtain ⟨l, h1, h2, h3⟩ := h
  obtain ⟨w, hw, h1'⟩ := Spec.At.split [name "address"] h1
  refine ⟨w, by rw [get_eq_path]; exact hw, h1'.has, ?_⟩
  unfold smartbitTxs
  have := forall₂_map_right (f := id) (g := fun tx : Json => do let t ← tx.get "txid".toList; t.asStr)
    (fun x j hj => by rw [show j.get "txid".toList = _ from hj.get]; rfl) h2
  rw [List.map_id] at this
  rw [show w.get "transactions".toList = _ from h1'.get, ok_bind, items_arr, ok_bind, this, ok_bind,
    show w.path ["transaction_paging".toList, "next_link".toList] = _ from
      (h3.under (ks := [name "address"]) hw).path, ok_bind, linkOf_next hlink]
  rfl

/-- C62. Smartbit, transactions: the whole list in order; or the query raises, if the server may fail. It ends. -/
theorem C62_smartbit_transactions {up : Bool} {web : Web} {net : Net} {address : Str} {link : Nat → Str} {txs : List Str}
    (h : Spec.SmartbitTxPages up web net address link txs) (fuel : Nat) (hfuel : txs.length ≤ fuel) :
    ∃ r, smartbitTransactions web net address fuel = some r ∧ Gives up r (· = txs) := by
  obtain ⟨hlink, h0, hn⟩ := h
  have hget : ∀ o, Good up (smartbitNextTxs web net (link o))
      ⟨window 1000 txs o, if o + 1000 < txs.length then some (link (o + 1000)) else none⟩ := by
    intro o
    unfold smartbitNextTxs
    refine answers_okJson (hn o) fun j hj => ?_
    obtain ⟨w, h1, -, h2⟩ := smartbit_txs hlink hj
    rw [h1]
    exact .inl h2
  have h0' : Good up (smartbitFirstTxs web net address)
      ⟨window 1000 txs 0, if 0 + 1000 < txs.length then some (link (0 + 1000)) else none⟩ := by
    unfold smartbitFirstTxs
    rw [smartbitUrl_eq]
    refine answers_okJson h0 fun j hj => ?_
    obtain ⟨w, h1, h2, h3⟩ := smartbit_txs hlink hj
    rw [h1, ok_bind, h2, ok_bind, if_pos rfl]
    exact .inl h3
  unfold smartbitTransactions
  rcases h0' with h0' | ⟨hu, e, h0'⟩
  · rw [h0']
    dsimp only
    obtain ⟨r, h1, h2⟩ := linkLoop_good (up := up) (smartbitNextTxs web net) 1000 (by decide) txs link hget fuel (0 + 1000)
      (by omega) (window 1000 txs 0)
    rw [window_append, List.drop_zero] at h2
    exact ⟨r, h1, h2.gives rfl⟩
  · rw [h0']
    exact ⟨_, rfl, .inr ⟨hu, e, rfl⟩⟩

theorem smartbit_entry {prec : Nat} (hp : 1 ≤ prec) {a : Account} {c : Coin} (hv : c.value < 10 ^ prec) {j : Json}
    (h : Spec.SmartbitCoin a c j) : smartbitEntry prec j = .ok (unspentOf a c) := by
  obtain ⟨⟨s, h1, hs⟩, h2, h3, h4, h5⟩ := h
  unfold smartbitEntry
  rw [show j.get "value".toList = _ from h1.get, ok_bind, btc_amount hp hv hs, ok_bind,
    show j.get "confirmations".toList = _ from h2.get, ok_bind, asInt_int, ok_bind,
    show j.path ["script_pub_key".toList, "hex".toList] = _ from h3.path, ok_bind, asStr_str, ok_bind,
    show j.get "txid".toList = _ from h4.get, ok_bind, asStr_str, ok_bind,
    show j.get "n".toList = _ from h5.get, ok_bind, asInt_int, ok_bind]
  rfl

theorem smartbit_utxos {prec : Nat} (hp : 1 ≤ prec) {a : Account} {link : Nat → Str} (hlink : ∀ o, link o ≠ [])
    {coins : List Coin} (hv : ∀ c ∈ coins, c.value < 10 ^ prec) {o : Nat} {j : Json} (h : Spec.SmartbitUtxos a link coins o j) :
    j.has "unspent".toList = .ok true ∧
      smartbitUtxos prec j = .ok ⟨window 1000 (coins.map (unspentOf a)) o,
        if o + 1000 < (coins.map (unspentOf a)).length then some (link (o + 1000)) else none⟩ := by
  obtain ⟨l, h1, h2, h3⟩ := h
  refine ⟨h1.has, ?_⟩
  unfold smartbitUtxos
  rw [show j.get "unspent".toList = _ from h1.get, ok_bind, items_arr, ok_bind,
    pyMap_forall₂_mem h2 fun c hc j hj => smartbit_entry hp (hv c (mem_of_mem_window hc)) hj, ok_bind,
    show j.path ["paging".toList, "next_link".toList] = _ from h3.path, ok_bind, linkOf_next hlink, window_map,
    List.length_map]
  rfl

/-- C62. Smartbit, unspents: all of them in order; or the query raises, if the server may fail. It ends. -/
theorem C62_smartbit_unspent {prec : Nat} (hp : 1 ≤ prec) {up : Bool} {web : Web} {net : Net} {address : Str} {a : Account}
    {link : Nat → Str} {coins : List Coin} (h : Spec.SmartbitUtxoPages up web net address a link coins)
    (hv : ∀ c ∈ coins, c.value < 10 ^ prec) (fuel : Nat) (hfuel : coins.length ≤ fuel) :
    ∃ r, smartbitUnspent prec web net address fuel = some r ∧ Gives up r (List.Forall₂ a.Describes coins) := by
  obtain ⟨hlink, h0, hn⟩ := h
  have hget : ∀ o, Good up (smartbitNextUtxos prec web (link o)) ⟨window 1000 (coins.map (unspentOf a)) o,
        if o + 1000 < (coins.map (unspentOf a)).length then some (link (o + 1000)) else none⟩ := by
    intro o
    unfold smartbitNextUtxos
    exact answers_okJson (hn o) fun j hj => .inl (smartbit_utxos hp hlink hv hj).2
  have h0' : Good up (smartbitFirstUtxos prec web net address) ⟨window 1000 (coins.map (unspentOf a)) 0,
        if 0 + 1000 < (coins.map (unspentOf a)).length then some (link (0 + 1000)) else none⟩ := by
    unfold smartbitFirstUtxos
    rw [smartbitUrl_eq]
    refine answers_okJson h0 fun j hj => ?_
    obtain ⟨h1, h2⟩ := smartbit_utxos hp hlink hv hj
    rw [h1, ok_bind, if_pos rfl]
    exact .inl h2
  unfold smartbitUnspent
  rcases h0' with h0' | ⟨hu, e, h0'⟩
  · rw [h0']
    dsimp only
    obtain ⟨r, h1, h2⟩ := linkLoop_good (up := up) (smartbitNextUtxos prec web) 1000 (by decide) (coins.map (unspentOf a))
      link hget fuel (0 + 1000) (by rw [List.length_map]; omega) (window 1000 (coins.map (unspentOf a)) 0)
    rw [window_append, List.drop_zero] at h2
    exact ⟨r, h1, h2.gives (forall₂_unspentOf a coins)⟩
  · rw [h0']
    exact ⟨_, rfl, .inr ⟨hu, e, rfl⟩⟩

end Bit
