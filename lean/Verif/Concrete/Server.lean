import Verif.Lemmas.Web
import Verif.Spec.Web
/-
Simulated servers that tell the truth about a given account, so that the hypotheses of the theorems on the network layer
are met by every account and every pattern of failures.
-/
namespace Bit.Concrete
open Bit.Spec (At name Answers AnswersUnchecked Account Coin Output window decimal Truthful)

def jobj (l : List (String × Json)) : Json := .obj (l.map fun p => (p.1.toList, p.2))

def reply200 (j : Json) : Py Reply := .ok { status := 200, text := [], json := .ok j }

def txObj (key : String) (id : Str) : Json := jobj [(key, .str id)]

/-! ## Blockchair -/

def blockchairCoin (c : Coin) : Json :=
  jobj [("value", .int c.value), ("block_id", .int (match c.height with | none => -1 | some h => h)),
    ("transaction_hash", .str c.txid), ("index", .int c.index)]

def blockchairReply (a : Account) (address : Str) (offset : Nat) : Json :=
  jobj [("context", jobj [("state", .int a.tip)]),
    ("data", .obj [(address, jobj [
      ("address", jobj [("balance", .int a.total), ("script_hex", .str a.script),
        ("unspent_output_count", .int a.coins.length), ("transaction_count", .int a.history.length)]),
      ("transactions", .arr ((window 1000 a.history offset).map .str)),
      ("utxo", .arr ((window 1000 a.coins offset).map blockchairCoin))])])]

def readNumber (s : Str) : Nat :=
  match parseInt s with
  | .ok n => n.toNat
  | .error _ => 0

theorem readNumber_decimal (n : Nat) : readNumber (decimal n) = n := by
  unfold readNumber
  rw [parseInt_decimal]
  rfl

def offsetOf : List (Str × Str) → Nat
  | (_, o) :: _ => readNumber o
  | [] => 0

/-! ## Blockstream -/

def blockstreamCoin (c : Coin) : Json :=
  jobj [("value", .int c.value),
    ("status", jobj (match c.height with
      | none => [("confirmed", .bool false)]
      | some h => [("confirmed", .bool true), ("block_height", .int h)])),
    ("txid", .str c.txid), ("vout", .int c.index)]

def blockstreamStats (a : Account) : Json :=
  jobj [("chain_stats", jobj [("funded_txo_sum", .int (a.sum fun o => o.coin.height.isSome)),
      ("spent_txo_sum", .int (a.sum fun o => o.spent = some true))]),
    ("mempool_stats", jobj [("funded_txo_sum", .int (a.sum fun o => o.coin.height.isNone)),
      ("spent_txo_sum", .int (a.sum fun o => o.spent = some false))])]

/-- `path` is what follows the address. -/
def blockstreamReply (a : Account) (path : Str) : Py Reply :=
  if path = [] then reply200 (blockstreamStats a)
  else if path = name "/utxo" then reply200 (.arr (a.coins.map blockstreamCoin))
  else if path = name "/txs/mempool" then reply200 (.arr ((a.unconfirmed.take 50).map (txObj "txid")))
  else
    let id := path.drop 11
    reply200 (.arr ((window 25 a.confirmed (if id = [] then 0 else a.confirmed.idxOf id + 1)).map (txObj "txid")))

/-! ## Bitcore -/

def bitcoreCoin (a : Account) (c : Coin × Str) : Json :=
  jobj [("_id", .str c.2), ("value", .int c.1.value), ("confirmations", .int (a.confirmations c.1)),
    ("script", .str a.script), ("mintTxid", .str c.1.txid), ("mintIndex", .int c.1.index)]

/-- Every entry is named by its place. -/
def bitcoreCoins (a : Account) : List (Coin × Str) := a.coins.zipIdx.map fun p => (p.1, decimal p.2)

def bitcoreReply (a : Account) (path : Str) : Py Reply :=
  if path = name "/balance" then reply200 (jobj [("balance", .int a.total)])
  else
    let id := path.drop 31
    reply200 (.arr ((window 100 (bitcoreCoins a) (if id = [] then 0 else readNumber id + 1)).map (bitcoreCoin a)))

/-! ## Smartbit -/

def smartbitCoin (a : Account) (c : Coin) : Json :=
  jobj [("value", .str (Dec.format ⟨false, c.value, -8⟩)), ("confirmations", .int (a.confirmations c)),
    ("script_pub_key", jobj [("hex", .str a.script)]), ("txid", .str c.txid), ("n", .int c.index)]

def txLink (offset : Nat) : Str := 't' :: decimal offset
def utxoLink (offset : Nat) : Str := 'u' :: decimal offset

def smartbitTxs (a : Account) (offset : Nat) : Json :=
  jobj [("address", jobj [("transactions", .arr ((window 1000 a.history offset).map (txObj "txid"))),
    ("transaction_paging", jobj [("next_link", Spec.nextLink txLink a.history.length (offset + 1000))]),
    ("total", jobj [("balance_int", .int a.total)])])]

def smartbitUtxos (a : Account) (offset : Nat) : Json :=
  jobj [("unspent", .arr ((window 1000 a.coins offset).map (smartbitCoin a))),
    ("paging", jobj [("next_link", Spec.nextLink utxoLink a.coins.length (offset + 1000))])]

/-! ## Blockchain.info -/

def blockchainCoin (a : Account) (c : Coin) : Json :=
  jobj [("value", .int c.value), ("confirmations", .int (a.confirmations c)), ("script", .str a.script),
    ("tx_hash_big_endian", .str c.txid), ("tx_output_n", .int c.index)]

def blockchainTxs (a : Account) (offset : Nat) : Json :=
  jobj [("n_tx", .int a.history.length), ("txs", .arr ((window 50 a.history offset).map (txObj "hash")))]

def blockchainReply (a : Account) (params : List (Str × Str)) : Py Reply :=
  match params with
  | [] => reply200 (jobj [("final_balance", .int a.total)])
  | [(_, o)] => reply200 (blockchainTxs a (readNumber o))
  | _ => reply200 (jobj [("unspent_outputs", .arr ((a.coins.take 1000).map (blockchainCoin a)))])

/-! ## All of them -/

/-- Whether the request is to the server with the given name: it is enough to look at 14 characters. -/
def isTo (server : String) (url : Str) : Bool := url.take 14 == server.toList

def server (a : Account) (net : Net) (address : Str) : Web
  | .get url params =>
    if isTo "https://api.bl" url then reply200 (blockchairReply a address (offsetOf params))
    else if isTo "https://blocks" url then
      let path := url.drop (Spec.blockstreamUrl net).length
      if path.take 6 = name "blocks" then .ok { status := 200, text := decimal a.tip, json := .error .valueError }
      else blockstreamReply a (path.drop (8 + address.length))
    else if isTo "https://api.bi" url then bitcoreReply a (url.drop (Spec.bitcoreUrl net address).length)
    else if isTo "https://blockc" url then blockchainReply a params
    else
      match url with
      | 't' :: o => reply200 (smartbitTxs a (readNumber o))
      | 'u' :: o => reply200 (smartbitUtxos a (readNumber o))
      | url =>
        if url.drop (Spec.smartbitUrl net address).length = [] then reply200 (smartbitTxs a 0)
        else reply200 (smartbitUtxos a 0)
  | _ => .error .requestsConnection

/-! ## They tell the truth -/

theorem answers200 {failure : Nat → Prop} {P : Json → Prop} {r : Py Reply} {j : Json} (hr : r = reply200 j) (h : P j) :
    Answers true failure r P := .inl ⟨[], j, hr, h⟩

theorem unchecked200 {P : Json → Prop} {r : Py Reply} {keys : List Str} {j : Json} (hr : r = reply200 j) (h : P j) :
    AnswersUnchecked true r keys P := .inl ⟨_, j, hr, rfl, h⟩

theorem forall₂_map {α β : Type} {R : α → β → Prop} {f : α → β} (l : List α) (h : ∀ x, R x (f x)) :
    List.Forall₂ R l (l.map f) := by
  induction l with
  | nil => exact .nil
  | cons x l ih => exact .cons (h x) ih

theorem drop_append_length {α : Type} (a b : List α) (n : Nat) (h : n = a.length) : (a ++ b).drop n = b := by
  subst h
  exact List.drop_left

theorem at_head {k : String} {v w : Json} {l : List (String × Json)} {keys : List Str} (h : At v keys w) :
    At (jobj ((k, v) :: l)) (name k :: keys) w := by
  refine .step ?_ h
  rw [List.map_cons, List.lookup_cons, show (name k == k.toList) = true from beq_self_eq_true k.toList]

theorem at_tail {k : String} {v w : Json} {l : List (String × Json)} {key : Str} {keys : List Str} (hk : key ≠ name k)
    (h : At (jobj l) (key :: keys) w) : At (jobj ((k, v) :: l)) (key :: keys) w := by
  cases h with
  | step h1 h2 =>
    refine .step ?_ h2
    rw [List.map_cons, List.lookup_cons, show (key == k.toList) = false from beq_false_of_ne hk]
    exact h1

/-- Follows the keys of a path. -/
macro "follow" : tactic =>
  `(tactic| repeat (first | exact Bit.Spec.At.here _ | apply at_head | refine at_tail (by decide) ?_))

/-! ### Blockchair -/

theorem server_blockchair (a : Account) (net : Net) (address : Str) (params : List (Str × Str)) :
    server a net address (.get (Spec.blockchairUrl net address) params) =
      reply200 (blockchairReply a address (offsetOf params)) := by
  have h : isTo "https://api.bl" (Spec.blockchairUrl net address) = true := by cases net <;> rfl
  unfold server
  dsimp only
  rw [if_pos h]

theorem blockchair_at (a : Account) (address : Str) (offset : Nat) {keys : List Str} {v : Json}
    (h : At (jobj [
      ("address", jobj [("balance", .int a.total), ("script_hex", .str a.script),
        ("unspent_output_count", .int a.coins.length), ("transaction_count", .int a.history.length)]),
      ("transactions", .arr ((window 1000 a.history offset).map .str)),
      ("utxo", .arr ((window 1000 a.coins offset).map blockchairCoin))]) keys v) :
    At (blockchairReply a address offset) (name "data" :: address :: keys) v := by
  refine at_tail (by decide) (at_head (.step ?_ h))
  rw [List.lookup_cons, beq_self_eq_true address]

theorem blockchair_page (a : Account) (address : Str) (offset : Nat) :
    Spec.BlockchairPage a address a.coins a.history offset (blockchairReply a address offset) :=
  ⟨(by follow), blockchair_at _ _ _ (by follow),
    blockchair_at _ _ _ (by follow), blockchair_at _ _ _ (by follow),
    blockchair_at _ _ _ (by follow), _, blockchair_at _ _ _ (by follow),
    forall₂_map _ fun _ => ⟨(by follow), (by follow), (by follow), (by follow)⟩⟩

theorem blockchair_truthful (a : Account) (net : Net) (address : Str) :
    Spec.Blockchair true (server a net address) net address a := by
  refine ⟨answers200 (server_blockchair a net address _) (blockchair_at _ _ _ (by follow)),
    a.coins, a.history, .refl _, .refl _, fun offset => answers200 (server_blockchair a net address _) ?_⟩
  have : offsetOf [(name "offset", decimal offset), (name "limit", name "1000")] = offset := readNumber_decimal offset
  rw [this]
  exact blockchair_page a address offset

/-! ### Blockstream -/

theorem server_blockstream (a : Account) (net : Net) (address path : Str) (params : List (Str × Str)) :
    server a net address (.get (Spec.blockstreamUrl net ++ (name "address/" ++ (address ++ path))) params) =
      blockstreamReply a path := by
  have h1 : isTo "https://api.bl" (Spec.blockstreamUrl net ++ (name "address/" ++ (address ++ path))) = false := by
    cases net <;> rfl
  have h2 : isTo "https://blocks" (Spec.blockstreamUrl net ++ (name "address/" ++ (address ++ path))) = true := by
    cases net <;> rfl
  unfold server
  dsimp only
  rw [h1, h2, if_neg Bool.false_ne_true, if_pos rfl, List.drop_left, if_neg (by
    show ¬ (['a', 'd', 'd', 'r', 'e', 's'] = name "blocks"); decide),
    ← List.append_assoc, drop_append_length _ _ _ (by rw [List.length_append]; rfl)]

theorem blockstream_truthful (a : Account) (net : Net) (address : Str) (hn : a.confirmed.Nodup) (he : [] ∉ a.confirmed) :
    Spec.Blockstream true (server a net address) net address a := by
  refine ⟨?_, .inl ⟨.error .valueError, ?_⟩, ⟨a.coins, .refl _, ?_⟩, ⟨a.unconfirmed, .refl _, ?_⟩, a.confirmed, .refl _, ?_, fun i hi => ?_⟩
  · refine answers200 (j := blockstreamStats a) ?_ ⟨(by follow), (by follow),
      (by follow), (by follow)⟩
    have := server_blockstream a net address [] []
    rw [List.append_nil] at this
    rw [List.append_assoc, this]
    rfl
  · have h1 : isTo "https://api.bl" (Spec.blockstreamUrl net ++ name "blocks/tip/height") = false := by
      cases net <;> decide
    have h2 : isTo "https://blocks" (Spec.blockstreamUrl net ++ name "blocks/tip/height") = true := by
      cases net <;> decide
    unfold server
    dsimp only
    rw [h1, h2, if_neg Bool.false_ne_true, if_pos rfl, List.drop_left, if_pos (by decide)]
  · refine answers200 (j := .arr (a.coins.map blockstreamCoin)) ?_ ⟨_, rfl, forall₂_map _ fun c => ?_⟩
    · rw [List.append_assoc, List.append_assoc, server_blockstream]
      unfold blockstreamReply
      rw [if_neg (by decide), if_pos rfl]
    · refine ⟨(by follow), ?_, ?_, (by follow), (by follow)⟩
      · unfold blockstreamCoin
        cases c.height <;> follow
      · intro h hh
        unfold blockstreamCoin
        rw [hh]
        follow
  · refine answers200 (j := .arr ((a.unconfirmed.take 50).map (txObj "txid"))) ?_
      ⟨_, rfl, forall₂_map _ fun _ => (by follow)⟩
    rw [List.append_assoc, List.append_assoc, server_blockstream]
    unfold blockstreamReply
    rw [if_neg (by decide), if_neg (by decide), if_pos rfl]
  · refine answers200 (j := .arr ((window 25 a.confirmed 0).map (txObj "txid"))) ?_
      ⟨_, rfl, forall₂_map _ fun _ => (by follow)⟩
    rw [List.append_assoc, List.append_assoc, server_blockstream]
    unfold blockstreamReply
    rw [if_neg (by decide), if_neg (by decide), if_neg (by decide)]
    rfl
  · refine unchecked200 (j := .arr ((window 25 a.confirmed (i + 1)).map (txObj "txid"))) ?_
      ⟨_, rfl, forall₂_map _ fun _ => (by follow)⟩
    have hne : a.confirmed[i] ≠ [] := fun h => he (h ▸ List.getElem_mem hi)
    rw [List.append_assoc, List.append_assoc, List.append_assoc, server_blockstream]
    unfold blockstreamReply
    rw [if_neg (by simp [name]), if_neg (by simp [name]), if_neg (by simp [name])]
    dsimp only
    rw [drop_append_length (name "/txs/chain/") _ 11 rfl, if_neg hne, hn.idxOf_getElem]

/-! ### Bitcore -/

theorem server_bitcore (a : Account) (net : Net) (address path : Str) (params : List (Str × Str)) :
    server a net address (.get (Spec.bitcoreUrl net address ++ path) params) = bitcoreReply a path := by
  have h1 : isTo "https://api.bl" (Spec.bitcoreUrl net address ++ path) = false := by cases net <;> rfl
  have h2 : isTo "https://blocks" (Spec.bitcoreUrl net address ++ path) = false := by cases net <;> rfl
  have h3 : isTo "https://api.bi" (Spec.bitcoreUrl net address ++ path) = true := by cases net <;> rfl
  unfold server
  dsimp only
  rw [h1, h2, h3, if_neg Bool.false_ne_true, if_neg Bool.false_ne_true, if_pos rfl, List.drop_left]

theorem decimal_ne_nil (n : Nat) : decimal n ≠ [] := by
  intro h
  have := Nat.length_toDigits_pos (b := 10) (n := n)
  unfold decimal at h
  rw [h] at this
  exact absurd this (by decide)

theorem bitcore_page (a : Account) (offset : Nat) :
    Spec.BitcorePage a (bitcoreCoins a) offset (.arr ((window 100 (bitcoreCoins a) offset).map (bitcoreCoin a))) :=
  ⟨_, rfl, forall₂_map _ fun _ => ⟨(by follow), (by follow), (by follow), (by follow),
    (by follow), (by follow)⟩⟩

theorem bitcore_truthful (a : Account) (net : Net) (address : Str) :
    Spec.Bitcore true (server a net address) net address a := by
  refine ⟨?_, bitcoreCoins a, ?_, ?_, fun i hi => ?_⟩
  · exact answers200 (by rw [server_bitcore]; unfold bitcoreReply; rw [if_pos rfl]) (by follow)
  · unfold bitcoreCoins
    rw [List.map_map]
    show (a.coins.zipIdx.map Prod.fst).Perm a.coins
    rw [List.zipIdx_map_fst]
  · refine answers200 ?_ (bitcore_page a 0)
    rw [server_bitcore]
    unfold bitcoreReply
    rw [if_neg (by decide)]
    rfl
  · refine unchecked200 ?_ (bitcore_page a (i + 1))
    have hi' : i < a.coins.length := by simpa [bitcoreCoins] using hi
    have hid : (bitcoreCoins a)[i].2 = decimal i := by simp [bitcoreCoins]
    rw [List.append_assoc, List.append_assoc, server_bitcore]
    unfold bitcoreReply
    rw [if_neg (by simp [name])]
    dsimp only
    rw [← List.append_assoc, drop_append_length (name "/?unspent=true&limit=100" ++ name "&since=") _ 31 (by decide), hid,
      if_neg (decimal_ne_nil i), readNumber_decimal]

/-! ### Smartbit -/

theorem server_smartbit (a : Account) (net : Net) (address path : Str) (params : List (Str × Str)) :
    server a net address (.get (Spec.smartbitUrl net address ++ path) params) =
      if path = [] then reply200 (smartbitTxs a 0) else reply200 (smartbitUtxos a 0) := by
  have h1 : isTo "https://api.bl" (Spec.smartbitUrl net address ++ path) = false := by cases net <;> rfl
  have h2 : isTo "https://blocks" (Spec.smartbitUrl net address ++ path) = false := by cases net <;> rfl
  have h3 : isTo "https://api.bi" (Spec.smartbitUrl net address ++ path) = false := by cases net <;> rfl
  have h4 : isTo "https://blockc" (Spec.smartbitUrl net address ++ path) = false := by cases net <;> rfl
  have h5 : ∃ rest, Spec.smartbitUrl net address ++ path = 'h' :: rest := by cases net <;> exact ⟨_, rfl⟩
  have h6 := List.drop_left (l₁ := Spec.smartbitUrl net address) (l₂ := path)
  obtain ⟨rest, h5⟩ := h5
  unfold server
  dsimp only
  rw [h1, h2, h3, h4, if_neg Bool.false_ne_true, if_neg Bool.false_ne_true, if_neg Bool.false_ne_true,
    if_neg Bool.false_ne_true]
  rw [h5] at h6 ⊢
  split
  · rename_i h; cases h
  · rename_i h; cases h
  · rw [h6]

theorem server_txLink (a : Account) (net : Net) (address : Str) (offset : Nat) (params : List (Str × Str)) :
    server a net address (.get (txLink offset) params) = reply200 (smartbitTxs a offset) := by
  unfold server txLink
  dsimp only
  rw [if_neg (by simp [isTo]), if_neg (by simp [isTo]), if_neg (by simp [isTo]), if_neg (by simp [isTo])]
  simp only [readNumber_decimal]

theorem server_utxoLink (a : Account) (net : Net) (address : Str) (offset : Nat) (params : List (Str × Str)) :
    server a net address (.get (utxoLink offset) params) = reply200 (smartbitUtxos a offset) := by
  unfold server utxoLink
  dsimp only
  rw [if_neg (by simp [isTo]), if_neg (by simp [isTo]), if_neg (by simp [isTo]), if_neg (by simp [isTo])]
  simp only [readNumber_decimal]

theorem smartbit_txs (a : Account) (offset : Nat) : Spec.SmartbitTxs txLink a.history offset (smartbitTxs a offset) :=
  ⟨_, (by follow), forall₂_map _ fun _ => (by follow),
    (by follow)⟩

theorem smartbit_utxos (a : Account) (offset : Nat) :
    Spec.SmartbitUtxos a utxoLink a.coins offset (smartbitUtxos a offset) := by
  refine ⟨_, (by follow), forall₂_map _ fun c => ⟨⟨_, (by follow), ?_⟩, (by follow),
    (by follow), (by follow), (by follow)⟩, (by follow)⟩
  have h := format_denotes ⟨false, c.value, -8⟩
  have hv : Spec.value ⟨false, c.value, -8⟩ = (c.value : ℚ) / 10 ^ 8 := by
    unfold Spec.value
    simp [zpow_neg, div_eq_mul_inv]
  rwa [hv] at h

theorem smartbit_truthful (a : Account) (net : Net) (address : Str) :
    Spec.Smartbit true (server a net address) net address a := by
  have url := List.append_nil (Spec.smartbitUrl net address)
  refine ⟨?_, ⟨a.history, txLink, .refl _, fun _ => List.cons_ne_nil _ _, ?_, fun offset =>
    answers200 (server_txLink a net address offset _) (smartbit_txs a offset)⟩,
    a.coins, utxoLink, .refl _, fun _ => List.cons_ne_nil _ _, ?_, fun offset =>
    answers200 (server_utxoLink a net address offset _) (smartbit_utxos a offset)⟩
  · refine answers200 (j := smartbitTxs a 0) ?_ (by follow)
    rw [← url, server_smartbit, if_pos rfl]
  · refine answers200 (j := smartbitTxs a 0) ?_ (smartbit_txs a 0)
    rw [← url, server_smartbit, if_pos rfl]
  · refine answers200 (j := smartbitUtxos a 0) ?_ (smartbit_utxos a 0)
    rw [server_smartbit, if_neg (by decide)]

/-! ### Blockchain.info -/

theorem server_blockchain (a : Account) (net : Net) (address rest : Str) (params : List (Str × Str)) :
    server a net address (.get (name "https://blockchain.info/" ++ rest) params) = blockchainReply a params := by
  have h1 : isTo "https://api.bl" (name "https://blockchain.info/" ++ rest) = false := rfl
  have h2 : isTo "https://blocks" (name "https://blockchain.info/" ++ rest) = false := rfl
  have h3 : isTo "https://api.bi" (name "https://blockchain.info/" ++ rest) = false := rfl
  have h4 : isTo "https://blockc" (name "https://blockchain.info/" ++ rest) = true := rfl
  unfold server
  dsimp only
  rw [h1, h2, h3, h4, if_neg Bool.false_ne_true, if_neg Bool.false_ne_true, if_neg Bool.false_ne_true, if_pos rfl]

theorem blockchainUrl_split (address : Str) :
    Spec.blockchainUrl address = name "https://blockchain.info/" ++ (name "address/" ++ address ++ name "?format=json") := by
  unfold Spec.blockchainUrl
  rw [← List.append_assoc, ← List.append_assoc]
  exact congrArg (· ++ address ++ name "?format=json") (by decide)

theorem blockchain_txs (a : Account) (offset : Nat) : Spec.BlockchainTxs a.history offset (blockchainTxs a offset) :=
  ⟨(by follow), _, (by follow), forall₂_map _ fun _ => (by follow)⟩

theorem blockchain_utxo (a : Account) (net : Net) (address : Str) : Answers true (Spec.NotOkOr 500)
    (server a net address (.get "https://blockchain.info/unspent".toList
      [(name "active", address), (name "offset", name "0"), (name "limit", name "1000")])) fun j =>
    ∃ l, At j [name "unspent_outputs"] (.arr l) ∧ List.Forall₂ (Spec.BlockchainCoin a) (a.coins.take 1000) l := by
  refine answers200 (j := jobj [("unspent_outputs", .arr ((a.coins.take 1000).map (blockchainCoin a)))]) ?_
    ⟨_, (by follow), forall₂_map _ fun _ => ⟨(by follow), (by follow), (by follow), (by follow), (by follow)⟩⟩
  have : "https://blockchain.info/unspent".toList = name "https://blockchain.info/" ++ name "unspent" := by decide
  rw [this, server_blockchain]
  rfl

theorem blockchain_truthful (a : Account) (net : Net) (address : Str) :
    Spec.Blockchain true (server a net address) address a := by
  refine ⟨?_, ⟨a.history, .refl _, ?_, fun offset _ => ?_⟩, a.coins, .refl _, .inr (blockchain_utxo a net address)⟩
  · refine answers200 (j := jobj [("final_balance", .int a.total)]) ?_ (by follow)
    rw [blockchainUrl_split, List.append_assoc, server_blockchain]
    rfl
  · refine answers200 (j := blockchainTxs a 0) ?_ (blockchain_txs a 0)
    rw [blockchainUrl_split, server_blockchain]
    unfold blockchainReply
    dsimp only
    rw [readNumber_decimal]
  · refine unchecked200 (j := blockchainTxs a offset) ?_ (blockchain_txs a offset)
    rw [blockchainUrl_split, server_blockchain]
    unfold blockchainReply
    dsimp only
    rw [readNumber_decimal]

/-- For every account whose confirmed transactions have different ids there are servers that tell the truth about it. -/
theorem server_truthful (a : Account) (net : Net) (address : Str) (hn : a.confirmed.Nodup) (he : [] ∉ a.confirmed) :
    Truthful true (server a net address) net address a :=
  ⟨blockchair_truthful a net address, blockstream_truthful a net address hn he, bitcore_truthful a net address,
    smartbit_truthful a net address, fun _ => blockchain_truthful a net address⟩

/-! ## They may fail -/

/-- The requests for which `down` holds are not answered. -/
def failing (web : Web) (down : Request → Bool) : Web := fun r => if down r then .error .requestsConnection else web r

theorem failing_answers {web : Web} {down : Request → Bool} {failure : Nat → Prop} {r : Request} {P : Json → Prop}
    (h : Answers true failure (web r) P) : Answers false failure (failing web down r) P := by
  unfold failing
  cases down r with
  | true => exact .inr ⟨rfl, .inl ⟨_, rfl⟩⟩
  | false =>
    rcases h with h | ⟨h, -⟩
    · exact .inl h
    · cases h

theorem failing_unchecked {web : Web} {down : Request → Bool} {r : Request} {keys : List Str} {P : Json → Prop}
    (h : AnswersUnchecked true (web r) keys P) : AnswersUnchecked false (failing web down r) keys P := by
  unfold failing
  cases down r with
  | true => exact .inr ⟨rfl, .inl ⟨_, rfl⟩⟩
  | false =>
    rcases h with h | ⟨h, -⟩
    · exact .inl h
    · cases h

/-- If they fail on any set of requests, what they say is still true. -/
theorem failing_truthful {web : Web} {net : Net} {address : Str} {a : Account} (down : Request → Bool)
    (h : Truthful true web net address a)
    (hb : net = .main → ∃ coins : List Coin, coins.Perm a.coins ∧ Answers true (Spec.NotOkOr 500)
      (web (.get "https://blockchain.info/unspent".toList
        [(name "active", address), (name "offset", name "0"), (name "limit", name "1000")])) fun j =>
      ∃ l, At j [name "unspent_outputs"] (.arr l) ∧ List.Forall₂ (Spec.BlockchainCoin a) (coins.take 1000) l) :
    Truthful false (failing web down) net address a := by
  obtain ⟨h1, h2, h3, h4, h5⟩ := h
  refine ⟨⟨failing_answers h1.balance, ?_⟩, ⟨failing_answers h2.balance, ?_, ?_, ?_, ?_⟩,
    ⟨failing_answers h3.balance, ?_⟩, ⟨failing_answers h4.balance, ?_, ?_⟩, fun hn => ⟨failing_answers (h5 hn).balance, ?_, ?_⟩⟩
  · obtain ⟨c, t, x, y, z⟩ := h1.pages
    exact ⟨c, t, x, y, fun o => failing_answers (z o)⟩
  · unfold Spec.BlockstreamTip failing
    cases down _ with
    | true => exact .inr ⟨rfl, .inl ⟨_, rfl⟩⟩
    | false =>
      rcases h2.tip with h | ⟨h, -⟩
      · exact .inl h
      · cases h
  · obtain ⟨c, x, y⟩ := h2.utxo
    exact ⟨c, x, failing_answers y⟩
  · obtain ⟨c, x, y⟩ := h2.mempool
    exact ⟨c, x, failing_answers y⟩
  · obtain ⟨c, x, y, z⟩ := h2.chain
    exact ⟨c, x, failing_answers y, fun i hi => failing_unchecked (z i hi)⟩
  · obtain ⟨c, x, y, z⟩ := h3.pages
    exact ⟨c, x, failing_answers y, fun i hi => failing_unchecked (z i hi)⟩
  · obtain ⟨t, l, x, n, y, z⟩ := h4.txs
    exact ⟨t, l, x, n, failing_answers y, fun o => failing_answers (z o)⟩
  · obtain ⟨t, l, x, n, y, z⟩ := h4.utxo
    exact ⟨t, l, x, n, failing_answers y, fun o => failing_answers (z o)⟩
  · obtain ⟨t, x, y, z⟩ := (h5 hn).txs
    exact ⟨t, x, failing_answers y, fun o ho => failing_unchecked (z o ho)⟩
  · obtain ⟨c, x, y⟩ := hb hn
    exact ⟨c, x, .inr (failing_answers y)⟩

/-- For every account there are servers that tell the truth about it and fail on any given set of requests. -/
theorem failing_server (a : Account) (net : Net) (address : Str) (hn : a.confirmed.Nodup) (he : [] ∉ a.confirmed)
    (down : Request → Bool) : Truthful false (failing (server a net address) down) net address a :=
  failing_truthful down (server_truthful a net address hn he) fun _ => ⟨a.coins, .refl _, blockchain_utxo a net address⟩

end Bit.Concrete
