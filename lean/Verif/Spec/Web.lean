import Verif.Model.Web
import Verif.Spec.Decimal
/-
Specification of the web services: what an address has on the chain, and what the servers say about it if they tell
the truth. The addresses of the servers and the names in their replies are those of their documentation.
-/
namespace Bit.Spec

/-! ## What there is to know about an address -/

/-- An output paid to the address; `height` is the block it is in, `none` if it is not confirmed. -/
structure Coin where
  txid : Str
  index : Nat
  value : Nat
  height : Option Nat

/-- An output with the transaction that spends it, if there is one: confirmed (`true`) or not. -/
structure Output where
  coin : Coin
  spent : Option Bool

/-- An address: its script, in hexadecimal, everything ever paid to it, and the ids of its transactions. `tip` is the
height of the chain. -/
structure Account where
  tip : Nat
  script : Str
  outputs : List Output
  confirmed : List Str
  unconfirmed : List Str

/-- The outputs that are not spent. -/
def Account.coins (a : Account) : List Coin := (a.outputs.filter fun o => o.spent.isNone).map Output.coin

/-- What they are worth. -/
def Account.total (a : Account) : Nat := (a.coins.map Coin.value).sum

/-- The ids of all transactions. -/
def Account.history (a : Account) : List Str := a.confirmed ++ a.unconfirmed

/-- The number of confirmations: one for the last block. -/
def Account.confirmations (a : Account) (c : Coin) : Int :=
  match c.height with
  | none => 0
  | some h => a.tip - h + 1

/-- The object `u` describes the coin, with the final sequence number (no lock time and no replacement). -/
def Account.Describes (a : Account) (c : Coin) (u : Unspent) : Prop :=
  u.amount = c.value ∧ u.confirmations = a.confirmations c ∧ u.script = a.script ∧ u.txid = c.txid ∧
  u.txindex = c.index ∧ u.sequence = 0xffffffff

/-- The list describes all unspent coins, each once, in some order. -/
def Account.Lists (a : Account) (us : List Unspent) : Prop :=
  ∃ coins, coins.Perm a.coins ∧ List.Forall₂ a.Describes coins us

/-! ## Replies -/

/-- The value found by following the keys. -/
inductive At : Json → List Str → Json → Prop
  | here (j : Json) : At j [] j
  | step {l : List (Str × Json)} {key : Str} {v : Json} {keys : List Str} {w : Json} :
      l.lookup key = some v → At v keys w → At (.obj l) (key :: keys) w

/-- A name in a reply. -/
def name (s : String) : Str := s.toList

/-- Any status other than 200. -/
def NotOk (status : Nat) : Prop := status ≠ 200

/-- Any status other than 200 and a special one. -/
def NotOkOr (special : Nat) (status : Nat) : Prop := status ≠ 200 ∧ status ≠ special

/-- The request is answered with a JSON value as in `P`. Or, unless the server is up, it fails: there is no reply, or
one with a status of failure, or one that is not JSON. -/
def Answers (up : Bool) (failure : Nat → Prop) (r : Py Reply) (P : Json → Prop) : Prop :=
  (∃ text j, r = .ok { status := 200, text := text, json := .ok j } ∧ P j) ∨
  up = false ∧ ((∃ e, r = .error e) ∨
    ∃ reply, r = .ok reply ∧ (failure reply.status ∨ reply.status = 200 ∧ ∃ e, reply.json = .error e))

/-- For a request whose status the client does not look at: it is answered with a JSON value as in `P`; or, unless the
server is up, there is no reply, or one in which no list is found where it is expected. -/
def AnswersUnchecked (up : Bool) (r : Py Reply) (keys : List Str) (P : Json → Prop) : Prop :=
  (∃ reply j, r = .ok reply ∧ reply.json = .ok j ∧ P j) ∨
  up = false ∧ ((∃ e, r = .error e) ∨ ∃ reply, r = .ok reply ∧ ¬ ∃ j l, reply.json = .ok j ∧ At j keys (.arr l))

/-- The call gives a value as in `P`; or, unless the servers are up, it raises. -/
def Gives {α : Type} (up : Bool) (r : Py α) (P : α → Prop) : Prop :=
  (∃ x, r = .ok x ∧ P x) ∨ up = false ∧ ∃ e, r = .error e

/-- The page of at most `size` items from `offset` on. -/
def window {α : Type} (size : Nat) (items : List α) (offset : Nat) : List α := (items.drop offset).take size

/-- The decimal digits of a number. -/
def decimal (n : Nat) : Str := Nat.toDigits 10 n

/-! ## Blockchair -/

def blockchairUrl (net : Net) (address : Str) : Str :=
  (match net with
    | .main => "https://api.blockchair.com/bitcoin/dashboards/address/".toList
    | .test => "https://api.blockchair.com/bitcoin/testnet/dashboards/address/".toList) ++ address

/-- An unspent output; a block of -1 stands for none. -/
def BlockchairCoin (c : Coin) (j : Json) : Prop :=
  At j [name "value"] (.int c.value) ∧
  At j [name "block_id"] (.int (match c.height with | none => -1 | some h => h)) ∧
  At j [name "transaction_hash"] (.str c.txid) ∧
  At j [name "index"] (.int c.index)

/-- A page: the numbers of items and the items from the offset on. -/
def BlockchairPage (a : Account) (address : Str) (coins : List Coin) (txs : List Str) (offset : Nat) (j : Json) : Prop :=
  At j [name "context", name "state"] (.int a.tip) ∧
  At j [name "data", address, name "address", name "script_hex"] (.str a.script) ∧
  At j [name "data", address, name "address", name "unspent_output_count"] (.int coins.length) ∧
  At j [name "data", address, name "address", name "transaction_count"] (.int txs.length) ∧
  At j [name "data", address, name "transactions"] (.arr ((window 1000 txs offset).map .str)) ∧
  ∃ us, At j [name "data", address, name "utxo"] (.arr us) ∧
    List.Forall₂ BlockchairCoin (window 1000 coins offset) us

/-- The pages of an address with the given unspent coins and transactions. The first is special: there 404 is not a
failure to the client. -/
def BlockchairPages (up : Bool) (web : Web) (net : Net) (address : Str) (a : Account) (coins : List Coin)
    (txs : List Str) : Prop :=
  ∀ offset : Nat,
    Answers up (if offset = 0 then NotOkOr 404 else NotOk)
      (web (.get (blockchairUrl net address) [(name "offset", decimal offset), (name "limit", name "1000")]))
      (BlockchairPage a address coins txs offset)

structure Blockchair (up : Bool) (web : Web) (net : Net) (address : Str) (a : Account) : Prop where
  balance : Answers up NotOk (web (.get (blockchairUrl net address) [])) fun j =>
    At j [name "data", address, name "address", name "balance"] (.int a.total)
  pages : ∃ (coins : List Coin) (txs : List Str), coins.Perm a.coins ∧ txs.Perm a.history ∧
    BlockchairPages up web net address a coins txs

/-! ## Blockstream -/

def blockstreamUrl (net : Net) : Str :=
  match net with
  | .main => "https://blockstream.info/api/".toList
  | .test => "https://blockstream.info/testnet/api/".toList

/-- The value of the outputs with a property. -/
def Account.sum (a : Account) (p : Output → Bool) : Nat := ((a.outputs.filter p).map fun o => o.coin.value).sum

def BlockstreamStats (a : Account) (j : Json) : Prop :=
  At j [name "chain_stats", name "funded_txo_sum"] (.int (a.sum fun o => o.coin.height.isSome)) ∧
  At j [name "mempool_stats", name "funded_txo_sum"] (.int (a.sum fun o => o.coin.height.isNone)) ∧
  At j [name "chain_stats", name "spent_txo_sum"] (.int (a.sum fun o => o.spent = some true)) ∧
  At j [name "mempool_stats", name "spent_txo_sum"] (.int (a.sum fun o => o.spent = some false))

def BlockstreamCoin (c : Coin) (j : Json) : Prop :=
  At j [name "value"] (.int c.value) ∧
  At j [name "status", name "confirmed"] (.bool c.height.isSome) ∧
  (∀ h, c.height = some h → At j [name "status", name "block_height"] (.int h)) ∧
  At j [name "txid"] (.str c.txid) ∧
  At j [name "vout"] (.int c.index)

/-- A list of transactions with the given ids. -/
def TxList (key : Str) (ids : List Str) (j : Json) : Prop :=
  ∃ l, j = .arr l ∧ List.Forall₂ (fun id tx => At tx [key] (.str id)) ids l

/-- The height of the chain, as a text. -/
def BlockstreamTip (up : Bool) (web : Web) (net : Net) (tip : Nat) : Prop :=
  (∃ j, web (.get (blockstreamUrl net ++ name "blocks/tip/height") []) =
    .ok { status := 200, text := decimal tip, json := j }) ∨
  up = false ∧ ((∃ e, web (.get (blockstreamUrl net ++ name "blocks/tip/height") []) = .error e) ∨
    ∃ reply, web (.get (blockstreamUrl net ++ name "blocks/tip/height") []) = .ok reply ∧ reply.status ≠ 200)

/-- The unspent coins. On the test network 400 is not a failure to the client. -/
def BlockstreamUtxo (up : Bool) (web : Web) (net : Net) (address : Str) (coins : List Coin) : Prop :=
  Answers up (match net with | .main => NotOk | .test => NotOkOr 400)
    (web (.get (blockstreamUrl net ++ name "address/" ++ address ++ name "/utxo") [])) fun j =>
      ∃ l, j = .arr l ∧ List.Forall₂ BlockstreamCoin coins l

/-- At most 50 of the unconfirmed transactions; 400 is not a failure to the client. -/
def BlockstreamMempool (up : Bool) (web : Web) (net : Net) (address : Str) (unconfirmed : List Str) : Prop :=
  Answers up (NotOkOr 400) (web (.get (blockstreamUrl net ++ name "address/" ++ address ++ name "/txs/mempool") []))
    (TxList (name "txid") (unconfirmed.take 50))

/-- The confirmed transactions in pages of 25, each after a given transaction. -/
def BlockstreamChain (up : Bool) (web : Web) (net : Net) (address : Str) (confirmed : List Str) : Prop :=
  Answers up (NotOkOr 400) (web (.get (blockstreamUrl net ++ name "address/" ++ address ++ name "/txs/chain/") []))
    (TxList (name "txid") (window 25 confirmed 0)) ∧
  ∀ i (h : i < confirmed.length),
    AnswersUnchecked up
      (web (.get (blockstreamUrl net ++ name "address/" ++ address ++ name "/txs/chain/" ++ confirmed[i]) [])) []
      (TxList (name "txid") (window 25 confirmed (i + 1)))

structure Blockstream (up : Bool) (web : Web) (net : Net) (address : Str) (a : Account) : Prop where
  balance : Answers up NotOk (web (.get (blockstreamUrl net ++ name "address/" ++ address) [])) (BlockstreamStats a)
  tip : BlockstreamTip up web net a.tip
  utxo : ∃ coins, coins.Perm a.coins ∧ BlockstreamUtxo up web net address coins
  mempool : ∃ unconfirmed, unconfirmed.Perm a.unconfirmed ∧ BlockstreamMempool up web net address unconfirmed
  chain : ∃ confirmed, confirmed.Perm a.confirmed ∧ BlockstreamChain up web net address confirmed

/-! ## Bitcore -/

def bitcoreUrl (net : Net) (address : Str) : Str :=
  (match net with
    | .main => "https://api.bitcore.io/api/BTC/mainnet/address/".toList
    | .test => "https://api.bitcore.io/api/BTC/testnet/address/".toList) ++ address

def BitcoreCoin (a : Account) (c : Coin × Str) (j : Json) : Prop :=
  At j [name "_id"] (.str c.2) ∧
  At j [name "value"] (.int c.1.value) ∧
  At j [name "confirmations"] (.int (a.confirmations c.1)) ∧
  At j [name "script"] (.str a.script) ∧
  At j [name "mintTxid"] (.str c.1.txid) ∧
  At j [name "mintIndex"] (.int c.1.index)

def BitcorePage (a : Account) (coins : List (Coin × Str)) (offset : Nat) (j : Json) : Prop :=
  ∃ l, j = .arr l ∧ List.Forall₂ (BitcoreCoin a) (window 100 coins offset) l

/-- The unspent coins in pages of 100, each after a given entry. -/
def BitcorePages (up : Bool) (web : Web) (net : Net) (address : Str) (a : Account) (coins : List (Coin × Str)) : Prop :=
  Answers up NotOk (web (.get (bitcoreUrl net address ++ name "/?unspent=true&limit=100") [])) (BitcorePage a coins 0) ∧
  ∀ i (h : i < coins.length),
    AnswersUnchecked up
      (web (.get (bitcoreUrl net address ++ name "/?unspent=true&limit=100" ++ name "&since=" ++ coins[i].2) [])) []
      (BitcorePage a coins (i + 1))

structure Bitcore (up : Bool) (web : Web) (net : Net) (address : Str) (a : Account) : Prop where
  balance : Answers up (fun status => 400 ≤ status ∧ status < 600)
    (web (.get (bitcoreUrl net address ++ name "/balance") [])) fun j => At j [name "balance"] (.int a.total)
  pages : ∃ coins : List (Coin × Str), (coins.map Prod.fst).Perm a.coins ∧ BitcorePages up web net address a coins

/-! ## Smartbit -/

def smartbitUrl (net : Net) (address : Str) : Str :=
  (match net with
    | .main => "https://api.smartbit.com.au/v1/blockchain/address/".toList
    | .test => "https://testnet-api.smartbit.com.au/v1/blockchain/address/".toList) ++ address

/-- The value is a text in bitcoin. -/
def SmartbitCoin (a : Account) (c : Coin) (j : Json) : Prop :=
  (∃ s, At j [name "value"] (.str s) ∧ Denotes s ((c.value : ℚ) / 10 ^ 8)) ∧
  At j [name "confirmations"] (.int (a.confirmations c)) ∧
  At j [name "script_pub_key", name "hex"] (.str a.script) ∧
  At j [name "txid"] (.str c.txid) ∧
  At j [name "n"] (.int c.index)

/-- The link to the page from `offset` on, if there is anything there; `null` otherwise. -/
def nextLink (link : Nat → Str) (length offset : Nat) : Json := if offset < length then .str (link offset) else .null

def SmartbitTxs (link : Nat → Str) (txs : List Str) (offset : Nat) (j : Json) : Prop :=
  ∃ l, At j [name "address", name "transactions"] (.arr l) ∧
    List.Forall₂ (fun id tx => At tx [name "txid"] (.str id)) (window 1000 txs offset) l ∧
    At j [name "address", name "transaction_paging", name "next_link"] (nextLink link txs.length (offset + 1000))

def SmartbitUtxos (a : Account) (link : Nat → Str) (coins : List Coin) (offset : Nat) (j : Json) : Prop :=
  ∃ l, At j [name "unspent"] (.arr l) ∧ List.Forall₂ (SmartbitCoin a) (window 1000 coins offset) l ∧
    At j [name "paging", name "next_link"] (nextLink link coins.length (offset + 1000))

/-- The transactions in pages of 1000. The client repeats the limit with the link on the test network. -/
def SmartbitTxPages (up : Bool) (web : Web) (net : Net) (address : Str) (link : Nat → Str) (txs : List Str) : Prop :=
  (∀ o, link o ≠ []) ∧
  Answers up NotOk (web (.get (smartbitUrl net address) [(name "limit", name "1000")])) (SmartbitTxs link txs 0) ∧
  ∀ offset : Nat, Answers up NotOk
    (web (.get (link offset) (match net with | .main => [] | .test => [(name "limit", name "1000")])))
    (SmartbitTxs link txs offset)

/-- The unspent coins in pages of 1000. The client repeats the limit with the link. -/
def SmartbitUtxoPages (up : Bool) (web : Web) (net : Net) (address : Str) (a : Account) (link : Nat → Str)
    (coins : List Coin) : Prop :=
  (∀ o, link o ≠ []) ∧
  Answers up NotOk (web (.get (smartbitUrl net address ++ name "/unspent") [(name "limit", name "1000")]))
    (SmartbitUtxos a link coins 0) ∧
  ∀ offset : Nat, Answers up NotOk (web (.get (link offset) [(name "limit", name "1000")]))
    (SmartbitUtxos a link coins offset)

structure Smartbit (up : Bool) (web : Web) (net : Net) (address : Str) (a : Account) : Prop where
  balance : Answers up NotOk (web (.get (smartbitUrl net address) [(name "limit", name "1")])) fun j =>
    At j [name "address", name "total", name "balance_int"] (.int a.total)
  txs : ∃ (txs : List Str) (link : Nat → Str), txs.Perm a.history ∧ SmartbitTxPages up web net address link txs
  utxo : ∃ (coins : List Coin) (link : Nat → Str), coins.Perm a.coins ∧ SmartbitUtxoPages up web net address a link coins

/-! ## Blockchain.info -/

def blockchainUrl (address : Str) : Str := "https://blockchain.info/address/".toList ++ address ++ "?format=json".toList

def BlockchainCoin (a : Account) (c : Coin) (j : Json) : Prop :=
  At j [name "value"] (.int c.value) ∧
  At j [name "confirmations"] (.int (a.confirmations c)) ∧
  At j [name "script"] (.str a.script) ∧
  At j [name "tx_hash_big_endian"] (.str c.txid) ∧
  At j [name "tx_output_n"] (.int c.index)

def BlockchainTxs (txs : List Str) (offset : Nat) (j : Json) : Prop :=
  At j [name "n_tx"] (.int txs.length) ∧
  ∃ l, At j [name "txs"] (.arr l) ∧
    List.Forall₂ (fun id tx => At tx [name "hash"] (.str id)) (window 50 txs offset) l

/-- The transactions in pages of 50. -/
def BlockchainTxPages (up : Bool) (web : Web) (address : Str) (txs : List Str) : Prop :=
  Answers up NotOk (web (.get (blockchainUrl address) [(name "offset", decimal 0)])) (BlockchainTxs txs 0) ∧
  ∀ offset : Nat, 0 < offset → AnswersUnchecked up
    (web (.get (blockchainUrl address) [(name "offset", decimal offset)])) [name "txs"] (BlockchainTxs txs offset)

/-- At most 1000 of the unspent coins. If there are none the reply may have the status 500. -/
def BlockchainUtxo (up : Bool) (web : Web) (address : Str) (a : Account) (coins : List Coin) : Prop :=
  (coins = [] ∧ ∃ reply, reply.status = 500 ∧ web (.get "https://blockchain.info/unspent".toList
    [(name "active", address), (name "offset", name "0"), (name "limit", name "1000")]) = .ok reply) ∨
  Answers up (NotOkOr 500) (web (.get "https://blockchain.info/unspent".toList
      [(name "active", address), (name "offset", name "0"), (name "limit", name "1000")])) fun j =>
    ∃ l, At j [name "unspent_outputs"] (.arr l) ∧ List.Forall₂ (BlockchainCoin a) (coins.take 1000) l

structure Blockchain (up : Bool) (web : Web) (address : Str) (a : Account) : Prop where
  balance : Answers up NotOk (web (.get (blockchainUrl address ++ name "&limit=0") [])) fun j =>
    At j [name "final_balance"] (.int a.total)
  txs : ∃ txs : List Str, txs.Perm a.history ∧ BlockchainTxPages up web address txs
  utxo : ∃ coins : List Coin, coins.Perm a.coins ∧ BlockchainUtxo up web address a coins

/-! ## All of them -/

/-- All services tell the truth about the address, or do not answer; with `up` they answer. -/
structure Truthful (up : Bool) (web : Web) (net : Net) (address : Str) (a : Account) : Prop where
  blockchair : Blockchair up web net address a
  blockstream : Blockstream up web net address a
  bitcore : Bitcore up web net address a
  smartbit : Smartbit up web net address a
  blockchain : net = .main → Blockchain up web address a

end Bit.Spec
