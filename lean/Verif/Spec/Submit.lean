import Verif.Spec.Web
/-
Specification of how a transaction is submitted to a network, of what the servers say about a transaction if they tell
the truth, and of a node.
-/
namespace Bit.Spec

/-! ## Submitting -/

/-- The documented addresses for submitting a transaction to a network, and the field for its text. -/
def submitUrls : Net → List (Str × Str)
  | .main =>
    [("https://api.blockchair.com/bitcoin/push/transaction".toList, "data".toList),
      ("https://blockstream.info/api/tx".toList, "data".toList),
      ("https://api.bitcore.io/api/BTC/mainnet/tx/send".toList, "rawTx".toList),
      ("https://api.smartbit.com.au/v1/blockchain/pushtx".toList, "hex".toList),
      ("https://blockchain.info/pushtx".toList, "tx".toList)]
  | .test =>
    [("https://api.blockchair.com/bitcoin/testnet/push/transaction".toList, "data".toList),
      ("https://blockstream.info/testnet/api/tx".toList, "data".toList),
      ("https://api.bitcore.io/api/BTC/testnet/tx/send".toList, "rawTx".toList),
      ("https://testnet-api.smartbit.com.au/v1/blockchain/pushtx".toList, "hex".toList)]

/-- The request submits the text to the network. There may be further fields. -/
def Submits (net : Net) (text : Str) (r : Request) : Prop :=
  ∃ url field rest, (url, field) ∈ submitUrls net ∧
    (r = .post url ((field, text) :: rest) ∨ r = .postJson url ((field, text) :: rest))

/-! ## Transactions by id -/

/-- The request is answered with the text; or, unless the server is up, it fails: there is no reply, or a failure. -/
def AnswersText (up : Bool) (failure : Reply → Prop) (r : Py Reply) (text : Str) : Prop :=
  (∃ j, r = .ok { status := 200, text := text, json := j }) ∨
  up = false ∧ ((∃ e, r = .error e) ∨ ∃ reply, r = .ok reply ∧ failure reply)

/-- The request is answered with the given status. -/
def AnswersStatus (status : Nat) (r : Py Reply) : Prop := ∃ reply, r = .ok reply ∧ reply.status = status

def blockchairTxUrl (net : Net) (txid : Str) : Str :=
  (match net with
    | .main => "https://api.blockchair.com/bitcoin/raw/transaction/".toList
    | .test => "https://api.blockchair.com/bitcoin/testnet/raw/transaction/".toList) ++ txid

def smartbitTxUrl (net : Net) (txid : Str) : Str :=
  (match net with
    | .main => "https://api.smartbit.com.au/v1/blockchain/tx/".toList
    | .test => "https://testnet-api.smartbit.com.au/v1/blockchain/tx/".toList) ++ txid ++ name "/hex?limit=1000"

/-- What the servers say about a transaction id: `tx` is the text of the transaction, `none` if there is no such one. -/
def BlockchairTx (up : Bool) (web : Web) (net : Net) (txid : Str) (tx : Option Str) : Prop :=
  let r := web (.get (blockchairTxUrl net txid) [])
  match tx with
  | some text => Answers up (NotOkOr 404) r fun j => At j [name "data", txid, name "raw_transaction"] (.str text)
  | none => AnswersStatus 404 r ∨ Answers up (NotOkOr 404) r fun j =>
    At j [name "data"] .null ∨ At j [name "data"] (.arr []) ∨ At j [name "data"] (.obj [])

def BlockstreamTx (up : Bool) (web : Web) (net : Net) (txid : Str) (tx : Option Str) : Prop :=
  let r := web (.get (blockstreamUrl net ++ name "tx/" ++ txid ++ name "/hex") [])
  match tx with
  | some text => AnswersText up (fun reply => NotOkOr 404 reply.status) r text
  | none => AnswersStatus 404 r ∨ up = false ∧ ((∃ e, r = .error e) ∨ ∃ reply, r = .ok reply ∧ reply.status ≠ 200)

def SmartbitTx (up : Bool) (web : Web) (net : Net) (txid : Str) (tx : Option Str) : Prop :=
  let r := web (.get (smartbitTxUrl net txid) [])
  match tx with
  | some text => Answers up (NotOkOr 400) r fun j =>
    ∃ x l, At j [name "hex"] (.arr (x :: l)) ∧ At x [name "hex"] (.str text)
  | none => AnswersStatus 400 r ∨ up = false ∧ ((∃ e, r = .error e) ∨ ∃ reply, r = .ok reply ∧ reply.status ≠ 200)

def BlockchainTx (up : Bool) (web : Web) (txid : Str) (tx : Option Str) : Prop :=
  let r := web (.get ("https://blockchain.info/rawtx/".toList ++ txid ++ name "?limit=0&format=hex") [])
  match tx with
  | some text => AnswersText up
    (fun reply => NotOk reply.status ∧ ¬ (reply.status = 500 ∧ reply.text = name "Transaction not found")) r text
  | none => (∃ j, r = .ok { status := 500, text := name "Transaction not found", json := j }) ∨
    up = false ∧ ((∃ e, r = .error e) ∨ ∃ reply, r = .ok reply ∧ reply.status ≠ 200)

/-- All services tell the truth about the id, or do not answer; with `up` they answer. -/
structure TruthfulTx (up : Bool) (web : Web) (net : Net) (txid : Str) (tx : Option Str) : Prop where
  blockchair : BlockchairTx up web net txid tx
  blockstream : BlockstreamTx up web net txid tx
  smartbit : SmartbitTx up web net txid tx
  blockchain : net = .main → BlockchainTx up web txid tx

/-! ## A node -/

/-- A call is answered with a result as in `P` and no error. Or, unless the node is up, it fails: there is no reply, or one
with a status other than 200 and 500, or one that is not JSON, or one with an error. -/
def NodeAnswers (up : Bool) (r : Py Reply) (P : Json → Prop) : Prop :=
  (∃ reply j v, r = .ok reply ∧ reply.status = 200 ∧ reply.json = .ok j ∧ At j [name "error"] .null ∧
    At j [name "result"] v ∧ P v) ∨
  up = false ∧ ((∃ e, r = .error e) ∨ ∃ reply, r = .ok reply ∧
    (reply.status ≠ 200 ∧ reply.status ≠ 500 ∨ (∃ e, reply.json = .error e) ∨
      ∃ j err, reply.json = .ok j ∧ At j [name "error"] err ∧ err ≠ .null))

/-- An unspent output: its amount is a float whose text is the exact number of bitcoins. (A number of at most 21 million
with eight decimals is so written by `repr` if it is the float nearest to it.) -/
def NodeCoin (a : Account) (c : Coin) (j : Json) : Prop :=
  (∃ f, At j [name "amount"] (.float f) ∧ Number f.repr ((c.value : ℚ) / 10 ^ 8)) ∧
  At j [name "confirmations"] (.int (a.confirmations c)) ∧
  At j [name "scriptPubKey"] (.str a.script) ∧
  At j [name "txid"] (.str c.txid) ∧
  At j [name "vout"] (.int c.index)

/-- The node tells the truth about an address in its wallet. `received` are the ids of the transactions that pay to it. -/
structure Node (up : Bool) (rpc : Rpc) (address : Str) (a : Account) (received : List Str) : Prop where
  unspent : ∃ coins : List Coin, coins.Perm a.coins ∧
    NodeAnswers up (rpc (name "listunspent") [.int 0, .int 9999999, .arr [.str address]]) fun v =>
      ∃ l, v = .arr l ∧ List.Forall₂ (NodeCoin a) coins l
  received : NodeAnswers up (rpc (name "listreceivedbyaddress") [.int 0, .bool true, .bool true, .str address]) fun v =>
    (v = .arr [] ∧ received = []) ∨ ∃ x, v = .arr [x] ∧ At x [name "txids"] (.arr (received.map .str))

end Bit.Spec
