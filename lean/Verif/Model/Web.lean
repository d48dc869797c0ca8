import Verif.Model.Json
import Verif.Model.Rates
import Verif.Model.Services
import Verif.Model.Unspent
import Verif.Model.Keys
/-
The web services and the node connection of /repo/bit/network/services.py, down to the HTTP requests and the JSON
values in the replies.

The web is a function from requests to what `requests.get` or `requests.post` gives: an exception of the `requests`
library or a reply. Within one call the
code repeats a request only if a server leads it in a circle (a page that ends like an earlier one, a link to an earlier
page). With that exception a function is as general as servers that change; in a circle the modelled code runs for ever,
while the real one might get away if the server changes its answer. Time-outs and headers are not modelled, nor is the encoding of parameters.
-/
namespace Bit

/-- A request: `requests.get(url, params=…)`, `requests.post(url, data=…)` or `requests.post(url, json=…)`. -/
inductive Request
  | get (url : Str) (params : List (Str × Str))
  | post (url : Str) (form : List (Str × Str))
  | postJson (url : Str) (fields : List (Str × Str))
  deriving DecidableEq

/-- A reply: `status_code`, `text` and the outcome of `.json()`. -/
structure Reply where
  status : Nat
  text : Str
  json : Py Json

/-- What a request gives. -/
abbrev Web := Request → Py Reply

/-- `if r.status_code != 200: raise ConnectionError`, then `r.json()`. -/
def okJson (r : Reply) : Py Json := if r.status = 200 then r.json else .error .connectionError

/-- `r.raise_for_status()`: `HTTPError` for a status from 400 to 599. -/
def raiseForStatus (r : Reply) : Py Unit :=
  if 400 ≤ r.status ∧ r.status < 600 then .error .requestsHTTP else .ok ()

/-- `Unspent(amount, confirmations, script, txid, txindex)` with the defaults of bit/network/meta.py:30. -/
def plainUnspent (amount confirmations : Int) (script txid : Str) (txindex : Int) : Unspent :=
  mkUnspent amount confirmations script txid txindex "p2pkh".toList 0 none 0xffffffff

/-! ## Loops over pages -/

/-- The loop `while total > 0: …` of `BlockchairAPI` (bit/network/services.py:150-161, 181-192, 241-261,
284-304) and `BlockchainAPI.get_transactions` (bit/network/services.py:695-703): the items of the current page are
appended, the counter is lowered by the page size and the page at the next offset requested. `get` is the request
with its checks, `items` the look-up of the items in a page. The counter falls with every round, so `fuel` of the
size of the counter does not run out before the loop ends. -/
def countedLoop {α : Type} (get : Nat → Py Json) (items : Json → Py (List α)) (size : Nat) :
    Nat → Int → Nat → Json → List α → Py (List α)
  | 0, _, _, _, acc => .ok acc
  | fuel + 1, total, offset, page, acc =>
    if total > 0 then
      match items page with
      | .error e => .error e
      | .ok l =>
        match get (offset + size) with
        | .error e => .error e
        | .ok page' => countedLoop get items size fuel (total - size) (offset + size) page' (acc ++ l)
    else .ok acc

/-- The loop `while len(response) > 0: …` of `BlockstreamAPI.get_transactions`
(bit/network/services.py:388-392, 415-419) and `BitcoreAPI.get_unspent` (bit/network/services.py:597-610,
638-651): the page is appended and the page after its last element requested. `get` is that request with the
look-up of the items. The code loops as long as pages are not empty; `none` means that it is still running after
`fuel` rounds. -/
def cursorLoop {α : Type} (get : α → Py (List α)) : Nat → List α → List α → Option (Py (List α))
  | fuel, page, acc =>
    match page.getLast? with
    | none => some (.ok acc)
    | some x =>
      match fuel with
      | 0 => none
      | fuel + 1 =>
        match get x with
        | .error e => some (.error e)
        | .ok page' => cursorLoop get fuel page' (acc ++ page)

/-- A page of Smartbit: the items and the link to the next page. -/
structure LinkedPage (α : Type) where
  items : List α
  next : Option Str

/-- The loop `while next_link: …`, bit/network/services.py:791-797, 827-833, 872-887, 917-932. `get` is the request
with its check and the look-up of the page. `none` means that it is still running after `fuel` rounds. -/
def linkLoop {α : Type} (get : Str → Py (LinkedPage α)) :
    Nat → Option Str → List α → Option (Py (List α))
  | fuel, next, acc =>
    match next with
    | none => some (.ok acc)
    | some link =>
      match fuel with
      | 0 => none
      | fuel + 1 =>
        match get link with
        | .error e => some (.error e)
        | .ok p => linkLoop get fuel p.next (acc ++ p.items)

/-! ## Blockchair -/

/-- bit/network/services.py:108, 112. -/
def blockchairBase : Net → Str
  | .main => "https://api.blockchair.com/bitcoin/".toList
  | .test => "https://api.blockchair.com/bitcoin/testnet/".toList

/-- bit/network/services.py:109, 113. -/
def blockchairAddress (net : Net) (address : Str) : Str := blockchairBase net ++ "dashboards/address/".toList ++ address

/-- `BlockchairAPI.get_balance`, bit/network/services.py:119-130. -/
def blockchairBalance (web : Web) (net : Net) (address : Str) : Py Int := do
  let r ← web (.get (blockchairAddress net address) [])
  let j ← okJson r
  let b ← j.path ["data".toList, address, "address".toList, "balance".toList]
  b.asInt

/-- The request for a page, bit/network/services.py:139-141, 155-156 (and 170-172, 186-187, 227-229, 255-256,
270-272, 298-299). -/
def blockchairRequest (net : Net) (address : Str) (offset : Nat) : Request :=
  .get (blockchairAddress net address) [("offset".toList, Dec.digitsText offset), ("limit".toList, "1000".toList)]

/-- A page after the first, bit/network/services.py:156-159 (187-190, 256-259, 299-302). -/
def blockchairPage (web : Web) (net : Net) (address : Str) (offset : Nat) : Py Json := do
  let r ← web (blockchairRequest net address offset)
  let j ← okJson r
  j.path ["data".toList, address]

/-- `tx for tx in response['transactions']`, bit/network/services.py:151, 182. -/
def blockchairTxs (page : Json) : Py (List Str) := do
  let l ← page.get "transactions".toList
  let l ← l.items
  pyMap Json.asStr l

/-- `BlockchairAPI.get_transactions`, bit/network/services.py:133-161 (164-192 for the test network). -/
def blockchairTransactions (web : Web) (net : Net) (address : Str) : Py (List Str) := do
  let r ← web (blockchairRequest net address 0)
  if r.status = 404 then .ok []
  else
    let j ← okJson r
    let page ← j.path ["data".toList, address]
    let total ← page.path ["address".toList, "transaction_count".toList]
    let total ← total.asInt
    countedLoop (blockchairPage web net address) blockchairTxs 1000 total.toNat total 0 page []

/-- The `Unspent` for an entry, bit/network/services.py:243-249 (286-292). -/
def blockchairEntry (height : Int) (script : Str) (u : Json) : Py Unspent := do
  let value ← u.get "value".toList
  let value ← value.asInt
  let block ← u.get "block_id".toList
  let block ← block.asInt
  let hash ← u.get "transaction_hash".toList
  let hash ← hash.asStr
  let index ← u.get "index".toList
  let index ← index.asInt
  .ok (plainUnspent value (if block ≠ -1 then height - block + 1 else 0) script hash index)

/-- The unspents of a page, bit/network/services.py:242-251 (285-294). -/
def blockchairUtxos (height : Int) (script : Str) (page : Json) : Py (List Unspent) := do
  let l ← page.get "utxo".toList
  let l ← l.items
  pyMap (blockchairEntry height script) l

/-- `BlockchairAPI.get_unspent`, bit/network/services.py:221-261 (264-304 for the test network). -/
def blockchairUnspent (web : Web) (net : Net) (address : Str) : Py (Option (List Unspent)) := do
  let r ← web (blockchairRequest net address 0)
  if r.status = 404 then .ok none
  else
    let j ← okJson r
    let height ← j.path ["context".toList, "state".toList]
    let height ← height.asInt
    let page ← j.path ["data".toList, address]
    let script ← page.path ["address".toList, "script_hex".toList]
    let script ← script.asStr
    let total ← page.path ["address".toList, "unspent_output_count".toList]
    let total ← total.asInt
    let us ← countedLoop (blockchairPage web net address) (blockchairUtxos height script) 1000 total.toNat total 0 page []
    .ok (some us)

/-- `BlockchairAPI.get_transaction_by_id`, bit/network/services.py:195-218. -/
def blockchairById (web : Web) (net : Net) (txid : Str) : Py (Option Str) := do
  let r ← web (.get (blockchairBase net ++ "raw/transaction/".toList ++ txid) [])
  if r.status = 404 then .ok none
  else
    let j ← okJson r
    let data ← j.get "data".toList
    if data.truthy then
      let raw ← data.path [txid, "raw_transaction".toList]
      let raw ← raw.asStr
      .ok (some raw)
    else .ok none

/-! ## Blockstream -/

/-- bit/network/services.py:320, 325. -/
def blockstreamBase : Net → Str
  | .main => "https://blockstream.info/api/".toList
  | .test => "https://blockstream.info/testnet/api/".toList

/-- bit/network/services.py:321, 326. -/
def blockstreamAddress (net : Net) (address : Str) : Str := blockstreamBase net ++ "address/".toList ++ address

/-- `BlockstreamAPI.get_balance`, bit/network/services.py:333-350. -/
def blockstreamBalance (web : Web) (net : Net) (address : Str) : Py Int := do
  let r ← web (.get (blockstreamAddress net address) [])
  let j ← okJson r
  let f1 ← j.path ["chain_stats".toList, "funded_txo_sum".toList]
  let f1 ← f1.asInt
  let f2 ← j.path ["mempool_stats".toList, "funded_txo_sum".toList]
  let f2 ← f2.asInt
  let s1 ← j.path ["chain_stats".toList, "spent_txo_sum".toList]
  let s1 ← s1.asInt
  let s2 ← j.path ["mempool_stats".toList, "spent_txo_sum".toList]
  let s2 ← s2.asInt
  .ok (f1 + f2 - (s1 + s2))

/-- `[tx['txid'] for tx in response]`, bit/network/services.py:370, 389, 416. -/
def blockstreamTxids (j : Json) : Py (List Str) := do
  let l ← j.items
  pyMap (fun tx => do let t ← tx.get "txid".toList; t.asStr) l

/-- The first request of a Blockstream transaction query: status 400 ends the query with `[]`
(bit/network/services.py:364-370, 377-382, 404-409), which is `none` here. -/
def blockstreamFirst (web : Web) (request : Request) : Py (Option (List Str)) := do
  let r ← web request
  if r.status = 400 then .ok none
  else
    let j ← okJson r
    let l ← blockstreamTxids j
    .ok (some l)

/-- The page of confirmed transactions after a given one, bit/network/services.py:359, 377, 391 (400, 404, 418). -/
def blockstreamChain (net : Net) (address after : Str) : Request :=
  .get (blockstreamAddress net address ++ "/txs/chain/".toList ++ after) []

/-- The request for a later page, whose status is not looked at, bit/network/services.py:391, 418. -/
def blockstreamNext (web : Web) (net : Net) (address after : Str) : Py (List Str) := do
  let r ← web (blockstreamChain net address after)
  let j ← r.json
  blockstreamTxids j

/-- `BlockstreamAPI.get_transactions`, bit/network/services.py:353-396. -/
def blockstreamTransactions (web : Web) (address : Str) (fuel : Nat) : Option (Py (List Str)) :=
  match blockstreamFirst web (.get (blockstreamAddress .main address ++ "/txs/mempool".toList) []) with
  | .error e => some (.error e)
  | .ok none => some (.ok [])
  | .ok (some unconfirmed) =>
    if unconfirmed.length = 50 then some (.error .excessiveAddress)
    else
      match blockstreamFirst web (blockstreamChain .main address []) with
      | .error e => some (.error e)
      | .ok none => some (.ok [])
      | .ok (some page) =>
        match cursorLoop (blockstreamNext web .main address) fuel page [] with
        | some (.ok confirmed) => some (.ok (confirmed ++ unconfirmed))
        | other => other

/-- `BlockstreamAPI.get_transactions_testnet`, bit/network/services.py:399-421. -/
def blockstreamTransactionsTest (web : Web) (address : Str) (fuel : Nat) : Option (Py (List Str)) :=
  match blockstreamFirst web (blockstreamChain .test address []) with
  | .error e => some (.error e)
  | .ok none => some (.ok [])
  | .ok (some page) => cursorLoop (blockstreamNext web .test address) fuel page []

/-- The `Unspent` for an entry, bit/network/services.py:461-467, 491-497. -/
def blockstreamEntry (height : Int) (script : Str) (u : Json) : Py Unspent := do
  let value ← u.get "value".toList
  let value ← value.asInt
  let confirmed ← u.path ["status".toList, "confirmed".toList]
  let confirmations ←
    if confirmed.truthy then do
      let h ← u.path ["status".toList, "block_height".toList]
      let h ← h.asInt
      .ok (height - h + 1)
    else .ok 0
  let txid ← u.get "txid".toList
  let txid ← txid.asStr
  let vout ← u.get "vout".toList
  let vout ← vout.asInt
  .ok (plainUnspent value confirmations script txid vout)

/-- `bytes_to_hex(address_to_scriptpubkey(address))`, bit/network/services.py:457, 488; `TypeError` if the
script is `None`. -/
def scriptHex (C : Crypto) (address : Str) : Py Str :=
  match addressToScriptpubkey C address with
  | .error e => .error e
  | .ok none => .error .typeError
  | .ok (some b) => .ok (bytesToHex b)

/-- The request for the block height, bit/network/services.py:444-447, 476-479. -/
def blockstreamTip (web : Web) (net : Net) : Py Int := do
  let r ← web (.get (blockstreamBase net ++ "blocks/tip/height".toList) [])
  if r.status = 200 then parseInt r.text else .error .connectionError

/-- bit/network/services.py:449, 481. -/
def blockstreamUtxoRequest (net : Net) (address : Str) : Request :=
  .get (blockstreamAddress net address ++ "/utxo".toList) []

/-- `BlockstreamAPI.get_unspent`, bit/network/services.py:442-471. -/
def blockstreamUnspent (C : Crypto) (web : Web) (address : Str) : Py (List Unspent) := do
  let height ← blockstreamTip web .main
  let r ← web (blockstreamUtxoRequest .main address)
  if r.status = 400 ∧ r.text = "Too many history entries".toList then .error .excessiveAddress
  else if r.status ≠ 200 then .error .connectionError
  else
    let script ← scriptHex C address
    let j ← r.json
    let l ← j.items
    let us ← pyMap (blockstreamEntry height script) l
    .ok (pySorted (fun u v => decide (u.confirmations ≤ v.confirmations)) us)

/-- `BlockstreamAPI.get_unspent_testnet`, bit/network/services.py:474-499. -/
def blockstreamUnspentTest (C : Crypto) (web : Web) (address : Str) : Py (List Unspent) := do
  let height ← blockstreamTip web .test
  let r ← web (blockstreamUtxoRequest .test address)
  if r.status = 400 then .ok []
  else if r.status ≠ 200 then .error .connectionError
  else
    let script ← scriptHex C address
    let j ← r.json
    let l ← j.items
    pyMap (blockstreamEntry height script) l

/-- `BlockstreamAPI.get_transaction_by_id`, bit/network/services.py:424-439. -/
def blockstreamById (web : Web) (net : Net) (txid : Str) : Py (Option Str) := do
  let r ← web (.get (blockstreamBase net ++ "tx/".toList ++ txid ++ "/hex".toList) [])
  if r.status = 404 then .ok none
  else if r.status ≠ 200 then .error .connectionError
  else .ok (some r.text)

/-! ## Bitcore -/

/-- bit/network/services.py:569, 576. -/
def bitcoreBase : Net → Str
  | .main => "https://api.bitcore.io/api/BTC/mainnet/".toList
  | .test => "https://api.bitcore.io/api/BTC/testnet/".toList

/-- bit/network/services.py:570, 577. -/
def bitcoreAddress (net : Net) (address : Str) : Str := bitcoreBase net ++ "address/".toList ++ address

/-- `BitcoreAPI.get_balance`, bit/network/services.py:615-624. -/
def bitcoreBalance (web : Web) (net : Net) (address : Str) : Py Int := do
  let r ← web (.get (bitcoreAddress net address ++ "/balance".toList) [])
  raiseForStatus r
  let j ← r.json
  let b ← j.get "balance".toList
  b.asInt

/-- The request for a page of unspents, at first without `since`, bit/network/services.py:572, 587, 591, 608-610
(579, 628, 632, 649-651). -/
def bitcoreRequest (net : Net) (address : Str) (since : Option Str) : Request :=
  .get (bitcoreAddress net address ++ "/?unspent=true&limit=100".toList ++
    (match since with | none => [] | some id => "&since=".toList ++ id)) []

/-- `currency_to_satoshi(value, unit)` for a number or text in a reply. -/
def jsonAmount (prec : Nat) (unit : Str) (value : Json) : Py Int := do
  let s ← value.numberText
  currencyToSatoshi prec [] s unit

/-- The `Unspent` for an entry, bit/network/services.py:599-605, 640-646, with its `_id`, which is looked up only if it
is the last of a page (line 609, 650). -/
def bitcoreEntry (prec : Nat) (u : Json) : Py (Unspent × Py Str) := do
  let value ← u.get "value".toList
  let amount ← jsonAmount prec "satoshi".toList value
  let confirmations ← u.get "confirmations".toList
  let confirmations ← confirmations.asInt
  let script ← u.get "script".toList
  let script ← script.asStr
  let txid ← u.get "mintTxid".toList
  let txid ← txid.asStr
  let index ← u.get "mintIndex".toList
  let index ← index.asInt
  .ok (plainUnspent amount confirmations script txid index, do let id ← u.get "_id".toList; id.asStr)

/-- The entries of a page. -/
def bitcorePage (prec : Nat) (j : Json) : Py (List (Unspent × Py Str)) := do
  let l ← j.items
  pyMap (bitcoreEntry prec) l

/-- The request for the page after an entry, bit/network/services.py:608-610 (649-651): its status is not looked at. -/
def bitcoreNext (prec : Nat) (web : Web) (net : Net) (address : Str) (u : Unspent × Py Str) :
    Py (List (Unspent × Py Str)) := do
  let id ← u.2
  let r ← web (bitcoreRequest net address (some id))
  let j ← r.json
  bitcorePage prec j

/-- `BitcoreAPI.get_unspent`, bit/network/services.py:586-612 (627-653 for the test network). -/
def bitcoreUnspent (prec : Nat) (web : Web) (net : Net) (address : Str) (fuel : Nat) : Option (Py (List Unspent)) :=
  match (do
    let r ← web (bitcoreRequest net address none)
    let j ← okJson r
    bitcorePage prec j) with
  | .error e => some (.error e)
  | .ok page =>
    match cursorLoop (bitcoreNext prec web net address) fuel page [] with
    | none => none
    | some (.error e) => some (.error e)
    | some (.ok us) => some (.ok (us.map Prod.fst))

/-! ## Blockchain.info, for the main network only -/

/-- bit/network/services.py:666. -/
def blockchainBase : Str := "https://blockchain.info/".toList

/-- bit/network/services.py:667. -/
def blockchainAddress (address : Str) : Str := blockchainBase ++ "address/".toList ++ address ++ "?format=json".toList

/-- `BlockchainAPI.get_balance`, bit/network/services.py:674-678. -/
def blockchainBalance (web : Web) (address : Str) : Py Int := do
  let r ← web (.get (blockchainAddress address ++ "&limit=0".toList) [])
  let j ← okJson r
  let b ← j.get "final_balance".toList
  b.asInt

/-- bit/network/services.py:687-689, 700-701. -/
def blockchainRequest (address : Str) (offset : Nat) : Request :=
  .get (blockchainAddress address) [("offset".toList, Dec.digitsText offset)]

/-- A page after the first, whose status is not looked at, bit/network/services.py:701. -/
def blockchainPage (web : Web) (address : Str) (offset : Nat) : Py Json := do
  let r ← web (blockchainRequest address offset)
  r.json

/-- `tx['hash'] for tx in response['txs']`, bit/network/services.py:696. -/
def blockchainTxs (page : Json) : Py (List Str) := do
  let l ← page.get "txs".toList
  let l ← l.items
  pyMap (fun tx => do let t ← tx.get "hash".toList; t.asStr) l

/-- `BlockchainAPI.get_transactions`, bit/network/services.py:681-703. -/
def blockchainTransactions (web : Web) (address : Str) : Py (List Str) := do
  let r ← web (blockchainRequest address 0)
  let page ← okJson r
  let total ← page.get "n_tx".toList
  let total ← total.asInt
  countedLoop (blockchainPage web address) blockchainTxs 50 total.toNat total 0 page []

/-- The `Unspent` for an entry, bit/network/services.py:730. -/
def blockchainEntry (u : Json) : Py Unspent := do
  let value ← u.get "value".toList
  let value ← value.asInt
  let confirmations ← u.get "confirmations".toList
  let confirmations ← confirmations.asInt
  let script ← u.get "script".toList
  let script ← script.asStr
  let txid ← u.get "tx_hash_big_endian".toList
  let txid ← txid.asStr
  let index ← u.get "tx_output_n".toList
  let index ← index.asInt
  .ok (plainUnspent value confirmations script txid index)

/-- bit/network/services.py:716-722. -/
def blockchainUnspentRequest (address : Str) : Request :=
  .get (blockchainBase ++ "unspent".toList)
    [("active".toList, address), ("offset".toList, "0".toList), ("limit".toList, "1000".toList)]

/-- `BlockchainAPI.get_unspent`, bit/network/services.py:715-739: one request with the limit 1000. -/
def blockchainUnspent (web : Web) (address : Str) : Py (List Unspent) := do
  let r ← web (blockchainUnspentRequest address)
  if r.status = 500 then .ok []
  else
    let j ← okJson r
    let l ← j.get "unspent_outputs".toList
    let l ← l.items
    let us ← pyMap blockchainEntry l
    if us.length = 1000 then .error .excessiveAddress else .ok us.reverse

/-- `BlockchainAPI.get_transaction_by_id`, bit/network/services.py:706-712. -/
def blockchainById (web : Web) (txid : Str) : Py (Option Str) := do
  let r ← web (.get (blockchainBase ++ "rawtx/".toList ++ txid ++ "?limit=0&format=hex".toList) [])
  if r.status = 500 ∧ r.text = "Transaction not found".toList then .ok none
  else if r.status ≠ 200 then .error .connectionError
  else .ok (some r.text)

/-! ## Smartbit -/

/-- bit/network/services.py:748, 753. -/
def smartbitBase : Net → Str
  | .main => "https://api.smartbit.com.au/v1/blockchain/".toList
  | .test => "https://testnet-api.smartbit.com.au/v1/blockchain/".toList

/-- bit/network/services.py:749, 754. -/
def smartbitAddress (net : Net) (address : Str) : Str := smartbitBase net ++ "address/".toList ++ address

/-- `SmartbitAPI.get_balance`, bit/network/services.py:761-772. -/
def smartbitBalance (web : Web) (net : Net) (address : Str) : Py Int := do
  let r ← web (.get (smartbitAddress net address) [("limit".toList, "1".toList)])
  let j ← okJson r
  let b ← j.path ["address".toList, "total".toList, "balance_int".toList]
  b.asInt

/-- `next_link = …`, used as in `while next_link`: `None` and the empty text end the loop. -/
def linkOf (j : Json) : Py (Option Str) :=
  if j.truthy then
    match j.asStr with
    | .error e => .error e
    | .ok s => .ok (some s)
  else .ok none

/-- The payload `{'limit': '1000'}`, bit/network/services.py:777, 813, 849, 894. -/
def smartbitLimit : List (Str × Str) := [("limit".toList, "1000".toList)]

/-- `t['txid'] for t in response['transactions']` and the link, bit/network/services.py:788-789, 796-797, 824-825,
832-833. `response` is `r.json()['address']`. -/
def smartbitTxs (response : Json) : Py (LinkedPage Str) := do
  let l ← response.get "transactions".toList
  let l ← l.items
  let txids ← pyMap (fun tx => do let t ← tx.get "txid".toList; t.asStr) l
  let next ← response.path ["transaction_paging".toList, "next_link".toList]
  let next ← linkOf next
  .ok { items := txids, next := next }

/-- The first page, bit/network/services.py:778-789 (814-825 for the test network): empty without the key
'transactions'. -/
def smartbitFirstTxs (web : Web) (net : Net) (address : Str) : Py (LinkedPage Str) := do
  let r ← web (.get (smartbitAddress net address) smartbitLimit)
  let j ← okJson r
  let response ← j.get "address".toList
  let h ← response.has "transactions".toList
  if h then smartbitTxs response else .ok { items := [], next := none }

/-- A page after the first, bit/network/services.py:792-797 (828-833 for the test network, there with the payload). -/
def smartbitNextTxs (web : Web) (net : Net) (link : Str) : Py (LinkedPage Str) := do
  let r ← web (.get link (match net with | .main => [] | .test => smartbitLimit))
  let j ← okJson r
  let response ← j.get "address".toList
  smartbitTxs response

/-- `SmartbitAPI.get_transactions`, bit/network/services.py:775-799 (811-835 for the test network). -/
def smartbitTransactions (web : Web) (net : Net) (address : Str) (fuel : Nat) : Option (Py (List Str)) :=
  match smartbitFirstTxs web net address with
  | .error e => some (.error e)
  | .ok p => linkLoop (smartbitNextTxs web net) fuel p.next p.items

/-- The `Unspent` for an entry, bit/network/services.py:861-867 (and 878-884, 906-912, 923-929). -/
def smartbitEntry (prec : Nat) (u : Json) : Py Unspent := do
  let value ← u.get "value".toList
  let amount ← jsonAmount prec "btc".toList value
  let confirmations ← u.get "confirmations".toList
  let confirmations ← confirmations.asInt
  let script ← u.path ["script_pub_key".toList, "hex".toList]
  let script ← script.asStr
  let txid ← u.get "txid".toList
  let txid ← txid.asStr
  let n ← u.get "n".toList
  let n ← n.asInt
  .ok (plainUnspent amount confirmations script txid n)

/-- The unspents of a page and the link, bit/network/services.py:860-870, 877-887 (905-915, 922-932). -/
def smartbitUtxos (prec : Nat) (response : Json) : Py (LinkedPage Unspent) := do
  let l ← response.get "unspent".toList
  let l ← l.items
  let us ← pyMap (smartbitEntry prec) l
  let next ← response.path ["paging".toList, "next_link".toList]
  let next ← linkOf next
  .ok { items := us, next := next }

/-- The first page, bit/network/services.py:850-870 (895-915 for the test network). -/
def smartbitFirstUtxos (prec : Nat) (web : Web) (net : Net) (address : Str) : Py (LinkedPage Unspent) := do
  let r ← web (.get (smartbitAddress net address ++ "/unspent".toList) smartbitLimit)
  let response ← okJson r
  let h ← response.has "unspent".toList
  if h then smartbitUtxos prec response else .ok { items := [], next := none }

/-- A page after the first, bit/network/services.py:873-887 (918-932 for the test network). -/
def smartbitNextUtxos (prec : Nat) (web : Web) (link : Str) : Py (LinkedPage Unspent) := do
  let r ← web (.get link smartbitLimit)
  let response ← okJson r
  smartbitUtxos prec response

/-- `SmartbitAPI.get_unspent`, bit/network/services.py:847-889 (892-934 for the test network). -/
def smartbitUnspent (prec : Nat) (web : Web) (net : Net) (address : Str) (fuel : Nat) : Option (Py (List Unspent)) :=
  match smartbitFirstUtxos prec web net address with
  | .error e => some (.error e)
  | .ok p => linkLoop (smartbitNextUtxos prec web) fuel p.next p.items

/-- `SmartbitAPI.get_transaction_by_id`, bit/network/services.py:802-808, 838-844. -/
def smartbitById (web : Web) (net : Net) (txid : Str) : Py (Option Str) := do
  let r ← web (.get (smartbitBase net ++ "tx/".toList ++ txid ++ "/hex".toList ++ "?limit=1000".toList) [])
  if r.status = 400 then .ok none
  else
    let j ← okJson r
    let l ← j.get "hex".toList
    let l ← l.items
    match l with
    | [] => .error .indexError
    | x :: _ =>
      let h ← x.get "hex".toList
      let h ← h.asStr
      .ok (some h)

/-! ## A node -/

/-- What a call of a method with parameters gives. -/
abbrev Rpc := Str → List Json → Py Reply

/-- `RPCMethod.__call__`, bit/network/services.py:93-104. -/
def rpcCall (rpc : Rpc) (method : Str) (params : List Json) : Py Json :=
  match rpc method params with
  | .error .requestsConnection => .error .connectionError
  | .error e => .error e
  | .ok r =>
    if r.status = 200 ∨ r.status = 500 then do
      let j ← r.json
      let h ← j.has "error".toList
      if h then
        let err ← j.get "error".toList
        match err with
        | .null => j.get "result".toList
        | _ => .error .nodeException
      else j.get "result".toList
    else .error .nodeException

/-- `Decimal(x)` of the standard library for a number: exact, also for a float. For texts see `Dec.parse`; everything
else is a `TypeError` here. -/
def Json.asDecimal : Json → Py Dec
  | .int n => .ok (Dec.ofInt n)
  | .float f => .ok f.exact
  | .str s => Dec.parse s
  | _ => .error .typeError

/-- `RPCHost.get_balance`, bit/network/services.py:33-36. The precision is set to 9 first, and stays so. -/
def nodeBalance (rpc : Rpc) (address : Str) : Py Int := do
  let j ← rpcCall rpc "getreceivedbyaddress".toList [.str address, .int 0]
  let b ← j.asDecimal
  .ok (b.mul 9 (Dec.ofInt (10 ^ 8))).toInt

/-- `RPCHost.get_transactions`, bit/network/services.py:41-45: the transactions of the first entry, or
the empty list. -/
def nodeTransactions (rpc : Rpc) (address : Str) : Py (List Str) := do
  let j ← rpcCall rpc "listreceivedbyaddress".toList [.int 0, .bool true, .bool true, .str address]
  let l ← j.items
  match l with
  | [] => .ok []
  | x :: _ =>
    let txids ← x.get "txids".toList
    let txids ← txids.items
    pyMap Json.asStr txids

/-- `RPCHost.get_transaction_by_id`, bit/network/services.py:50-51. -/
def nodeById (rpc : Rpc) (txid : Str) : Py (Option Str) := do
  let j ← rpcCall rpc "getrawtransaction".toList [.str txid, .bool false]
  let s ← j.asStr
  .ok (some s)

/-- The `Unspent` for an entry, bit/network/services.py:59-65. -/
def nodeEntry (prec : Nat) (u : Json) : Py Unspent := do
  let value ← u.get "amount".toList
  let amount ← jsonAmount prec "btc".toList value
  let confirmations ← u.get "confirmations".toList
  let confirmations ← confirmations.asInt
  let script ← u.get "scriptPubKey".toList
  let script ← script.asStr
  let txid ← u.get "txid".toList
  let txid ← txid.asStr
  let vout ← u.get "vout".toList
  let vout ← vout.asInt
  .ok (plainUnspent amount confirmations script txid vout)

/-- `RPCHost.get_unspent`, bit/network/services.py:56-67. -/
def nodeUnspent (prec : Nat) (rpc : Rpc) (address : Str) : Py (List Unspent) := do
  let j ← rpcCall rpc "listunspent".toList [.int 0, .int 9999999, .arr [.str address]]
  let l ← j.items
  pyMap (nodeEntry prec) l

/-- `RPCHost.broadcast_tx`, bit/network/services.py:72-78. -/
def nodeBroadcast (rpc : Rpc) (text : Str) : Py Bool :=
  match rpcCall rpc "sendrawtransaction".toList [.str text] with
  | .error .nodeException => .ok false
  | .error e => .error e
  | .ok _ => .ok true

/-! ## Broadcast to the web services -/

/-- The request of `broadcast_tx` and `broadcast_tx_testnet`: bit/network/services.py:306-316, 501-509, 561-563 (with
573 and 583), 656-662, 742-744, 937-944. There is none for Blockchain.info on the test network, and none for a
node. -/
def pushRequest : Net → Service → Str → Option Request
  | net, .blockchair, text => some (.post (blockchairBase net ++ "push/transaction".toList) [("data".toList, text)])
  | net, .blockstream, text => some (.post (blockstreamBase net ++ "tx".toList) [("data".toList, text)])
  | .main, .bitcore, text => some (.post (bitcoreBase .main ++ "tx/send".toList) [("rawTx".toList, text)])
  | .test, .bitcore, text =>
    some (.postJson (bitcoreBase .test ++ "tx/send".toList)
      [("rawTx".toList, text), ("network".toList, "testnet".toList), ("coin".toList, "BCH".toList)])
  | .main, .blockchain, text => some (.post (blockchainBase ++ "pushtx".toList) [("tx".toList, text)])
  | .test, .blockchain, _ => none
  | net, .smartbit, text => some (.postJson (smartbitBase net ++ "pushtx".toList) [("hex".toList, text)])
  | _, .node _, _ => none

/-! ## The calls in the lists of `NetworkAPI` -/

/-- Everything outside: the web, and the nodes by number. -/
structure Outside where
  web : Web
  rpc : Nat → Rpc

/-- The methods in `GET_BALANCE_MAIN` and `GET_BALANCE_TEST`. There is no method for Blockchain.info on the test
network. -/
def serviceBalance (o : Outside) (net : Net) (address : Str) : Service → Py Int
  | .blockchair => blockchairBalance o.web net address
  | .blockstream => blockstreamBalance o.web net address
  | .bitcore => bitcoreBalance o.web net address
  | .smartbit => smartbitBalance o.web net address
  | .blockchain =>
    match net with
    | .main => blockchainBalance o.web address
    | .test => .error .attributeError
  | .node n => nodeBalance (o.rpc n) address

/-- The methods in `GET_TRANSACTIONS_MAIN` and `GET_TRANSACTIONS_TEST`. The method that Bitcore inherits is in no
list and not modelled. -/
def serviceTransactions (o : Outside) (net : Net) (fuel : Nat) (address : Str) : Service → Option (Py (List Str))
  | .blockchair => some (blockchairTransactions o.web net address)
  | .blockstream =>
    match net with
    | .main => blockstreamTransactions o.web address fuel
    | .test => blockstreamTransactionsTest o.web address fuel
  | .bitcore => some (.error .attributeError)
  | .smartbit => smartbitTransactions o.web net address fuel
  | .blockchain =>
    match net with
    | .main => some (blockchainTransactions o.web address)
    | .test => some (.error .attributeError)
  | .node n => some (nodeTransactions (o.rpc n) address)

/-- The methods in `GET_TRANSACTION_BY_ID_MAIN` and `GET_TRANSACTION_BY_ID_TEST`. The method that Bitcore inherits is
in no list and not modelled. -/
def serviceById (o : Outside) (net : Net) (txid : Str) : Service → Py (Option Str)
  | .blockchair => blockchairById o.web net txid
  | .blockstream => blockstreamById o.web net txid
  | .bitcore => .error .attributeError
  | .smartbit => smartbitById o.web net txid
  | .blockchain =>
    match net with
    | .main => blockchainById o.web txid
    | .test => .error .attributeError
  | .node n => nodeById (o.rpc n) txid

/-- A list where the model allows for `None`. -/
def someList {α : Type} : Py α → Py (Option α)
  | .error e => .error e
  | .ok a => .ok (some a)

/-- The methods in `GET_UNSPENT_MAIN` and `GET_UNSPENT_TEST`. `prec` is the precision of the decimal context. -/
def serviceUnspent (C : Crypto) (prec : Nat) (o : Outside) (net : Net) (fuel : Nat) (address : Str) :
    Service → Option (Py (Option (List Unspent)))
  | .blockchair => some (blockchairUnspent o.web net address)
  | .blockstream =>
    match net with
    | .main => some (someList (blockstreamUnspent C o.web address))
    | .test => some (someList (blockstreamUnspentTest C o.web address))
  | .bitcore => (bitcoreUnspent prec o.web net address fuel).map someList
  | .smartbit => (smartbitUnspent prec o.web net address fuel).map someList
  | .blockchain =>
    match net with
    | .main => some (someList (blockchainUnspent o.web address))
    | .test => some (.error .attributeError)
  | .node n => some (someList (nodeUnspent prec (o.rpc n) address))

/-- The methods in `BROADCAST_TX_MAIN` and `BROADCAST_TX_TEST`: `True if r.status_code == 200 else False` for a web
service. -/
def servicePush (o : Outside) (net : Net) (s : Service) (text : Str) : Py Bool :=
  match s with
  | .node n => nodeBroadcast (o.rpc n) text
  | s =>
    match pushRequest net s text with
    | none => .error .attributeError
    | some request =>
      match o.web request with
      | .error e => .error e
      | .ok r => .ok (r.status == 200)

/-- The loop of `firstAnswer` over calls that may still be running. -/
def firstFinished {α : Type} (ignored : PyErr → Bool) : List (Option (Py α)) → Option (Py α)
  | [] => some (.error .connectionError)
  | none :: _ => none
  | some (.ok a) :: _ => some (.ok a)
  | some (.error e) :: rest => if ignored e then firstFinished ignored rest else some (.error e)

/-- `NetworkAPI.get_balance(address)`, bit/network/services.py:1061-1094. -/
def networkBalance (o : Outside) (lists : Lists) (net : Net) (address : Str) : Py Int :=
  (ask lists net .balance (serviceBalance o net address)).2

/-- `NetworkAPI.get_transaction_by_id(txid)`, bit/network/services.py:1134-1167. -/
def networkById (o : Outside) (lists : Lists) (net : Net) (txid : Str) : Py (Option Str) :=
  (ask lists net .transactionById (serviceById o net txid)).2

/-- `NetworkAPI.get_transactions(address)`, bit/network/services.py:1097-1131. -/
def networkTransactions (o : Outside) (lists : Lists) (net : Net) (fuel : Nat) (address : Str) :
    Option (Py (List Str)) :=
  firstFinished networkIgnored ((lists net .transactions).map (serviceTransactions o net fuel address))

/-- `NetworkAPI.get_unspent(address)`, bit/network/services.py:1170-1204. -/
def networkUnspent (C : Crypto) (prec : Nat) (o : Outside) (lists : Lists) (net : Net) (fuel : Nat) (address : Str) :
    Option (Py (Option (List Unspent))) :=
  firstFinished networkIgnored ((lists net .unspent).map (serviceUnspent C prec o net fuel address))

end Bit
