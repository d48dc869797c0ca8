import Verif.Model.Wallet
import Verif.Model.Services
import Verif.Model.Rates
/-
`send` and the transaction history of the key classes of /repo/bit/wallet.py, over the services.
-/
namespace Bit

/-- The loop of `NetworkAPI.broadcast_tx(tx_hex)`, bit/network/services.py:1216-1228 (1240-1252 for the
test network), with the calls made: the service and the text given to it. `push` is what the call of a
service with a text gives. `broadcastTx` in `Model/Services` is the same loop without the calls. -/
def pushAll (push : Service → Str → Py Bool) (text : Str) (success : Option Bool) :
    List Service → List (Service × Str) × BroadcastEnd
  | [] => ([], if success = some false then .failed else .unreachable)
  | s :: rest =>
    match push s text with
    | .ok true => ([(s, text)], .accepted)
    | .ok false =>
      let (calls, r) := pushAll push text (some false) rest
      ((s, text) :: calls, r)
    | .error e =>
      if networkIgnored e then
        let (calls, r) := pushAll push text success rest
        ((s, text) :: calls, r)
      else ([(s, text)], .raised e)

/-- The exception of a broadcast, if any. -/
def BroadcastEnd.toPy : BroadcastEnd → Py Unit
  | .accepted => .ok ()
  | .failed => .error .connectionError
  | .unreachable => .error .connectionError
  | .raised e => .error e

/-- `send` of the key classes, bit/wallet.py:324-387 (723-786 for the test network): the object
afterwards, the calls of services made with the transaction, and the result. The lists for the network
of the key are used: line 385 calls `broadcast_tx`, line 784 `broadcast_tx_testnet`. -/
def Wallet.send {Amount : Type} (C : Crypto) (env : Env Amount) (args : TxArgs Amount) (ask : Ask)
    (lists : Lists) (push : Service → Str → Py Bool) (w : Wallet) (src : Source) :
    Wallet × List (Service × Str) × Py Str :=
  match w.createTransaction C env args ask src with
  | (w', .error e) => (w', [], .error e)
  | (w', .ok text) =>
    match pushAll push text none (lists w.signer.net .broadcast) with
    | (calls, r) =>
      (w', calls,
        match r.toPy with
        | .error e => .error e
        | .ok _ => calcTxid C text)

/-- `get_transactions` of the key and contract classes, bit/wallet.py:245-253, 644-652, 1080-1088,
1408-1416: the list `self.transactions` afterwards and the result. `ask` is
`NetworkAPI.get_transactions` (or the one for the test network). The list is assigned before the second
question is asked. -/
def Signer.getTransactions (C : Crypto) (ask : Str → Py (List Str)) (s : Signer) (stored : List Str) :
    List Str × Py (List Str) :=
  match s.address C with
  | .error e => (stored, .error e)
  | .ok address =>
    match ask address with
    | .error e => (stored, .error e)
    | .ok txs =>
      match s.segwitAddress C with
      | .error e => (txs, .error e)
      | .ok none => (txs, .ok txs)
      | .ok (some address) =>
        match ask address with
        | .error e => (txs, .error e)
        | .ok txs' => (txs ++ txs', .ok (txs ++ txs'))

/-- `get_balance(currency)`, bit/wallet.py:208-227 (and 605-624, 1039-1058, 1362-1381): the unspents are fetched and the new balance is formatted. -/
def Wallet.getBalance (C : Crypto) (ask : Ask) (prec : Nat) (limit now : Int) (answers : List (Py Int))
    (currency : Str) (caches : RateCaches) (w : Wallet) : Wallet × RateCaches × Py Str :=
  match w.getUnspents C ask with
  | (w', .error e) => (w', caches, .error e)
  | (w', .ok _) =>
    match satoshiToCurrencyCached prec limit now answers w'.balance currency caches with
    | (caches', _, r) => (w', caches', r)

end Bit
