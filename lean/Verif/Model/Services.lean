import Verif.Model.Failover
import Verif.Model.Format
/-
The choice of services: the class `NetworkAPI` of /repo/bit/network/services.py. The services themselves are in
`Model/Web`.
-/
namespace Bit

/-- `NetworkAPI.IGNORED_ERRORS`, bit/network/services.py:948-954. -/
def networkIgnored : PyErr → Bool
  | .connectionError | .requestsConnection | .requestsTimeout | .excessiveAddress => true
  | _ => false

/-- What can be asked of the network: the five lists of calls. -/
inductive Query
  | balance
  | transactions
  | transactionById
  | unspent
  | broadcast
  deriving DecidableEq, Repr

/-- The services; a node is named by a number. -/
inductive Service
  | blockchair
  | blockstream
  | bitcore
  | smartbit
  | blockchain
  | node (n : Nat)
  deriving DecidableEq, Repr

/-- The class attributes `GET_BALANCE_MAIN` … `BROADCAST_TX_TEST` of `NetworkAPI`. -/
abbrev Lists := Net → Query → List Service

/-- The initial lists, bit/network/services.py:956-1017. -/
def initialLists : Lists
  | .main, .balance => [.blockchair, .blockstream, .bitcore, .smartbit, .blockchain]
  | .main, .transactions => [.blockchair, .blockstream, .smartbit, .blockchain]
  | .main, .transactionById => [.blockchair, .blockstream, .smartbit, .blockchain]
  | .main, .unspent => [.blockstream, .blockchair, .smartbit, .blockchain, .bitcore]
  | .main, .broadcast => [.blockchair, .blockstream, .bitcore, .smartbit, .blockchain]
  | .test, .balance => [.blockchair, .blockstream, .bitcore, .smartbit]
  | .test, .transactions => [.blockchair, .blockstream, .smartbit]
  | .test, .transactionById => [.blockchair, .blockstream, .smartbit]
  | .test, .unspent => [.blockstream, .blockchair, .smartbit, .bitcore]
  | .test, .broadcast => [.blockchair, .blockstream, .bitcore, .smartbit]

/-- `NetworkAPI.connect_to_node`, bit/network/services.py:1020-1058; `n` names the new node. -/
def connectToNode (lists : Lists) (n : Nat) (testnet : Bool) : Lists :=
  if testnet = false then
    fun net q =>
      match net, q with
      | .main, .balance => [.node n]
      | .main, .transactions => [.node n]
      | .main, .transactionById => [.node n]
      | .main, .unspent => [.node n]
      | .main, .broadcast => [.node n]
      | net, q => lists net q
  else
    fun net q =>
      match net, q with
      | .test, .balance => [.node n]
      | .test, .transactions => [.node n]
      | .test, .transactionById => [.node n]
      | .test, .unspent => [.node n]
      | .test, .broadcast => [.node n]
      | net, q => lists net q

/-- `NetworkAPI.get_balance` and the other queries, bit/network/services.py:1061-1204: the number of
services called and the result. `world` is what the call to each service would give. -/
def ask {α : Type} (lists : Lists) (net : Net) (q : Query) (world : Service → Py α) : Nat × Py α :=
  firstAnswer networkIgnored ((lists net q).map world)

/-- How `broadcast_tx` ends: it returns; it raises `ConnectionError` with the message that the broadcast
failed, or that no service is reachable; or an exception of a service passes through. -/
inductive BroadcastEnd
  | accepted
  | failed
  | unreachable
  | raised (e : PyErr)
  deriving DecidableEq, Repr

/-- The loop of `NetworkAPI.broadcast_tx`, bit/network/services.py:1214-1228 (1238-1252 for the test
network), with the number of calls made. `success` is the last value returned by a service. -/
def broadcastLoop (success : Option Bool) : List (Py Bool) → Nat × BroadcastEnd
  | [] => (0, if success = some false then .failed else .unreachable)
  | .ok true :: _ => (1, .accepted)
  | .ok false :: rest => let (n, r) := broadcastLoop (some false) rest; (n + 1, r)
  | .error e :: rest =>
    if networkIgnored e then let (n, r) := broadcastLoop success rest; (n + 1, r) else (1, .raised e)

/-- `NetworkAPI.broadcast_tx`, bit/network/services.py:1207-1252. -/
def broadcastTx (lists : Lists) (net : Net) (world : Service → Py Bool) : Nat × BroadcastEnd :=
  broadcastLoop none ((lists net .broadcast).map world)

end Bit
