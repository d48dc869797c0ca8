import Verif.Model.Digits
import Verif.Model.Fees
import Verif.Model.Send
/-
A program that creates and sends transactions with amounts in currencies: `create_transaction` and `send` of
/repo/bit/wallet.py together with what they call, the services, the recommended fee and the rates, over a history of calls
of one thread. In `Model/Wallet` these are parameters (`Env`).
-/
namespace Bit

/-- What the calls share: the state of the thread and the fees known. `feeLimit` is `DEFAULT_CACHE_TIME` of
bit/network/fees.py:11. -/
structure Program where
  thread : ThreadState
  fees : FeeCaches
  feeLimit : Int

/-- When the package has been imported, bit/network/fees.py:11, 37-40. -/
def Program.start (now : Int) : Program := ⟨ThreadState.start now, ⟨⟨none, now⟩, ⟨none, now⟩⟩, 600⟩

/-- What a call meets outside: the services when they are asked for the unspents of an address; the web and the time
when the fee is asked for, when the amount of the payment with number `i` is converted, and the services when the transaction is
sent; and the random choices. A service that goes on with further pages for ever is left after `fuel` of them. -/
structure Surround where
  outside : Str → Outside
  fuel : Nat
  feeWeb : Web
  feeTime : Int
  rates : Nat → Web × Int
  pushing : Outside
  flips : Nat → Bool
  shuffle : List Unspent → List Unspent

/-- `NetworkAPI.get_unspent`, as `get_unspents` calls it (bit/wallet.py:236, 241). -/
def Program.ask (C : Crypto) (p : Program) (world : Surround) (net : Net) : Ask := fun address =>
  match networkUnspent C p.thread.prec (world.outside address) p.thread.lists net world.fuel address with
  | some r => r
  | none => .error .requestsTimeout

/-- `fee or get_fee_cached()`, bit/wallet.py:312; `fast` is `True` by default (bit/network/fees.py:102). -/
def Program.fee (p : Program) (fee : Option Int) (world : Surround) : Program × Py Int :=
  match fee with
  | some f =>
    if f ≠ 0 then (p, .ok f)
    else
      let r := getFeeCached true p.feeLimit world.feeTime (feeAnswer world.feeWeb true) p.fees
      ({ p with fees := r.1 }, r.2.2)
  | none =>
    let r := getFeeCached true p.feeLimit world.feeTime (feeAnswer world.feeWeb true) p.fees
    ({ p with fees := r.1 }, r.2.2)

/-- `currency_to_satoshi_cached(amount, currency)` in a thread, bit/network/rates.py:631-642. -/
def ThreadState.convert (s : ThreadState) (web : Web) (now : Int) (amount currency : Str) : ThreadState × Py Int :=
  let r := currencyToSatoshiCached s.prec s.limit now (rateAnswers s.prec web currency) amount currency s.caches
  ({ s with caches := r.1 }, r.2.2)

/-- The loop at bit/transaction.py:400-402, from the payment with number `i` on: destination, amount and currency of each
are replaced by destination and satoshi. -/
def ThreadState.convertAll (rates : Nat → Web × Int) :
    ThreadState → Nat → List (Str × Str × Str) → ThreadState × Py (List (Str × Int))
  | s, _, [] => (s, .ok [])
  | s, i, (dest, amount, currency) :: rest =>
    match s.convert (rates i).1 (rates i).2 amount currency with
    | (s, .error e) => (s, .error e)
    | (s, .ok n) =>
      match convertAll rates s (i + 1) rest with
      | (s, .error e) => (s, .error e)
      | (s, .ok os) => (s, .ok ((dest, n) :: os))

/-- The arguments with the payments in satoshi. -/
def TxArgs.inSatoshi {Amount : Type} (args : TxArgs Amount) (outputs : List (Str × Int)) : TxArgs Int :=
  { outputs := outputs, fee := args.fee, absoluteFee := args.absoluteFee, leftover := args.leftover, combine := args.combine
    message := args.message, messageIsHex := args.messageIsHex, replaceByFee := args.replaceByFee }

/-- Amounts in satoshi, and the fee that was found. -/
def Surround.env (world : Surround) (fee : Int) : Env Int := ⟨.ok, fee, world.flips, world.shuffle⟩

/-- `create_transaction` with all it calls, bit/wallet.py:255-322 and bit/transaction.py:378-453 in the order of the code: the
unspents, the address for the change, the fee, the amounts, and the rest as in `Model/Wallet`. The program and the key
object afterwards, and the result. -/
def Program.create (C : Crypto) (p : Program) (w : Wallet) (args : TxArgs (Str × Str)) (src : Source) (world : Surround) :
    Program × Wallet × Py Str :=
  let (w, got, own) := w.source C (p.ask C world w.signer.net) src
  match got with
  | .error e => (p, w, .error e)
  | .ok us =>
    match returnAddress C w.signer us with
    | .error e => (p, w, .error e)
    | .ok default =>
      match p.fee args.fee world with
      | (p, .error e) => (p, w, .error e)
      | (p, .ok fee) =>
        match p.thread.convertAll world.rates 0 args.outputs with
        | (thread, .error e) => ({ p with thread := thread }, w, .error e)
        | (thread, .ok outputs) =>
          let p := { p with thread := thread }
          let env := world.env fee
          let args := args.inSatoshi outputs
          let after := if own then { w with unspents := listAfter C env args us default } else w
          match sanitizeArgs C env args us default w.signer.net with
          | .error e => (p, after, .error e)
          | .ok (us, outs) => (p, after, createNewTransaction C w.signer us outs)

/-- `send` with all it calls, bit/wallet.py:324-387 (723-786): the program and the key object afterwards, the calls made with
the transaction, and the result. -/
def Program.send (C : Crypto) (p : Program) (w : Wallet) (args : TxArgs (Str × Str)) (src : Source) (world : Surround) :
    Program × Wallet × List (Service × Str) × Py Str :=
  match p.create C w args src world with
  | (p', w', .error e) => (p', w', [], .error e)
  | (p', w', .ok text) =>
    match pushAll (servicePush world.pushing w.signer.net) text none (p'.thread.lists w.signer.net .broadcast) with
    | (calls, r) =>
      (p', w', calls,
        match r.toPy with
        | .error e => .error e
        | .ok _ => calcTxid C text)

/-- A call of a program. -/
inductive ProgramCall
  /-- a call that has to do with the services or the rates -/
  | thread (c : ThreadCall)
  /-- `get_fee_cached(fast)`, bit/network/fees.py:97-116 -/
  | fee (fast : Bool) (web : Web) (now : Int)
  /-- `set_fee_cache_time(seconds)`, bit/network/fees.py:15-17 -/
  | setFeeCacheTime (seconds : Int)
  /-- `create_transaction` of a key or contract object, also as part of `send` -/
  | create (w : Wallet) (args : TxArgs (Str × Str)) (src : Source) (world : Surround)

/-- The program after a call. -/
def Program.call (C : Crypto) (p : Program) : ProgramCall → Program
  | .thread c => { p with thread := (p.thread.call C c).1 }
  | .fee fast web now => { p with fees := (getFeeCached fast p.feeLimit now (feeAnswer web fast) p.fees).1 }
  | .setFeeCacheTime seconds => { p with feeLimit := seconds }
  | .create w args src world => (p.create C w args src world).1

/-- The program after a number of calls. -/
def Program.after (C : Crypto) (p : Program) (calls : List ProgramCall) : Program := calls.foldl (Program.call C) p

end Bit
