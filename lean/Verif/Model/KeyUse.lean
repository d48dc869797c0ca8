import Verif.Model.KeyApi
import Verif.Model.Send
/-
Everything that can be done with a key or contract object of /repo/bit/wallet.py, one call after the other, apart from
`to_wif`, `to_hex`, `to_bytes`, `to_der`, `to_pem`, `to_int` and `==`. (`prepare_transaction` and the constructors are static.)
-/
namespace Bit

/-- The name of the class. -/
def Signer.className : Signer → String
  | .single k => match k.net with
    | .main => "PrivateKey"
    | .test => "PrivateKeyTestnet"
  | .multi s => match s.net with
    | .main => "MultiSig"
    | .test => "MultiSigTestnet"

/-- `__repr__`, bit/wallet.py:537-538, 936-937, 1262-1263, 1590-1591. -/
def Signer.repr (C : Crypto) (s : Signer) : Py Str :=
  match s.address C with
  | .error e => .error e
  | .ok address => .ok ("<".toList ++ s.className.toList ++ ": ".toList ++ address ++ ">".toList)

/-- `balance_as`, bit/wallet.py:208-216, 605-613, 1039-1047, 1362-1370. -/
def Wallet.balanceAs (prec : Nat) (limit now : Int) (answers : List (Py Int)) (currency : Str) (caches : RateCaches)
    (w : Wallet) : RateCaches × Py Str :=
  match satoshiToCurrencyCached prec limit now answers w.balance currency caches with
  | (caches', _, r) => (caches', r)

/-- An object with its attribute `transactions`. -/
structure KeyState where
  wallet : Wallet
  transactions : List Str

/-- A call of a method or property. -/
inductive KeyUse (Amount : Type)
  | repr
  | publicKey
  | pubToHex
  | publicPoint
  | isCompressed
  | address
  | segwitAddress
  | scriptcode
  | segwitScriptcode
  /-- the attributes `unspents`, `balance` and `transactions` -/
  | attributes
  | sign (data : Bytes)
  | verify (signature data : Bytes)
  | canSignUnspent (u : Unspent)
  | balanceAs (prec : Nat) (limit now : Int) (answers : List (Py Int)) (currency : Str) (caches : RateCaches)
  | getBalance (ask : Ask) (prec : Nat) (limit now : Int) (answers : List (Py Int)) (currency : Str) (caches : RateCaches)
  | getUnspents (ask : Ask)
  | getTransactions (ask : Str → Py (List Str))
  | createTransaction (env : Env Amount) (args : TxArgs Amount) (ask : Ask) (src : Source)
  | signTransaction (readFloat : Str → PyFloat) (ask : Ask) (data : Str) (unspents : Option (List Unspent))
  | send (env : Env Amount) (args : TxArgs Amount) (ask : Ask) (lists : Lists) (push : Service → Str → Py Bool) (src : Source)

/-- What the outside sees of a call. -/
inductive Shown
  /-- there is no such method -/
  | nothing
  | bytes (b : Bytes)
  | flag (r : Py Bool)
  | text (r : Py Str)
  | point (r : Py (Nat × Nat))
  | maybeText (r : Py (Option Str))
  | maybeBytes (r : Py (Option Bytes))
  | attributes (unspents : List Unspent) (balance : Int) (transactions : List Str)
  | amount (caches : RateCaches) (r : Py Str)
  | unspents (r : Py (List Unspent))
  | transactions (r : Py (List Str))
  /-- the calls of services with the transaction, and the result -/
  | sent (calls : List (Service × Str)) (r : Py Str)

/-- One call: the object afterwards and what is seen. `verify`, `pub_to_hex` and `public_point` are methods of keys only
(bit/wallet.py:80-111). For a contract `is_compressed` is an attribute (line 984). -/
def KeyState.use {Amount : Type} (C : Crypto) (st : KeyState) : KeyUse Amount → KeyState × Shown
  | .repr => (st, .text (st.wallet.signer.repr C))
  | .publicKey => (st, .bytes (st.wallet.signer.publicKey C))
  | .pubToHex =>
    (st, match st.wallet.signer with
      | .single k => .text (.ok (k.pubToHex C))
      | .multi _ => .nothing)
  | .publicPoint =>
    (st, match st.wallet.signer with
      | .single k => .point (k.publicPoint C)
      | .multi _ => .nothing)
  | .isCompressed =>
    (st, match st.wallet.signer with
      | .single k => .flag (.ok (k.isCompressed C))
      | .multi s => .flag (.ok s.isCompressed))
  | .address => (st, .text (st.wallet.signer.address C))
  | .segwitAddress => (st, .maybeText (st.wallet.signer.segwitAddress C))
  | .scriptcode => (st, .maybeBytes (st.wallet.signer.scriptcode C))
  | .segwitScriptcode =>
    (st, match st.wallet.signer with
      | .single k => .bytes (k.segwitScriptcode C)
      | .multi s => .bytes (s.segwitScriptcode C))
  | .attributes => (st, .attributes st.wallet.unspents st.wallet.balance st.transactions)
  | .sign data => (st, .bytes (st.wallet.signer.sign C data))
  | .verify signature data =>
    (st, match st.wallet.signer with
      | .single k => .flag (k.verify C signature data)
      | .multi _ => .nothing)
  | .canSignUnspent u => (st, .flag (st.wallet.signer.canSignUnspent C u))
  | .balanceAs prec limit now answers currency caches =>
    let r := st.wallet.balanceAs prec limit now answers currency caches
    (st, .amount r.1 r.2)
  | .getBalance ask prec limit now answers currency caches =>
    let r := st.wallet.getBalance C ask prec limit now answers currency caches
    ({ st with wallet := r.1 }, .amount r.2.1 r.2.2)
  | .getUnspents ask =>
    let r := st.wallet.getUnspents C ask
    ({ st with wallet := r.1 }, .unspents r.2)
  | .getTransactions ask =>
    let r := st.wallet.signer.getTransactions C ask st.transactions
    ({ st with transactions := r.1 }, .transactions r.2)
  | .createTransaction env args ask src =>
    let r := st.wallet.createTransaction C env args ask src
    ({ st with wallet := r.1 }, .text r.2)
  | .signTransaction readFloat ask data unspents =>
    let r := st.wallet.signTransaction C readFloat ask data unspents
    ({ st with wallet := r.1 }, .text r.2)
  | .send env args ask lists push src =>
    let r := st.wallet.send C env args ask lists push src
    ({ st with wallet := r.1 }, .sent r.2.1 r.2.2)

/-- What is seen of a history of calls. -/
def KeyState.history {Amount : Type} (C : Crypto) (st : KeyState) : List (KeyUse Amount) → List Shown
  | [] => []
  | u :: us => (st.use C u).2 :: (st.use C u).1.history C us

end Bit
