import Verif.Model.Format
/-
Model of the key and multi-signature classes of /repo/bit/wallet.py: construction, addresses and
script codes. The classes `PrivateKey`/`PrivateKeyTestnet` and `MultiSig`/`MultiSigTestnet` differ
in `version` and `instance` only; they are modelled by one structure with a field `net`. The caches
`_address`, `_segwit_address`, ... are not modelled: the properties recompute the same value from
fields that never change.
-/
namespace Bit

/-- Order of the secp256k1 group, `coincurve.utils.GROUP_ORDER_INT`. -/
def groupOrder : Nat := 0xFFFFFFFFFFFFFFFFFFFFFFFFFFFFFFFEBAAEDCE6AF48A03BBFD25E8CD0364141

/-- `coincurve.PrivateKey(secret).secret`: `ValueError` unless `0 < secret < n`; the secret is
padded with zeros in front to 32 bytes. (External code. Secrets of more than 32 bytes whose leading
bytes are zero are not modelled: the model refuses them.) -/
def ecPrivateKey (secret : Bytes) : Py Bytes :=
  if 0 < beNat secret ∧ beNat secret < groupOrder ∧ secret.length ≤ 32 then
    .ok (List.replicate (32 - secret.length) 0 ++ secret)
  else .error .valueError

/-- Instances of `PrivateKey` (`net = main`) and `PrivateKeyTestnet` (`net = test`):
bit/wallet.py:145-169, 541-566 and 45-74. -/
structure PrivKey where
  net : Net
  secret : Bytes
  compressed : Bool
  deriving DecidableEq, Repr

/-- bit/wallet.py:58-74 and 156-169, 553-566: `PrivateKey(wif)` / `PrivateKeyTestnet(wif)` for a nonempty
string. The version byte of the string is disregarded. -/
def privKeyOfWif (C : Crypto) (net : Net) (wif : Str) : Py PrivKey :=
  match wifToBytes C wif with
  | .error e => .error e
  | .ok (secretBytes, compressed, _) =>
    match ecPrivateKey secretBytes with
    | .error e => .error e
    | .ok secret => .ok { net := net, secret := secret, compressed := compressed }

/-- bit/wallet.py:501-508, 900-907 `from_bytes`: `cls(ECPrivateKey(bytestr))`, always compressed. -/
def privKeyFromBytes (net : Net) (b : Bytes) : Py PrivKey :=
  match ecPrivateKey b with
  | .error e => .error e
  | .ok secret => .ok { net := net, secret := secret, compressed := true }

/-- `from_bytes` of bytes that had to be computed first. -/
def privKeyFromBytesOf (net : Net) : Py Bytes → Py PrivKey
  | .error e => .error e
  | .ok b => privKeyFromBytes net b

/-- bit/wallet.py:528-535, 927-934 `from_int`; `coincurve` writes the number as 32 bytes. -/
def privKeyFromInt (net : Net) (n : Nat) : Py PrivKey := privKeyFromBytesOf net (toBytesBE n 32)

/-- bit/wallet.py:492-499, 891-898 `from_hex`; `coincurve` reads the digits, with a zero in front if
their number is odd. -/
def privKeyFromHex (net : Net) (hexed : Str) : Py PrivKey :=
  privKeyFromBytesOf net (hexToBytes hexed)

/-- bit/wallet.py:30-42 `wif_to_key`. -/
def wifToKey (C : Crypto) (wif : Str) : Py PrivKey :=
  match wifToBytes C wif with
  | .error e => .error e
  | .ok (secretBytes, compressed, version) =>
    match version with
    | .main => if compressed then privKeyFromBytes .main secretBytes else privKeyOfWif C .main wif
    | .test => if compressed then privKeyFromBytes .test secretBytes else privKeyOfWif C .test wif

namespace PrivKey

/-- bit/wallet.py:73, 75-78 `public_key`. -/
def publicKey (C : Crypto) (k : PrivKey) : Bytes := C.pubkey k.secret k.compressed

/-- bit/wallet.py:133-139 `is_compressed`. -/
def isCompressed (C : Crypto) (k : PrivKey) : Bool := (k.publicKey C).length = 33

/-- bit/wallet.py:171-176 and 568-573 `address`. -/
def address (C : Crypto) (k : PrivKey) : Py Str := publicKeyToAddress C (k.publicKey C) k.net

/-- bit/wallet.py:178-185 and 575-582 `segwit_address`; `none` stands for `None`. -/
def segwitAddress (C : Crypto) (k : PrivKey) : Py (Option Str) :=
  if k.isCompressed C then
    match publicKeyToSegwitAddress C (k.publicKey C) k.net with
    | .error e => .error e
    | .ok a => .ok (some a)
  else .ok none

/-- bit/wallet.py:187-190 and 584-587 `scriptcode`. -/
def scriptcode (C : Crypto) (k : PrivKey) : Py (Option Bytes) :=
  match k.address C with
  | .error e => .error e
  | .ok a => addressToScriptpubkey C a

/-- bit/wallet.py:192-195 and 589-592 `segwit_scriptcode`. -/
def segwitScriptcode (C : Crypto) (k : PrivKey) : Bytes :=
  [0x00] ++ [0x14] ++ C.hash160 (k.publicKey C)

/-- bit/wallet.py:205-206 and 602-603 `to_wif`. -/
def toWif (C : Crypto) (k : PrivKey) : Str := bytesToWif C k.secret k.net (k.isCompressed C)

/-- bit/wallet.py:113-115 `to_hex`: 64 digits. -/
def toHex (k : PrivKey) : Str := bytesToHex k.secret

/-- bit/wallet.py:129-131 `to_int`. -/
def toInt (k : PrivKey) : Nat := beNat k.secret

/-- bit/wallet.py:141-142 `__eq__`. -/
def eq (a b : PrivKey) : Bool := a.toInt == b.toInt

end PrivKey

/-- A public key argument of the multisig classes: `bytes` or a hexadecimal `str`. -/
inductive PubArg
  | bytes (b : Bytes)
  | hex (s : Str)
  deriving DecidableEq, Repr

/-- The `public_keys` argument: a list, or a set with the order in which Python iterates it. -/
inductive PubArgs
  | list (l : List PubArg)
  | set (iteration : List PubArg)
  deriving Repr

def PubArgs.elems : PubArgs → List PubArg
  | .list l => l
  | .set l => l

/-- Lexicographic order of Python `bytes` and `str` (by code point), with `f` the code. -/
def lexLe {α : Type} (f : α → Nat) : List α → List α → Bool
  | [], _ => true
  | _ :: _, [] => false
  | a :: as, b :: bs => if f a < f b then true else if f b < f a then false else lexLe f as bs

/-- Insertion into a sorted list. -/
def insertSorted {α : Type} (le : α → α → Bool) (x : α) : List α → List α
  | [] => [x]
  | y :: ys => if le x y then x :: y :: ys else y :: insertSorted le x ys

/-- Python's `sorted` (a stable sort). -/
def pySorted {α : Type} (le : α → α → Bool) : List α → List α
  | [] => []
  | x :: xs => insertSorted le x (pySorted le xs)

/-- The elements as `bytes`, if all of them are. -/
def allBytes : List PubArg → Option (List Bytes)
  | [] => some []
  | .bytes b :: l => (allBytes l).map (b :: ·)
  | .hex _ :: _ => none

/-- The elements as `str`, if all of them are. -/
def allHex : List PubArg → Option (List Str)
  | [] => some []
  | .hex s :: l => (allHex l).map (s :: ·)
  | .bytes _ :: _ => none

/-- `sorted(public_keys)` (bit/wallet.py:979, 1302): comparing `str` with `bytes` raises `TypeError`, which
happens in every sort of a set that contains both. -/
def sortedArgs (l : List PubArg) : Py (List PubArg) :=
  match allBytes l with
  | some bs => .ok ((pySorted (lexLe UInt8.toNat) bs).map .bytes)
  | none =>
    match allHex l with
    | some ss => .ok ((pySorted (lexLe Char.toNat) ss).map .hex)
    | none => .error .typeError

/-- bit/wallet.py:978-979: a set is sorted, a list keeps its order. -/
def PubArgs.ordered : PubArgs → Py (List PubArg)
  | .list l => .ok l
  | .set l => sortedArgs l

/-- bit/wallet.py:980: `k if type(k) == bytes else hex_to_bytes(k)` for every key. -/
def argsToBytes : List PubArg → Py (List Bytes)
  | [] => .ok []
  | .bytes b :: l =>
    match argsToBytes l with
    | .error e => .error e
    | .ok bs => .ok (b :: bs)
  | .hex s :: l =>
    match hexToBytes s with
    | .error e => .error e
    | .ok b =>
      match argsToBytes l with
      | .error e => .error e
      | .ok bs => .ok (b :: bs)

/-- Instances of `MultiSig` and `MultiSigTestnet` (the fields set at bit/wallet.py:973-984). -/
structure MultiSig where
  net : Net
  key : PrivKey
  publicKeys : List Bytes
  m : Int
  redeemscript : Bytes
  isCompressed : Bool
  deriving DecidableEq, Repr

/-- bit/wallet.py:963-992 `MultiSig.__init__` (`net = main`) and 1286-1315
`MultiSigTestnet.__init__` (`net = test`). A `public_keys` argument that is neither list nor set
(TypeError at line 971) cannot be written in the model. -/
def mkMultiSig (C : Crypto) (net : Net) (key : PrivKey) (keys : PubArgs) (m : Int) : Py MultiSig :=
  if key.net ≠ net then .error .typeError
  else if ¬ (.hex (bytesToHex (key.publicKey C)) ∈ keys.elems) ∧
      ¬ (.bytes (key.publicKey C) ∈ keys.elems) then .error .valueError
  else
    match keys.ordered with
    | .error e => .error e
    | .ok args =>
      match argsToBytes args with
      | .error e => .error e
      | .ok pubs =>
        match multisigToRedeemscript pubs m with
        | .error e => .error e
        | .ok r => .ok { net := net, key := key, publicKeys := pubs, m := m, redeemscript := r,
                         isCompressed := pubs.all (fun p => p.length = 33) }

namespace MultiSig

/-- bit/wallet.py:994-999 and 1317-1322 `address`. -/
def address (C : Crypto) (s : MultiSig) : Py Str := multisigToAddress C s.publicKeys s.m s.net

/-- bit/wallet.py:1001-1008 and 1324-1331 `segwit_address`; `none` stands for `None`. -/
def segwitAddress (C : Crypto) (s : MultiSig) : Py (Option Str) :=
  if s.isCompressed then
    match multisigToSegwitAddress C s.publicKeys s.m s.net with
    | .error e => .error e
    | .ok a => .ok (some a)
  else .ok none

/-- bit/wallet.py:1010-1013 and 1333-1336 `scriptcode`. -/
def scriptcode (s : MultiSig) : Bytes := s.redeemscript

/-- bit/wallet.py:1015-1018 and 1338-1341 `segwit_scriptcode`. -/
def segwitScriptcode (C : Crypto) (s : MultiSig) : Bytes :=
  [0x00] ++ [0x20] ++ C.sha256 s.redeemscript

end MultiSig

end Bit
