import Verif.Model.Base58
import Verif.Model.Bech32
import Verif.Model.Curve
/-
Model of /repo/bit/format.py.
-/
namespace Bit

/-- The network argument `version`: `'main'` or `'test'`. (In the Python code every string other
than `'test'` behaves as `'main'`; the model only has these two values.) -/
inductive Net
  | main
  | test
  deriving DecidableEq, Repr

/-- bit/constants.py:29-32: version bytes of addresses. -/
def pubkeyHashByte : Net → UInt8
  | .main => 0x00
  | .test => 0x6f
def scriptHashByte : Net → UInt8
  | .main => 0x05
  | .test => 0xc4

/-- bit/constants.py:35, 38: version bytes of private keys. -/
def privateKeyByte : Net → UInt8
  | .main => 0x80
  | .test => 0xef

/-- bit/format.py:45-54 `get_version`. -/
def getVersion (C : Crypto) (address : Str) : Py Net :=
  match bech32Decode address with
  | some (hrp, _) =>
    if bech32MainVersionSet.contains hrp then .ok .main
    else if bech32TestVersionSet.contains hrp then .ok .test
    else .error .valueError
  | none =>
    match b58decodeCheck C address with
    | .error e => .error e
    | .ok p =>
      if p.take 1 = [0x00] ∨ p.take 1 = [0x05] then .ok .main
      else if p.take 1 = [0x6f] ∨ p.take 1 = [0xc4] then .ok .test
      else .error .valueError

/-- bit/format.py:39-42 `address_to_public_key_hash`. -/
def addressToPublicKeyHash (C : Crypto) (address : Str) : Py Bytes :=
  match getVersion C address with
  | .error e => .error e
  | .ok _ =>
    match b58decodeCheck C address with
    | .error e => .error e
    | .ok p => .ok (p.drop 1)

/-- bit/format.py:57-71 `bytes_to_wif`. -/
def bytesToWif (C : Crypto) (privateKey : Bytes) (version : Net) (compressed : Bool) : Str :=
  let pre := privateKeyByte version
  let suffix : Bytes := if compressed then [0x01] else []
  b58encodeCheck C (pre :: privateKey ++ suffix)

/-- bit/format.py:74-93 `wif_to_bytes`. `private_key[-1]` is the last byte of the payload, which is
nonempty when it is read. -/
def wifToBytes (C : Crypto) (wif : Str) : Py (Bytes × Bool × Net) :=
  match b58decodeCheck C wif with
  | .error e => .error e
  | .ok payload =>
    let finish (version : Net) : Py (Bytes × Bool × Net) :=
      if wif.length = 52 ∧ payload.getLast? = some 1 then
        .ok (dropLast' (payload.drop 1) 1, true, version)
      else .ok (payload.drop 1, false, version)
    if payload.take 1 = [0x80] then finish .main
    else if payload.take 1 = [0xef] then finish .test
    else .error .valueError

/-- bit/format.py:96-106 `wif_checksum_check`; only `ValueError` is caught, which is the only
exception of `b58decode_check`. -/
def wifChecksumCheck (C : Crypto) (wif : Str) : Py Bool :=
  match b58decodeCheck C wif with
  | .error .valueError => .ok false
  | .error e => .error e
  | .ok decoded => .ok (decoded.take 1 = [0x80] ∨ decoded.take 1 = [0xef])

/-- bit/format.py:109-121 `public_key_to_address`. -/
def publicKeyToAddress (C : Crypto) (publicKey : Bytes) (version : Net) : Py Str :=
  if publicKey.length ≠ 33 ∧ publicKey.length ≠ 65 then .error .valueError
  else .ok (b58encodeCheck C (pubkeyHashByte version :: C.hash160 publicKey))

/-- bit/format.py:124-138 `public_key_to_segwit_address`. -/
def publicKeyToSegwitAddress (C : Crypto) (publicKey : Bytes) (version : Net) : Py Str :=
  if publicKey.length ≠ 33 then .error .valueError
  else .ok (b58encodeCheck C
    (scriptHashByte version :: C.hash160 (0x00 :: 0x14 :: C.hash160 publicKey)))

/-- bit/format.py:148-154, the loop over the keys. -/
def redeemLoop : List Bytes → Bytes → Py Bytes
  | [], acc => .ok acc
  | key :: keys, acc =>
    if key.length ≠ 33 ∧ key.length ≠ 65 then .error .valueError
    else
      match scriptPush key.length with
      | .error e => .error e
      | .ok push => redeemLoop keys (acc ++ (push ++ key))

/-- bit/format.py:141-163 `multisig_to_redeemscript`; `m` may be any Python integer. -/
def multisigToRedeemscript (publicKeys : List Bytes) (m : Int) : Py Bytes :=
  if m > publicKeys.length then .error .valueError
  else
    match intToUnknownBytesInt (m + 80) with
    | .error e => .error e
    | .ok start =>
      match redeemLoop publicKeys start with
      | .error e => .error e
      | .ok script =>
        let script := script ++ (intToUnknownBytes (publicKeys.length + 80) ++ [0xae])
        if script.length > 520 then .error .valueError else .ok script

/-- bit/format.py:166-172 `multisig_to_address`. -/
def multisigToAddress (C : Crypto) (publicKeys : List Bytes) (m : Int) (version : Net) : Py Str :=
  match multisigToRedeemscript publicKeys m with
  | .error e => .error e
  | .ok r => .ok (b58encodeCheck C (scriptHashByte version :: C.hash160 r))

/-- bit/format.py:175-181 `multisig_to_segwit_address`. -/
def multisigToSegwitAddress (C : Crypto) (publicKeys : List Bytes) (m : Int) (version : Net) :
    Py Str :=
  match multisigToRedeemscript publicKeys m with
  | .error e => .error e
  | .ok r => .ok (b58encodeCheck C
      (scriptHashByte version :: C.hash160 (0x00 :: 0x20 :: C.sha256 r)))

/-- `bytes([...])`: `ValueError` if an element is not below 256. -/
def pyBytes : List Nat → Py Bytes
  | [] => .ok []
  | x :: xs =>
    if x < 256 then
      match pyBytes xs with
      | .error e => .error e
      | .ok bs => .ok (UInt8.ofNat x :: bs)
    else .error .valueError

/-- bit/format.py:184-186 `segwit_scriptpubkey` for integers (called with `(None, None)` it raises
`TypeError` at `len(None)`, see `addressToScriptpubkey`). -/
def segwitScriptpubkey (witver : Nat) (witprog : List Nat) : Py Bytes :=
  pyBytes ((if witver ≠ 0 then witver + 0x50 else 0) :: witprog.length :: witprog)

/-- bit/transaction.py:456-468 `address_to_scriptpubkey`. `.ok none` is the Python result `None`
of falling off the end of the function. -/
def addressToScriptpubkey (C : Crypto) (address : Str) : Py (Option Bytes) :=
  match getVersion C address with
  | .error e => .error e
  | .ok _ =>
    match b58decodeCheck C address with
    | .error .valueError =>
      match segwitDecode address with
      | none => .error .typeError
      | some (witver, data) =>
        match segwitScriptpubkey witver data with
        | .error e => .error e
        | .ok b => .ok (some b)
    | .error e => .error e
    | .ok p =>
      if p.take 1 = [0x00] ∨ p.take 1 = [0x6f] then
        match addressToPublicKeyHash C address with
        | .error e => .error e
        | .ok h => .ok (some ([0x76] ++ [0xa9] ++ [0x14] ++ h ++ [0x88] ++ [0xac]))
      else if p.take 1 = [0x05] ∨ p.take 1 = [0xc4] then
        match addressToPublicKeyHash C address with
        | .error e => .error e
        | .ok h => .ok (some ([0xa9] ++ [0x14] ++ h ++ [0x87]))
      else .ok none

/-- bit/format.py:189-201 `public_key_to_coords`. -/
def publicKeyToCoords (publicKey : Bytes) : Py (Nat × Nat) :=
  if publicKey.length = 33 then
    let flag := beNat (publicKey.take 1)
    let x := beNat (publicKey.drop 1)
    .ok (x, xToY x (flag % 2))
  else if publicKey.length = 65 then
    .ok (beNat ((publicKey.drop 1).take 32), beNat (publicKey.drop 33))
  else .error .valueError

/-- bit/format.py:204-210 `coords_to_public_key`. -/
def coordsToPublicKey (x y : Nat) (compressed : Bool) : Py Bytes :=
  if compressed then
    match toBytesBE x 32 with
    | .error e => .error e
    | .ok xb => .ok ((if y % 2 = 1 then 0x03 else 0x02) :: xb)
  else
    match toBytesBE x 32 with
    | .error e => .error e
    | .ok xb =>
      match toBytesBE y 32 with
      | .error e => .error e
      | .ok yb => .ok (0x04 :: (xb ++ yb))

end Bit
