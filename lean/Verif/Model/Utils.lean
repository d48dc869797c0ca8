import Verif.Model.Basic
/-
Model of /repo/bit/utils.py.
-/
namespace Bit

/-- bit/utils.py:11-12 `chunk_data`: consecutive slices of `size` elements.
Model: recursion on the number of elements left (`size` is positive in every call; Python raises
`ValueError` for `size = 0`, which is not modelled: the model then returns the whole list). -/
def chunkAux {α : Type} (size : Nat) : Nat → List α → List (List α)
  | 0, _ => []
  | fuel + 1, l => if l.isEmpty then [] else l.take size :: chunkAux size fuel (l.drop size)

/-- bit/utils.py:11-12. The fuel `l.length` suffices since each slice takes at least one element
(proved in `Lemmas/Utils`). -/
def chunkData {α : Type} (l : List α) (size : Nat) : List (List α) := chunkAux size l.length l

/-- bit/utils.py:15-17 `int_to_unknown_bytes(num, 'big')` for `num ≥ 0`. -/
def intToUnknownBytes (num : Nat) : Bytes :=
  let len := (bitLength num + 7) / 8
  (leBytes (if len = 0 then 1 else len) num).reverse

/-- bit/utils.py:15-17 on an arbitrary Python int: `to_bytes` raises `OverflowError` if it is
negative. -/
def intToUnknownBytesInt (num : Int) : Py Bytes :=
  if num < 0 then .error .overflowError else .ok (intToUnknownBytes num.toNat)

/-- One lower-case hexadecimal digit (`binascii.hexlify`). -/
def hexDigit (n : Nat) : Char :=
  if n < 10 then Char.ofNat (48 + n) else Char.ofNat (87 + n)

/-- bit/utils.py:20-22 `bytes_to_hex(bytestr)` with `upper=False`. -/
def bytesToHex : Bytes → Str
  | [] => []
  | b :: bs => hexDigit (b.toNat / 16) :: hexDigit (b.toNat % 16) :: bytesToHex bs

/-- Value of a hexadecimal digit of either case. -/
def hexVal (c : Char) : Option Nat :=
  if '0' ≤ c ∧ c ≤ '9' then some (c.toNat - 48)
  else if 'a' ≤ c ∧ c ≤ 'f' then some (c.toNat - 87)
  else if 'A' ≤ c ∧ c ≤ 'F' then some (c.toNat - 55)
  else none

/-- ASCII white space skipped by `bytes.fromhex`. -/
def isHexSpace (c : Char) : Bool :=
  c = ' ' || c = '\t' || c = '\n' || c = '\r' || c.toNat = 11 || c.toNat = 12

/-- `bytes.fromhex`: pairs of hexadecimal digits, white space allowed between pairs. -/
def fromHex : Str → Py Bytes
  | [] => .ok []
  | c :: rest =>
    if isHexSpace c then fromHex rest
    else match rest with
      | [] => .error .valueError
      | d :: rest' =>
        match hexVal c, hexVal d with
        | some h, some l =>
          match fromHex rest' with
          | .ok bs => .ok (UInt8.ofNat (16 * h + l) :: bs)
          | .error e => .error e
        | _, _ => .error .valueError

/-- bit/utils.py:25-30 `hex_to_bytes`. -/
def hexToBytes (hexed : Str) : Py Bytes :=
  fromHex (if hexed.length % 2 = 1 then '0' :: hexed else hexed)

/-- bit/utils.py:42-43 `flip_hex_byte_order`. -/
def flipHexByteOrder (s : Str) : Py Str :=
  match hexToBytes s with
  | .ok b => .ok (bytesToHex b.reverse)
  | .error e => .error e

/-- bit/utils.py:46-55 `int_to_varint` for `val ≥ 0`. -/
def intToVarint (val : Nat) : Py Bytes :=
  if val < 253 then toBytesLE val 1
  else if val ≤ 65535 then (toBytesLE val 2).map (0xfd :: ·)
  else if val ≤ 4294967295 then (toBytesLE val 4).map (0xfe :: ·)
  else (toBytesLE val 8).map (0xff :: ·)

/-- bit/utils.py:58-67 `script_push` for `val ≥ 0`. -/
def scriptPush (val : Nat) : Py Bytes :=
  if val ≤ 75 then .ok (intToUnknownBytes val)
  else if val < 256 then .ok (0x4c :: intToUnknownBytes val)
  else if val < 65536 then (toBytesLE val 2).map (0x4d :: ·)
  else (toBytesLE val 4).map (0x4e :: ·)

/-- bit/utils.py:71-72 `read_bytes`: slices, so a short stream gives a short result. -/
def readBytes (stream : Bytes) (n : Nat) : Bytes × Bytes := (stream.take n, stream.drop n)

/-- The digit loop of `int(text, 16)`; `ValueError` on a character that is not a hexadecimal
digit. -/
def hexTextLoop : Nat → Str → Py Nat
  | acc, [] => .ok acc
  | acc, c :: cs =>
    match hexVal c with
    | some d => hexTextLoop (acc * 16 + d) cs
    | none => .error .valueError

/-- bit/utils.py:38-39 `hex_to_int`, i.e. `int(text, 16)`; `ValueError` on the empty string.
(Python also accepts a sign, a `0x` prefix, underscores and surrounding white space, and decimal
digits of other scripts; the model refuses these.) -/
def hexToInt (text : Str) : Py Nat :=
  if text.isEmpty then .error .valueError else hexTextLoop 0 text

/-- The digits of `hex(num)` after the `0x`. -/
def intToHexLoop : Nat → Nat → Str → Str
  | 0, _, acc => acc
  | fuel + 1, num, acc =>
    if num = 0 then acc else intToHexLoop fuel (num / 16) (hexDigit (num % 16) :: acc)

/-- bit/utils.py:33-35 `int_to_hex(num)` for `num ≥ 0`, `upper=False`. -/
def intToHex (num : Nat) : Str := if num = 0 then ['0'] else intToHexLoop num num []

/-- `int(bytes_to_hex(b), base=16)`. -/
def hexInt (b : Bytes) : Py Nat := hexToInt (bytesToHex b)

/-- bit/utils.py:87-88 `read_as_int`. -/
def readAsInt (stream : Bytes) (n : Nat) : Py (Nat × Bytes) :=
  match hexInt (stream.take n).reverse with
  | .ok v => .ok (v, stream.drop n)
  | .error e => .error e

/-- bit/utils.py:80-84 `read_var_int`. -/
def readVarInt (stream : Bytes) : Py (Nat × Bytes) :=
  match hexInt (stream.take 1) with
  | .error e => .error e
  | .ok val =>
    if val < 253 then .ok (val, stream.drop 1)
    else readAsInt (stream.drop 1) (2 ^ (val - 252))

/-- bit/utils.py:75-77 `read_var_string`. -/
def readVarString (stream : Bytes) : Py (Bytes × Bytes) :=
  match readVarInt stream with
  | .error e => .error e
  | .ok (size, stream) => .ok (readBytes stream size)

/-- bit/utils.py:91-94 `read_segwit_string`. -/
def readSegwitString (stream : Bytes) : Py (Bytes × Bytes) :=
  match readVarInt stream with
  | .error e => .error e
  | .ok (n, stream) =>
    let (witness, stream) := readBytes stream n
    match intToVarint n with
    | .error e => .error e
    | .ok l => .ok (l ++ witness, stream)

/-- bit/utils.py:107-121, the `while len(script) > 0` loop of `get_signatures_from_script`.
`isDer` stands for "`coincurve.ecdsa.der_to_cdata` does not raise `ValueError`". The fuel is the
length of the script; every iteration consumes at least one byte, so it never runs out
(`Lemmas/Utils.getSigsLoop_fuel`). -/
def getSigsLoop (isDer : Bytes → Bool) : Nat → Bytes → Py (List Bytes)
  | 0, _ => .ok []
  | fuel + 1, script =>
    if script.isEmpty then .ok []
    else match readVarInt script with
      | .error e => .error e
      | .ok (val, script) =>
        let (potentialSig, script) := readBytes script val
        match getSigsLoop isDer fuel script with
        | .error e => .error e
        | .ok sigs =>
          .ok (if isDer (dropLast' potentialSig 1) then potentialSig :: sigs else sigs)

/-- bit/utils.py:97-121 `get_signatures_from_script`: drops the first byte, then reads
length-prefixed items and keeps those that are DER signatures followed by one byte. -/
def getSignaturesFromScript (isDer : Bytes → Bool) (script : Bytes) : Py (List Bytes) :=
  getSigsLoop isDer (script.drop 1).length (script.drop 1)

end Bit
