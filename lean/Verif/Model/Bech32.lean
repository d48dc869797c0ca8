import Verif.Model.Basic
/-
Model of /repo/bit/base32.py. Data values are natural numbers (Python could also be handed
negative numbers; `convertbits` rejects them, the other functions are never called with them).
-/
namespace Bit

/-- bit/base32.py:23 `CHARSET`. -/
def bech32Charset : List Char :=
  ['q', 'p', 'z', 'r', 'y', '9', 'x', '8', 'g', 'f', '2', 't', 'v', 'd', 'w', '0',
   's', '3', 'j', 'n', '5', '4', 'k', 'h', 'c', 'e', '6', 'm', 'u', 'a', '7', 'l']

/-- bit/base32.py:28 `generator`. -/
def bech32Generator : List Nat := [0x3B6A57B2, 0x26508E6D, 0x1EA119FA, 0x3D4233DD, 0x2A1462B3]

/-- bit/base32.py:33-34: `for i in range(5): chk ^= generator[i] if ((top >> i) & 1) else 0`,
as recursion over the generator list starting at bit `i`. -/
def polymodGen (top : Nat) : Nat → List Nat → Nat → Nat
  | _, [], chk => chk
  | i, g :: gs, chk =>
    polymodGen top (i + 1) gs (chk ^^^ (if (top >>> i) &&& 1 ≠ 0 then g else 0))

/-- bit/base32.py:31-34, one iteration of the loop over the values. -/
def polymodStep (chk value : Nat) : Nat :=
  polymodGen (chk >>> 25) 0 bech32Generator (((chk &&& 0x1FFFFFF) <<< 5) ^^^ value)

/-- bit/base32.py:26-35 `bech32_polymod`. -/
def bech32Polymod (values : List Nat) : Nat := values.foldl polymodStep 1

/-- bit/base32.py:38-40 `bech32_hrp_expand`. -/
def bech32HrpExpand (hrp : Str) : List Nat :=
  hrp.map (fun x => x.toNat >>> 5) ++ [0] ++ hrp.map (fun x => x.toNat &&& 31)

/-- bit/base32.py:43-45 `bech32_verify_checksum`. -/
def bech32VerifyChecksum (hrp : Str) (data : List Nat) : Bool :=
  bech32Polymod (bech32HrpExpand hrp ++ data) == 1

/-- bit/base32.py:48-52 `bech32_create_checksum`. -/
def bech32CreateChecksum (hrp : Str) (data : List Nat) : List Nat :=
  let values := bech32HrpExpand hrp ++ data
  let polymod := bech32Polymod (values ++ [0, 0, 0, 0, 0, 0]) ^^^ 1
  (List.range 6).map (fun i => (polymod >>> (5 * (5 - i))) &&& 31)

/-- `''.join([CHARSET[d] for d in l])`: `IndexError` for a value of 32 or more. -/
def charsetText : List Nat → Py Str
  | [] => .ok []
  | d :: ds =>
    match bech32Charset[d]? with
    | none => .error .indexError
    | some c =>
      match charsetText ds with
      | .error e => .error e
      | .ok cs => .ok (c :: cs)

/-- bit/base32.py:55-58 `bech32_encode`. -/
def bech32Encode (hrp : Str) (data : List Nat) : Py Str :=
  match charsetText (data ++ bech32CreateChecksum hrp data) with
  | .error e => .error e
  | .ok cs => .ok (hrp ++ '1' :: cs)

/-- Position of the last `'1'` (`rfind`); `none` stands for `-1`. -/
def rfindOne (s : Str) : Option Nat :=
  match s.reverse.idxOf? '1' with
  | none => none
  | some i => some (s.length - 1 - i)

/-- `[CHARSET.find(x) for x in l]` together with the test that all `x` are in `CHARSET`
(bit/base32.py:69-72); `none` if some character is not. -/
def charsetData : Str → Option (List Nat)
  | [] => some []
  | c :: cs =>
    match bech32Charset.idxOf? c with
    | none => none
    | some d =>
      match charsetData cs with
      | none => none
      | some ds => some (d :: ds)

/-- bit/base32.py:61-75 `bech32_decode`; `none` stands for `(None, None)`. The case conversions are
the ASCII ones: characters outside 33..126 are rejected before they matter. -/
def bech32Decode (bech : Str) : Option (Str × List Nat) :=
  if bech.any (fun x => x.toNat < 33 || x.toNat > 126) ||
      (bech.map Char.toLower != bech && bech.map Char.toUpper != bech) then none
  else
    let bech := bech.map Char.toLower
    match rfindOne bech with
    | none => none
    | some pos =>
      if pos < 1 || pos + 7 > bech.length || bech.length > 90 then none
      else
        match charsetData (bech.drop (pos + 1)) with
        | none => none
        | some data =>
          let hrp := bech.take pos
          if bech32VerifyChecksum hrp data then some (hrp, dropLast' data 6) else none

/-- bit/base32.py:90-92, the inner `while bits >= tobits` loop (fuel: `bits`, see
`Lemmas/ConvertBits`; `tobits > 0` in every call). Returns the new `bits` and `ret`. -/
def cbInner (tobits acc : Nat) : Nat → Nat → List Nat → Nat × List Nat
  | 0, bits, ret => (bits, ret)
  | fuel + 1, bits, ret =>
    if bits ≥ tobits then
      cbInner tobits acc fuel (bits - tobits)
        (ret ++ [(acc >>> (bits - tobits)) &&& ((1 <<< tobits) - 1)])
    else (bits, ret)

/-- bit/base32.py:85-92, the loop over `data`, state `(acc, bits, ret)`; `none` if a value does not
fit `frombits`. -/
def cbLoop (frombits tobits : Nat) : List Nat → Nat → Nat → List Nat → Option (Nat × Nat × List Nat)
  | [], acc, bits, ret => some (acc, bits, ret)
  | value :: data, acc, bits, ret =>
    if value >>> frombits ≠ 0 then none
    else
      let acc := ((acc <<< frombits) ||| value) &&& ((1 <<< (frombits + tobits - 1)) - 1)
      let (bits, ret) := cbInner tobits acc (bits + frombits) (bits + frombits) ret
      cbLoop frombits tobits data acc bits ret

/-- bit/base32.py:78-98 `convertbits`; `none` stands for `None`. -/
def convertbits (data : List Nat) (frombits tobits : Nat) (pad : Bool) : Option (List Nat) :=
  match cbLoop frombits tobits data 0 0 [] with
  | none => none
  | some (acc, bits, ret) =>
    if pad then
      if bits ≠ 0 then some (ret ++ [(acc <<< (tobits - bits)) &&& ((1 <<< tobits) - 1)])
      else some ret
    else if bits ≥ frombits || ((acc <<< (tobits - bits)) &&& ((1 <<< tobits) - 1)) ≠ 0 then none
    else some ret

/-- bit/constants.py:26-28 `BECH32_VERSION_SET` and its main/test parts. -/
def bech32MainVersionSet : List Str := [['b', 'c']]
def bech32TestVersionSet : List Str := [['t', 'b'], ['b', 'c', 'r', 't']]
def bech32VersionSet : List Str := bech32MainVersionSet ++ bech32TestVersionSet

/-- bit/base32.py:102-115 `decode`; `none` stands for `(None, None)`. For empty `data` Python's
`data[0]` is not reached because the regrouped list is then shorter than 2; the model returns
`none` as well. -/
def segwitDecode (addr : Str) : Option (Nat × List Nat) :=
  match bech32Decode addr with
  | none => none
  | some (hrpgot, data) =>
    if !(bech32VersionSet.contains hrpgot) then none
    else
      match convertbits (data.drop 1) 5 8 false with
      | none => none
      | some decoded =>
        if decoded.length < 2 || decoded.length > 40 then none
        else
          match data with
          | [] => none
          | v :: _ =>
            if v > 16 then none
            else if v == 0 && decoded.length != 20 && decoded.length != 32 then none
            else some (v, decoded)

/-- bit/base32.py:118-123 `encode`. `.ok none` is the Python result `None`. Concatenating
`[witver]` with the result of a failed `convertbits` raises `TypeError`. -/
def segwitEncode (hrp : Str) (witver : Nat) (witprog : List Nat) : Py (Option Str) :=
  match convertbits witprog 8 5 true with
  | none => .error .typeError
  | some conv =>
    match bech32Encode hrp (witver :: conv) with
    | .error e => .error e
    | .ok ret => if segwitDecode ret = none then .ok none else .ok (some ret)

end Bit
