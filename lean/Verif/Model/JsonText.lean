import Verif.Model.Json
import Verif.Model.Utils
/-
The texts of Python's `json` module, which bit/wallet.py:458 and 473 (and the same lines of the other classes)
write and read. The definitions follow CPython's Lib/json/encoder.py, decoder.py and scanner.py.
-/
namespace Bit

/-- `'\\u{0:04x}'.format(n)` for `n < 65536`. -/
def unicodeEscape (n : Nat) : Str :=
  ['\\', 'u', hexDigit (n / 4096 % 16), hexDigit (n / 256 % 16), hexDigit (n / 16 % 16), hexDigit (n % 16)]

/-- One character of a string literal (`py_encode_basestring_ascii`, encoder.py:49-72): everything outside the
printable ASCII characters is escaped, beyond 0xFFFF as a surrogate pair. -/
def escapeChar (c : Char) : Str :=
  if c = '\\' then ['\\', '\\']
  else if c = '"' then ['\\', '"']
  else if 0x20 ≤ c.toNat ∧ c.toNat ≤ 0x7e then [c]
  else if c.toNat = 0x0a then ['\\', 'n']
  else if c.toNat = 0x0d then ['\\', 'r']
  else if c.toNat = 0x09 then ['\\', 't']
  else if c.toNat = 0x0c then ['\\', 'f']
  else if c.toNat = 0x08 then ['\\', 'b']
  else if c.toNat < 0x10000 then unicodeEscape c.toNat
  else unicodeEscape (0xd800 + (c.toNat - 0x10000) / 1024 % 1024) ++
    unicodeEscape (0xdc00 + (c.toNat - 0x10000) % 1024)

/-- The string literal. -/
def stringText (s : Str) : Str := '"' :: (s.flatMap escapeChar ++ ['"'])

mutual

/-- `json.dumps(j, separators=(',', ':'))`. -/
def Json.dumps : Json → Str
  | .null => ['n', 'u', 'l', 'l']
  | .bool true => ['t', 'r', 'u', 'e']
  | .bool false => ['f', 'a', 'l', 's', 'e']
  | .int n => intText n
  | .float f => f.repr
  | .str s => stringText s
  | .arr [] => ['[', ']']
  | .arr (j :: js) => '[' :: (j.dumps ++ dumpElements js ++ [']'])
  | .obj [] => ['{', '}']
  | .obj ((k, j) :: js) => '{' :: (stringText k ++ ':' :: (j.dumps ++ dumpMembers js ++ ['}']))

/-- The further elements of a list. -/
def dumpElements : List Json → Str
  | [] => []
  | j :: js => ',' :: (j.dumps ++ dumpElements js)

/-- The further items of a dict. -/
def dumpMembers : List (Str × Json) → Str
  | [] => []
  | (k, j) :: js => ',' :: (stringText k ++ ':' :: (j.dumps ++ dumpMembers js))

end

/-- `WHITESPACE.match(s)`, decoder.py:132: what follows the white space at the front. -/
def skipSpace : Str → Str
  | [] => []
  | c :: cs => if c = ' ' ∨ c = '\t' ∨ c = '\n' ∨ c = '\r' then skipSpace cs else c :: cs

/-- Four hexadecimal digits (`_decode_uXXXX`, decoder.py:59-67). -/
def hex4 : Str → Option (Nat × Str)
  | a :: b :: c :: d :: rest =>
    match hexVal a, hexVal b, hexVal c, hexVal d with
    | some a, some b, some c, some d => some (a * 4096 + b * 256 + c * 16 + d, rest)
    | _, _, _, _ => none
  | _ => none

/-- The second escape of a surrogate pair. -/
def secondEscape : Str → Option (Nat × Str)
  | '\\' :: 'u' :: rest => hex4 rest
  | _ => none

/-- The character of an escape `\uXXXX`, where the text after `\u` is given; a surrogate pair takes two escapes. A
surrogate that is not part of a pair is refused in the model (Python keeps it; a Lean text cannot hold it). -/
def unicodeChar (s : Str) : Option (Char × Str) :=
  match hex4 s with
  | none => none
  | some (n, rest) =>
    if 0xd800 ≤ n ∧ n ≤ 0xdbff then
      match secondEscape rest with
      | none => none
      | some (m, rest) =>
        if 0xdc00 ≤ m ∧ m ≤ 0xdfff then
          some (Char.ofNat (0x10000 + (n - 0xd800) * 1024 + (m - 0xdc00)), rest)
        else none
    else if 0xdc00 ≤ n ∧ n ≤ 0xdfff then none
    else some (Char.ofNat n, rest)

/-- `BACKSLASH`, decoder.py:54-57. -/
def shortEscape (c : Char) : Option Char :=
  if c = '"' then some '"'
  else if c = '\\' then some '\\'
  else if c = '/' then some '/'
  else if c = 'b' then some (Char.ofNat 0x08)
  else if c = 'f' then some (Char.ofNat 0x0c)
  else if c = 'n' then some (Char.ofNat 0x0a)
  else if c = 'r' then some (Char.ofNat 0x0d)
  else if c = 't' then some (Char.ofNat 0x09)
  else none

/-- An escape after its backslash (decoder.py:102-125). -/
def scanEscape : Str → Option (Char × Str)
  | [] => none
  | e :: es => if e = 'u' then unicodeChar es else (shortEscape e).map fun ch => (ch, es)

/-- `py_scanstring`, decoder.py:69-127, after the opening quotation mark: the text and what follows the closing one.
Control characters are refused. Every step takes a character, so `fuel` beyond the length changes nothing. -/
def scanString : Nat → Str → Option (Str × Str)
  | 0, _ => none
  | _ + 1, [] => none
  | fuel + 1, c :: cs =>
    if c = '"' then some ([], cs)
    else if c = '\\' then
      match scanEscape cs with
      | none => none
      | some (ch, rest) => (scanString fuel rest).map fun r => (ch :: r.1, r.2)
    else if c.toNat < 0x20 then none
    else (scanString fuel cs).map fun r => (c :: r.1, r.2)

/-- `-?`. -/
def takeMinus : Str → Str × Str
  | '-' :: t => (['-'], t)
  | t => ([], t)

/-- `[-+]?`. -/
def takeSign : Str → Str × Str
  | '-' :: t => (['-'], t)
  | '+' :: t => (['+'], t)
  | t => ([], t)

/-- The integer part of `NUMBER_RE`, scanner.py:11-13: `-?(0|[1-9][0-9]*)`, with what follows. -/
def scanInt (s : Str) : Option (Str × Str) :=
  match (takeMinus s).2 with
  | [] => none
  | c :: cs =>
    if c = '0' then some ((takeMinus s).1 ++ ['0'], cs)
    else if 49 ≤ c.toNat ∧ c.toNat ≤ 57 then
      some ((takeMinus s).1 ++ c :: (Dec.spanDigits cs).1, (Dec.spanDigits cs).2)
    else none

/-- `(\.[0-9]+)?`. -/
def scanFrac (s : Str) : Str × Str :=
  match s with
  | '.' :: t => if (Dec.spanDigits t).1.isEmpty then ([], s) else ('.' :: (Dec.spanDigits t).1, (Dec.spanDigits t).2)
  | _ => ([], s)

/-- `([eE][-+]?[0-9]+)?`. -/
def scanExp (s : Str) : Str × Str :=
  match s with
  | [] => ([], s)
  | e :: t =>
    if e = 'e' ∨ e = 'E' then
      let ds := Dec.spanDigits (takeSign t).2
      if ds.1.isEmpty then ([], s) else (e :: ((takeSign t).1 ++ ds.1), ds.2)
    else ([], s)

/-- The number of an integer text without superfluous zeros. (Python refuses more than 4300 digits; that is not
modelled.) -/
def intOfText (s : Str) : Int :=
  match s with
  | '-' :: ds => -((Dec.readDigits 0 ds).getD 0 : Int)
  | ds => ((Dec.readDigits 0 ds).getD 0 : Int)

section
-- `float(s)`: rounding to a float is not modelled.
variable (readFloat : Str → PyFloat)

/-- `NaN` and the infinities (scanner.py:55-60). -/
def scanConstant : Str → Option (Json × Str)
  | 'N' :: 'a' :: 'N' :: rest => some (.float (readFloat ['N', 'a', 'N']), rest)
  | 'I' :: 'n' :: 'f' :: 'i' :: 'n' :: 'i' :: 't' :: 'y' :: rest =>
    some (.float (readFloat ['I', 'n', 'f', 'i', 'n', 'i', 't', 'y']), rest)
  | '-' :: 'I' :: 'n' :: 'f' :: 'i' :: 'n' :: 'i' :: 't' :: 'y' :: rest =>
    some (.float (readFloat ['-', 'I', 'n', 'f', 'i', 'n', 'i', 't', 'y']), rest)
  | _ => none

/-- Numbers (scanner.py:47-60). -/
def scanNumber (s : Str) : Option (Json × Str) :=
  match scanInt s with
  | none => scanConstant readFloat s
  | some (int, rest) =>
    let frac := scanFrac rest
    let exp := scanExp frac.2
    if frac.1.isEmpty ∧ exp.1.isEmpty then some (.int (intOfText int), rest)
    else some (.float (readFloat (int ++ frac.1 ++ exp.1)), exp.2)

/-- `d[k] = v` of a dict. -/
def setItem (l : List (Str × Json)) (k : Str) (v : Json) : List (Str × Json) :=
  match l with
  | [] => [(k, v)]
  | (k', v') :: l => if k' = k then (k, v) :: l else (k', v') :: setItem l k v

mutual

/-- `_scan_once`, scanner.py:28-62, at the start of a value. At least every second call takes a character, so `fuel`
beyond twice the length changes nothing (`scanValue_fuel`). (The recursion limit of Python is not modelled.) -/
def scanValue : Nat → Str → Option (Json × Str)
  | 0, _ => none
  | fuel + 1, s =>
    match s with
    | '"' :: rest => (scanString (rest.length + 1) rest).map fun r => (.str r.1, r.2)
    | '{' :: rest =>
      match skipSpace rest with
      | '}' :: rest => some (.obj [], rest)
      | rest => (scanMembers fuel rest []).map fun r => (.obj r.1, r.2)
    | '[' :: rest =>
      match skipSpace rest with
      | ']' :: rest => some (.arr [], rest)
      | rest => (scanElements fuel rest).map fun r => (.arr r.1, r.2)
    | 'n' :: 'u' :: 'l' :: 'l' :: rest => some (.null, rest)
    | 't' :: 'r' :: 'u' :: 'e' :: rest => some (.bool true, rest)
    | 'f' :: 'a' :: 'l' :: 's' :: 'e' :: rest => some (.bool false, rest)
    | s => scanNumber readFloat s

/-- `JSONArray`, decoder.py:217-252, at the start of an element. -/
def scanElements : Nat → Str → Option (List Json × Str)
  | 0, _ => none
  | fuel + 1, s =>
    match scanValue fuel s with
    | none => none
    | some (j, rest) =>
      match skipSpace rest with
      | ']' :: rest => some ([j], rest)
      | ',' :: rest => (scanElements fuel (skipSpace rest)).map fun r => (j :: r.1, r.2)
      | _ => none

/-- `JSONObject`, decoder.py:136-215, at the start of an item; `acc` are the items so far. -/
def scanMembers : Nat → Str → List (Str × Json) → Option (List (Str × Json) × Str)
  | 0, _, _ => none
  | fuel + 1, s, acc =>
    match s with
    | '"' :: rest =>
      match scanString (rest.length + 1) rest with
      | none => none
      | some (k, rest) =>
        match skipSpace rest with
        | ':' :: rest =>
          match scanValue fuel (skipSpace rest) with
          | none => none
          | some (j, rest) =>
            match skipSpace rest with
            | '}' :: rest => some (setItem acc k j, rest)
            | ',' :: rest => scanMembers fuel (skipSpace rest) (setItem acc k j)
            | _ => none
        | _ => none
    | _ => none

end

/-- `json.loads(s)`: `JSONDecodeError`, a `ValueError`, unless the whole text is one value. (A byte order mark at the
front is an error too; here because no value begins with it.) -/
def jsonLoads (s : Str) : Py Json :=
  match scanValue readFloat (2 * s.length + 1) (skipSpace s) with
  | some (j, rest) => if (skipSpace rest).isEmpty then .ok j else .error .valueError
  | none => .error .valueError

end
end Bit
