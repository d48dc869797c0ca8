import Verif.Model.Utils
import Verif.Model.Crypto
/-
Model of /repo/bit/base58.py.
-/
namespace Bit

/-- bit/base58.py:6 `BASE58_ALPHABET`. -/
def b58Alphabet : List Char :=
  ['1', '2', '3', '4', '5', '6', '7', '8', '9', 'A', 'B', 'C', 'D', 'E', 'F', 'G', 'H', 'J', 'K',
   'L', 'M', 'N', 'P', 'Q', 'R', 'S', 'T', 'U', 'V', 'W', 'X', 'Y', 'Z', 'a', 'b', 'c', 'd', 'e',
   'f', 'g', 'h', 'i', 'j', 'k', 'm', 'n', 'o', 'p', 'q', 'r', 's', 't', 'u', 'v', 'w', 'x', 'y',
   'z']

theorem b58Alphabet_length : b58Alphabet.length = 58 := rfl

/-- bit/base58.py:8 `BASE58_ALPHABET_INDEX`: character to index (`none`: `KeyError`). -/
def b58Index (c : Char) : Option Nat := b58Alphabet.idxOf? c

/-- `alphabet[rem]` for a remainder modulo 58 (bit/base58.py:23). -/
def b58Char (n : Nat) : Char :=
  b58Alphabet[n % 58]'(by rw [b58Alphabet_length]; exact Nat.mod_lt _ (by decide))

/-- bit/base58.py:21-23, the `while num > 0` loop with `appendleft`. The fuel is `num`, which
suffices since `num` decreases in every iteration (`Lemmas/Base58`). -/
def b58Loop : Nat → Nat → Str → Str
  | 0, _, acc => acc
  | fuel + 1, num, acc => if num = 0 then acc else b58Loop fuel (num / 58) (b58Char num :: acc)

/-- bit/base58.py:27-32 and 56-61: the number of leading elements equal to `x`. -/
def countLeading {α : Type} [DecidableEq α] (x : α) : List α → Nat
  | [] => 0
  | y :: ys => if y = x then countLeading x ys + 1 else 0

/-- bit/base58.py:11-34 `b58encode`. -/
def b58encode (b : Bytes) : Str :=
  List.replicate (countLeading 0 b) '1' ++ b58Loop (beNat b) (beNat b) []

/-- bit/base58.py:47-50, the accumulation loop; `ValueError` for a character outside the
alphabet (lines 51-52). -/
def b58Num : Nat → Str → Py Nat
  | num, [] => .ok num
  | num, c :: cs =>
    match b58Index c with
    | some i => b58Num (num * 58 + i) cs
    | none => .error .valueError

/-- bit/base58.py:41-63 `b58decode`. -/
def b58decode (s : Str) : Py Bytes :=
  match b58Num 0 s with
  | .error e => .error e
  | .ok num => .ok (List.replicate (countLeading '1' s) 0 ++ intToUnknownBytes num)

/-- bit/base58.py:37-38 `b58encode_check`. -/
def b58encodeCheck (C : Crypto) (b : Bytes) : Str := b58encode (b ++ C.checksum b)

/-- bit/base58.py:66-79 `b58decode_check`. -/
def b58decodeCheck (C : Crypto) (s : Str) : Py Bytes :=
  match b58decode s with
  | .error e => .error e
  | .ok decoded =>
    let shortened := dropLast' decoded 4
    if takeLast decoded 4 = C.checksum shortened then .ok shortened else .error .valueError

end Bit
