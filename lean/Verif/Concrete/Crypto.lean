import Verif.Concrete.Hashes
import Verif.Model.Utils
/-
A concrete instance of `Crypto` for the worked cases beside the theorems: real SHA-256 and
RIPEMD-160; a toy signature scheme (the "public key" contains the secret, a "signature" is a keyed
hash: the hash of the message, masked with the key), which is enough to meet the hypotheses used in the theorems.
-/
namespace Bit.Concrete

/-- Toy signature: DER-like tag `0x30` and the hash of the message masked with the key. -/
def toySig (pub msg : Bytes) : Bytes := 0x30 :: List.zipWith (· ^^^ ·) (pub.drop 1) (sha256 msg)

/-- Toy key: `02`/`04` and the secret (twice if uncompressed). -/
def toyPub (secret : Bytes) (compressed : Bool) : Bytes :=
  if compressed then 0x02 :: secret else 0x04 :: (secret ++ secret)

def crypto : Crypto where
  sha256 := sha256
  ripemd160 := ripemd160
  pubkey := toyPub
  sign := fun secret data => toySig (toyPub secret true) data
  verify := fun sig data pub => sig == toySig (pub.take 33) data
  isPoint := fun pub => (pub.length == 33 || pub.length == 65) && (pub.head? == some 0x02 || pub.head? == some 0x04)
  isDer := fun b => b.length == 33 && b.head? == some 0x30

theorem crypto_lengths : crypto.HashLengths := ⟨sha256_length, ripemd160_length⟩

/-- Text of a `String` literal as the model's `Str`. -/
def str (s : String) : Str := s.toList

/-- Bytes given as a hex literal (empty on malformed literals; used for literals only). -/
def hex (s : String) : Bytes := match fromHex s.toList with | .ok b => b | .error _ => []

end Bit.Concrete
