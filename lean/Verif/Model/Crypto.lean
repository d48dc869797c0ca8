import Verif.Model.Basic
/-
Model of /repo/bit/crypto.py: the cryptographic primitives are parameters.
-/
namespace Bit

/-- The external cryptographic functions used by the library. `sha256`/`ripemd160` stand for
`hashlib` (bit/crypto.py:6-22); the others stand for `coincurve`:
* `pubkey secret compressed` is `PrivateKey(secret).public_key.format(compressed=...)`,
* `sign secret data` is `PrivateKey(secret).sign(data)` (DER, `data` is hashed with SHA-256 inside),
* `verify signature data pub` is `verify_signature(signature, data, pub)` used by
  bit/format.py:25-36, for a DER signature and a `pub` that is a point of the curve,
* `isPoint pub` says that `pub` encodes a point of the curve; for other keys `verify_signature` raises `ValueError`,
* `isDer b` says that `der_to_cdata(b)` does not raise `ValueError` (bit/utils.py:114-116).
Nothing about them is assumed here; a theorem that needs a law states it as a hypothesis. -/
structure Crypto where
  sha256 : Bytes → Bytes
  ripemd160 : Bytes → Bytes
  pubkey : Bytes → Bool → Bytes
  sign : Bytes → Bytes → Bytes
  verify : Bytes → Bytes → Bytes → Bool
  isPoint : Bytes → Bool
  isDer : Bytes → Bool

namespace Crypto

/-- bit/crypto.py:10-11 `double_sha256`. -/
def doubleSha256 (C : Crypto) (b : Bytes) : Bytes := C.sha256 (C.sha256 b)

/-- bit/crypto.py:14-15 `double_sha256_checksum`. -/
def checksum (C : Crypto) (b : Bytes) : Bytes := (C.doubleSha256 b).take 4

/-- bit/crypto.py:18-19 `ripemd160_sha256`, also called `hash160`. -/
def hash160 (C : Crypto) (b : Bytes) : Bytes := C.ripemd160 (C.sha256 b)

/-- The hash functions have their usual output lengths. (A hypothesis of some theorems.) -/
structure HashLengths (C : Crypto) : Prop where
  sha256_length : ∀ b, (C.sha256 b).length = 32
  ripemd160_length : ∀ b, (C.ripemd160 b).length = 20

end Crypto
end Bit
