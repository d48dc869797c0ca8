import Verif.Model.Keys
/-
Model of the remaining methods of `BaseKey` in /repo/bit/wallet.py, and of `point_to_public_key`.
-/
namespace Bit

/-- bit/format.py:213-214 `point_to_public_key`; a `Point` (bit/curve.py:8) is a pair. -/
def pointToPublicKey (point : Nat × Nat) (compressed : Bool) : Py Bytes :=
  coordsToPublicKey point.1 point.2 compressed

namespace PrivKey

/-- bit/wallet.py:80-85 `public_point`. The object remembers the first result, which is the value of a function of
its unchanging public key. -/
def publicPoint (C : Crypto) (k : PrivKey) : Py (Nat × Nat) := publicKeyToCoords (k.publicKey C)

/-- bit/wallet.py:87-96 `sign`. -/
def sign (C : Crypto) (k : PrivKey) (data : Bytes) : Bytes := C.sign k.secret data

/-- bit/wallet.py:98-107 `verify`: the method of `coincurve`'s public key, which raises `ValueError` for what is
not a DER signature. The public key object is independent of `compressed`; its compressed bytes stand for it. -/
def verify (C : Crypto) (k : PrivKey) (signature data : Bytes) : Py Bool :=
  if C.isDer signature then .ok (C.verify signature data (C.pubkey k.secret true)) else .error .valueError

/-- bit/wallet.py:109-111 `pub_to_hex`. -/
def pubToHex (C : Crypto) (k : PrivKey) : Str := bytesToHex (k.publicKey C)

/-- bit/wallet.py:117-119 `to_bytes`. -/
def toBytes (k : PrivKey) : Bytes := k.secret

end PrivKey

/-- bit/format.py:25-36 `verify_sig`: raises `ValueError` for a key that is not a point of the curve and for what is
not a DER signature. -/
def verifySig (C : Crypto) (signature data publicKey : Bytes) : Py Bool :=
  if C.isPoint publicKey && C.isDer signature then .ok (C.verify signature data publicKey) else .error .valueError

end Bit
