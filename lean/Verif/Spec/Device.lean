import Verif.Model.Wallet
/-
A key object that holds a signing device in place of its secret. The device knows the public key and gives signatures; it does
not give the secret.
-/
namespace Bit

/-- What a signing device offers: the public key in both forms and signatures. -/
structure Device where
  publicKey : Bool → Bytes
  sign : Bytes → Bytes

/-- The device for a key. -/
def PrivKey.device (C : Crypto) (k : PrivKey) : Device := ⟨C.pubkey k.secret, C.sign k.secret⟩

/-- The cryptographic functions where every question about a secret is answered by the device. -/
def Device.crypto (d : Device) (C : Crypto) : Crypto :=
  { C with pubkey := fun _ => d.publicKey, sign := fun _ => d.sign }

/-- The key with other bytes in place of the secret. -/
def PrivKey.without (junk : Bytes) (k : PrivKey) : PrivKey := { k with secret := junk }

/-- The contract with other bytes in place of the secret. -/
def MultiSig.without (junk : Bytes) (s : MultiSig) : MultiSig := { s with key := s.key.without junk }

namespace Signer

/-- The device for a key or contract object. -/
def device (C : Crypto) : Signer → Device
  | .single k => k.device C
  | .multi s => s.key.device C

/-- The key or contract object with other bytes in place of the secret. -/
def without (junk : Bytes) : Signer → Signer
  | .single k => .single (k.without junk)
  | .multi s => .multi (s.without junk)

/-- The device for a key or contract object with other signatures. -/
def deviceWith (C : Crypto) (g : Bytes → Bytes) (s : Signer) : Device := ⟨(s.device C).publicKey, g⟩

end Signer

/-- The object with other bytes in place of the secret. -/
def Wallet.without (junk : Bytes) (w : Wallet) : Wallet := { w with signer := w.signer.without junk }

end Bit
