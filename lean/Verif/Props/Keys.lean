import Verif.Props.Wif
import Verif.Props.Address
import Verif.Model.Keys
import Verif.Lemmas.Utils
/-
C53: keys keep their identity through the export formats.
-/
namespace Bit
open Concrete

/-- A key as the classes hold it: a 32-byte secret in the range of the curve's group. -/
structure ValidKey (k : PrivKey) : Prop where
  length : k.secret.length = 32
  pos : 0 < Spec.bytesValue k.secret
  lt : Spec.bytesValue k.secret < 0xFFFFFFFFFFFFFFFFFFFFFFFFFFFFFFFEBAAEDCE6AF48A03BBFD25E8CD0364141

/-- Public keys have 33 or 65 bytes according to the compression flag (a law of `coincurve`). -/
def PubLength (C : Crypto) (k : PrivKey) : Prop :=
  (C.pubkey k.secret k.compressed).length = if k.compressed then 33 else 65

theorem ecPrivateKey_self {b : Bytes} (hl : b.length = 32) (h0 : 0 < Spec.bytesValue b)
    (h1 : Spec.bytesValue b < groupOrder) : ecPrivateKey b = .ok b := by
  unfold ecPrivateKey
  rw [bytesValue_eq] at h0 h1
  rw [if_pos ⟨h0, h1, by omega⟩, hl]
  rfl

theorem isCompressed_eq {C : Crypto} {k : PrivKey} (h : PubLength C k) : k.isCompressed C = k.compressed := by
  unfold PrivKey.isCompressed PrivKey.publicKey
  unfold PubLength at h
  rw [h]
  cases k.compressed <;> rfl

/-- C53. Importing the WIF of a key gives a key of the same network with the same secret and the same
compression. -/
theorem C53_wif (C : Crypto) (hC : C.HashLengths) (k : PrivKey) (hk : ValidKey k) (hp : PubLength C k) :
    wifToKey C (k.toWif C) = .ok k := by
  unfold wifToKey PrivKey.toWif
  rw [isCompressed_eq hp, C04_wif_roundtrip C hC _ _ _ hk.length]
  obtain ⟨net, secret, compressed⟩ := k
  have e := ecPrivateKey_self hk.length hk.pos hk.lt
  dsimp only at e ⊢
  cases compressed
  · have hw := C04_wif_roundtrip C hC secret net false hk.length
    cases net <;> simp only [Bool.false_eq_true, if_false] <;> unfold privKeyOfWif <;> rw [hw] <;> dsimp only <;>
      rw [e]
  · cases net <;> simp only [if_true] <;> unfold privKeyFromBytes <;> rw [e]

example : ValidKey { net := .test, secret := List.replicate 31 0 ++ [5], compressed := false } ∧
    PubLength crypto { net := .test, secret := List.replicate 31 0 ++ [5], compressed := false } :=
  ⟨⟨by decide, by decide, by decide⟩, by unfold PubLength; decide⟩

/-- C53. The class constructors adhere to the compression flag of a WIF but disregard its network: a
key exported on one network is accepted by the class of the other one. -/
theorem C53_class_decides_network (C : Crypto) (hC : C.HashLengths) (k : PrivKey) (hk : ValidKey k)
    (hp : PubLength C k) (net : Net) :
    privKeyOfWif C net (k.toWif C) = .ok { k with net := net } := by
  unfold privKeyOfWif PrivKey.toWif
  rw [isCompressed_eq hp, C04_wif_roundtrip C hC _ _ _ hk.length]
  dsimp only
  rw [ecPrivateKey_self hk.length hk.pos hk.lt]

/-- C53. Importing bytes gives a compressed key of the class's network whose secret has the same value,
exactly if that value is in range. -/
theorem C53_from_bytes (net : Net) (b : Bytes) (hb : b.length ≤ 32) (k : PrivKey) :
    privKeyFromBytes net b = .ok k ↔
      ValidKey k ∧ k.net = net ∧ k.compressed = true ∧
        Spec.bytesValue k.secret = Spec.bytesValue b := by
  unfold privKeyFromBytes ecPrivateKey
  constructor
  · intro h
    split at h
    · cases h
    · rename_i s hs
      split at hs
      · rename_i hr
        injection hs with hs
        injection h with h
        subst h; subst hs
        have e : Spec.bytesValue (List.replicate (32 - b.length) 0 ++ b) = Spec.bytesValue b := by
          rw [bytesValue_eq, bytesValue_eq, beNat_zeros_append]
        refine ⟨⟨by simp; omega, ?_, ?_⟩, rfl, rfl, e⟩
        · dsimp only; rw [e, bytesValue_eq]; exact hr.1
        · dsimp only; rw [e, bytesValue_eq]; exact hr.2.1
      · cases hs
  · rintro ⟨hk, h1, h2, h3⟩
    obtain ⟨n, s, c⟩ := k
    dsimp only at h1 h2 h3
    subst h1; subst h2
    have h0 := hk.pos
    have hl := hk.lt
    dsimp only at h0 hl
    rw [h3, bytesValue_eq] at h0 hl
    rw [if_pos ⟨h0, hl, hb⟩]
    have : s = List.replicate (32 - b.length) 0 ++ b := by
      apply beNat_inj
      · have := hk.length; simp at this ⊢; omega
      · rw [beNat_zeros_append, ← bytesValue_eq, ← bytesValue_eq, h3]
    rw [this]

example : privKeyFromBytes .main [5] =
    .ok { net := .main, secret := List.replicate 31 0 ++ [5], compressed := true } := by decide

/-- C53. Secrets out of range are refused with `ValueError`. -/
theorem C53_out_of_range (net : Net) (b : Bytes)
    (h : Spec.bytesValue b = 0 ∨
      0xFFFFFFFFFFFFFFFFFFFFFFFFFFFFFFFEBAAEDCE6AF48A03BBFD25E8CD0364141 ≤ Spec.bytesValue b) :
    privKeyFromBytes net b = .error .valueError := by
  unfold privKeyFromBytes ecPrivateKey
  rw [if_neg]
  rintro ⟨h1, h2, -⟩
  rw [bytesValue_eq] at h
  rcases h with h | h
  · omega
  · exact absurd h2 (Nat.not_lt.mpr h)

example : privKeyFromBytes .main (List.replicate 32 0xff) = .error .valueError := by decide

theorem toBytesBE_beNat {b : Bytes} {n : Nat} (h : b.length = n) : toBytesBE (beNat b) n = .ok b := by
  subst h
  rw [toBytesBE_ok (beNat_lt b)]
  have e := leBytes_leNat b.reverse
  rw [List.length_reverse] at e
  unfold beNat
  rw [e, List.reverse_reverse]

/-- C53. Bytes, hexadecimal text and integers of a key import to the same secret on the class's network,
as a compressed key. -/
theorem C53_raw_formats (k : PrivKey) (hk : ValidKey k) (net : Net) :
    privKeyFromBytes net k.secret = .ok { net := net, secret := k.secret, compressed := true } ∧
    privKeyFromHex net k.toHex = .ok { net := net, secret := k.secret, compressed := true } ∧
    privKeyFromInt net k.toInt = .ok { net := net, secret := k.secret, compressed := true } := by
  have h1 : privKeyFromBytes net k.secret = .ok { net := net, secret := k.secret, compressed := true } := by
    unfold privKeyFromBytes
    rw [ecPrivateKey_self hk.length hk.pos hk.lt]
  refine ⟨h1, ?_, ?_⟩
  · unfold privKeyFromHex PrivKey.toHex
    rw [hexToBytes_bytesToHex]
    rw [privKeyFromBytesOf]
    rw [h1]
  · unfold privKeyFromInt PrivKey.toInt
    rw [toBytesBE_beNat hk.length]
    rw [privKeyFromBytesOf]
    rw [h1]

/-- C53. Equality of keys is equality of secrets. (Network and compression do not matter.) -/
theorem C53_equality (a b : PrivKey) (ha : ValidKey a) (hb : ValidKey b) :
    a.eq b = true ↔ a.secret = b.secret := by
  unfold PrivKey.eq PrivKey.toInt
  rw [beq_iff_eq]
  exact ⟨fun h => beNat_inj (by rw [ha.length, hb.length]) h, fun h => by rw [h]⟩

/-- C53. A key imported from a raw format of an uncompressed key is equal to it but has another public
key, hence another address unless the hash collides. -/
theorem C53_raw_formats_compress (C : Crypto) (k : PrivKey) (hk : ValidKey k) (hu : k.compressed = false)
    (hl : ∀ c, (C.pubkey k.secret c).length = if c then 33 else 65) (k' : PrivKey)
    (h : privKeyFromHex k.net k.toHex = .ok k') :
    k'.eq k = true ∧ k'.publicKey C ≠ k.publicKey C := by
  rw [(C53_raw_formats k hk k.net).2.1] at h
  injection h with h
  subst h
  refine ⟨by unfold PrivKey.eq PrivKey.toInt; simp, ?_⟩
  intro e
  have := congrArg List.length e
  unfold PrivKey.publicKey at this
  rw [hl, hl, hu] at this
  simp at this

example : ∀ c, (crypto.pubkey (List.replicate 32 5) c).length = if c then 33 else 65 := by decide

/-- C18. The addresses that a key object reports. `address` is the P2PKH address of the key's public key on the
key's network. `segwit_address` is the P2SH-P2WPKH address of the same public key, and `None` for a key that is not
compressed. -/
theorem C18_key_addresses (C : Crypto) (hC : C.HashLengths) (hz : ZeroPayloadOk C) (k : PrivKey)
    (hp : PubLength C k) (pubHash : Bytes) (hh : pubHash = C.ripemd160 (C.sha256 (C.pubkey k.secret k.compressed))) :
    (∃ a, k.address C = .ok a ∧
      b58decodeCheck C a = .ok ((if k.net = .main then 0x00 else 0x6f) :: pubHash)) ∧
    (k.compressed = false → k.segwitAddress C = .ok none) ∧
    (k.compressed = true → ∃ a, k.segwitAddress C = .ok (some a) ∧
      b58decodeCheck C a = .ok ((if k.net = .main then 0x05 else 0xc4) ::
        C.ripemd160 (C.sha256 ([0x00, 0x14] ++ pubHash)))) := by
  subst hh
  have hp' := hp
  unfold PubLength at hp'
  refine ⟨?_, ?_, ?_⟩
  · obtain ⟨a, h1, h2, -⟩ := C17_p2pkh_address C hC hz (C.pubkey k.secret k.compressed) k.net
      (by rw [hp']; cases k.compressed <;> simp)
    refine ⟨a, h1, h2.trans ?_⟩
    cases k.net <;> rfl
  · intro hc
    unfold PrivKey.segwitAddress
    rw [isCompressed_eq hp, hc]
    rfl
  · intro hc
    obtain ⟨a, h, h1, rfl, h2, -⟩ := (C18_segwit_address C hC (C.pubkey k.secret k.compressed) k.net).2
      (by rw [hp', hc]; rfl)
    refine ⟨a, ?_, h2.trans ?_⟩
    · unfold PrivKey.segwitAddress PrivKey.publicKey
      rw [isCompressed_eq hp, hc, if_pos rfl, ← hc, h1]
    · cases k.net <;> rfl

example : PubLength crypto { net := .main, secret := List.replicate 31 0 ++ [5], compressed := true } ∧
    ZeroPayloadOk crypto ∧ crypto.HashLengths :=
  ⟨by unfold PubLength; decide, crypto_zeroPayloadOk, crypto_lengths⟩

end Bit
