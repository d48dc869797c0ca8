import Verif.Lemmas.Ecdsa
import Verif.Lemmas.Commit
import Verif.Lemmas.SignMulti
import Verif.Model.KeyApi
import Verif.Props.Keys
import Verif.Props.Curve
import Verif.Props.Accept
import Verif.Props.Multisig
import Verif.Concrete.Crypto
import Mathlib.Data.Nat.Size
/-
C93: keys and signatures with the functions of the standards. Elsewhere the hash functions and the signature scheme
are parameters, and a theorem states as a hypothesis what it needs of them. Here they are SHA-256, RIPEMD-160 and
ECDSA on secp256k1, and those hypotheses are theorems.
-/
namespace Bit

open _root_.Spec (Pt HasCoords Encodes Signed Verifies derSignature derInt beEncode beValue)

attribute [local irreducible] Spec.fieldPrime Spec.groupOrder

/-- The external functions are those of the standards: SHA-256 and RIPEMD-160 (`Concrete/Hashes`), public keys of
secp256k1 (SEC 1), ECDSA signatures on the SHA-256 of the data with some secret number, in DER and with the smaller
of `s` and `-s` (BIP 62). Which secret number is used for which data is left open. -/
structure Standard (C : Crypto) : Prop where
  sha256 : ∀ b, C.sha256 b = Concrete.sha256 b
  ripemd160 : ∀ b, C.ripemd160 b = Concrete.ripemd160 b
  pubkey : ∀ secret compressed, 0 < beValue secret → beValue secret < Spec.groupOrder →
    Encodes compressed (beValue secret • Spec.base) (C.pubkey secret compressed)
  sign : ∀ secret data, 0 < beValue secret → beValue secret < Spec.groupOrder →
    ∃ k r s, Signed (beValue secret) (beValue (Concrete.sha256 data)) k r s ∧ C.sign secret data = derSignature r s
  verify : ∀ compressed P pub r s data, Encodes compressed P pub → r < Spec.groupOrder → s < Spec.groupOrder →
    (C.verify (derSignature r s) data pub = true ↔
      Verifies P (beValue (Concrete.sha256 data)) r s ∧ s ≤ Spec.groupOrder / 2)
  isPoint : ∀ compressed P pub, Encodes compressed P pub → C.isPoint pub = true
  isDer : ∀ r s, r < Spec.groupOrder → s < Spec.groupOrder → C.isDer (derSignature r s) = true
  tag : ∀ b, C.isDer b = true → b.head? = some 0x30

/-! ### encodings -/

theorem beEncode_length (n v : Nat) : (beEncode n v).length = n := by
  unfold beEncode; rw [List.length_reverse, leEncode_length]

theorem beEncode_cancel {n a b : Nat} {r r' : Bytes} (h : beEncode n a ++ r = beEncode n b ++ r')
    (ha : a < 256 ^ n) (hb : b < 256 ^ n) : a = b ∧ r = r' := by
  obtain ⟨h1, h2⟩ := List.append_inj h (by rw [beEncode_length, beEncode_length])
  refine ⟨?_, h2⟩
  unfold beEncode at h1
  have h3 := List.reverse_inj.mp h1
  have h4 : Spec.leEncode n a ++ [] = Spec.leEncode n b ++ [] := by rw [h3]
  exact (leEncode_cancel h4 ha hb).1

theorem encodes_coords {c : Bool} {P : Pt} {b : Bytes} {x y : Nat} (h : Encodes c P b) (hc : HasCoords P x y) :
    coordsToPublicKey x y c = .ok b ∧ publicKeyToCoords b = .ok (x, y) ∧ b.length = if c then 33 else 65 := by
  obtain ⟨x', y', hc', hb⟩ := h
  obtain ⟨e1, e2⟩ := hc.unique hc'
  subst e1; subst e2
  obtain ⟨k, h1, h2, h3, -⟩ := C15_coords_roundtrip x y c hc.onCurve
  have hx := lt_of_lt_fieldPrime hc.1
  have hy := lt_of_lt_fieldPrime hc.2.1
  have e : b = k := by
    have : coordsToPublicKey x y c = .ok b := by
      rw [hb]
      unfold beEncode
      rw [leEncode_eq, leEncode_eq]
      cases c with
      | true => exact coords_compressed hx rfl
      | false => rw [coords_uncompressed hx hy]; rfl
    exact Except.ok.inj (this.symm.trans h1)
  rw [e]
  exact ⟨h1, h2, h3⟩

theorem Encodes.ne {c : Bool} {P : Pt} {b : Bytes} (h : Encodes c P b) : P ≠ 0 := by
  obtain ⟨x, y, hc, -⟩ := h
  exact hc.ne

theorem encodes_faithful {c c' : Bool} {P P' : Pt} {b : Bytes} (h : Encodes c P b) (h' : Encodes c' P' b) :
    c = c' ∧ P = P' := by
  obtain ⟨x, y, hc, -⟩ := id h
  obtain ⟨x', y', hc', -⟩ := id h'
  obtain ⟨-, h1, hl⟩ := encodes_coords h hc
  obtain ⟨-, h2, hl'⟩ := encodes_coords h' hc'
  have e := Except.ok.inj (h1.symm.trans h2)
  obtain ⟨e1, e2⟩ := Prod.mk.inj e
  subst e1; subst e2
  refine ⟨?_, hc.same hc'⟩
  rw [hl] at hl'
  cases c <;> cases c' <;> simp_all

theorem groupOrder_size : Spec.groupOrder < 2 ^ 256 ∧ Spec.groupOrder / 2 < 2 ^ 255 := by decide +kernel

theorem derInt_length (v : Nat) : (derInt v).length = Nat.size v / 8 + 3 := by
  unfold derInt
  simp only [List.length_cons, beEncode_length]

theorem derInt_cancel {v w : Nat} {r r' : Bytes} (h : derInt v ++ r = derInt w ++ r') (hv : v < 2 ^ 256)
    (hw : w < 2 ^ 256) : v = w ∧ r = r' := by
  unfold derInt at h
  simp only [List.cons_append] at h
  obtain ⟨-, h⟩ := List.cons.inj h
  obtain ⟨h1, h⟩ := List.cons.inj h
  have sv : Nat.size v ≤ 256 := Nat.size_le.mpr hv
  have sw : Nat.size w ≤ 256 := Nat.size_le.mpr hw
  have e : Nat.size v / 8 + 1 = Nat.size w / 8 + 1 := by
    have := congrArg UInt8.toNat h1
    simp only [UInt8.toNat_ofNat'] at this
    omega
  rw [e] at h
  have bound : ∀ u, u < 2 ^ Nat.size u → u < 256 ^ (Nat.size u / 8 + 1) := by
    intro u hu
    have : (256 : Nat) ^ (Nat.size u / 8 + 1) = 2 ^ (8 * (Nat.size u / 8 + 1)) := by
      rw [pow_mul]; norm_num
    rw [this]
    exact Nat.lt_of_lt_of_le hu (Nat.pow_le_pow_right (by omega) (by omega))
  exact beEncode_cancel h (by rw [← e]; exact bound v (Nat.lt_size_self v)) (bound w (Nat.lt_size_self w))

theorem derSignature_inj {r s r' s' : Nat} (h : derSignature r s = derSignature r' s') (hr : r < Spec.groupOrder)
    (hs : s < Spec.groupOrder) (hr' : r' < Spec.groupOrder) (hs' : s' < Spec.groupOrder) : r = r' ∧ s = s' := by
  have hn := groupOrder_size.1
  unfold derSignature at h
  simp only at h
  obtain ⟨-, h⟩ := List.cons.inj h
  obtain ⟨-, h⟩ := List.cons.inj h
  obtain ⟨e, h⟩ := derInt_cancel h (by omega) (by omega)
  have h2 : derInt s ++ [] = derInt s' ++ [] := by rw [h]
  exact ⟨e, (derInt_cancel h2 (by omega) (by omega)).1⟩

theorem derSignature_length (r s : Nat) : (derSignature r s).length = Nat.size r / 8 + Nat.size s / 8 + 8 := by
  unfold derSignature
  simp only [List.length_cons, List.length_append, derInt_length]
  omega

/-! ### keys -/

theorem groupOrder_spec : Spec.groupOrder = 0xFFFFFFFFFFFFFFFFFFFFFFFFFFFFFFFEBAAEDCE6AF48A03BBFD25E8CD0364141 := by
  decide +kernel

theorem ValidKey.range {k : PrivKey} (h : ValidKey k) :
    0 < beValue k.secret ∧ beValue k.secret < Spec.groupOrder := by
  have h1 := h.pos
  have h2 := h.lt
  rw [bytesValue_eq, ← beValue_eq] at h1 h2
  rw [groupOrder_spec]
  exact ⟨h1, h2⟩

theorem Standard.hash {C : Crypto} (h : Standard C) : C.HashLengths :=
  ⟨fun b => by rw [h.sha256]; exact Concrete.sha256_length b,
   fun b => by rw [h.ripemd160]; exact Concrete.ripemd160_length b⟩

theorem Standard.zero {C : Crypto} (h : Standard C) : ZeroPayloadOk C := by
  unfold ZeroPayloadOk
  rw [h.sha256, h.sha256]
  exact crypto_zeroPayloadOk

/-- C93. The public point of a key is the multiple of the base point by the secret number: it is a point of the
curve, other than the point at infinity, and written as bytes it is the public key. -/
theorem C93_public_point (C : Crypto) (hC : Standard C) (k : PrivKey) (hk : ValidKey k) :
    ∃ x y, k.publicPoint C = .ok (x, y) ∧ HasCoords (k.toInt • Spec.base) x y ∧ Spec.OnCurve x y ∧
      pointToPublicKey (x, y) k.compressed = .ok (k.publicKey C) := by
  obtain ⟨h0, h1⟩ := hk.range
  have he := hC.pubkey k.secret k.compressed h0 h1
  obtain ⟨x, y, hc, -⟩ := id he
  obtain ⟨e1, e2, -⟩ := encodes_coords he hc
  refine ⟨x, y, e2, ?_, hc.onCurve, e1⟩
  rw [beValue_eq] at hc
  exact hc

/-- C93. No two secrets have the same public key: keys are equal to each other exactly if they have the same public
point, and keys with the same public key bytes have the same secret number and the same form. -/
theorem C93_distinct (C : Crypto) (hC : Standard C) (a b : PrivKey) (ha : ValidKey a) (hb : ValidKey b) :
    (a.eq b = true ↔ a.publicPoint C = b.publicPoint C) ∧
    (a.publicKey C = b.publicKey C → a.secret = b.secret ∧ a.compressed = b.compressed) := by
  obtain ⟨xa, ya, pa, ca, -, ka⟩ := C93_public_point C hC a ha
  obtain ⟨xb, yb, pb, cb, -, kb⟩ := C93_public_point C hC b hb
  obtain ⟨-, ha1⟩ := ha.range
  obtain ⟨-, hb1⟩ := hb.range
  rw [beValue_eq] at ha1 hb1
  have key : ∀ {x y}, HasCoords (a.toInt • Spec.base) x y → HasCoords (b.toInt • Spec.base) x y → a.toInt = b.toInt :=
    fun h h' => smul_inj ha1 hb1 (h.same h')
  have heq : a.eq b = true ↔ a.toInt = b.toInt := by simp [PrivKey.eq]
  refine ⟨?_, fun h => ?_⟩
  · rw [heq]
    constructor
    · intro h
      rw [h] at ca
      obtain ⟨e1, e2⟩ := ca.unique cb
      rw [pa, pb, e1, e2]
    · intro h
      rw [pa, pb] at h
      obtain ⟨e1, e2⟩ := Prod.mk.inj (Except.ok.inj h)
      rw [e1, e2] at ca
      exact key ca cb
  · obtain ⟨h0, h1⟩ := ha.range
    obtain ⟨h0', h1'⟩ := hb.range
    have ea := hC.pubkey a.secret a.compressed h0 h1
    have eb := hC.pubkey b.secret b.compressed h0' h1'
    have e : C.pubkey a.secret a.compressed = C.pubkey b.secret b.compressed := h
    rw [e] at ea
    obtain ⟨e1, e2⟩ := encodes_faithful ea eb
    refine ⟨?_, e1⟩
    have e3 := smul_inj h1 h1' e2
    rw [beValue_eq, beValue_eq] at e3
    exact beNat_inj (by rw [ha.length, hb.length]) e3

/-- C93. A signature is a DER sequence of two numbers in the range of the group, of 8 to 71 bytes, the second number
in the lower half. -/
theorem C93_signature (C : Crypto) (hC : Standard C) (k : PrivKey) (hk : ValidKey k) (data : Bytes) :
    ∃ r s, k.sign C data = derSignature r s ∧ 0 < r ∧ r < Spec.groupOrder ∧ 0 < s ∧ s ≤ Spec.groupOrder / 2 ∧
      8 ≤ (k.sign C data).length ∧ (k.sign C data).length ≤ 71 := by
  obtain ⟨h0, h1⟩ := hk.range
  obtain ⟨n, r, s, hs, e⟩ := hC.sign k.secret data h0 h1
  have hv := signed_verifies hs
  obtain ⟨hr0, hr1, hs0, hs1, -⟩ := hv
  have hlow : s ≤ Spec.groupOrder / 2 := hs.2.2.2.2.2.1
  obtain ⟨hg, hg2⟩ := groupOrder_size
  refine ⟨r, s, e, hr0, hr1, hs0, hlow, ?_⟩
  have hl : (k.sign C data).length = Nat.size r / 8 + Nat.size s / 8 + 8 := by
    rw [← derSignature_length, ← e]
    rfl
  have sr : Nat.size r ≤ 256 := Nat.size_le.mpr (Nat.lt_trans hr1 hg)
  have ss : Nat.size s ≤ 255 := Nat.size_le.mpr (Nat.lt_of_le_of_lt hlow hg2)
  omega

/-- C93. `verify` accepts every signature the key made on the same data, and so does the verification of the
signature under the bytes of the public key, in either form. -/
theorem C93_sign_verify (C : Crypto) (hC : Standard C) (k : PrivKey) (hk : ValidKey k) (data : Bytes) :
    k.verify C (k.sign C data) data = .ok true ∧ verifySig C (k.sign C data) data (k.publicKey C) = .ok true := by
  obtain ⟨h0, h1⟩ := hk.range
  obtain ⟨n, r, s, hs, e⟩ := hC.sign k.secret data h0 h1
  have hv := signed_verifies hs
  obtain ⟨-, hr1, -, hs1, -⟩ := id hv
  have hlow : s ≤ Spec.groupOrder / 2 := hs.2.2.2.2.2.1
  have hd := hC.isDer r s hr1 hs1
  have e' : k.sign C data = derSignature r s := e
  have ok : ∀ c, C.verify (derSignature r s) data (C.pubkey k.secret c) = true := fun c =>
    (hC.verify c _ _ r s data (hC.pubkey k.secret c h0 h1) hr1 hs1).mpr ⟨hv, hlow⟩
  constructor
  · unfold PrivKey.verify
    rw [e', hd, if_pos rfl, ok]
  · have hp := hC.isPoint _ _ _ (hC.pubkey k.secret k.compressed h0 h1)
    unfold verifySig PrivKey.publicKey
    rw [e', hd, hp, Bool.and_self, if_pos rfl, ok]

/-- C93. What `verify` accepts, of all pairs of numbers in range written in DER: exactly the ECDSA signatures for the
public point and the SHA-256 of the data with the second number in the lower half. What is not DER is refused with
`ValueError`. -/
theorem C93_verify (C : Crypto) (hC : Standard C) (k : PrivKey) (hk : ValidKey k) (data : Bytes) :
    (∀ r s, r < Spec.groupOrder → s < Spec.groupOrder →
      ∃ ok, k.verify C (derSignature r s) data = .ok ok ∧
        (ok = true ↔ Verifies (k.toInt • Spec.base) (beValue (Concrete.sha256 data)) r s ∧
          s ≤ Spec.groupOrder / 2)) ∧
    ∀ b, b.head? ≠ some 0x30 → k.verify C b data = .error .valueError := by
  obtain ⟨h0, h1⟩ := hk.range
  constructor
  · intro r s hr hs
    have hd := hC.isDer r s hr hs
    refine ⟨_, by unfold PrivKey.verify; rw [hd, if_pos rfl], ?_⟩
    have := hC.verify true _ _ r s data (hC.pubkey k.secret true h0 h1) hr hs
    rw [this, beValue_eq]
    rfl
  · intro b hb
    have : C.isDer b ≠ true := fun h => hb (hC.tag b h)
    unfold PrivKey.verify
    rw [if_neg this]

/-- C93. The laws that the theorems about payments ask of the key hold for every valid key. -/
theorem C93_key_laws (C : Crypto) (hC : Standard C) (k : PrivKey) (hk : ValidKey k) : KeyLaws C k := by
  obtain ⟨h0, h1⟩ := hk.range
  have he := hC.pubkey k.secret k.compressed h0 h1
  obtain ⟨x, y, hc, -⟩ := id he
  refine ⟨hC.hash, hC.zero, (encodes_coords he hc).2.2, fun data => ?_, fun data => ?_⟩
  · obtain ⟨-, -, -, -, -, -, -, -, h⟩ := C93_signature C hC k hk data
    exact Nat.le_succ_of_le h
  · have h := (C93_sign_verify C hC k hk data).2
    unfold verifySig at h
    split at h
    · exact Except.ok.inj h
    · cases h

/-- C93. The laws that the theorems about co-signed payments ask of a co-signer hold for every valid key of the
contract. -/
theorem C93_signer_laws (C : Crypto) (hC : Standard C) (s : MultiSig) (k : PrivKey) (hk : ValidKey k)
    (hm : k.publicKey C ∈ s.publicKeys) : SignerLaws C s k := by
  have hl := C93_key_laws C hC k hk
  refine ⟨hm, fun d => ?_, hl.sig, hl.verify⟩
  obtain ⟨r, t, e, -, hr, ht, hlow, -⟩ := C93_signature C hC k hk d
  have e' : C.sign k.secret d = derSignature r t := e
  rw [e']
  exact hC.isDer r t hr (Nat.lt_of_le_of_lt hlow half_lt)

/-- C93. Signing with a valid key: with the functions of the standards, the script interpreter accepts every input of
the signed transaction whose outpoint is among the given unspents of the key. -/
theorem C93_accepted (C : Crypto) (hC : Standard C) (k : PrivKey) (hk : ValidKey k) (us : List Unspent) (w : Bool)
    (t : Spec.Tx) (hwf : t.WF) (hw : w = true ∨ ∀ u ∈ us, u.isSegwit = false)
    (hfit : ∀ u ∈ us, PaysKey C k u → TypeFits C k u) (r : Str)
    (h : signTransactionHex C (.single k) (bytesToHex (if w then t.encodeExtended else t.encodeLegacy)) us
      = .ok r) :
    ∃ t', t'.WF ∧ Spec.SameSkeleton t t' ∧ r = bytesToHex (if w then t'.encodeExtended else t'.encodeLegacy) ∧
      ∀ (j : Nat) (i' : Spec.TxInput), t'.inputs[j]? = some i' →
        (∃ u ∈ us, OwnsKey C k u i') →
        ∃ u ∈ us, OwnsKey C k u i' ∧ ∃ script, u.script = bytesToHex script ∧
          Spec.accepts C.hashing t' j i' script u.amount.toNat = true :=
  C64_signed_accepted C k (C93_key_laws C hC k hk) us w t hwf hw hfit r h

/-! ### the functions exist -/

open Classical in
/-- A signature of the key `d` on the number `z`. -/
noncomputable def someSignature (d z : Nat) : Nat × Nat :=
  if h : ∃ p : Nat × Nat, ∃ k, Signed d z k p.1 p.2 then h.choose else (0, 0)

open Classical in
/-- Functions as the standards say. The standards leave the choice of the secret number open: it is an arbitrary one
here. -/
noncomputable def secpCrypto : Crypto where
  sha256 := Concrete.sha256
  ripemd160 := Concrete.ripemd160
  pubkey := fun secret c =>
    if h : ∃ b, Encodes c (beValue secret • Spec.base) b then h.choose else []
  sign := fun secret data =>
    let p := someSignature (beValue secret) (beValue (Concrete.sha256 data))
    derSignature p.1 p.2
  verify := fun sig data pub => decide (∃ c P r s, Encodes c P pub ∧ sig = derSignature r s ∧
    r < Spec.groupOrder ∧ s < Spec.groupOrder ∧
    Verifies P (beValue (Concrete.sha256 data)) r s ∧ s ≤ Spec.groupOrder / 2)
  isPoint := fun pub => decide (∃ c P, Encodes c P pub)
  isDer := fun b => decide (∃ r s, r < Spec.groupOrder ∧ s < Spec.groupOrder ∧ b = derSignature r s)

open Classical in
/-- C93. Such functions exist: for every key and data there is a secret number that gives a signature. -/
theorem C93_exists : Standard secpCrypto where
  sha256 := fun _ => rfl
  ripemd160 := fun _ => rfl
  pubkey := fun secret c h0 h1 => by
    have h : ∃ b, Encodes c (beValue secret • Spec.base) b := by
      obtain ⟨x, y, hc⟩ := hasCoords_exists (smul_ne h0 h1)
      exact ⟨_, x, y, hc, rfl⟩
    show Encodes c _ (if h : ∃ b, Encodes c (beValue secret • Spec.base) b then h.choose else [])
    rw [dif_pos h]
    exact h.choose_spec
  sign := fun secret data h0 h1 => by
    have h : ∃ p : Nat × Nat, ∃ k, Signed (beValue secret) (beValue (Concrete.sha256 data)) k p.1 p.2 := by
      obtain ⟨k, r, s, hs⟩ := sign_exists (beValue secret) (beValue (Concrete.sha256 data)) h0 h1
      exact ⟨(r, s), k, hs⟩
    have e : someSignature (beValue secret) (beValue (Concrete.sha256 data)) = h.choose := by
      unfold someSignature
      rw [dif_pos h]
    obtain ⟨k, hk⟩ := h.choose_spec
    refine ⟨k, h.choose.1, h.choose.2, hk, ?_⟩
    show derSignature (someSignature _ _).1 (someSignature _ _).2 = _
    rw [e]
  verify := fun c P pub r s data he hr hs => by
    show decide _ = true ↔ _
    rw [decide_eq_true_iff]
    constructor
    · rintro ⟨c', P', r', s', he', e, hr', hs', hv, hl⟩
      obtain ⟨-, e1⟩ := encodes_faithful he he'
      obtain ⟨e2, e3⟩ := derSignature_inj e hr hs hr' hs'
      rw [e1, e2, e3]
      exact ⟨hv, hl⟩
    · rintro ⟨hv, hl⟩
      exact ⟨c, P, r, s, he, rfl, hr, hs, hv, hl⟩
  isPoint := fun c P pub he => by
    show decide _ = true
    rw [decide_eq_true_iff]
    exact ⟨c, P, he⟩
  isDer := fun r s hr hs => by
    show decide _ = true
    rw [decide_eq_true_iff]
    exact ⟨r, s, hr, hs, rfl⟩
  tag := fun b h => by
    have h' : decide _ = true := h
    rw [decide_eq_true_iff] at h'
    obtain ⟨r, s, -, -, e⟩ := h'
    rw [e]
    rfl

/-! ### cases -/

/-- the key 1 and the key 3 -/
def keyOne : PrivKey := ⟨.main, List.replicate 31 0 ++ [1], true⟩
def keyThree : PrivKey := ⟨.main, List.replicate 31 0 ++ [3], false⟩

theorem keyOne_valid : ValidKey keyOne := ⟨by decide, by decide +kernel, by decide +kernel⟩
theorem keyThree_valid : ValidKey keyThree := ⟨by decide, by decide +kernel, by decide +kernel⟩

theorem toInt_one : keyOne.toInt = 1 := by decide +kernel
theorem toInt_three : keyThree.toInt = 3 := by decide +kernel

theorem base_coords : HasCoords (1 • Spec.base) Spec.baseX Spec.baseY := by
  rw [one_smul]
  exact ⟨by decide +kernel, by decide +kernel, base_is⟩

/-- three times the base point -/
def threeX : Nat := 0xF9308A019258C31049344F85F89D5229B531C845836F99B08601F113BCE036F9
def threeY : Nat := 0x388F7B0F632DE8140FE337E62A37F3566500A99934C2231B6CB9FD7584B8E672

theorem three_run : run [true] (Spec.baseX, Spec.baseY) = some (threeX, threeY) := by decide +kernel

theorem three_coords : HasCoords (3 • Spec.base) threeX threeY := by
  refine ⟨by decide +kernel, by decide +kernel, ?_⟩
  have := run_is [true] 1 (p := (Spec.baseX, Spec.baseY)) (by rw [one_smul]; exact base_is) three_run
  exact this

theorem pub_one {C : Crypto} (hC : Standard C) :
    keyOne.publicKey C = Concrete.hex "0279be667ef9dcbbac55a06295ce870b07029bfcdb2dce28d959f2815b16f81798" := by
  obtain ⟨h0, h1⟩ := keyOne_valid.range
  have he := hC.pubkey keyOne.secret keyOne.compressed h0 h1
  have e : beValue keyOne.secret = 1 := by decide +kernel
  rw [e] at he
  have h2 := (encodes_coords he base_coords).1
  have h3 : coordsToPublicKey Spec.baseX Spec.baseY true =
      .ok (Concrete.hex "0279be667ef9dcbbac55a06295ce870b07029bfcdb2dce28d959f2815b16f81798") := by decide +kernel
  exact Except.ok.inj (h2.symm.trans h3)

example (C : Crypto) (hC : Standard C) : keyOne.publicPoint C = .ok (Spec.baseX, Spec.baseY) := by
  obtain ⟨x, y, h, hc, -, -⟩ := C93_public_point C hC keyOne keyOne_valid
  rw [toInt_one] at hc
  obtain ⟨e1, e2⟩ := hc.unique base_coords
  rw [h, e1, e2]

example (C : Crypto) (hC : Standard C) : keyThree.publicPoint C = .ok (threeX, threeY) := by
  obtain ⟨x, y, h, hc, -, -⟩ := C93_public_point C hC keyThree keyThree_valid
  rw [toInt_three] at hc
  obtain ⟨e1, e2⟩ := hc.unique three_coords
  rw [h, e1, e2]

/-- the well-known addresses of the key 1 -/
example : keyOne.address secpCrypto = .ok (Concrete.str "1BgGZ9tcN4rm9KBzDn7KprQz87SZ26SAMH") := by
  unfold PrivKey.address
  rw [pub_one C93_exists]
  decide +kernel

example : keyOne.segwitAddress secpCrypto = .ok (some (Concrete.str "3JvL6Ymt8MVWiCNHC7oWU6nLeHNJKLZGLN")) := by
  unfold PrivKey.segwitAddress PrivKey.isCompressed
  rw [pub_one C93_exists]
  decide +kernel

/-- the vectors of the standards for the hash functions -/
example : Concrete.sha256 [0x61, 0x62, 0x63] =
    Concrete.hex "ba7816bf8f01cfea414140de5dae2223b00361a396177a9cb410ff61f20015ad" := by decide +kernel

example : Concrete.ripemd160 [0x61, 0x62, 0x63] = Concrete.hex "8eb208f7e05d987a9b044a8e98c6b087f15a0bfc" := by
  decide +kernel

example : keyOne.verify secpCrypto (keyOne.sign secpCrypto [1, 2, 3]) [1, 2, 3] = .ok true :=
  (C93_sign_verify secpCrypto C93_exists keyOne keyOne_valid [1, 2, 3]).1

example : KeyLaws secpCrypto keyThree := C93_key_laws _ C93_exists _ keyThree_valid

/-- a coin of the key 1, spent by the first input of the sample transaction -/
def coinOne : Unspent := mkUnspent 70000 3 (bytesToHex (Spec.p2pkhScript
    (Concrete.hex "751e76e8199196d454941c45d1b3a323f1433bd6"))) (bytesToHex (List.replicate 32 7)) 1 "p2pkh".toList 0 none
  4294967295

theorem hash_one {C : Crypto} (hC : Standard C) :
    C.ripemd160 (C.sha256 (keyOne.publicKey C)) = Concrete.hex "751e76e8199196d454941c45d1b3a323f1433bd6" := by
  rw [pub_one hC, hC.sha256, hC.ripemd160]
  decide +kernel

theorem ordinary_one : OrdinaryAddresses secpCrypto (.single keyOne) := by
  apply ordinary_of
  have h1 : (Signer.single keyOne).address secpCrypto = .ok (Concrete.str "1BgGZ9tcN4rm9KBzDn7KprQz87SZ26SAMH") := by
    show keyOne.address secpCrypto = _
    unfold PrivKey.address
    rw [pub_one C93_exists]
    decide +kernel
  have h2 : (Signer.single keyOne).segwitAddress secpCrypto =
      .ok (some (Concrete.str "3JvL6Ymt8MVWiCNHC7oWU6nLeHNJKLZGLN")) := by
    show keyOne.segwitAddress secpCrypto = _
    unfold PrivKey.segwitAddress PrivKey.isCompressed
    rw [pub_one C93_exists]
    decide +kernel
  unfold ordinaryB
  rw [h1, h2]
  decide +kernel

/-- the first input of the sample transaction, signed with the key 1, is accepted -/
example : ∃ r t', signTransactionHex secpCrypto (.single keyOne) (bytesToHex unsignedTx.encodeExtended) [coinOne] = .ok r ∧
    r = bytesToHex t'.encodeExtended ∧ ∃ i', t'.inputs[0]? = some i' ∧
      Spec.accepts secpCrypto.hashing t' 0 i' (Spec.p2pkhScript
        (Concrete.hex "751e76e8199196d454941c45d1b3a323f1433bd6")) 70000 = true := by
  have hwf : unsignedTx.WF := C45_legacy_encoding_garbled.1
  have hfit : TypeFits secpCrypto keyOne coinOne := by
    left
    rw [hash_one C93_exists]
    exact ⟨by decide +kernel, rfl⟩
  have hone : ∀ u ∈ [coinOne], u = coinOne := fun u hu => List.mem_singleton.mp hu
  obtain ⟨r, hr⟩ := C45_succeeds secpCrypto keyOne (C93_key_laws _ C93_exists _ keyOne_valid) [coinOne] true unsignedTx
    hwf (Or.inl rfl) ordinary_one (fun u hu => by rw [hone u hu]; exact ⟨_, rfl⟩)
    (fun u hu => by rw [hone u hu]; decide +kernel) (fun u hu => by rw [hone u hu]; decide +kernel)
  obtain ⟨t', hwf', hsk, e, hacc⟩ := C93_accepted secpCrypto C93_exists keyOne keyOne_valid [coinOne] true unsignedTx hwf
    (Or.inl rfl) (fun u hu _ => by rw [hone u hu]; exact hfit) r hr
  refine ⟨r, t', hr, e, ?_⟩
  obtain ⟨i, hi⟩ : ∃ i, unsignedTx.inputs[0]? = some i := ⟨_, rfl⟩
  obtain ⟨i', hi'⟩ := get_of_length (skeleton_length hsk).symm hi
  refine ⟨i', hi', ?_⟩
  have hnames : Names coinOne i' := by
    apply (skeleton_names hsk hi hi' coinOne).mp
    have e1 : i = ⟨List.replicate 32 7, 1, [], 4294967293, []⟩ := (Option.some.inj hi).symm
    rw [e1]
    exact ⟨by decide +kernel, by decide +kernel⟩
  obtain ⟨u, hu, -, script, hscript, ha⟩ := hacc 0 i' hi' ⟨coinOne, List.mem_singleton.mpr rfl, hfit.pays, hnames⟩
  rw [hone u hu] at hscript ha
  have e2 := bytesToHex_injective hscript
  rw [← e2] at ha
  exact ha

end Bit
