import Verif.Props.Foreign
/-
C93: co-signed payments with secp256k1, and when a signature of one key verifies under another.
-/
namespace Bit

open Concrete
open _root_.Spec (Encodes HasCoords beValue Verifies Signed derSignature)

attribute [local irreducible] Spec.fieldPrime Spec.groupOrder

theorem coords_sign {P Q : _root_.Spec.Pt} {x y y' : Nat} (h : HasCoords P x y) (h' : HasCoords Q x y') : Q = P ∨ Q = -P := by
  obtain ⟨-, -, n, rfl⟩ := h
  obtain ⟨-, -, n', rfl⟩ := h'
  rcases WeierstrassCurve.Affine.Y_eq_of_X_eq n'.1 n.1 rfl with h | h
  · left
    congr 1
  · right
    rw [WeierstrassCurve.Affine.Point.neg_some]
    congr 1

/-- A pair of numbers that is a signature on the same number for two public points. -/
theorem verifies_two {d d' z r s : Nat} (h : Verifies (d • Spec.base) z r s) (h' : Verifies (d' • Spec.base) z r s) :
    (d : ZMod Spec.groupOrder) = d' ∨ r + Spec.groupOrder < Spec.fieldPrime ∨
      (r * (d + d') + 2 * z : ZMod Spec.groupOrder) = 0 := by
  obtain ⟨hr0, hrn, hs0, hsn, x, y, hc, hx⟩ := h
  obtain ⟨-, -, -, -, x', y', hc', hx'⟩ := h'
  have hsz := zmod_ne hs0 hsn
  have hrz := zmod_ne hr0 hrn
  have hpn : Spec.fieldPrime < 2 * Spec.groupOrder := by decide +kernel
  have hn : 0 < Spec.groupOrder := (Fact.out : Spec.groupOrder.Prime).pos
  have hx1 := hc.1
  have hx2 := hc'.1
  have hcase : x = x' ∨ r + Spec.groupOrder < Spec.fieldPrime := by
    have a1 := Nat.div_add_mod x Spec.groupOrder
    have a2 := Nat.div_add_mod x' Spec.groupOrder
    have b1 : x / Spec.groupOrder < 2 := (Nat.div_lt_iff_lt_mul hn).mpr (by omega)
    have b2 : x' / Spec.groupOrder < 2 := (Nat.div_lt_iff_lt_mul hn).mpr (by omega)
    rw [hx] at a1
    rw [hx'] at a2
    generalize x / Spec.groupOrder = q at a1 b1
    generalize x' / Spec.groupOrder = q' at a2 b2
    have c1 : q = 0 ∨ q = 1 := by omega
    have c2 : q' = 0 ∨ q' = 1 := by omega
    rcases c1 with rfl | rfl <;> rcases c2 with rfl | rfl <;> omega
  rcases hcase with rfl | hbig
  swap
  · exact Or.inr (Or.inl hbig)
  generalize hu : (z / s : ZMod Spec.groupOrder) = u at hc hc'
  generalize hv : (r / s : ZMod Spec.groupOrder) = v at hc hc'
  have hpt : ∀ d : Nat, u.val • Spec.base + v.val • (d • Spec.base) = (u.val + v.val * d) • Spec.base := fun d => by
    rw [smul_smul, add_smul]
  rw [hpt] at hc hc'
  have hm : ∀ d : Nat, ((u.val + v.val * d : Nat) : ZMod Spec.groupOrder) = (z + r * d) / s := fun d => by
    push_cast
    rw [ZMod.natCast_zmod_val, ZMod.natCast_zmod_val, ← hu, ← hv]
    field_simp
  rcases coords_sign hc hc' with e | e
  · left
    have e1 := (nsmul_inj_mod (x := Spec.base)).mp e
    rw [addOrderOf_base] at e1
    have e2 := (ZMod.natCast_eq_natCast_iff _ _ Spec.groupOrder).mpr e1
    rw [hm, hm, div_left_inj' hsz] at e2
    have e3 : (r : ZMod Spec.groupOrder) * d' = r * d := add_left_cancel e2
    exact (mul_left_cancel₀ hrz e3).symm
  · right; right
    have e0 : (u.val + v.val * d' + (u.val + v.val * d)) • Spec.base = 0 := by
      rw [add_smul, e, neg_add_cancel]
    have e1 := addOrderOf_dvd_of_nsmul_eq_zero e0
    rw [addOrderOf_base] at e1
    have e2 := (ZMod.natCast_eq_zero_iff _ _).mpr e1
    rw [Nat.cast_add, hm, hm, ← add_div, div_eq_zero_iff] at e2
    rcases e2 with e2 | e2
    · rw [← e2]
      ring
    · exact absurd e2 hsz

/-- The signature of the key `k` on the data has, by coincidence, a special form: its first number `r` is so small that
`r + groupOrder` is less than the prime of the field, or the secret numbers `d` and `d'` of the two keys satisfy
`r (d + d') + 2 z = 0` modulo the order of the group, where `z` is SHA-256 of the data. -/
def Coincidence (C : Crypto) (k k' : PrivKey) (data : Bytes) : Prop :=
  ∃ r s, C.sign k.secret data = derSignature r s ∧ r < Spec.groupOrder ∧ s < Spec.groupOrder ∧
    (r + Spec.groupOrder < Spec.fieldPrime ∨
      (r * (k.toInt + k'.toInt) + 2 * beValue (sha256 data)) % Spec.groupOrder = 0)

/-- C93. When a signature of one key is taken for one of another key: on secp256k1 it does not verify under the public key
of another secret, in either form, unless the numbers meet in a special way. -/
theorem C93_other_key (C : Crypto) (hC : Standard C) (k k' : PrivKey) (hk : ValidKey k) (hk' : ValidKey k') (data : Bytes)
    (hdiff : k.secret ≠ k'.secret) (hno : ¬ Coincidence C k k' data) :
    verifySig C (k.sign C data) data (k'.publicKey C) = .ok false := by
  obtain ⟨h0, h1⟩ := hk.range
  obtain ⟨h0', h1'⟩ := hk'.range
  obtain ⟨n, r, s, hs, e⟩ := hC.sign k.secret data h0 h1
  have hv := signed_verifies hs
  obtain ⟨-, hr1, -, hs1, -⟩ := id hv
  have hp := hC.pubkey k'.secret k'.compressed h0' h1'
  have e' : k.sign C data = derSignature r s := e
  unfold verifySig PrivKey.publicKey
  rw [e', hC.isDer r s hr1 hs1, hC.isPoint _ _ _ hp, Bool.and_self, if_pos rfl]
  congr 1
  rw [Bool.eq_false_iff]
  intro hver
  have hv' := ((hC.verify k'.compressed _ _ r s data hp hr1 hs1).mp hver).1
  rcases verifies_two hv hv' with h | h | h
  · have h2 := (ZMod.natCast_eq_natCast_iff' _ _ _).mp h
    rw [Nat.mod_eq_of_lt h1, Nat.mod_eq_of_lt h1', beValue_eq, beValue_eq] at h2
    exact hdiff (beNat_inj (by rw [hk.length, hk'.length]) h2)
  · exact hno ⟨r, s, e, hr1, hs1, Or.inl h⟩
  · refine hno ⟨r, s, e, hr1, hs1, Or.inr ?_⟩
    have h2 : ((r * (beValue k.secret + beValue k'.secret) + 2 * beValue (sha256 data) : Nat) : ZMod Spec.groupOrder) = 0 := by
      push_cast
      exact h
    have h3 := (ZMod.natCast_eq_zero_iff _ _).mp h2
    rw [beValue_eq k.secret, beValue_eq k'.secret] at h3
    exact Nat.mod_eq_zero_of_dvd h3

/-- C93. Contracts on secp256k1: any valid keys with different secrets form a contract, and if as many of them as it asks for
sign an unsigned transaction one after the other, the script interpreter accepts every input whose outpoint is among
the given unspents of the contract. Asked for the messages of these inputs: no coincidence among the numbers of the
signatures, and no part of the contract's script that is itself a signature. -/
theorem C93_cosigned (C : Crypto) (hC : Standard C) (net : Net) (key : PrivKey) (ks : List PrivKey)
    (hks : ∀ k ∈ ks, ValidKey k) (hdiff : (ks.map PrivKey.secret).Nodup) (hkey : key ∈ ks) (hnet : key.net = net)
    (m : Int) (hm : 1 ≤ m) (hmn : m ≤ ks.length)
    (hsize : 3 + (ks.map fun k => if k.compressed then 34 else 66).sum ≤ 520) :
    ∃ s, mkMultiSig C net key (.list (ks.map fun k => .bytes (k.publicKey C))) m = .ok s ∧
      ∀ (us : List Unspent) (w : Bool) (t : Spec.Tx), t.WF → (w = true ∨ ∀ u ∈ us, u.isSegwit = false) →
        Unsigned C s us t → (∀ u ∈ us, PaysContract C s u → ContractFits C s u) →
        ∀ signers : List PrivKey, (∀ k ∈ signers, k ∈ ks) → (signers.map PrivKey.secret).Nodup → (signers.length : Int) = m →
        (∀ (j : Nat) (i : Spec.TxInput) (u : Unspent) (data : Bytes), t.inputs[j]? = some i → u ∈ us → OwnsContract C s u i →
          data = C.sha256 (if u.isSegwit then Spec.segwitMessage C.doubleSha256 t i s.redeemscript u.amount.toNat
            else Spec.legacyMessage t j s.redeemscript) →
          (∀ k ∈ signers, ∀ k' ∈ ks, k.secret ≠ k'.secret → ¬ Coincidence C k k' data) ∧
          ∀ b, b <:+: s.redeemscript → C.isDer b = true → ∀ p ∈ s.publicKeys, C.verify b data p = false) →
        ∀ r, cosign C s us signers (bytesToHex (if w then t.encodeExtended else t.encodeLegacy)) = .ok r →
        ∃ t', t'.WF ∧ Spec.SameSkeleton t t' ∧ r = bytesToHex (if w then t'.encodeExtended else t'.encodeLegacy) ∧
          ∀ (j : Nat) (i' : Spec.TxInput), t'.inputs[j]? = some i' →
            (∃ u ∈ us, OwnsContract C s u i') →
            ∃ u ∈ us, OwnsContract C s u i' ∧ ∃ script, u.script = bytesToHex script ∧
              Spec.accepts C.hashing t' j i' script u.amount.toNat = true := by
  obtain ⟨s, h1, h2, h3, -, h5, h6⟩ := C93_contract C hC net key ks hks hdiff hkey hnet m hm hmn hsize
  refine ⟨s, h1, fun us w t hwf hw hun hfit signers hsub hsd hlen hap r hr => ?_⟩
  refine C64_cosigned_accepted C s h5 us w t hwf hw hun hfit signers (fun k hk => h6 k (hsub k hk)) ?_ ?_
    (by rw [hlen, h3]) r hr
  · intro j i u hi hu ho p data hp hdata
    obtain ⟨a1, a2⟩ := hap j i u data hi hu ho hdata
    refine ⟨fun k hk hver => ?_, fun b hb hd => a2 b hb hd p hp⟩
    rw [h2] at hp
    obtain ⟨k', hk', rfl⟩ := List.mem_map.mp hp
    by_cases he : k.secret = k'.secret
    · have : k = k' := List.inj_on_of_nodup_map hdiff (hsub k hk) hk' he
      rw [this]
    · have hf := C93_other_key C hC k k' (hks k (hsub k hk)) (hks k' hk') data he (a1 k hk k' hk' he)
      unfold verifySig at hf
      split at hf
      · have : C.verify (k.sign C data) data (k'.publicKey C) = true := hver
        rw [this] at hf
        cases hf
      · cases hf
  · refine (List.nodup_map_iff_inj_on (List.Nodup.of_map _ hsd)).mpr ?_
    intro a ha b hb e
    exact List.inj_on_of_nodup_map hsd ha hb
      ((C93_distinct C hC a b (hks a (hsub a ha)) (hks b (hsub b hb))).2 e).1

/-! ### cases -/

theorem one_signs : ∃ s, Signed 1 (beValue (sha256 [])) 1 Spec.baseX s := by
  have hmod : Spec.baseX % Spec.groupOrder = Spec.baseX := by decide +kernel
  have h := signed_of (d := 1) (z := beValue (sha256 [])) (by decide) (by decide +kernel) base_coords
    (by decide +kernel) (by
      have hz : (beValue (sha256 []) + (Spec.baseX % Spec.groupOrder) * 1) % Spec.groupOrder ≠ 0 := by decide +kernel
      intro h
      apply hz
      have h2 : ((beValue (sha256 []) + (Spec.baseX % Spec.groupOrder) * 1 : Nat) : ZMod Spec.groupOrder) = 0 := by
        push_cast at h ⊢
        exact h
      exact Nat.mod_eq_zero_of_dvd ((ZMod.natCast_eq_zero_iff _ _).mp h2))
  rwa [hmod] at h

/-- Functions as the standards say, where the key 1 signs the empty text with the secret number 1. -/
noncomputable def oneCrypto : Crypto :=
  { secpCrypto with
    sign := fun secret data => if secret = keyOne.secret ∧ data = [] then derSignature Spec.baseX one_signs.choose
      else secpCrypto.sign secret data }

theorem oneCrypto_standard : Standard oneCrypto where
  sha256 := C93_exists.sha256
  ripemd160 := C93_exists.ripemd160
  pubkey := C93_exists.pubkey
  verify := C93_exists.verify
  isPoint := C93_exists.isPoint
  isDer := C93_exists.isDer
  tag := C93_exists.tag
  sign := fun secret data h0 h1 => by
    by_cases h : secret = keyOne.secret ∧ data = []
    · have e : oneCrypto.sign secret data = derSignature Spec.baseX one_signs.choose := if_pos h
      obtain ⟨rfl, rfl⟩ := h
      have hv : beValue keyOne.secret = 1 := by decide +kernel
      rw [hv]
      exact ⟨1, Spec.baseX, one_signs.choose, one_signs.choose_spec, e⟩
    · have e : oneCrypto.sign secret data = secpCrypto.sign secret data := if_neg h
      rw [e]
      exact C93_exists.sign secret data h0 h1

theorem one_signature : keyOne.sign oneCrypto [] = derSignature Spec.baseX one_signs.choose := by
  unfold PrivKey.sign oneCrypto
  simp only [and_self, if_true]

/-- The signature of the key 1 on the empty text is not one of the key 3. -/
example : verifySig oneCrypto (keyOne.sign oneCrypto []) [] (keyThree.publicKey oneCrypto) = .ok false := by
  refine C93_other_key _ oneCrypto_standard keyOne keyThree keyOne_valid keyThree_valid [] (by decide +kernel) ?_
  rintro ⟨r, s, h1, h2, h3, h4⟩
  have hs := signed_verifies one_signs.choose_spec
  obtain ⟨e, -⟩ := derSignature_inj (one_signature.symm.trans h1) hs.2.1 hs.2.2.2.1 h2 h3
  subst e
  rw [toInt_one, toInt_three] at h4
  revert h4
  decide +kernel

/-- the key that goes with the key 1 and the empty text -/
def keyTwin : PrivKey := ⟨.main, Concrete.hex "a481ec3167765396166a8d6f56da79efa7dbda0676b625c3858599ad02aea572", true⟩

theorem keyTwin_valid : ValidKey keyTwin := ⟨by decide +kernel, by decide +kernel, by decide +kernel⟩

/-- C93. The exception does occur: there are functions as the standards say, two keys with different secrets and data such that
the signature of the one key verifies under the other key too. -/
theorem C93_twin : ∃ (C : Crypto) (k k' : PrivKey) (data : Bytes), Standard C ∧ ValidKey k ∧ ValidKey k' ∧
    k.secret ≠ k'.secret ∧ verifySig C (k.sign C data) data (k'.publicKey C) = .ok true := by
  refine ⟨oneCrypto, keyOne, keyTwin, [], oneCrypto_standard, keyOne_valid, keyTwin_valid, by decide +kernel, ?_⟩
  have hs := one_signs.choose_spec
  obtain ⟨a1, a2, a3, a4, a5, a6, a7⟩ := id hs
  have htw : Signed (beValue keyTwin.secret) (beValue (sha256 [])) 1 Spec.baseX one_signs.choose := by
    refine ⟨a1, a2, a3, a4, a5, a6, ?_⟩
    have hmod : (beValue (sha256 []) + Spec.baseX * 1 + (beValue (sha256 []) + Spec.baseX * beValue keyTwin.secret)) %
        Spec.groupOrder = 0 := by decide +kernel
    have hz : ((beValue (sha256 []) + Spec.baseX * 1 + (beValue (sha256 []) + Spec.baseX * beValue keyTwin.secret) : Nat) :
        ZMod Spec.groupOrder) = 0 := (ZMod.natCast_eq_zero_iff _ _).mpr (Nat.dvd_of_mod_eq_zero hmod)
    push_cast at hz
    have hz' := eq_neg_of_add_eq_zero_left hz
    push_cast at a7
    rw [hz', neg_neg] at a7
    push_cast
    exact a7.symm
  have hv := signed_verifies htw
  obtain ⟨h0, h1⟩ := keyTwin_valid.range
  have hp := oneCrypto_standard.pubkey keyTwin.secret keyTwin.compressed h0 h1
  have ok := (oneCrypto_standard.verify _ _ _ _ _ [] hp hv.2.1 hv.2.2.2.1).mpr ⟨hv, htw.2.2.2.2.2.1⟩
  unfold verifySig PrivKey.publicKey
  rw [one_signature, oneCrypto_standard.isDer _ _ hv.2.1 hv.2.2.2.1, oneCrypto_standard.isPoint _ _ _ hp, Bool.and_self,
    if_pos rfl, ok]

/-- A contract of the keys 1 and 3 as in C93_cosigned. -/
example : ∃ s, mkMultiSig secpCrypto .main keyOne
    (.list ([keyOne, keyThree].map fun k => .bytes (k.publicKey secpCrypto))) 2 = .ok s := by
  obtain ⟨s, h, -⟩ := C93_cosigned secpCrypto C93_exists .main keyOne [keyOne, keyThree] (by
      intro k hk
      simp only [List.mem_cons, List.not_mem_nil, or_false] at hk
      rcases hk with rfl | rfl
      · exact keyOne_valid
      · exact keyThree_valid) (by decide +kernel) List.mem_cons_self rfl 2 (by decide) (by decide) (by decide)
  exact ⟨s, h⟩

end Bit
