import Verif.Lemmas.SignSingle
import Verif.Props.Ownership
/-
Properties of signing (C42 to C46).
-/
namespace Bit
open Concrete

/-! ## C42 and C43 -/

/-- C42, C43. For a transaction object with the parts of `t`, the digest computed for input `k`, whose
script field holds the script code (and, for a segwit input, the amount after it), is SHA-256 of the
message of the original scheme or of BIP-143. (`sign` hashes once more.) Any number of inputs can be
asked for in any order; the digests come in the same order. -/
theorem C42_C43_digests (C : Crypto) (x : TxObj) (t : Spec.Tx) (h : Skel x t)
    (hi : t.inputs.length < 2 ^ 64) (ho : t.outputs.length < 2 ^ 64)
    (asked : List (Nat × Bool)) (scriptCode : Nat → Bytes) (amount : Nat → Nat)
    (hask : ∀ k sg, (k, sg) ∈ asked → ∃ xk, x.ins[k]? = some xk ∧
      xk.scriptSig = scriptCode k ++ (if sg then Spec.leEncode 8 (amount k) else []) ∧
      xk.scriptSigLen = Spec.compact (scriptCode k).length) :
    ∃ digests, calculatePreimages C x (asked.map fun p => (p.1, [0x01, 0x00, 0x00, 0x00], p.2)) = .ok digests ∧
      List.Forall₂ (fun p d => ∃ ti, t.inputs[p.1]? = some ti ∧ d = C.sha256 (if p.2
        then Spec.segwitMessage (fun b => C.sha256 (C.sha256 b)) t ti (scriptCode p.1) (amount p.1)
        else Spec.legacyMessage t p.1 (scriptCode p.1))) asked digests := by
  induction asked with
  | nil => exact ⟨[], rfl, .nil⟩
  | cons p asked ih =>
    obtain ⟨ds, h1, h2⟩ := ih fun k sg hm => hask k sg (List.mem_cons_of_mem _ hm)
    obtain ⟨k, sg⟩ := p
    obtain ⟨xk, hxk, hsc, hl⟩ := hask k sg List.mem_cons_self
    obtain ⟨ti, hti, -⟩ := forall₂_get h.inputs hxk
    rw [List.map_cons, calculatePreimages]
    cases sg with
    | true =>
      rw [if_pos rfl] at hsc
      have := preimage_segwit (C := C) h hi ho hxk hti hsc hl
      rw [hashTypeAll] at this
      rw [this, h1]
      exact ⟨_, rfl, .cons ⟨ti, hti, rfl⟩ h2⟩
    | false =>
      rw [if_neg (by simp), List.append_nil] at hsc
      have := preimage_legacy (C := C) h hi ho hxk hsc hl
      rw [hashTypeAll] at this
      rw [this, h1]
      exact ⟨_, rfl, .cons ⟨ti, hti, rfl⟩ h2⟩

/-- C42. The legacy digest, for one input of a transaction object that holds exactly the fields of
`t`, the script code being what `t` has as the script of that input. -/
theorem C42_legacy_digest (C : Crypto) (w : Bool) (x : TxObj) (t : Spec.Tx) (h : Represents w x t)
    (hi : t.inputs.length < 2 ^ 64) (ho : t.outputs.length < 2 ^ 64) (k : Nat) (ti : Spec.TxInput)
    (hk : t.inputs[k]? = some ti) :
    calculatePreimages C x [(k, [0x01, 0x00, 0x00, 0x00], false)] =
      .ok [C.sha256 (Spec.legacyMessage t k ti.script)] := by
  obtain ⟨hlen, hget⟩ := forall₂_iff_get.mp h.inputs
  obtain ⟨xk, hxk⟩ := get_of_length hlen.symm hk
  have hr := hget k xk ti hxk hk
  obtain ⟨ds, h1, h2⟩ := C42_C43_digests C x t h.skel hi ho [(k, false)] (fun _ => ti.script) (fun _ => 0)
    (by
      intro k' sg hm
      simp only [List.mem_singleton, Prod.mk.injEq] at hm
      obtain ⟨rfl, rfl⟩ := hm
      exact ⟨xk, hxk, by simp [hr.script], hr.scriptLen⟩)
  cases h2 with
  | cons hd hrest =>
    cases hrest
    obtain ⟨_, _, rfl⟩ := hd
    exact h1

/-- C43. The digest of a segwit input whose script field holds script code and amount. -/
theorem C43_segwit_digest (C : Crypto) (x : TxObj) (t : Spec.Tx) (h : Skel x t)
    (hi : t.inputs.length < 2 ^ 64) (ho : t.outputs.length < 2 ^ 64) (k : Nat) (ti : Spec.TxInput)
    (hk : t.inputs[k]? = some ti) (xk : TxIn) (hxk : x.ins[k]? = some xk) (scriptCode : Bytes) (amount : Nat)
    (h1 : xk.scriptSig = scriptCode ++ Spec.leEncode 8 amount)
    (h2 : xk.scriptSigLen = Spec.compact scriptCode.length) :
    calculatePreimages C x [(k, [0x01, 0x00, 0x00, 0x00], true)] =
      .ok [C.sha256 (Spec.segwitMessage (fun b => C.sha256 (C.sha256 b)) t ti scriptCode amount)] := by
  obtain ⟨ds, h3, h4⟩ := C42_C43_digests C x t h hi ho [(k, true)] (fun _ => scriptCode) (fun _ => amount)
    (by
      intro k' sg hm
      simp only [List.mem_singleton, Prod.mk.injEq] at hm
      obtain ⟨rfl, rfl⟩ := hm
      exact ⟨xk, hxk, by simpa using h1, h2⟩)
  cases h4 with
  | cons hd hrest =>
    cases hrest
    obtain ⟨ti', hti', rfl⟩ := hd
    rw [hk] at hti'
    injection hti' with hti'
    subst hti'
    exact h3

/-- C42. Other hash types are refused. -/
theorem C42_hash_type_refused (C : Crypto) (x : TxObj) (t : Spec.Tx) (h : Skel x t)
    (hi : t.inputs.length < 2 ^ 64) (ho : t.outputs.length < 2 ^ 64) (k : Nat) (hashType : Bytes) (sg : Bool)
    (hne : hashType ≠ [0x01, 0x00, 0x00, 0x00]) :
    calculatePreimages C x [(k, hashType, sg)] = .error .valueError := by
  rw [calculatePreimages]
  unfold preimage
  rw [h.inputs.length_eq, h.outputs.length_eq, intToVarint_compact hi, intToVarint_compact ho]
  dsimp only
  rw [if_pos (show hashType ≠ hashTypeAll from hne)]

set_option maxRecDepth 20000 in
/-- The second input of the sample transaction. -/
example : ∃ x, calculatePreimages crypto x [(1, [0x01, 0x00, 0x00, 0x00], false)] =
    .ok [sha256 (Spec.legacyMessage sampleTx 1 (List.replicate 260 3))] := by
  obtain ⟨x, -, hr⟩ := (C24_deserialize sampleTx sampleTx_wf).2
  exact ⟨x, C42_legacy_digest crypto true x sampleTx hr (by decide) (by decide) 1
    { prevTxid := List.replicate 32 9, prevIndex := 70000, script := List.replicate 260 3
      sequence := 0, witness := [] } rfl⟩

/-! ## C44 -/

/-- C44. Whoever signs, and whatever unspents are given: version, lock time and outputs stay, there
are as many inputs as before, every input keeps outpoint and sequence number, and an input whose
outpoint is not among the given unspents that the signer can spend stays as it is. -/
theorem C44_only_own_inputs (C : Crypto) (s : Signer) (w : Bool) (x x' : TxObj) (t : Spec.Tx)
    (us : List Unspent) (hx : Represents w x t) (hi : t.inputs.length < 2 ^ 64)
    (ho : t.outputs.length < 2 ^ 64) (h : signTxObj C s x us = .ok x') :
    x'.version = x.version ∧ x'.locktime = x.locktime ∧ x'.outs = x.outs ∧
    x'.ins.length = x.ins.length ∧
    ∀ (k : Nat) (i i' : TxIn), x.ins[k]? = some i → x'.ins[k]? = some i' →
      i'.txid = i.txid ∧ i'.txindex = i.txindex ∧ i'.sequence = i.sequence ∧ i'.amount = i.amount ∧
      ((¬ ∃ u ∈ us, s.canSignUnspent C u = .ok true ∧ outpointOf u = .ok (i.txid ++ i.txindex)) → i' = i) := by
  obtain ⟨d, sg, hd, -, hx', hlen, hstep⟩ := (signTxObj_iff hx.skel hi ho).mp h
  refine ⟨by rw [hx'], by rw [hx'], by rw [hx'], hlen, ?_⟩
  intro k i i' hk hk'
  obtain ⟨ti, hti⟩ := get_of_length hx.inputs.length_eq hk
  have hs := hstep k i i' ti hk hk' hti
  unfold StepAt at hs
  split at hs
  · subst hs
    exact ⟨rfl, rfl, rfl, rfl, fun _ => rfl⟩
  · rename_i u hu
    obtain ⟨sc, script, witness, len, -, -, -, -, -, rfl⟩ := hs
    refine ⟨rfl, rfl, rfl, rfl, ?_⟩
    intro hno
    obtain ⟨h1, h2⟩ := dict_some hd hu
    exact absurd ⟨u, h1, h2.1, h2.2⟩ hno

/-! ## C45 -/

/-- The segwit flag of the unspent fits its script: a P2PKH output of the key and not marked, or the
nested P2WPKH output of a compressed key and marked. -/
def TypeFits (C : Crypto) (k : PrivKey) (u : Unspent) : Prop :=
  (u.isSegwit = false ∧
    u.script = bytesToHex (Spec.p2pkhScript (C.ripemd160 (C.sha256 (k.publicKey C))))) ∨
  (u.isSegwit = true ∧ k.compressed = true ∧ u.script = bytesToHex (Spec.p2shScript
    (C.ripemd160 (C.sha256 (Spec.witnessScript 0 (C.ripemd160 (C.sha256 (k.publicKey C))))))))

theorem TypeFits.pays {C : Crypto} {k : PrivKey} {u : Unspent} (h : TypeFits C k u) : PaysKey C k u :=
  h.imp And.right And.right

theorem parsePushes_two (a b : Bytes) (ha : a.length ≤ 75) (hb : b.length ≤ 75) :
    Spec.parsePushes 2 (UInt8.ofNat a.length :: a ++ UInt8.ofNat b.length :: b) = ([a, b], []) := by
  have e : ∀ (d rest : Bytes), d.length ≤ 75 →
      Spec.parsePush (UInt8.ofNat d.length :: (d ++ rest)) = some (d, rest) := by
    intro d rest hd
    have h : (UInt8.ofNat d.length).toNat = d.length := u8_ofNat_toNat _ (by omega)
    rw [Spec.parsePush, h, if_pos hd]
    exact splitOff_append d rest
  have e2 := e b [] hb
  rw [List.append_nil] at e2
  rw [List.cons_append, Spec.parsePushes, e a _ ha]
  dsimp only
  rw [Spec.parsePushes, e2]
  rfl

theorem parsePush_whole {s p : Bytes} (h : s = UInt8.ofNat p.length :: p) (hl : p.length ≤ 75) :
    Spec.parsePush s = some (p, []) := by
  have e : (UInt8.ofNat p.length).toNat = p.length := u8_ofNat_toNat _ (by omega)
  have := splitOff_append p []
  rw [List.append_nil] at this
  rw [h, Spec.parsePush, e, if_pos hl, this]

theorem signedInput_spends {C : Crypto} {k : PrivKey} (hk : KeyLaws C k) {t t' : Spec.Tx}
    (hsk : Spec.SameSkeleton t t') {j : Nat} {u : Unspent} {i : Spec.TxInput} 
    (hf : TypeFits C k u) :
    ∃ script, u.script = bytesToHex script ∧
      Spec.Spends C.hashing t' j (signedInput C k t j u i) script u.amount.toNat := by
  have hh : (C.hash160 (k.publicKey C)).length = 20 := hk.hash.ripemd160_length _
  have hp : (k.publicKey C).length ≤ 75 := by rcases hk.pub' with h | h <;> omega
  obtain ⟨f1, f2, f3⟩ := signedInput_fields C k t j u i
  rcases hf with ⟨hseg, hs⟩ | ⟨hseg, hcomp, hs⟩
  · refine ⟨_, hs, Or.inl ⟨C.sign k.secret (digest C t j i (Spec.p2pkhScript (C.hash160 (k.publicKey C)))
      u.isSegwit u.amount.toNat) ++ [0x01], k.publicKey C, ?_, rfl, hk.pub', ⟨_, rfl, hk.sig _, ?_⟩, ?_⟩⟩
    · have hl := hk.sig (digest C t j i (Spec.p2pkhScript (C.hash160 (k.publicKey C))) u.isSegwit
        u.amount.toNat)
      have := parsePushes_two (C.sign k.secret (digest C t j i
        (Spec.p2pkhScript (C.hash160 (k.publicKey C))) u.isSegwit u.amount.toNat) ++ [0x01])
        (k.publicKey C) (by rw [List.length_append, List.length_singleton]; omega) hp
      unfold signedInput
      dsimp only
      rw [if_neg (by simp [hseg])]
      exact this
    · rw [skeleton_legacy hsk]
      have := hk.verify (digest C t j i (Spec.p2pkhScript (C.hash160 (k.publicKey C))) u.isSegwit
        u.amount.toNat)
      unfold digest at this ⊢
      rw [hseg] at this ⊢
      simp only [Bool.false_eq_true, if_false] at this ⊢
      exact this
    · unfold signedInput
      dsimp only
      rw [if_neg (by simp [hseg])]
  · refine ⟨_, hs, Or.inr (Or.inl ⟨C.sign k.secret (digest C t j i
      (Spec.p2pkhScript (C.hash160 (k.publicKey C))) u.isSegwit u.amount.toNat) ++ [0x01], k.publicKey C,
      Spec.witnessScript 0 (C.hash160 (k.publicKey C)), ?_, rfl, rfl, ?_, ?_, ⟨_, rfl, hk.sig _, ?_⟩⟩)⟩
    · unfold signedInput
      dsimp only
      rw [if_pos hseg]
      dsimp only
      have hwl : (Spec.witnessScript 0 (C.hash160 (k.publicKey C))).length = 22 := by
        simp [Spec.witnessScript, hh]
      rw [hwl]
      rfl
    · unfold signedInput
      dsimp only
      rw [if_pos hseg]
    · rw [hk.pub, hcomp]; rfl
    · rw [skeleton_segwit hsk f1 f2 f3]
      have := hk.verify (digest C t j i (Spec.p2pkhScript (C.hash160 (k.publicKey C))) u.isSegwit
        u.amount.toNat)
      unfold digest at this ⊢
      rw [hseg] at this ⊢
      simp only [if_true] at this ⊢
      exact this

/-- C45. Signing the hexadecimal wire encoding of a transaction (`w`: the extended one) with a single
key gives the wire encoding of a transaction that differs only in scripts and witnesses of inputs. An
input whose outpoint is not among the given unspents of the key is as before. Every other input now
spends, by the rules of the script interpreter, the output described by one of these unspents: P2PKH
with signature and key pushed, or nested P2WPKH with the two-item witness, the signature being valid for
the message of that input.

The flag of every given unspent of the key must fit its script. If one of them is marked as segwit, the
given encoding must be the extended one (see `C45_legacy_encoding_garbled`). -/
theorem C45_inputs_spend (C : Crypto) (k : PrivKey) (hk : KeyLaws C k) (us : List Unspent) (w : Bool)
    (t : Spec.Tx) (hwf : t.WF) (hw : w = true ∨ ∀ u ∈ us, u.isSegwit = false)
    (hfit : ∀ u ∈ us, PaysKey C k u → TypeFits C k u) (r : Str)
    (h : signTransactionHex C (.single k) (bytesToHex (if w then t.encodeExtended else t.encodeLegacy)) us
      = .ok r) :
    ∃ t', t'.WF ∧ Spec.SameSkeleton t t' ∧ r = bytesToHex (if w then t'.encodeExtended else t'.encodeLegacy) ∧
      ∀ (j : Nat) (i i' : Spec.TxInput), t.inputs[j]? = some i → t'.inputs[j]? = some i' →
        ((∀ u ∈ us, ¬ OwnsKey C k u i) ∧ i' = i) ∨
        ∃ u ∈ us, OwnsKey C k u i ∧ ∃ script, u.script = bytesToHex script ∧
          Spec.Spends C.hashing t' j i' script u.amount.toNat := by
  have hdes : ∃ x, deserialize (if w then t.encodeExtended else t.encodeLegacy) = .ok x ∧ Represents w x t := by
    obtain ⟨h1, h2⟩ := C24_deserialize t hwf
    cases w
    · exact h1
    · exact h2
  obtain ⟨x, hx, hrep⟩ := hdes
  unfold signTransactionHex at h
  rw [deserializeHex_bytesToHex, hx] at h
  dsimp only at h
  unfold signTx at h
  cases hs : signTxObj C (.single k) x us with
  | error e => rw [hs] at h; cases h
  | ok x' =>
    rw [hs] at h
    dsimp only at h
    obtain ⟨⟨⟨d, hd⟩, -⟩, hrep'⟩ := (single_sign hk hw hrep hwf).1 x' hs
    have hwf' := signedTx_wf hk (us := us) hwf
    have hsk := signedTx_skeleton C k us t
    refine ⟨signedTx C k us t, hwf', hsk, ?_, ?_⟩
    · unfold TxObj.toHex at h
      rw [(C24_serialize w x' _ hrep' hwf'.nonempty hwf'.inputs hwf'.outputs).1] at h
      injection h with h
      exact h.symm
    · intro j i i' hi hi'
      have hg := signedTx_get (C := C) (k := k) (us := us) (t := t) (j := j)
      rw [hi, Option.map_some] at hg
      cases hc : chosen C (.single k) us (Spec.TxInput.outpoint i) with
      | none =>
        rw [hc] at hg
        dsimp only at hg
        rw [hg] at hi'
        injection hi' with hi'
        exact Or.inl ⟨fun u hu hm => (chosen_none hd).mp hc u hu
          (mine_of_owns hk hd hu (hwf.input i (List.mem_of_getElem? hi)) hm), hi'.symm⟩
      | some u =>
        rw [hc] at hg
        dsimp only at hg
        obtain ⟨hu, hm⟩ := chosen_mem hc
        have hm := owns_of_mine hk (hwf.input i (List.mem_of_getElem? hi)) hm
        have hsp := signedInput_spends hk hsk (j := j) (i := i) (hfit u hu hm.1)
        rw [hg] at hi'
        injection hi' with hi'
        rw [← hi']
        exact Or.inr ⟨u, hu, hm, hsp⟩

/-- C45. Signing does not fail: for unspents with 32-byte transaction ids in hexadecimal, output numbers
below 2^32 and amounts below 2^64, and a key whose addresses are ordinary, a transaction comes back. -/
theorem C45_succeeds (C : Crypto) (k : PrivKey) (hk : KeyLaws C k) (us : List Unspent) (w : Bool)
    (t : Spec.Tx) (hwf : t.WF) (hw : w = true ∨ ∀ u ∈ us, u.isSegwit = false)
    (hadd : OrdinaryAddresses C (.single k))
    (htx : ∀ u ∈ us, ∃ b : Bytes, u.txid = bytesToHex b) (hidx : ∀ u ∈ us, 0 ≤ u.txindex ∧ u.txindex < 2 ^ 32)
    (ham : ∀ u ∈ us, 0 ≤ u.amount ∧ u.amount < 2 ^ 64) :
    ∃ r, signTransactionHex C (.single k) (bytesToHex (if w then t.encodeExtended else t.encodeLegacy)) us
      = .ok r := by
  have hdes : ∃ x, deserialize (if w then t.encodeExtended else t.encodeLegacy) = .ok x ∧ Represents w x t := by
    obtain ⟨h1, h2⟩ := C24_deserialize t hwf
    cases w
    · exact h1
    · exact h2
  obtain ⟨x, hx, hrep⟩ := hdes
  have hdict : ∀ (l : List Unspent) (d0 : List (Bytes × Unspent)), (∀ u ∈ l, u ∈ us) →
      ∃ d, inputDict C (.single k) l d0 = .ok d := by
    intro l
    induction l with
    | nil => intro d0 _; exact ⟨d0, rfl⟩
    | cons u l ih =>
      intro d0 hl
      have hu := hl u List.mem_cons_self
      have hl' : ∀ v ∈ l, v ∈ us := fun v hv => hl v (List.mem_cons_of_mem _ hv)
      obtain ⟨b, hb, -⟩ := (C74_can_sign C k hk).1 hadd u
      rw [inputDict, hb]
      cases b with
      | false => exact ih d0 hl'
      | true =>
        obtain ⟨tb, htb⟩ := htx u hu
        obtain ⟨h0, h1⟩ := hidx u hu
        have : outpointOf u = .ok (tb.reverse ++ leBytes 4 u.txindex.toNat) := by
          unfold outpointOf
          rw [htb, hexToBytes_bytesToHex]
          dsimp only
          have : toBytesLE u.txindex 4 = .ok (leBytes 4 u.txindex.toNat) := by
            unfold toBytesLE
            rw [if_pos ⟨h0, by norm_num; omega⟩]
          rw [this]
        rw [this]
        exact ih _ hl'
  obtain ⟨d, hd⟩ := hdict us [] fun _ h => h
  obtain ⟨x', hx'⟩ := (single_sign hk hw hrep hwf).2 ⟨⟨d, hd⟩, fun i _ u hu _ => ham u (chosen_mem hu).1⟩
  have hrep' := ((single_sign hk hw hrep hwf).1 x' hx').2
  have hwf' := signedTx_wf hk (us := us) hwf
  unfold signTransactionHex
  rw [deserializeHex_bytesToHex, hx]
  dsimp only
  unfold signTx
  rw [hx']
  dsimp only
  unfold TxObj.toHex
  rw [(C24_serialize w x' _ hrep' hwf'.nonempty hwf'.inputs hwf'.outputs).1]
  exact ⟨_, rfl⟩

/-- Sample key of the toy scheme: 32 bytes `07`. -/
def keyA : PrivKey := { net := .main, secret := List.replicate 32 7, compressed := true }

/-- Another one: 32 bytes `09`. -/
def keyB : PrivKey := { net := .main, secret := List.replicate 32 9, compressed := true }

theorem toy_laws (k : PrivKey) (hl : k.secret.length = 32) : KeyLaws crypto k where
  hash := crypto_lengths
  zero := crypto_zeroPayloadOk
  pub := by
    show (toyPub k.secret k.compressed).length = _
    unfold toyPub
    cases k.compressed <;> simp [hl]
  sig := by
    intro data
    show (toySig (toyPub k.secret true) data).length ≤ 72
    unfold toySig
    rw [List.length_cons, List.length_zipWith, sha256_length]
    omega
  verify := by
    intro data
    show (toySig (toyPub k.secret true) data == toySig ((toyPub k.secret k.compressed).take 33) data) = true
    rw [beq_iff_eq]
    unfold toySig toyPub
    have ht : k.secret.take 32 = k.secret := List.take_of_length_le (by omega)
    cases k.compressed <;> simp [hl, ht]

/-- The P2PKH output of the toy key. -/
def scriptP2PKH (k : PrivKey) : Bytes := Spec.p2pkhScript (ripemd160 (sha256 (k.publicKey crypto)))

/-- Its nested P2WPKH output. -/
def scriptNested (k : PrivKey) : Bytes := Spec.p2shScript (ripemd160 (sha256
  (Spec.witnessScript 0 (ripemd160 (sha256 (k.publicKey crypto))))))

/-- A P2PKH unspent of key A. -/
def unspentA : Unspent := mkUnspent 70000 3 (bytesToHex (scriptP2PKH keyA))
  (bytesToHex (List.replicate 32 7)) 1 "p2pkh".toList 0 none 4294967295

/-- A nested P2WPKH unspent of key B. -/
def unspentB : Unspent := mkUnspent 80000 3 (bytesToHex (scriptNested keyB))
  (bytesToHex (List.replicate 32 9)) 70000 "np2wkh".toList 0 none 4294967295

/-- Whether the addresses of a key or contract are ordinary. -/
def ordinaryB (C : Crypto) (s : Signer) : Bool :=
  (match s.address C with | .ok a => (bech32Decode a).isNone | .error _ => true) &&
    match s.segwitAddress C with | .ok (some a) => (bech32Decode a).isNone | _ => true

theorem ordinary_of {C : Crypto} {s : Signer} (h : ordinaryB C s = true) : OrdinaryAddresses C s := by
  unfold ordinaryB at h
  rw [Bool.and_eq_true] at h
  constructor
  · intro a ha
    rw [ha] at h
    exact Option.isNone_iff_eq_none.mp h.1
  · intro a ha
    rw [ha] at h
    exact Option.isNone_iff_eq_none.mp h.2

theorem keyA_ordinary : OrdinaryAddresses crypto (.single keyA) := ordinary_of (by decide +kernel)
theorem keyB_ordinary : OrdinaryAddresses crypto (.single keyB) := ordinary_of (by decide +kernel)

theorem unspentA_can : (Signer.single keyA).canSignUnspent crypto unspentA = .ok true := by decide +kernel
theorem unspentB_can : (Signer.single keyB).canSignUnspent crypto unspentB = .ok true := by decide +kernel

/-- C74 for the sample keys: each recognises its own coin and not that of the other. -/
example : PaysKey crypto keyA unspentA ∧ PaysKey crypto keyB unspentB ∧ ¬ PaysKey crypto keyA unspentB ∧
    (Signer.single keyA).canSignUnspent crypto unspentB = .ok false := by
  have h : (Signer.single keyA).canSignUnspent crypto unspentB = .ok false := by decide +kernel
  refine ⟨Or.inl rfl, Or.inr ⟨rfl, rfl⟩, fun hp => ?_, h⟩
  have := (can_iff_pays (toy_laws keyA (by decide)) h unspentB).mpr hp
  rw [h] at this
  cases this

/-- Both keys sign their input of the sample transaction. -/
example : ∃ r, signTransactionHex crypto (.single keyB) (bytesToHex sampleTx.encodeExtended) [unspentB] = .ok r := by
  refine C45_succeeds crypto keyB (toy_laws keyB (by decide)) [unspentB] true sampleTx sampleTx_wf (Or.inl rfl)
    ?_ ?_ ?_ ?_
  · exact keyB_ordinary
  · intro u hu; rw [List.mem_singleton] at hu; subst hu; exact ⟨List.replicate 32 9, rfl⟩
  · intro u hu; rw [List.mem_singleton] at hu; subst hu; decide
  · intro u hu; rw [List.mem_singleton] at hu; subst hu; decide

/-- For C44: an object for the sample transaction that key A signs. -/
example : ∃ x x', Represents true x sampleTx ∧ signTxObj crypto (.single keyA) x [unspentA] = .ok x' := by
  obtain ⟨x, -, hr⟩ := (C24_deserialize sampleTx sampleTx_wf).2
  have hd : (match inputDict crypto (.single keyA) [unspentA] [] with | .ok _ => true | .error _ => false) = true := by
    decide +kernel
  have : ∃ d, inputDict crypto (.single keyA) [unspentA] [] = .ok d := by
    cases h : inputDict crypto (.single keyA) [unspentA] [] with
    | ok d => exact ⟨d, rfl⟩
    | error e => rw [h] at hd; cases hd
  obtain ⟨x', hx'⟩ := (single_sign (toy_laws keyA (by decide)) (us := [unspentA]) (Or.inl rfl) hr sampleTx_wf).2
    ⟨this, by
      intro i _ u hu hs
      have := (chosen_mem hu).1
      rw [List.mem_singleton] at this
      subst this
      exact absurd hs (by decide)⟩
  exact ⟨x, x', hr, hx'⟩

/-- The hypotheses of `C45_inputs_spend` for this transaction and key. -/
example : (∀ u ∈ [unspentA], PaysKey crypto keyA u → TypeFits crypto keyA u) ∧
    (∀ u ∈ [unspentB], PaysKey crypto keyB u → TypeFits crypto keyB u) ∧
    KeyLaws crypto keyA ∧ KeyLaws crypto keyB ∧ sampleTx.WF := by
  refine ⟨?_, ?_, toy_laws keyA (by decide), toy_laws keyB (by decide), sampleTx_wf⟩
  · intro u hu _; rw [List.mem_singleton] at hu; subst hu; exact Or.inl ⟨by decide, rfl⟩
  · intro u hu _; rw [List.mem_singleton] at hu; subst hu; exact Or.inr ⟨by decide, by decide, rfl⟩

/-! ### C45: where the code departs from the property -/

/-- The sample transaction before signing: all scripts and witnesses empty. -/
def unsignedTx : Spec.Tx :=
  { sampleTx with inputs := sampleTx.inputs.map fun i => { i with script := [], witness := [] } }

/-- The text that signing with key B gives for the unsigned transaction. -/
def garbled : Str :=
  match signTransactionHex crypto (.single keyB) (bytesToHex unsignedTx.encode) [unspentB] with
  | .ok r => r
  | .error _ => []

/-- C45 (the code violates the ideal). The only wire encoding of an unsigned transaction is the original
one (BIP-144). Signing that encoding of a transaction of two inputs with a key that owns the nested segwit
input only gives a text that is not the encoding of any transaction, and that the library itself refuses to
read: the other input has no witness field at all. -/
theorem C45_legacy_encoding_garbled :
    unsignedTx.WF ∧ unsignedTx.encode = unsignedTx.encodeLegacy ∧
    ∃ r, signTransactionHex crypto (.single keyB) (bytesToHex unsignedTx.encode) [unspentB] = .ok r ∧
      deserializeHex r = .error .valueError ∧
      ∀ t' : Spec.Tx, t'.WF → r ≠ bytesToHex t'.encodeExtended ∧ r ≠ bytesToHex t'.encodeLegacy := by
  have h1 : signTransactionHex crypto (.single keyB) (bytesToHex unsignedTx.encode) [unspentB] = .ok garbled := by
    decide +kernel
  have h2 : deserializeHex garbled = .error .valueError := by decide +kernel
  refine ⟨?_, by decide +kernel, garbled, h1, h2, ?_⟩
  · have h := sampleTx_wf
    refine ⟨h.version, List.cons_ne_nil _ _, by decide, ?_, h.outputs, h.output, h.lockTime⟩
    have hall : ∀ i ∈ unsignedTx.inputs, i.prevTxid.length = 32 ∧ i.prevIndex < 2 ^ 32 ∧
        i.script.length < 2 ^ 64 ∧ i.sequence < 2 ^ 32 ∧ i.witness.length < 2 ^ 64 ∧
        ∀ w ∈ i.witness, w.length < 2 ^ 64 := by decide +kernel
    intro i hi
    obtain ⟨h1, h2, h3, h4, h5, h6⟩ := hall i hi
    exact ⟨h1, h2, h3, h4, h5, h6⟩
  · intro t' hwf
    obtain ⟨⟨x, hx, -⟩, ⟨y, hy, -⟩⟩ := C24_deserialize t' hwf
    constructor
    · intro he
      rw [he, deserializeHex_bytesToHex, hy] at h2
      cases h2
    · intro he
      rw [he, deserializeHex_bytesToHex, hx] at h2
      cases h2

/-- The nested unspent of key B with the default type, as `Unspent` objects have before the wallet sets
their types. -/
def unspentBDefault : Unspent := mkUnspent 80000 3 (bytesToHex (scriptNested keyB))
  (bytesToHex (List.replicate 32 9)) 70000 "p2pkh".toList 0 none 4294967295

/-- C45 (the code violates the ideal). An unspent of the key's nested segwit address that carries the
default type is accepted as the key's own and signed like a P2PKH output: the text returned is the encoding
of a transaction in which that input does not spend the output. -/
theorem C45_wrong_type_not_spent :
    (Signer.single keyB).canSignUnspent crypto unspentBDefault = .ok true ∧
    unspentBDefault.script = bytesToHex (scriptNested keyB) ∧
    ∃ t', t'.WF ∧ signTransactionHex crypto (.single keyB) (bytesToHex unsignedTx.encodeLegacy) [unspentBDefault] =
        .ok (bytesToHex t'.encodeLegacy) ∧
      ∀ i', t'.inputs[1]? = some i' →
        ¬ Spec.Spends crypto.hashing t' 1 i' (scriptNested keyB) 80000 := by
  refine ⟨by decide +kernel, rfl, signedTx crypto keyB [unspentBDefault] unsignedTx,
    signedTx_wf (toy_laws keyB (by decide)) C45_legacy_encoding_garbled.1, by decide +kernel, ?_⟩
  intro i' hi'
  have hc : ((signedTx crypto keyB [unspentBDefault] unsignedTx).inputs[1]?.map fun i =>
      (Spec.parsePush i.script).map fun p => (p.1.isEmpty, p.2.isEmpty)) = some (some (false, false)) := by
    decide +kernel
  rw [hi', Option.map_some, Option.some.injEq, Option.map_eq_some_iff] at hc
  obtain ⟨⟨d, rest⟩, hp, he⟩ := hc
  simp only [Prod.mk.injEq] at he
  rintro (⟨sig, key, -, hs, -⟩ | ⟨sig, key, program, hq, hpr, -⟩ | ⟨sigs, redeem, hq, -⟩ |
    ⟨sigs, redeem, program, hq, hpr, -⟩)
  · unfold scriptNested Spec.p2shScript Spec.p2pkhScript at hs
    simp at hs
  · rw [parsePush_whole hq (by
      have : (crypto.hashing.hash160 key).length = 20 := (toy_laws keyB (by decide)).hash.ripemd160_length _
      simp [hpr, Spec.witnessScript, this])] at hp
    simp only [Option.some.injEq, Prod.mk.injEq] at hp
    rw [← hp.2] at he
    simp at he
  · rw [Spec.parsePushes, hp] at hq
    simp only [List.cons_append, Prod.mk.injEq, List.cons.injEq] at hq
    rw [hq.1.1] at he
    simp at he
  · rw [parsePush_whole hq (by
      have : (crypto.hashing.sha256 redeem).length = 32 := (toy_laws keyB (by decide)).hash.sha256_length _
      simp [hpr, Spec.witnessScript, this])] at hp
    simp only [Option.some.injEq, Prod.mk.injEq] at hp
    rw [← hp.2] at he
    simp at he

/-! ## C46 -/

/-- What signing a wire encoding with a single key gives. -/
theorem single_sign_hex {C : Crypto} {k : PrivKey} (hk : KeyLaws C k) {us : List Unspent} {w : Bool}
    {t : Spec.Tx} (hwf : t.WF) (hw : w = true ∨ ∀ u ∈ us, u.isSegwit = false) {r : Str} :
    signTransactionHex C (.single k) (bytesToHex (if w then t.encodeExtended else t.encodeLegacy)) us = .ok r ↔
      Signable C k us t ∧ r = bytesToHex (if w then (signedTx C k us t).encodeExtended
        else (signedTx C k us t).encodeLegacy) := by
  have hdes : ∃ x, deserialize (if w then t.encodeExtended else t.encodeLegacy) = .ok x ∧ Represents w x t := by
    obtain ⟨h1, h2⟩ := C24_deserialize t hwf
    cases w
    · exact h1
    · exact h2
  obtain ⟨x, hx, hrep⟩ := hdes
  have hwf' := signedTx_wf hk (us := us) hwf
  unfold signTransactionHex
  rw [deserializeHex_bytesToHex, hx]
  dsimp only
  unfold signTx
  constructor
  · intro h
    cases hs : signTxObj C (.single k) x us with
    | error e => rw [hs] at h; cases h
    | ok x' =>
      rw [hs] at h
      dsimp only at h
      obtain ⟨hsig, hrep'⟩ := (single_sign hk hw hrep hwf).1 x' hs
      unfold TxObj.toHex at h
      rw [(C24_serialize w x' _ hrep' hwf'.nonempty hwf'.inputs hwf'.outputs).1] at h
      injection h with h
      exact ⟨hsig, h.symm⟩
  · rintro ⟨hsig, rfl⟩
    obtain ⟨x', hx'⟩ := (single_sign hk hw hrep hwf).2 hsig
    have hrep' := ((single_sign hk hw hrep hwf).1 x' hx').2
    rw [hx']
    dsimp only
    unfold TxObj.toHex
    rw [(C24_serialize w x' _ hrep' hwf'.nonempty hwf'.inputs hwf'.outputs).1]

/-- C42, C43. What the key signs: for every input whose outpoint is among the given unspents of the key, the text returned
has, with the public key, the signature of the digest of that input, BIP-143's (with the amount of the coin spent) if the
coin is segwit and the legacy one otherwise. (`coincurve` hashes what it signs once more.) -/
theorem C42_C43_signed (C : Crypto) (k : PrivKey) (hk : KeyLaws C k) (us : List Unspent) (w : Bool)
    (t : Spec.Tx) (hwf : t.WF) (hw : w = true ∨ ∀ u ∈ us, u.isSegwit = false) (r : Str)
    (h : signTransactionHex C (.single k) (bytesToHex (if w then t.encodeExtended else t.encodeLegacy)) us
      = .ok r) :
    ∃ t', t'.WF ∧ Spec.SameSkeleton t t' ∧ r = bytesToHex (if w then t'.encodeExtended else t'.encodeLegacy) ∧
      ∀ (j : Nat) (i i' : Spec.TxInput), t.inputs[j]? = some i → t'.inputs[j]? = some i' →
        (∃ u ∈ us, OwnsKey C k u i) → ∃ u ∈ us, OwnsKey C k u i ∧
          let pub := k.publicKey C
          let code := Spec.p2pkhScript (C.ripemd160 (C.sha256 pub))
          if u.isSegwit then
            i'.witness = [C.sign k.secret (C.sha256 (Spec.segwitMessage (fun b => C.sha256 (C.sha256 b)) t i code
              u.amount.toNat)) ++ [0x01], pub]
          else i'.witness = [] ∧ Spec.parsePushes 2 i'.script =
            ([C.sign k.secret (C.sha256 (Spec.legacyMessage t j code)) ++ [0x01], pub], []) := by
  obtain ⟨⟨⟨d, hd⟩, -⟩, hr⟩ := (single_sign_hex hk hwf hw).mp h
  refine ⟨signedTx C k us t, signedTx_wf hk hwf, signedTx_skeleton C k us t, hr, ?_⟩
  rintro j i i' hi hi' ⟨u, hu, hm⟩
  have hiwf := hwf.input i (List.mem_of_getElem? hi)
  have hg := signedTx_get (C := C) (k := k) (us := us) (t := t) (j := j)
  rw [hi, hi', Option.map_some] at hg
  cases hc : chosen C (.single k) us (Spec.TxInput.outpoint i) with
  | none => exact absurd (mine_of_owns hk hd hu hiwf hm) ((chosen_none hd).mp hc u hu)
  | some v =>
    rw [hc] at hg
    dsimp only at hg
    obtain ⟨hv, hmv⟩ := chosen_mem hc
    refine ⟨v, hv, owns_of_mine hk hiwf hmv, ?_⟩
    rw [Option.some.inj hg]
    dsimp only
    unfold signedInput digest
    dsimp only
    cases v.isSegwit with
    | true => rfl
    | false =>
      refine ⟨rfl, ?_⟩
      exact parsePushes_two _ _ (by
        rw [List.length_append]
        exact Nat.add_le_add (hk.sig _) (by decide : 1 ≤ 3)) (by rcases hk.pub' with h | h <;> omega)

theorem outpoint_of_skeleton {t t' : Spec.Tx} (h : Spec.SameSkeleton t t') {j : Nat} {i i' : Spec.TxInput}
    (hi : t.inputs[j]? = some i) (hi' : t'.inputs[j]? = some i') :
    Spec.TxInput.outpoint i' = Spec.TxInput.outpoint i := by
  obtain ⟨h1, h2, -⟩ := skeleton_get h hi hi'
  unfold Spec.TxInput.outpoint
  rw [h1, h2]

theorem signable_skeleton {C : Crypto} {k : PrivKey} {us : List Unspent} {t t' : Spec.Tx}
    (h : Spec.SameSkeleton t t') : Signable C k us t' ↔ Signable C k us t := by
  have hl := skeleton_length h
  constructor
  · rintro ⟨h1, h2⟩
    refine ⟨h1, ?_⟩
    intro i hi
    obtain ⟨j, hj⟩ := List.mem_iff_getElem?.mp hi
    obtain ⟨i', hj'⟩ := get_of_length hl.symm hj
    rw [← outpoint_of_skeleton h hj hj']
    exact h2 i' (List.mem_of_getElem? hj')
  · rintro ⟨h1, h2⟩
    refine ⟨h1, ?_⟩
    intro i' hi'
    obtain ⟨j, hj'⟩ := List.mem_iff_getElem?.mp hi'
    obtain ⟨i, hj⟩ := get_of_length hl hj'
    rw [outpoint_of_skeleton h hj hj']
    exact h2 i (List.mem_of_getElem? hj)

theorem signedTx_comm {C : Crypto} {k₁ k₂ : PrivKey} {us₁ us₂ : List Unspent} {t : Spec.Tx}
    (hdis : ∀ i ∈ t.inputs, chosen C (.single k₁) us₁ (Spec.TxInput.outpoint i) = none ∨
      chosen C (.single k₂) us₂ (Spec.TxInput.outpoint i) = none) :
    signedTx C k₂ us₂ (signedTx C k₁ us₁ t) = signedTx C k₁ us₁ (signedTx C k₂ us₂ t) := by
  have key : ∀ (k₁ k₂ : PrivKey) (us₁ us₂ : List Unspent) (j : Nat) (i : Spec.TxInput) (u : Unspent),
      t.inputs[j]? = some i → chosen C (.single k₁) us₁ (Spec.TxInput.outpoint i) = none →
      signedInput C k₂ (signedTx C k₁ us₁ t) j u i = signedInput C k₂ t j u i := by
    intro k₁ k₂ us₁ us₂ j i u hj hc
    have hj' : (signedTx C k₁ us₁ t).inputs[j]? = some i := by
      rw [signedTx_get, hj, Option.map_some, hc]
    unfold signedInput
    simp only [skeleton_digest (signedTx_skeleton C k₁ us₁ t) hj hj']
  have hins : (signedTx C k₂ us₂ (signedTx C k₁ us₁ t)).inputs =
      (signedTx C k₁ us₁ (signedTx C k₂ us₂ t)).inputs := by
    apply List.ext_getElem?
    intro j
    rw [signedTx_get, signedTx_get, signedTx_get, signedTx_get]
    cases hj : t.inputs[j]? with
    | none => rfl
    | some i =>
      simp only [Option.map_some]
      have ho : ∀ k u, Spec.TxInput.outpoint (signedInput C k t j u i) = Spec.TxInput.outpoint i := by
        intro k u
        obtain ⟨h1, h2, -⟩ := signedInput_fields C k t j u i
        unfold Spec.TxInput.outpoint
        rw [h1, h2]
      rcases hdis i (List.mem_of_getElem? hj) with h | h
      · cases h2 : chosen C (.single k₂) us₂ (Spec.TxInput.outpoint i) with
        | none => simp only [h, h2]
        | some u => simp only [h, h2, ho, key k₁ k₂ us₁ us₂ j i u hj h]
      · cases h1 : chosen C (.single k₁) us₁ (Spec.TxInput.outpoint i) with
        | none => simp only [h, h1]
        | some u => simp only [h, h1, ho, key k₂ k₁ us₂ us₁ j i u hj h]
  unfold signedTx at hins ⊢
  exact congrArg (fun l => ({ t with inputs := l } : Spec.Tx)) hins

/-- C46. Two keys sign a transaction one after the other, each getting the text the other returned, and
no input belongs to both (among the unspents they were given). If that works in one order, it works in the
other order and gives the same text. -/
theorem C46_signing_commutes (C : Crypto) (k₁ k₂ : PrivKey) (h₁ : KeyLaws C k₁) (h₂ : KeyLaws C k₂)
    (us₁ us₂ : List Unspent) (w : Bool) (t : Spec.Tx) (hwf : t.WF)
    (hw : w = true ∨ (∀ u ∈ us₁, u.isSegwit = false) ∧ ∀ u ∈ us₂, u.isSegwit = false)
    (hdis : ∀ i ∈ t.inputs, ∀ u₁ ∈ us₁, ∀ u₂ ∈ us₂,
      ¬ (OwnsKey C k₁ u₁ i ∧ OwnsKey C k₂ u₂ i))
    (a b : Str)
    (ha : signTransactionHex C (.single k₁) (bytesToHex (if w then t.encodeExtended else t.encodeLegacy)) us₁
      = .ok a)
    (hb : signTransactionHex C (.single k₂) a us₂ = .ok b) :
    ∃ a', signTransactionHex C (.single k₂)
        (bytesToHex (if w then t.encodeExtended else t.encodeLegacy)) us₂ = .ok a' ∧
      signTransactionHex C (.single k₁) a' us₁ = .ok b := by
  have hw₁ : w = true ∨ ∀ u ∈ us₁, u.isSegwit = false := hw.imp id And.left
  have hw₂ : w = true ∨ ∀ u ∈ us₂, u.isSegwit = false := hw.imp id And.right
  obtain ⟨s₁, rfl⟩ := (single_sign_hex h₁ hwf hw₁).mp ha
  obtain ⟨s₂, rfl⟩ := (single_sign_hex h₂ (signedTx_wf h₁ hwf) hw₂).mp hb
  have s₂' := (signable_skeleton (signedTx_skeleton C k₁ us₁ t)).mp s₂
  refine ⟨_, (single_sign_hex h₂ hwf hw₂).mpr ⟨s₂', rfl⟩,
    (single_sign_hex h₁ (signedTx_wf h₂ hwf) hw₁).mpr
      ⟨(signable_skeleton (signedTx_skeleton C k₂ us₂ t)).mpr s₁, ?_⟩⟩
  rw [signedTx_comm]
  intro i hi
  obtain ⟨d₁, hd₁⟩ := s₁.dict
  obtain ⟨d₂, hd₂⟩ := s₂'.dict
  by_contra hc
  rw [not_or] at hc
  obtain ⟨u₁, e₁⟩ := Option.ne_none_iff_exists'.mp hc.1
  obtain ⟨u₂, e₂⟩ := Option.ne_none_iff_exists'.mp hc.2
  obtain ⟨m₁, n₁⟩ := chosen_mem e₁
  obtain ⟨m₂, n₂⟩ := chosen_mem e₂
  exact hdis i hi u₁ m₁ u₂ m₂ ⟨owns_of_mine h₁ (hwf.input i hi) n₁, owns_of_mine h₂ (hwf.input i hi) n₂⟩

/-- The hypotheses are met by the two sample keys and the sample transaction. -/
example : ∀ i ∈ sampleTx.inputs, ∀ u₁ ∈ [unspentA], ∀ u₂ ∈ [unspentB],
    ¬ (OwnsKey crypto keyA u₁ i ∧ OwnsKey crypto keyB u₂ i) := by
  rintro i - u₁ h₁ u₂ h₂ ⟨⟨-, -, m₁⟩, ⟨-, -, m₂⟩⟩
  rw [List.mem_singleton] at h₁ h₂
  subst h₁ h₂
  rw [← m₁] at m₂
  exact absurd m₂ (by decide +kernel)

end Bit
