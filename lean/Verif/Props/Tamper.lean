import Verif.Lemmas.Tamper
import Verif.Props.Accept
/-
C83: a signature commits to the whole transaction, and a transaction id names one transaction.
-/
namespace Bit
open Concrete

/-- C83. Whoever receives a transaction signed with a single key cannot change it: a transaction that differs in an
output, an outpoint, a sequence number, the version or the lock time is refused by the script interpreter at every
input the key has signed, wherever these inputs are placed in it. -/
theorem C83_signed (C : Crypto) (k : PrivKey) (hk : KeyLaws C k) (us : List Unspent) (w : Bool)
    (t : Spec.Tx) (hwf : t.WF) (hw : w = true ∨ ∀ u ∈ us, u.isSegwit = false)
    (hfit : ∀ u ∈ us, PaysKey C k u → TypeFits C k u) (ham : ∀ u ∈ us, u.amount < 2 ^ 64) (r : Str)
    (h : signTransactionHex C (.single k) (bytesToHex (if w then t.encodeExtended else t.encodeLegacy)) us
      = .ok r) :
    ∃ t', t'.WF ∧ Spec.SameSkeleton t t' ∧ r = bytesToHex (if w then t'.encodeExtended else t'.encodeLegacy) ∧
      ∀ (j : Nat) (i' : Spec.TxInput), t'.inputs[j]? = some i' → (∃ u ∈ us, OwnsKey C k u i') →
        ∃ u ∈ us, OwnsKey C k u i' ∧ ∃ script, u.script = bytesToHex script ∧
          Spec.Tied C.hashing t' j i' script u.amount.toNat := by
  obtain ⟨t', h1, h2, h3, h4⟩ := C45_inputs_spend C k hk us w t hwf hw hfit r h
  refine ⟨t', h1, h2, h3, ?_⟩
  rintro j i' hi' ⟨u, hu, hm⟩
  obtain ⟨i, hi⟩ := get_of_length (skeleton_length h2) hi'
  have ho := skeleton_names h2 hi hi'
  rcases h4 j i i' hi hi' with ⟨hno, -⟩ | ⟨v, hv, hmv, script, hscript, hspend⟩
  · exact absurd ⟨hm.1, (ho u).mpr hm.2⟩ (hno u hu)
  · exact ⟨v, hv, ⟨hmv.1, (ho v).mp hmv.2⟩, script, hscript,
      tied_of_spends hk.hash h1 hi' (by have := ham v hv; omega) hspend⟩

/-- C83 for contracts: as many co-signers as the contract asks for, with different keys, signed one after the
other. -/
theorem C83_cosigned (C : Crypto) (s : MultiSig) (hs : ContractLaws C s) (us : List Unspent) (w : Bool)
    (t : Spec.Tx) (hwf : t.WF) (hw : w = true ∨ ∀ u ∈ us, u.isSegwit = false) (hun : Unsigned C s us t)
    (hfit : ∀ u ∈ us, PaysContract C s u → ContractFits C s u) (ham : ∀ u ∈ us, u.amount < 2 ^ 64)
    (ks : List PrivKey) (hks : ∀ k ∈ ks, SignerLaws C s k)
    (hap : NoMixup C s ks us t) (hdiff : (ks.map fun k => k.publicKey C).Nodup) (hm : (ks.length : Int) = s.m) (r : Str)
    (h : cosign C s us ks (bytesToHex (if w then t.encodeExtended else t.encodeLegacy)) = .ok r) :
    ∃ t', t'.WF ∧ Spec.SameSkeleton t t' ∧ r = bytesToHex (if w then t'.encodeExtended else t'.encodeLegacy) ∧
      ∀ (j : Nat) (i' : Spec.TxInput), t'.inputs[j]? = some i' → (∃ u ∈ us, OwnsContract C s u i') →
        ∃ u ∈ us, OwnsContract C s u i' ∧ ∃ script, u.script = bytesToHex script ∧
          Spec.Tied C.hashing t' j i' script u.amount.toNat := by
  obtain ⟨t', h1, h2, h3, h4⟩ := C48_complete C s hs us w t hwf hw hun hfit ks hks hap hdiff hm r h
  refine ⟨t', h1, h2, h3, ?_⟩
  rintro j i' hi' ⟨u, hu, hm⟩
  obtain ⟨i, hi⟩ := get_of_length (skeleton_length h2) hi'
  have ho := skeleton_names h2 hi hi'
  rcases h4 j i i' hi hi' with ⟨hno, -⟩ | ⟨v, hv, hmv, script, hscript, hspend⟩
  · exact absurd ⟨hm.1, (ho u).mpr hm.2⟩ (hno u hu)
  · exact ⟨v, hv, ⟨hmv.1, (ho v).mp hmv.2⟩, script, hscript,
      tied_of_spends hs.hash h1 hi' (by have := ham v hv; omega) hspend⟩

/-- C83 for a transaction that a wallet creates from explicit unspents of its key: every input is tied to it. -/
theorem C83_created {Amount : Type} (C : Crypto) (k : PrivKey) (hk : KeyLaws C k) (env : Env Amount)
    (hshuffle : ∀ l, (env.shuffle l).Perm l) (args : TxArgs Amount) (ask : Ask) (w : Wallet)
    (hw : w.signer = .single k) (us : List Unspent) (hne : us ≠ []) (htx : ∀ u ∈ us, TxidOk u) (hd : Distinct us)
    (hown : ∀ u ∈ us, TypeFits C k u) (ham : ∀ u ∈ us, u.amount < 2 ^ 64) (r : Str)
    (h : (w.createTransaction C env args ask (.given us)).2 = .ok r) :
    ∃ t : Spec.Tx, t.WF ∧ r = bytesToHex t.encode ∧
      ∀ (j : Nat) (i : Spec.TxInput), t.inputs[j]? = some i →
        ∃ u ∈ us, u.txid = bytesToHex i.prevTxid.reverse ∧ u.txindex = i.prevIndex ∧
          ∃ script, u.script = bytesToHex script ∧ Spec.Tied C.hashing t j i script u.amount.toNat := by
  obtain ⟨sel, change, fee, t, h1, h2, -, -, h3, h4⟩ := C63_create C k hk env hshuffle args ask w hw us hne htx hd
    (fun u hu _ => hown u hu) r h
  refine ⟨t, h1, h3 fun u hu => (hown u hu).pays, ?_⟩
  intro j i hi
  obtain ⟨u, hu⟩ := get_of_length h2.inputs.length_eq.symm hi
  have hmem := h2.selected.subset (List.mem_of_getElem? hu)
  obtain ⟨e1, e2, -⟩ := (forall₂_iff_get.mp h2.inputs).2 j _ _ hu hi
  obtain ⟨script, hs, hsp⟩ := (h4 j u i hu hi).1 (hown u hmem).pays
  exact ⟨u, hmem, e1, e2.symm, script, hs, tied_of_spends hk.hash h1 hi (by have := ham u hmem; omega) hsp⟩

/-- C83. The transaction id names one transaction: two transactions with the same computed id differ at most in their
witnesses, unless the double SHA-256 collides on the two. -/
theorem C83_txid (C : Crypto) (t t' : Spec.Tx) (h : t.WF) (h' : t'.WF) (w w' : Bool)
    (hdiff : Spec.Differ C.hashing t.encodeLegacy t'.encodeLegacy)
    (e : calcTxid C (bytesToHex (if w then t.encodeExtended else t.encodeLegacy)) =
      calcTxid C (bytesToHex (if w' then t'.encodeExtended else t'.encodeLegacy))) :
    t'.version = t.version ∧ t'.outputs = t.outputs ∧ t'.lockTime = t.lockTime ∧
      t'.inputs.map (fun i => (i.prevTxid, i.prevIndex, i.script, i.sequence)) =
        t.inputs.map (fun i => (i.prevTxid, i.prevIndex, i.script, i.sequence)) := by
  have hc : ∀ (s : Spec.Tx) (b : Bool), s.WF →
      calcTxid C (bytesToHex (if b then s.encodeExtended else s.encodeLegacy)) =
        .ok (bytesToHex (s.txidWith C.doubleSha256).reverse) := by
    intro s b hs
    obtain ⟨h1, h2⟩ := C27_txid C s hs
    cases b
    · exact h1
    · exact h2
  rw [hc t w h, hc t' w' h', Except.ok.injEq] at e
  have e := hdiff (List.reverse_injective (bytesToHex_injective e))
  obtain ⟨h1, h2, h3, h4⟩ := encodeLegacy_cancel (r := []) (r' := []) h.version h'.version h.inputs h'.inputs h.input
    h'.input h.outputs h'.outputs h.output h'.output h.lockTime h'.lockTime (by rw [e])
  refine ⟨h1.symm, h3.symm, h4.symm, ?_⟩
  have := congrArg (List.map fun i : Spec.TxInput => (i.prevTxid, i.prevIndex, i.script, i.sequence)) h2
  rw [List.map_map, List.map_map] at this
  exact this.symm

/-! ### Cases -/

/-- Key A has signed the first input. -/
def signedA : Spec.Tx := signedTx crypto keyA [unspentA] unsignedTx

/-- Then key B has signed the second one: another transaction with the same first input. -/
def signedAB : Spec.Tx := signedTx crypto keyB [unspentB] signedA

/-- Whether input number `j` of a transaction is accepted for an output of the script and value. -/
def acceptedAt (t : Spec.Tx) (j : Nat) (script : Bytes) (v : Nat) : Option Bool :=
  t.inputs[j]?.map fun i => Spec.accepts crypto.hashing t j i script v

/-- The hypotheses of `Spec.Tied` are met by the two: the first input is the same, nothing about the cryptography need
be assumed, and it is accepted in both. -/
example : ∃ i, signedA.inputs[0]? = some i ∧ signedAB.inputs[0]? = some i ∧ signedAB.WF ∧ signedA ≠ signedAB ∧
    Spec.Unforged crypto.hashing (scriptP2PKH keyA) signedA 0 i 70000 signedAB 0 i 70000 ∧
    Spec.accepts crypto.hashing signedAB 0 i (scriptP2PKH keyA) 70000 = true := by
  have h0 : signedA.inputs[0]? = signedAB.inputs[0]? ∧ acceptedAt signedAB 0 (scriptP2PKH keyA) 70000 = some true ∧
      signedA ≠ signedAB := by decide +kernel
  obtain ⟨h1, h2, h3⟩ := h0
  cases hi : signedAB.inputs[0]? with
  | none => rw [acceptedAt, hi] at h2; cases h2
  | some i =>
    rw [acceptedAt, hi, Option.map_some, Option.some.injEq] at h2
    exact ⟨i, by rw [h1, hi], rfl,
      signedTx_wf (toy_laws keyB (by decide)) (signedTx_wf (toy_laws keyA (by decide)) C45_legacy_encoding_garbled.1),
      h3, unforged_same (signedTx_skeleton _ _ _ _) rfl rfl rfl, h2⟩

/-- A thief who takes one satoshi of an output makes both inputs invalid; so does one who claims another value for the
spent segwit output. -/
example :
    acceptedAt signedAB 0 (scriptP2PKH keyA) 70000 = some true ∧
    acceptedAt signedAB 1 (scriptNested keyB) 80000 = some true ∧
    acceptedAt signedAB 1 (scriptNested keyB) 80001 = some false ∧
    acceptedAt { signedAB with outputs := signedAB.outputs.map fun o => { o with value := o.value - 1 } } 0
      (scriptP2PKH keyA) 70000 = some false ∧
    acceptedAt { signedAB with outputs := signedAB.outputs.map fun o => { o with value := o.value - 1 } } 1
      (scriptNested keyB) 80000 = some false := by decide +kernel

/-- Two transactions with the same id that differ in the witness of the second input. -/
example : Spec.Differ crypto.hashing sampleTx.encodeLegacy
      ({ sampleTx with inputs := sampleTx.inputs.map fun i => { i with witness := [[1, 2]] } } : Spec.Tx).encodeLegacy ∧
    sampleTx ≠ { sampleTx with inputs := sampleTx.inputs.map fun i => { i with witness := [[1, 2]] } } :=
  ⟨fun _ => rfl, by decide +kernel⟩

end Bit
