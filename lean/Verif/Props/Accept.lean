import Verif.Lemmas.Interp
import Verif.Props.Create
/-
C64: signed inputs are accepted by the script interpreter, incomplete ones are not.
-/
namespace Bit
open Concrete

/-! ## C64 -/

theorem accepted {C : Crypto} (h : C.HashLengths) {t : Spec.Tx} {j : Nat} {i : Spec.TxInput} {script : Bytes}
    {value : Nat} (hs : Spec.Spends C.hashing t j i script value) :
    Spec.accepts C.hashing t j i script value = true :=
  Spec.accepts_of_spends h.ripemd160_length h.sha256_length hs

theorem skeleton_names {t t' : Spec.Tx} (h : Spec.SameSkeleton t t') {j : Nat} {i i' : Spec.TxInput}
    (hi : t.inputs[j]? = some i) (hi' : t'.inputs[j]? = some i') (u : Unspent) : Names u i ↔ Names u i' := by
  obtain ⟨h1, h2, -⟩ := skeleton_get h hi hi'
  unfold Names
  rw [h1, h2]

/-- C64. Signing the wire encoding of a transaction with a single key: the result is the wire encoding of a
transaction with the same outpoints, sequence numbers and outputs, and the script interpreter accepts every
input whose outpoint is among the given unspents of the key. -/
theorem C64_signed_accepted (C : Crypto) (k : PrivKey) (hk : KeyLaws C k) (us : List Unspent) (w : Bool)
    (t : Spec.Tx) (hwf : t.WF) (hw : w = true ∨ ∀ u ∈ us, u.isSegwit = false)
    (hfit : ∀ u ∈ us, PaysKey C k u → TypeFits C k u) (r : Str)
    (h : signTransactionHex C (.single k) (bytesToHex (if w then t.encodeExtended else t.encodeLegacy)) us
      = .ok r) :
    ∃ t', t'.WF ∧ Spec.SameSkeleton t t' ∧ r = bytesToHex (if w then t'.encodeExtended else t'.encodeLegacy) ∧
      ∀ (j : Nat) (i' : Spec.TxInput), t'.inputs[j]? = some i' →
        (∃ u ∈ us, OwnsKey C k u i') →
        ∃ u ∈ us, OwnsKey C k u i' ∧ ∃ script, u.script = bytesToHex script ∧
          Spec.accepts C.hashing t' j i' script u.amount.toNat = true := by
  obtain ⟨t', h1, h2, h3, h4⟩ := C45_inputs_spend C k hk us w t hwf hw hfit r h
  refine ⟨t', h1, h2, h3, ?_⟩
  rintro j i' hi' ⟨u, hu, hm⟩
  obtain ⟨i, hi⟩ := get_of_length (skeleton_length h2) hi'
  have ho := skeleton_names h2 hi hi'
  rcases h4 j i i' hi hi' with ⟨hno, -⟩ | ⟨v, hv, hmv, script, hscript, hspend⟩
  · exact absurd ⟨hm.1, (ho u).mpr hm.2⟩ (hno u hu)
  · exact ⟨v, hv, ⟨hmv.1, (ho v).mp hmv.2⟩, script, hscript, accepted hk.hash hspend⟩

/-- C64. If as many co-signers as the contract asks for, with different keys, signed an unsigned transaction one
after the other, the script interpreter accepts every input whose outpoint is among the given unspents of the
contract. -/
theorem C64_cosigned_accepted (C : Crypto) (s : MultiSig) (hs : ContractLaws C s) (us : List Unspent) (w : Bool)
    (t : Spec.Tx) (hwf : t.WF) (hw : w = true ∨ ∀ u ∈ us, u.isSegwit = false) (hun : Unsigned C s us t)
    (hfit : ∀ u ∈ us, PaysContract C s u → ContractFits C s u)
    (ks : List PrivKey) (hks : ∀ k ∈ ks, SignerLaws C s k)
    (hap : NoMixup C s ks us t) (hdiff : (ks.map fun k => k.publicKey C).Nodup) (hm : (ks.length : Int) = s.m) (r : Str)
    (h : cosign C s us ks (bytesToHex (if w then t.encodeExtended else t.encodeLegacy)) = .ok r) :
    ∃ t', t'.WF ∧ Spec.SameSkeleton t t' ∧ r = bytesToHex (if w then t'.encodeExtended else t'.encodeLegacy) ∧
      ∀ (j : Nat) (i' : Spec.TxInput), t'.inputs[j]? = some i' →
        (∃ u ∈ us, OwnsContract C s u i') →
        ∃ u ∈ us, OwnsContract C s u i' ∧ ∃ script, u.script = bytesToHex script ∧
          Spec.accepts C.hashing t' j i' script u.amount.toNat = true := by
  obtain ⟨t', h1, h2, h3, h4⟩ := C48_complete C s hs us w t hwf hw hun hfit ks hks hap hdiff hm r h
  refine ⟨t', h1, h2, h3, ?_⟩
  rintro j i' hi' ⟨u, hu, hm⟩
  obtain ⟨i, hi⟩ := get_of_length (skeleton_length h2) hi'
  have ho := skeleton_names h2 hi hi'
  rcases h4 j i i' hi hi' with ⟨hno, -⟩ | ⟨v, hv, hmv, script, hscript, hspend⟩
  · exact absurd ⟨hm.1, (ho u).mpr hm.2⟩ (hno u hu)
  · exact ⟨v, hv, ⟨hmv.1, (ho v).mp hmv.2⟩, script, hscript, accepted hs.hash hspend⟩

/-- C64. If fewer co-signers than the contract asks for signed, the script interpreter refuses every input of the
contract. -/
theorem C64_incomplete_rejected (C : Crypto) (s : MultiSig) (hs : ContractLaws C s) (us : List Unspent) (w : Bool)
    (t : Spec.Tx) (hwf : t.WF) (hw : w = true ∨ ∀ u ∈ us, u.isSegwit = false) (hun : Unsigned C s us t)
    (hfit : ∀ u ∈ us, PaysContract C s u → ContractFits C s u)
    (ks : List PrivKey) (hks : ∀ k ∈ ks, SignerLaws C s k) (hne : ks ≠ [])
    (hap : NoMixup C s ks us t) (hdiff : (ks.map fun k => k.publicKey C).Nodup) (hm : (ks.length : Int) < s.m) (r : Str)
    (h : cosign C s us ks (bytesToHex (if w then t.encodeExtended else t.encodeLegacy)) = .ok r) :
    ∃ t', t'.WF ∧ Spec.SameSkeleton t t' ∧ r = bytesToHex (if w then t'.encodeExtended else t'.encodeLegacy) ∧
      ∀ (j : Nat) (i' : Spec.TxInput), t'.inputs[j]? = some i' →
        (∃ u ∈ us, OwnsContract C s u i') →
        ∃ u ∈ us, OwnsContract C s u i' ∧ ∃ script, u.script = bytesToHex script ∧
          Spec.accepts C.hashing t' j i' script u.amount.toNat = false := by
  obtain ⟨t', h1, h2, h3, h4⟩ := C47_signatures_sorted C s hs us w t hwf hw hun ks hks hne hap hdiff hm.le r h
  refine ⟨t', h1, h2, h3, ?_⟩
  rintro j i' hi' ⟨u, hu, hmu⟩
  obtain ⟨i, hi⟩ := get_of_length (skeleton_length h2) hi'
  have ho := skeleton_names h2 hi hi'
  obtain ⟨v, hv, hmv, sigs, used, pad, -, hperm, hsigs, hcase⟩ := h4 j i i' hi hi' ⟨u, hu, hmu.1, (ho u).mpr hmu.2⟩
  refine ⟨v, hv, ⟨hmv.1, (ho v).mp hmv.2⟩, ?_⟩
  obtain ⟨-, hrl, -, -, hq⟩ := redeem_head hs
  have hlen : sigs.length = ks.length := by
    rw [hsigs.length_eq, hperm.length_eq, List.length_map]
  have hfew : ((([] : Bytes) :: sigs ++ List.replicate pad []).filter fun x : Bytes => !x.isEmpty).length < s.m.toNat := by
    have e1 : ((List.replicate pad ([] : Bytes)).filter fun x : Bytes => !x.isEmpty) = [] := by
      rw [List.filter_eq_nil_iff]
      intro x hx
      rw [(List.mem_replicate.mp hx).2]
      simp
    rw [List.filter_append, e1, List.append_nil, List.filter_cons_of_neg (by simp)]
    have := List.length_filter_le (fun x : Bytes => !x.isEmpty) sigs
    omega
  have h20 : ∀ b, (C.hashing.ripemd160 b).length = 20 := hs.hash.ripemd160_length
  have h32 : ∀ b, (C.hashing.sha256 b).length = 32 := hs.hash.sha256_length
  rcases hfit v hv hmv.1 with ⟨hseg, hscr⟩ | ⟨hseg, hscr⟩
  · rw [hseg, if_neg Bool.false_ne_true] at hcase
    rw [hseg, if_neg Bool.false_ne_true] at hsigs
    exact ⟨_, hscr, Spec.p2sh_few_rejected h20 hq rfl hrl hcase.2 hfew⟩
  · rw [hseg, if_pos rfl] at hcase
    refine ⟨_, hscr, Spec.p2wsh_few_rejected h20 h32 hq rfl hrl ?_ hcase.2.1 hfew⟩
    rw [hcase.1]
    have : (Spec.witnessScript 0 (C.hashing.sha256 s.redeemscript)).length = 34 := by
      simp [Spec.witnessScript, h32]
    rw [this]
    rfl

/-- C64. If a key creates a transaction from explicit unspents that are all its own, the returned text is the
BIP-144 wire format of a transaction in which every input refers to one of these unspents and is accepted by the
script interpreter for that unspent's script and amount. -/
theorem C64_created_accepted {Amount : Type} (C : Crypto) (k : PrivKey) (hk : KeyLaws C k) (env : Env Amount)
    (hshuffle : ∀ l, (env.shuffle l).Perm l) (args : TxArgs Amount) (ask : Ask) (w : Wallet)
    (hw : w.signer = .single k) (us : List Unspent) (hne : us ≠ []) (htx : ∀ u ∈ us, TxidOk u) (hd : Distinct us)
    (hown : ∀ u ∈ us, TypeFits C k u) (r : Str)
    (h : (w.createTransaction C env args ask (.given us)).2 = .ok r) :
    ∃ t : Spec.Tx, t.WF ∧ r = bytesToHex t.encode ∧
      ∀ (j : Nat) (i : Spec.TxInput), t.inputs[j]? = some i →
        ∃ u ∈ us, u.txid = bytesToHex i.prevTxid.reverse ∧ u.txindex = i.prevIndex ∧
          ∃ script, u.script = bytesToHex script ∧ Spec.accepts C.hashing t j i script u.amount.toNat = true := by
  obtain ⟨sel, change, fee, t, h1, h2, -, -, h3, h4⟩ := C63_create C k hk env hshuffle args ask w hw us hne htx hd
    (fun u hu _ => hown u hu) r h
  refine ⟨t, h1, h3 fun u hu => (hown u hu).pays, ?_⟩
  intro j i hi
  obtain ⟨u, hu⟩ := get_of_length h2.inputs.length_eq.symm hi
  have hmem := h2.selected.subset (List.mem_of_getElem? hu)
  obtain ⟨e1, e2, -⟩ := (forall₂_iff_get.mp h2.inputs).2 j _ _ hu hi
  obtain ⟨script, hs, hsp⟩ := (h4 j u i hu hi).1 (hown u hmem).pays
  exact ⟨u, hmem, e1, e2.symm, script, hs, accepted hk.hash hsp⟩

/-- C64 for contracts: the holder of one key creates a transaction from explicit unspents of the contract, and the
other co-signers needed sign the returned text one after the other. -/
theorem C64_contract_created_accepted {Amount : Type} (C : Crypto) (s : MultiSig) (hs : ContractLaws C s)
    (env : Env Amount) (hshuffle : ∀ l, (env.shuffle l).Perm l) (args : TxArgs Amount) (ask : Ask) (w : Wallet)
    (hw : w.signer = .multi s) (us : List Unspent) (hne : us ≠ []) (htx : ∀ u ∈ us, TxidOk u) (hd : Distinct us)
    (hown : ∀ u ∈ us, PaysContract C s u ∧ ContractFits C s u)
    (others : List PrivKey) (hks : ∀ k ∈ s.key :: others, SignerLaws C s k)
    (hap : ∀ sel change fee t, Built C env args (.multi s) us sel change fee t → NoMixup C s (s.key :: others) us t)
    (hdiff : ((s.key :: others).map fun k => k.publicKey C).Nodup) (hm : ((s.key :: others).length : Int) = s.m)
    (r r' : Str) (h : (w.createTransaction C env args ask (.given us)).2 = .ok r)
    (h' : cosign C s us others r = .ok r') :
    ∃ t : Spec.Tx, t.WF ∧ (r' = bytesToHex t.encodeExtended ∨ r' = bytesToHex t.encodeLegacy) ∧
      ∀ (j : Nat) (i : Spec.TxInput), t.inputs[j]? = some i →
        ∃ u ∈ us, u.txid = bytesToHex i.prevTxid.reverse ∧ u.txindex = i.prevIndex ∧
          ∃ script, u.script = bytesToHex script ∧ Spec.accepts C.hashing t j i script u.amount.toNat = true := by
  obtain ⟨sel, change, fee, t, h1, h2, h3, -, h4⟩ := C63_create_contract C s hs env hshuffle args ask w hw us hne htx
    hd (fun u hu _ => (hown u hu).2) others hks hap hdiff hm r r' h h'
  refine ⟨t, h1, ?_, ?_⟩
  · rw [h3]
    split
    · exact Or.inl rfl
    · exact Or.inr rfl
  intro j i hi
  obtain ⟨u, hu⟩ := get_of_length h2.inputs.length_eq.symm hi
  have hmem := h2.selected.subset (List.mem_of_getElem? hu)
  obtain ⟨e1, e2, -⟩ := (forall₂_iff_get.mp h2.inputs).2 j _ _ hu hi
  obtain ⟨script, hs', hsp⟩ := (h4 j u i hu hi).1 (hown u hmem).1
  exact ⟨u, hmem, e1, e2.symm, script, hs', accepted hs.hash hsp⟩

/-- The samples beside C45, C48 and C63 meet the hypotheses of the theorems on one key and on complete contracts. For
the incomplete one: key A alone signs two inputs of the 2-of-3 contract. -/
example : (cosign crypto contract [unspentM, unspentL] [keyA]
    (bytesToHex unsignedTx.encodeExtended)).toOption.isSome = true := by decide +kernel

/-- C64 (the code violates the ideal). An unspent of the key's nested segwit address that carries the default type
is signed in a way the script interpreter refuses, without an error. -/
theorem C64_wrong_type_rejected :
    (Signer.single keyB).canSignUnspent crypto unspentBDefault = .ok true ∧
    ∃ t', t'.WF ∧ signTransactionHex crypto (.single keyB) (bytesToHex unsignedTx.encodeLegacy) [unspentBDefault] =
        .ok (bytesToHex t'.encodeLegacy) ∧
      ∀ i', t'.inputs[1]? = some i' →
        Spec.accepts crypto.hashing t' 1 i' (scriptNested keyB) 80000 = false := by
  refine ⟨by decide +kernel, signedTx crypto keyB [unspentBDefault] unsignedTx,
    signedTx_wf (toy_laws keyB (by decide)) C45_legacy_encoding_garbled.1, by decide +kernel, ?_⟩
  intro i' hi'
  have : ((signedTx crypto keyB [unspentBDefault] unsignedTx).inputs[1]?.map fun i =>
      Spec.accepts crypto.hashing (signedTx crypto keyB [unspentBDefault] unsignedTx) 1 i (scriptNested keyB) 80000) =
      some false := by decide +kernel
  rw [hi', Option.map_some, Option.some.injEq] at this
  exact this

end Bit
