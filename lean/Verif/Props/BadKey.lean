import Verif.Props.SignMulti

/-! # Contracts with a key that is no point of the curve -/

namespace Bit

/-- The field of the input that the code reads for the unspent begins with a signature: the witness of a segwit input of
a segwit transaction, the script of any other input. -/
def HasSignature (C : Crypto) (w : Bool) (u : Unspent) (i : Spec.TxInput) : Prop :=
  ∃ (der : Bytes) (hashType : UInt8), C.isDer der = true ∧ der.length < 2 ^ 32 ∧
    if u.isSegwit then w = true ∧ ∃ rest, i.witness = [] :: (der ++ [hashType]) :: rest ∧ rest.length < 250
    else ∃ rest, i.script = 0x00 :: Spec.varBytes (der ++ [hashType]) ++ rest

theorem getSigs_first {isDer : Bytes → Bool} {b rest : Bytes} (hb : b.length < 2 ^ 64)
    (hd : isDer (dropLast' b 1) = true) {n : Nat} (hn : (Spec.varBytes b ++ rest).length ≤ n) {l : List Bytes}
    (h : getSigsLoop isDer n (Spec.varBytes b ++ rest) = .ok l) : l.isEmpty = false := by
  have hlen : 1 ≤ (Spec.compact b.length).length := by
    rcases h : Spec.compact b.length with _ | ⟨x, l⟩
    · exact absurd h (compact_ne_nil _)
    · simp
  cases n with
  | zero =>
    simp only [Spec.varBytes, List.length_append] at hn
    omega
  | succ n =>
    have e : Spec.varBytes b ++ rest = Spec.compact b.length ++ (b ++ rest) := by simp [Spec.varBytes]
    rw [e, getSigsLoop, readVarInt_compact hb] at h
    have hemp : (Spec.compact b.length ++ (b ++ rest)).isEmpty = false := by
      rcases h : Spec.compact b.length with _ | ⟨x, l⟩
      · exact absurd h (compact_ne_nil _)
      · rfl
    rw [if_neg (by rw [hemp]; simp)] at h
    dsimp only at h
    rw [readBytes_append b _ rfl] at h
    dsimp only at h
    split at h
    · cases h
    · injection h with h
      rw [← h, if_pos hd]; rfl

theorem getSigs_zero {isDer : Bytes → Bool} {s : Bytes} {l : List Bytes} {n : Nat}
    (h : getSigsLoop isDer (n + 1) (0x00 :: s) = .ok l) :
    ∃ l', getSigsLoop isDer n s = .ok l' ∧ (l'.isEmpty = false → l.isEmpty = false) := by
  have e : (0x00 :: s : Bytes) = Spec.compact ([] : Bytes).length ++ ([] ++ s) := rfl
  rw [e, getSigsLoop, readVarInt_compact (by simp)] at h
  rw [if_neg (by simp [Spec.compact])] at h
  dsimp only at h
  rw [readBytes_append [] _ rfl] at h
  dsimp only at h
  split at h
  · cases h
  · rename_i l' h'
    refine ⟨l', h', fun hl => ?_⟩
    injection h with h
    rw [← h]
    split
    · rfl
    · exact hl

theorem badPoint_of {C : Crypto} {pubs : List Bytes} {p : Bytes} (hp : p ∈ pubs) (hb : C.isPoint p = false)
    {l : List Bytes} (hl : l.isEmpty = false) : badPoint C pubs l = true := by
  unfold badPoint
  rw [hl, Bool.not_false, Bool.true_and, List.any_eq_true]
  exact ⟨p, hp, by rw [hb]; rfl⟩

theorem signMulti_bad {C : Crypto} {s : MultiSig} {p : Bytes} (hp : p ∈ s.publicKeys) (hb : C.isPoint p = false)
    {w sg : Bool} {hash field : Bytes} (hf : field.isEmpty = false)
    (hr : ∀ l, getSignaturesFromScript C.isDer field = .ok l → l.isEmpty = false) (r : Bytes × Bytes) :
    signMulti C s w sg hash field ≠ .ok r := by
  intro h
  unfold signMulti at h
  dsimp only at h
  rw [hf, if_neg Bool.false_ne_true] at h
  cases hg : getSignaturesFromScript C.isDer field with
  | error e => rw [hg] at h; cases h
  | ok l =>
    rw [hg] at h
    dsimp only at h
    rw [badPoint_of hp hb (hr l hg), if_pos rfl] at h
    cases h

/-- C80. If one of the keys of a contract is not a point of the curve, then a transaction with a signature in an input of
the contract is never signed further, whoever asks for it. -/
theorem C80_cannot_continue (C : Crypto) (s : MultiSig) (hs : ContractShape C s) (p : Bytes)
    (hp : p ∈ s.publicKeys) (hb : C.isPoint p = false) (us : List Unspent) (w : Bool) (t : Spec.Tx) (hwf : t.WF)
    (i : Spec.TxInput) (hi : i ∈ t.inputs) (hown : ∃ u ∈ us, OwnsContract C s u i)
    (hsig : ∀ u ∈ us, OwnsContract C s u i → HasSignature C w u i) (k : PrivKey) :
    ∃ e, signTransactionHex C (.multi { s with key := k })
      (bytesToHex (if w then t.encodeExtended else t.encodeLegacy)) us = .error e := by
  obtain ⟨x, hx, hrep⟩ := deserialize_enc hwf w
  have henc : (if w then t.encodeExtended else t.encodeLegacy) = enc w t := rfl
  unfold signTransactionHex
  rw [henc, deserializeHex_bytesToHex, hx]
  dsimp only
  unfold signTx
  cases hso : signTxObj C (.multi { s with key := k }) x us with
  | error e => exact ⟨e, rfl⟩
  | ok x' =>
    exfalso
    obtain ⟨d, sw, hd, -, -, hlen, hstep⟩ := (signTxObj_iff hrep.skel hwf.inputs hwf.outputs).mp hso
    rw [inputDict_key] at hd
    have hin := forall₂_iff_get.mp hrep.inputs
    obtain ⟨j, hj⟩ := List.mem_iff_getElem?.mp hi
    obtain ⟨xj, hxj⟩ := get_of_length hin.1.symm hj
    obtain ⟨x'j, hx'j⟩ := get_of_length hlen.symm hxj
    have hst := hstep j xj x'j i hxj hx'j hj
    have hxr := hin.2 j xj i hxj hj
    unfold StepAt at hst
    rw [hxr.outpoint] at hst
    cases hl : d.lookup (Spec.TxInput.outpoint i) with
    | none =>
      obtain ⟨u, hu, ho⟩ := hown
      exact (dict_none hd).mp hl u hu (mine_of_owns_contract hs hd hu (hwf.input i hi) ho)
    | some u =>
      rw [hl] at hst
      obtain ⟨hu, hmine⟩ := dict_some hd hl
      obtain ⟨sc, script, witness, len, -, -, -, hsb, -, -⟩ := hst
      obtain ⟨der, ht, hder, hdl, hfield⟩ := hsig u hu (owns_of_mine_contract hs (hwf.input i hi) hmine)
      have hlen' : (der ++ [ht]).length < 2 ^ 64 := by
        rw [List.length_append, List.length_singleton]
        omega
      have hd' : C.isDer (dropLast' (der ++ [ht]) 1) = true := by rw [dropLast_append_one]; exact hder
      simp only [signBytes] at hsb
      revert hsb
      cases hseg : u.isSegwit with
      | true =>
        rw [hseg, if_pos rfl] at hfield
        obtain ⟨rfl, rest, hw, hrl⟩ := hfield
        rw [if_pos rfl, hxr.witness, if_pos rfl, hw]
        have hc : Spec.encodeStack ([] :: (der ++ [ht]) :: rest) =
            UInt8.ofNat (rest.length + 2) :: (0x00 :: (Spec.varBytes (der ++ [ht]) ++ rest.flatMap Spec.varBytes)) := by
          unfold Spec.encodeStack
          rw [compact_small (by simp; omega)]
          have e0 : Spec.varBytes [] = [0x00] := rfl
          rw [List.flatMap_cons, List.flatMap_cons, e0]
          rfl
        rw [hc]
        refine fun hsb => signMulti_bad (s := { s with key := k }) hp hb (by rfl) ?_ _ hsb
        intro l hl
        unfold getSignaturesFromScript at hl
        rw [List.drop_succ_cons, List.drop_zero, List.length_cons] at hl
        obtain ⟨l', hl', himp⟩ := getSigs_zero hl
        exact himp (getSigs_first hlen' hd' le_rfl hl')
      | false =>
        rw [hseg, if_neg Bool.false_ne_true] at hfield
        obtain ⟨rest, hs'⟩ := hfield
        rw [if_neg Bool.false_ne_true, hxr.script, hs']
        refine fun hsb => signMulti_bad (s := { s with key := k }) hp hb (by rfl) ?_ _ hsb
        intro l hl
        unfold getSignaturesFromScript at hl
        rw [List.cons_append, List.drop_succ_cons, List.drop_zero] at hl
        exact getSigs_first hlen' hd' le_rfl hl

section Example

open Concrete

/-- 33 bytes that are no point of the curve. -/
def garbageKey : Bytes := 0x05 :: List.replicate 32 1

/-- A 2-of-3 contract with an invalid key. -/
def badContract : MultiSig where
  net := .main
  key := keyA
  publicKeys := [keyA.publicKey crypto, keyB.publicKey crypto, garbageKey]
  m := 2
  redeemscript := [0x52] ++ (0x21 :: keyA.publicKey crypto) ++ (0x21 :: keyB.publicKey crypto) ++
    (0x21 :: garbageKey) ++ [0x53, 0xae]
  isCompressed := true

/-- The contract is accepted like any other. -/
example : mkMultiSig crypto .main keyA (.list [.bytes (keyA.publicKey crypto), .bytes (keyB.publicKey crypto),
    .bytes garbageKey]) 2 = .ok badContract := by decide +kernel

/-- A P2SH unspent of the contract. -/
def badUnspent : Unspent := mkUnspent 60000 3 (bytesToHex (Spec.p2shScript (ripemd160 (sha256
  badContract.redeemscript)))) (bytesToHex (List.replicate 32 7)) 1 "p2sh".toList 0 none 4294967295

/-- A signature of the first key. -/
def badSignature : Bytes := crypto.sign keyA.secret (sha256 (Spec.legacyMessage oneInputTx 0 badContract.redeemscript))

/-- The transaction with that signature. -/
def badSigned : Spec.Tx := { oneInputTx with inputs := oneInputTx.inputs.map fun i =>
  { i with script := 0x00 :: Spec.varBytes (badSignature ++ [0x01]) ++ ([0x4c, 0x69] ++ badContract.redeemscript) } }

/-- The first key signs. -/
example : signTransactionHex crypto (.multi badContract) (bytesToHex oneInputTx.encodeLegacy) [badUnspent] =
    .ok (bytesToHex badSigned.encodeLegacy) := by decide +kernel

/-- After that nobody can sign. -/
example (k : PrivKey) : ∃ e, signTransactionHex crypto (.multi { badContract with key := k })
    (bytesToHex badSigned.encodeLegacy) [badUnspent] = .error e := by
  have hshape : ContractShape crypto badContract := ⟨crypto_lengths, by decide +kernel⟩
  have hwf : badSigned.WF :=
    { version := by decide
      nonempty := by decide +kernel
      inputs := by decide +kernel
      input := by
        have h : ∀ i ∈ badSigned.inputs, i.prevTxid.length = 32 ∧ i.prevIndex < 2 ^ 32 ∧
            i.script.length < 2 ^ 64 ∧ i.sequence < 2 ^ 32 ∧ i.witness.length < 2 ^ 64 ∧
            ∀ w ∈ i.witness, w.length < 2 ^ 64 := by decide +kernel
        intro i hi
        obtain ⟨h1, h2, h3, h4, h5, h6⟩ := h i hi
        exact ⟨h1, h2, h3, h4, h5, h6⟩
      outputs := by decide
      output := sampleTx_wf.output
      lockTime := by decide }
  have hi : badSigned.inputs[0]? = some badSigned.inputs[0] := rfl
  refine C80_cannot_continue crypto badContract hshape garbageKey (by decide +kernel) (by decide +kernel) [badUnspent]
    false badSigned hwf badSigned.inputs[0] (List.mem_of_getElem? hi) ?_ ?_ k
  · exact ⟨badUnspent, List.mem_cons_self, Or.inl (by decide +kernel), by decide +kernel, by decide +kernel⟩
  · intro u hu _
    simp only [List.mem_cons, List.not_mem_nil, or_false] at hu
    subst hu
    exact ⟨badSignature, 0x01, by decide +kernel, by decide +kernel, ⟨_, rfl⟩⟩

end Example

end Bit
