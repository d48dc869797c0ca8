import Verif.Model.Wallet
/-
Which exceptions the functions on transactions raise.
-/
namespace Bit

/-- The exceptions of the functions on transactions; `InsufficientFunds` is not among them. -/
def plainErrors : List PyErr := [.valueError, .typeError, .indexError, .overflowError, .attributeError]

/-- The call raises nothing but plain exceptions. -/
def Plain {α : Type} (x : Py α) : Prop := ∀ e, x = .error e → e ∈ plainErrors

namespace Plain
variable {α β : Type}

@[simp] theorem ok (a : α) : Plain (.ok a : Py α) := fun _ h => by cases h

theorem err {e : PyErr} (h : e ∈ plainErrors) : Plain (.error e : Py α) := fun _ h' => by cases h'; exact h

theorem of {x : Py α} {e : PyErr} (hx : Plain x) (h : x = .error e) : Plain (.error e : Py β) := err (hx e h)

theorem map {x : Py α} (hx : Plain x) (f : α → β) : Plain (x.map f) := by
  cases x with
  | ok a => exact ok _
  | error e => exact of hx rfl

end Plain

macro "plain" : tactic => `(tactic| focus
  repeat' ((try dsimp only); split)
  all_goals first
    | exact Plain.ok _
    | exact Plain.err (by decide)
    | (refine Plain.of ?_ (by assumption); first | (simp; done) | assumption)
    | (simp; done))

@[simp] theorem plain_toBytesLE (n : Int) (len : Nat) : Plain (toBytesLE n len) := by unfold toBytesLE; plain
@[simp] theorem plain_fromHex : ∀ (s : Str), Plain (fromHex s)
  | [] => Plain.ok _
  | c :: rest => by
    have h := fun (s : Str) (_ : s.length < (c :: rest).length) => plain_fromHex s
    rw [fromHex.eq_def]
    dsimp only
    split
    · exact h _ (by simp)
    · split
      · exact Plain.err (by decide)
      · rename_i d rest'
        have h' := h rest' (by simp; omega)
        plain
termination_by s => s.length
@[simp] theorem plain_hexToBytes (s : Str) : Plain (hexToBytes s) := by unfold hexToBytes; plain
@[simp] theorem plain_intToVarint (n : Nat) : Plain (intToVarint n) := by
  unfold intToVarint
  repeat' split
  · simp
  all_goals exact Plain.map (by simp) _
@[simp] theorem plain_intToVarintInt (n : Int) : Plain (intToVarintInt n) := by unfold intToVarintInt; plain
@[simp] theorem plain_scriptPush (n : Nat) : Plain (scriptPush n) := by
  unfold scriptPush
  repeat' split
  · simp
  · simp
  all_goals exact Plain.map (by simp) _
@[simp] theorem plain_hexTextLoop (s : Str) : ∀ n, Plain (hexTextLoop n s) := by
  induction s with
  | nil => intro n; exact Plain.ok _
  | cons c s ih => intro n; rw [hexTextLoop]; split; exact ih _; exact Plain.err (by decide)
@[simp] theorem plain_hexInt (b : Bytes) : Plain (hexInt b) := by
  unfold hexInt hexToInt
  split
  · exact Plain.err (by decide)
  · exact plain_hexTextLoop _ _
@[simp] theorem plain_readAsInt (b : Bytes) (n : Nat) : Plain (readAsInt b n) := by unfold readAsInt; plain
@[simp] theorem plain_readVarInt (b : Bytes) : Plain (readVarInt b) := by
  unfold readVarInt
  split
  · plain
  · split
    · exact Plain.ok _
    · exact plain_readAsInt _ _
@[simp] theorem plain_getSigsLoop (isDer : Bytes → Bool) (n : Nat) : ∀ b, Plain (getSigsLoop isDer n b) := by
  induction n with
  | zero => intro b; exact Plain.ok _
  | succ n ih =>
    intro b
    rw [getSigsLoop]
    split
    · exact Plain.ok _
    · split
      · plain
      · dsimp only [readBytes]
        split
        · exact Plain.of (ih _) (by assumption)
        · exact Plain.ok _
@[simp] theorem plain_getSignatures (isDer : Bytes → Bool) (b : Bytes) : Plain (getSignaturesFromScript isDer b) :=
  plain_getSigsLoop _ _ _
@[simp] theorem plain_b58Num (t : Str) : ∀ n, Plain (b58Num n t) := by
  induction t with
  | nil => intro n; exact Plain.ok _
  | cons c t ih => intro n; rw [b58Num]; split; exact ih _; exact Plain.err (by decide)
@[simp] theorem plain_b58decode (s : Str) : Plain (b58decode s) := by unfold b58decode; plain
@[simp] theorem plain_b58decodeCheck (C : Crypto) (s : Str) : Plain (b58decodeCheck C s) := by
  unfold b58decodeCheck; plain
@[simp] theorem plain_getVersion (C : Crypto) (s : Str) : Plain (getVersion C s) := by unfold getVersion; plain
@[simp] theorem plain_addressHash (C : Crypto) (s : Str) : Plain (addressToPublicKeyHash C s) := by
  unfold addressToPublicKeyHash; plain
@[simp] theorem plain_pyBytes (l : List Nat) : Plain (pyBytes l) := by
  induction l with
  | nil => exact Plain.ok _
  | cons x l ih => rw [pyBytes]; plain
@[simp] theorem plain_segwitScriptpubkey (v : Nat) (l : List Nat) : Plain (segwitScriptpubkey v l) := plain_pyBytes _
@[simp] theorem plain_addressToScriptpubkey (C : Crypto) (s : Str) : Plain (addressToScriptpubkey C s) := by
  unfold addressToScriptpubkey; plain
@[simp] theorem plain_unknownBytes (n : Int) : Plain (intToUnknownBytesInt n) := by unfold intToUnknownBytesInt; plain
@[simp] theorem plain_redeemLoop (ks : List Bytes) : ∀ acc, Plain (redeemLoop ks acc) := by
  induction ks with
  | nil => intro n; exact Plain.ok _
  | cons c t ih => intro n; rw [redeemLoop]; split; exact Plain.err (by decide); split; plain; exact ih _
@[simp] theorem plain_redeemscript (ks : List Bytes) (m : Int) : Plain (multisigToRedeemscript ks m) := by
  unfold multisigToRedeemscript; plain
@[simp] theorem plain_address (C : Crypto) (s : Signer) : Plain (s.address C) := by
  cases s with
  | single k =>
    show Plain (publicKeyToAddress _ _ _)
    unfold publicKeyToAddress; plain
  | multi s =>
    show Plain (multisigToAddress _ _ _ _)
    unfold multisigToAddress; plain
@[simp] theorem plain_segwitAddress (C : Crypto) (s : Signer) : Plain (s.segwitAddress C) := by
  cases s with
  | single k =>
    have h : Plain (publicKeyToSegwitAddress C (k.publicKey C) k.net) := by unfold publicKeyToSegwitAddress; plain
    show Plain (PrivKey.segwitAddress _ _)
    unfold PrivKey.segwitAddress; plain
  | multi s =>
    have h : Plain (multisigToSegwitAddress C s.publicKeys s.m s.net) := by unfold multisigToSegwitAddress; plain
    show Plain (MultiSig.segwitAddress _ _)
    unfold MultiSig.segwitAddress; plain
@[simp] theorem plain_scriptcode (C : Crypto) (s : Signer) : Plain (s.scriptcode C) := by
  cases s with
  | single k =>
    have h : Plain (k.address C) := plain_address C (.single k)
    show Plain (PrivKey.scriptcode _ _)
    unfold PrivKey.scriptcode; plain
  | multi s => exact Plain.ok _
@[simp] theorem plain_scriptHex (C : Crypto) (a : Str) : Plain (Signer.scriptHex C a) := by
  unfold Signer.scriptHex; plain
@[simp] theorem plain_canSign (C : Crypto) (s : Signer) (u : Unspent) : Plain (s.canSignUnspent C u) := by
  unfold Signer.canSignUnspent; plain
@[simp] theorem plain_outpointOf (u : Unspent) : Plain (outpointOf u) := by unfold outpointOf; plain
@[simp] theorem plain_inputDict (C : Crypto) (s : Signer) (us : List Unspent) : ∀ d, Plain (inputDict C s us d) := by
  induction us with
  | nil => intro d; exact Plain.ok _
  | cons u us ih =>
    intro d
    rw [inputDict]
    split
    · plain
    · exact ih _
    · split
      · plain
      · exact ih _
@[simp] theorem plain_preimage (C : Crypto) (tx : TxObj) (i : Nat) (h : Bytes) (b : Bool) :
    Plain (preimage C tx i h b) := by unfold preimage; plain
@[simp] theorem plain_preimages (C : Crypto) (tx : TxObj) (ps : List (Nat × Bytes × Bool)) :
    Plain (calculatePreimages C tx ps) := by
  induction ps with
  | nil => exact Plain.ok _
  | cons p ps ih => rw [calculatePreimages]; plain
@[simp] theorem plain_prepareInput (C : Crypto) (s : Signer) (d : List (Bytes × Unspent)) (i : TxIn) :
    Plain (prepareInput C s d i) := by unfold prepareInput; plain
@[simp] theorem plain_prepareInputs (C : Crypto) (s : Signer) (d : List (Bytes × Unspent)) (is : List TxIn) :
    Plain (prepareInputs C s d is) := by
  induction is with
  | nil => exact Plain.ok _
  | cons p ps ih => rw [prepareInputs]; plain
@[simp] theorem plain_sortedSigs (b : Bool) (sigs : List (Bytes × Bytes)) (ps : List Bytes) :
    Plain (sortedSigs b sigs ps) := by
  induction ps with
  | nil => exact Plain.ok _
  | cons p ps ih =>
    rw [sortedSigs]
    split
    · exact ih
    · split
      · rename_i h
        refine Plain.of ?_ h
        plain
      · plain
@[simp] theorem plain_signSingle (C : Crypto) (k : PrivKey) (a b : Bool) (h : Bytes) : Plain (signSingle C k a b h) := by
  unfold signSingle; plain
@[simp] theorem plain_signMulti (C : Crypto) (s : MultiSig) (a b : Bool) (h f : Bytes) :
    Plain (signMulti C s a b h f) := by
  unfold signMulti
  dsimp only
  split
  · rename_i e he
    refine Plain.of ?_ he
    plain
  · split
    · plain
    · split
      · rename_i e he
        refine Plain.of ?_ he
        plain
      · split
        · rename_i e he
          refine Plain.of ?_ he
          plain
        · plain
@[simp] theorem plain_signBytes (C : Crypto) (s : Signer) (a b : Bool) (h f : Bytes) : Plain (signBytes C s a b h f) := by
  unfold signBytes; plain
@[simp] theorem plain_signInput (C : Crypto) (s : Signer) (a b : Bool) (h f : Bytes) (i : TxIn) :
    Plain (signInput C s a b h f i) := by
  unfold signInput; plain
@[simp] theorem plain_signInputs (C : Crypto) (s : Signer) (a : Bool) (ps : List Prepared) :
    ∀ hs, Plain (signInputs C s a ps hs) := by
  induction ps with
  | nil => intro hs; exact Plain.ok _
  | cons p ps ih =>
    intro hs
    rw [signInputs]
    split
    · split
      · exact Plain.of (ih _) (by assumption)
      · exact Plain.ok _
    · split
      · exact Plain.err (by decide)
      · split
        · plain
        · split
          · exact Plain.of (ih _) (by assumption)
          · exact Plain.ok _
@[simp] theorem plain_txBytes (x : TxObj) : Plain x.bytes := by
  have h : Plain x.body := by unfold TxObj.body; plain
  unfold TxObj.bytes; plain
@[simp] theorem plain_isSegwit (x : TxObj) : Plain x.isSegwit := by unfold TxObj.isSegwit; plain
@[simp] theorem plain_toHex (x : TxObj) : Plain x.toHex := by unfold TxObj.toHex; plain
@[simp] theorem plain_signTxObj (C : Crypto) (s : Signer) (x : TxObj) (us : List Unspent) :
    Plain (signTxObj C s x us) := by unfold signTxObj; plain
@[simp] theorem plain_signTx (C : Crypto) (s : Signer) (x : TxObj) (us : List Unspent) :
    Plain (signTx C s x us) := by unfold signTx; plain
@[simp] theorem plain_mkTxOut (a b : Bytes) : Plain (mkTxOut a b) := by unfold mkTxOut; plain
@[simp] theorem plain_mkTxIn (a b c d : Bytes) (e : Option Bytes) (f : Bytes) (g : Bool) :
    Plain (mkTxIn a b c d e f g) := by unfold mkTxIn; plain
@[simp] theorem plain_unsignedInput (u : Unspent) : Plain (unsignedInput u) := by unfold unsignedInput; plain
@[simp] theorem plain_unsignedInputs (us : List Unspent) : Plain (unsignedInputs us) := by
  induction us with
  | nil => exact Plain.ok _
  | cons p ps ih => rw [unsignedInputs]; plain
@[simp] theorem plain_constructOutput (C : Crypto) (d : Dest) (n : Int) : Plain (constructOutput C d n) := by
  unfold constructOutput; plain
@[simp] theorem plain_constructOutputs (C : Crypto) (os : List (Dest × Int)) : Plain (constructOutputs C os) := by
  induction os with
  | nil => exact Plain.ok _
  | cons p ps ih => rw [constructOutputs]; plain
@[simp] theorem plain_createNew (C : Crypto) (s : Signer) (us : List Unspent) (os : List (Dest × Int)) :
    Plain (createNewTransaction C s us os) := by unfold createNewTransaction; plain
@[simp] theorem plain_returnAddress (C : Crypto) (s : Signer) (us : List Unspent) : Plain (returnAddress C s us) := by
  unfold returnAddress; plain
@[simp] theorem plain_messageChunks (m : Option Dest) (b : Bool) : Plain (messageChunks m b) := by
  unfold messageChunks; plain
@[simp] theorem plain_outputSizeOf (C : Crypto) (s : Str) : Plain (outputSizeOf C s) := by unfold outputSizeOf; plain
@[simp] theorem plain_outputSizes (C : Crypto) (os : List (Str × Int)) : Plain (outputSizes C os) := by
  induction os with
  | nil => exact Plain.ok _
  | cons p ps ih => rw [outputSizes]; plain
@[simp] theorem plain_checkVersions (C : Crypto) (v : Net) (os : List (Str × Int)) : Plain (checkVersions C v os) := by
  induction os with
  | nil => exact Plain.ok _
  | cons p ps ih =>
    rw [checkVersions]
    split
    · plain
    · split
      · exact Plain.err (by decide)
      · exact ih

end Bit
