import Verif.Spec.Device
import Verif.Model.Program
/-
A key object that holds a signing device in place of its secret, for `Props/Secret`.
-/
namespace Bit

section
variable (C : Crypto) (d : Device)

theorem device_outputSizes (l : List (Str × Int)) : outputSizes (d.crypto C) l = outputSizes C l := by
  induction l with
  | nil => rfl
  | cons a l ih =>
    simp only [outputSizes, ih]
    rfl

theorem device_checkVersions (version : Net) (l : List (Str × Int)) :
    checkVersions (d.crypto C) version l = checkVersions C version l := by
  induction l with
  | nil => rfl
  | cons a l ih =>
    simp only [checkVersions, ih]
    rfl

theorem device_constructOutputs (l : List (Dest × Int)) : constructOutputs (d.crypto C) l = constructOutputs C l := by
  induction l with
  | nil => rfl
  | cons a l ih =>
    simp only [constructOutputs, ih]
    rfl

theorem device_calculatePreimages (tx : TxObj) (l : List (Nat × Bytes × Bool)) :
    calculatePreimages (d.crypto C) tx l = calculatePreimages C tx l := by
  induction l with
  | nil => rfl
  | cons a l ih =>
    simp only [calculatePreimages, ih]
    rfl

theorem device_sanitizeArgs {Amount : Type} (env : Env Amount) (args : TxArgs Amount) (us : List Unspent)
    (default : Option Str) (version : Net) :
    sanitizeArgs (d.crypto C) env args us default version = sanitizeArgs C env args us default version := by
  simp only [sanitizeArgs, sanitizeTxData, device_outputSizes, device_checkVersions]
  rfl

theorem device_listAfter {Amount : Type} (env : Env Amount) (args : TxArgs Amount) (us : List Unspent)
    (default : Option Str) : listAfter (d.crypto C) env args us default = listAfter C env args us default := by
  simp only [listAfter, device_outputSizes]
  rfl

theorem device_matchSigs (hash : Bytes) (pubs sigs : List Bytes) (l : List (Bytes × Bytes)) :
    matchSigs (d.crypto C) hash pubs sigs l = matchSigs C hash pubs sigs l := by
  induction sigs generalizing l with
  | nil => rfl
  | cons a sigs ih => exact ih _

theorem device_prepareTransaction {Amount : Type} (readFloat : Str → PyFloat) (floats : Unspent → Bool) (env : Env Amount)
    (args : TxArgs Amount) (ask : Ask) (net : Net) (address : Str) (us : List Unspent) :
    prepareTransaction (d.crypto C) readFloat floats env args ask net address us
      = prepareTransaction C readFloat floats env args ask net address us := by
  simp only [prepareTransaction, device_sanitizeArgs]

end

section
variable (C : Crypto) (s : Signer) (junk : Bytes)

theorem device_publicKey : (s.without junk).publicKey ((s.device C).crypto C) = s.publicKey C := by cases s <;> rfl

theorem device_address : (s.without junk).address ((s.device C).crypto C) = s.address C := by cases s <;> rfl

theorem device_segwitAddress : (s.without junk).segwitAddress ((s.device C).crypto C) = s.segwitAddress C := by
  cases s <;> rfl

theorem device_scriptcode : (s.without junk).scriptcode ((s.device C).crypto C) = s.scriptcode C := by cases s <;> rfl

theorem device_net : (s.without junk).net = s.net := by cases s <;> rfl

theorem device_kinds : (s.without junk).kinds ((s.device C).crypto C) = s.kinds C := by cases s <;> rfl

theorem device_sign (data : Bytes) : (s.without junk).sign ((s.device C).crypto C) data = s.sign C data := by
  cases s <;> rfl

theorem device_canSign (u : Unspent) :
    (s.without junk).canSignUnspent ((s.device C).crypto C) u = s.canSignUnspent C u := by cases s <;> rfl

theorem device_returnAddress (us : List Unspent) :
    returnAddress ((s.device C).crypto C) (s.without junk) us = returnAddress C s us := by cases s <;> rfl

theorem device_inputDict (us : List Unspent) (l : List (Bytes × Unspent)) :
    inputDict ((s.device C).crypto C) (s.without junk) us l = inputDict C s us l := by
  induction us generalizing l with
  | nil => rfl
  | cons u us ih => simp only [inputDict, device_canSign, ih]

theorem device_prepareInputs (l : List (Bytes × Unspent)) (is : List TxIn) :
    prepareInputs ((s.device C).crypto C) (s.without junk) l is = prepareInputs C s l is := by
  induction is with
  | nil => rfl
  | cons i is ih => simp only [prepareInputs, prepareInput, device_scriptcode, ih]

theorem device_signBytes (segwitTx segwitInput : Bool) (hash field : Bytes) :
    signBytes ((s.device C).crypto C) (s.without junk) segwitTx segwitInput hash field
      = signBytes C s segwitTx segwitInput hash field := by
  cases s with
  | single k =>
    have hp : (k.without junk).publicKey ((k.device C).crypto C) = k.publicKey C := rfl
    have hc : (k.without junk).segwitScriptcode ((k.device C).crypto C) = k.segwitScriptcode C := rfl
    have hg : ((k.device C).crypto C).sign (k.without junk).secret hash = C.sign k.secret hash := rfl
    simp only [signBytes, Signer.without, Signer.device, signSingle, hp, hc, hg]
  | multi s =>
    simp only [signBytes, Signer.without, Signer.device, signMulti, device_matchSigs]
    rfl

theorem device_signInputs (segwitTx : Bool) (ps : List Prepared) (hashes : List Bytes) :
    signInputs ((s.device C).crypto C) (s.without junk) segwitTx ps hashes = signInputs C s segwitTx ps hashes := by
  induction ps generalizing hashes with
  | nil => rfl
  | cons p ps ih => simp only [signInputs, signInput, device_signBytes, ih]

theorem device_signTx (tx : TxObj) (us : List Unspent) :
    signTx ((s.device C).crypto C) (s.without junk) tx us = signTx C s tx us := by
  simp only [signTx, signTxObj, device_inputDict, device_prepareInputs, device_calculatePreimages, device_signInputs]

theorem device_createNewTransaction (us : List Unspent) (outs : List (Dest × Int)) :
    createNewTransaction ((s.device C).crypto C) (s.without junk) us outs = createNewTransaction C s us outs := by
  simp only [createNewTransaction, device_constructOutputs, device_signTx]

theorem device_signTransactionHex (tx : Str) (us : List Unspent) :
    signTransactionHex ((s.device C).crypto C) (s.without junk) tx us = signTransactionHex C s tx us := by
  simp only [signTransactionHex, device_signTx]

end

section
variable (C : Crypto) (w : Wallet) (junk : Bytes)

theorem device_getUnspents (ask : Ask) :
    (w.without junk).getUnspents ((w.signer.device C).crypto C) ask
      = ((w.getUnspents C ask).1.without junk, (w.getUnspents C ask).2) := by
  simp only [Wallet.getUnspents, Wallet.without, device_kinds, device_address, device_segwitAddress]
  split
  · rfl
  · split
    · rfl
    · split
      · rfl
      · split
        · rfl
        · rfl
        · split <;> rfl

theorem getUnspents_device_signer (ask : Ask) : (w.getUnspents C ask).1.signer = w.signer := by
  simp only [Wallet.getUnspents]
  split
  · rfl
  · split
    · rfl
    · split
      · rfl
      · split
        · rfl
        · rfl
        · split <;> rfl

theorem device_source (ask : Ask) (src : Source) :
    (w.without junk).source ((w.signer.device C).crypto C) ask src
      = ((w.source C ask src).1.without junk, (w.source C ask src).2) := by
  cases src with
  | stored =>
    simp only [Wallet.source, device_getUnspents]
    by_cases h : w.unspents.isEmpty = true
    · rw [if_pos h, if_pos (by exact h)]
    · rw [if_neg h, if_neg (by exact h)]
      rfl
  | given us =>
    simp only [Wallet.source, device_getUnspents]
    split <;> rfl

theorem source_device_signer (ask : Ask) (src : Source) : (w.source C ask src).1.signer = w.signer := by
  cases src <;> simp only [Wallet.source] <;> split <;> first | rfl | exact getUnspents_device_signer C w ask

theorem device_createTransaction {Amount : Type} (env : Env Amount) (args : TxArgs Amount) (ask : Ask) (src : Source) :
    (w.without junk).createTransaction ((w.signer.device C).crypto C) env args ask src
      = ((w.createTransaction C env args ask src).1.without junk, (w.createTransaction C env args ask src).2) := by
  have hs := source_device_signer C w ask src
  simp only [Wallet.createTransaction, device_source, device_sanitizeArgs, device_listAfter]
  generalize w.source C ask src = r at hs ⊢
  obtain ⟨v, got, own⟩ := r
  obtain ⟨signer, us, bal⟩ := v
  cases hs
  cases got with
  | error e => rfl
  | ok us =>
    simp only [Wallet.without, device_returnAddress, device_net]
    generalize returnAddress C w.signer us = a
    cases a with
    | error e => rfl
    | ok a =>
      simp only
      generalize sanitizeArgs C env args us a w.signer.net = b
      rcases b with e | ⟨us, outs⟩ <;> cases own <;> simp [device_createNewTransaction]

theorem device_send {Amount : Type} (env : Env Amount) (args : TxArgs Amount) (ask : Ask) (src : Source)
    (lists : Lists) (push : Service → Str → Py Bool) :
    (w.without junk).send ((w.signer.device C).crypto C) env args ask lists push src
      = ((w.send C env args ask lists push src).1.without junk, (w.send C env args ask lists push src).2) := by
  simp only [Wallet.send, device_createTransaction,
    show (w.without junk).signer.net = w.signer.net from device_net _ _]
  generalize w.createTransaction C env args ask src = r
  obtain ⟨v, got⟩ := r
  cases got <;> rfl

theorem device_signFallback (ask : Ask) (data : Str) (us : List Unspent) :
    (w.without junk).signFallback ((w.signer.device C).crypto C) ask data us
      = ((w.signFallback C ask data us).1.without junk, (w.signFallback C ask data us).2) := by
  simp only [Wallet.signFallback, device_getUnspents]
  have hs := getUnspents_device_signer C w ask
  by_cases h : us.isEmpty = true
  · simp only [h, if_true]
    generalize w.getUnspents C ask = r at hs ⊢
    obtain ⟨v, got⟩ := r
    obtain ⟨signer, us, bal⟩ := v
    cases hs
    cases got with
    | error e => rfl
    | ok us => simp only [Wallet.without, device_signTransactionHex]
  · simp only [h]
    simp [Wallet.without, device_signTransactionHex]

theorem device_signTransaction (readFloat : Str → PyFloat) (ask : Ask) (data : Str) (us : Option (List Unspent)) :
    (w.without junk).signTransaction ((w.signer.device C).crypto C) readFloat ask data us
      = ((w.signTransaction C readFloat ask data us).1.without junk, (w.signTransaction C readFloat ask data us).2) := by
  simp only [Wallet.signTransaction, device_signFallback,
    show (w.without junk).signer = w.signer.without junk from rfl, device_createNewTransaction]
  split
  · split
    · rfl
    · split <;> rfl
  · rfl

theorem device_getTransactions (s : Signer) (ask : Str → Py (List Str)) (stored : List Str) :
    (s.without junk).getTransactions ((s.device C).crypto C) ask stored = s.getTransactions C ask stored := by
  cases s <;> rfl

theorem device_getBalance (ask : Ask) (prec : Nat) (limit now : Int) (answers : List (Py Int)) (currency : Str)
    (caches : RateCaches) :
    (w.without junk).getBalance ((w.signer.device C).crypto C) ask prec limit now answers currency caches
      = ((w.getBalance C ask prec limit now answers currency caches).1.without junk,
        (w.getBalance C ask prec limit now answers currency caches).2) := by
  simp only [Wallet.getBalance, device_getUnspents]
  generalize w.getUnspents C ask = r
  obtain ⟨v, got⟩ := r
  cases got <;> rfl

theorem device_programCreate (p : Program) (args : TxArgs (Str × Str)) (src : Source) (world : Surround) :
    p.create ((w.signer.device C).crypto C) (w.without junk) args src world
      = ((p.create C w args src world).1, (p.create C w args src world).2.1.without junk,
        (p.create C w args src world).2.2) := by
  have ha : p.ask ((w.signer.device C).crypto C) world (w.without junk).signer.net = p.ask C world w.signer.net := by
    rw [show (w.without junk).signer.net = w.signer.net from device_net _ _]
    rfl
  have hs := source_device_signer C w (p.ask C world w.signer.net) src
  simp only [Program.create, ha, device_source, device_sanitizeArgs, device_listAfter]
  generalize w.source C (p.ask C world w.signer.net) src = r at hs ⊢
  obtain ⟨v, got, own⟩ := r
  obtain ⟨signer, us, bal⟩ := v
  cases hs
  cases got with
  | error e => rfl
  | ok us =>
    simp only [Wallet.without, device_returnAddress, device_net]
    generalize returnAddress C w.signer us = a
    cases a with
    | error e => rfl
    | ok a =>
      simp only
      generalize p.fee args.fee world = f
      obtain ⟨p, fee⟩ := f
      cases fee with
      | error e => rfl
      | ok fee =>
        simp only
        generalize p.thread.convertAll world.rates 0 args.outputs = t
        obtain ⟨t, outs⟩ := t
        cases outs with
        | error e => rfl
        | ok outs =>
          simp only
          generalize sanitizeArgs C (world.env fee) (args.inSatoshi outs) us a w.signer.net = b
          rcases b with e | ⟨us, outs⟩ <;> cases own <;> simp [device_createNewTransaction]

theorem device_programSend (p : Program) (args : TxArgs (Str × Str)) (src : Source) (world : Surround) :
    p.send ((w.signer.device C).crypto C) (w.without junk) args src world
      = ((p.send C w args src world).1, (p.send C w args src world).2.1.without junk,
        (p.send C w args src world).2.2) := by
  simp only [Program.send, device_programCreate,
    show (w.without junk).signer.net = w.signer.net from device_net _ _]
  generalize p.create C w args src world = r
  obtain ⟨q, v, got⟩ := r
  cases got <;> rfl

theorem createTransaction_device_signer {Amount : Type} (env : Env Amount) (args : TxArgs Amount) (ask : Ask) (src : Source) :
    (w.createTransaction C env args ask src).1.signer = w.signer := by
  have hs := source_device_signer C w ask src
  simp only [Wallet.createTransaction]
  generalize w.source C ask src = r at hs ⊢
  obtain ⟨v, got, own⟩ := r
  obtain ⟨signer, us, bal⟩ := v
  cases hs
  cases got with
  | error e => rfl
  | ok us =>
    simp only
    generalize returnAddress C w.signer us = a
    cases a with
    | error e => rfl
    | ok a =>
      simp only
      generalize sanitizeArgs C env args us a w.signer.net = b
      rcases b with e | ⟨us, outs⟩ <;> cases own <;> rfl

theorem signFallback_device_signer (ask : Ask) (data : Str) (us : List Unspent) :
    (w.signFallback C ask data us).1.signer = w.signer := by
  simp only [Wallet.signFallback]
  have hs := getUnspents_device_signer C w ask
  by_cases h : us.isEmpty = true
  · simp only [h, if_true]
    generalize w.getUnspents C ask = r at hs ⊢
    obtain ⟨v, got⟩ := r
    cases got <;> exact hs
  · simp [h]

theorem signTransaction_device_signer (readFloat : Str → PyFloat) (ask : Ask) (data : Str) (us : Option (List Unspent)) :
    (w.signTransaction C readFloat ask data us).1.signer = w.signer := by
  simp only [Wallet.signTransaction]
  split
  · split
    · exact signFallback_device_signer C w ask data _
    · split
      · rfl
      · exact signFallback_device_signer C w ask data _
  · exact signFallback_device_signer C w ask data _

theorem send_device_signer {Amount : Type} (env : Env Amount) (args : TxArgs Amount) (ask : Ask) (src : Source)
    (lists : Lists) (push : Service → Str → Py Bool) : (w.send C env args ask lists push src).1.signer = w.signer := by
  simp only [Wallet.send]
  have hs := createTransaction_device_signer C w env args ask src
  generalize w.createTransaction C env args ask src = r at hs ⊢
  obtain ⟨v, got⟩ := r
  cases got <;> exact hs

theorem getBalance_device_signer (ask : Ask) (prec : Nat) (limit now : Int) (answers : List (Py Int)) (currency : Str)
    (caches : RateCaches) : (w.getBalance C ask prec limit now answers currency caches).1.signer = w.signer := by
  simp only [Wallet.getBalance]
  have hs := getUnspents_device_signer C w ask
  generalize w.getUnspents C ask = r at hs ⊢
  obtain ⟨v, got⟩ := r
  cases got <;> exact hs

end

/-! Without signatures: the device knows the public key only. -/
section
variable (C : Crypto) (s : Signer) (g : Bytes → Bytes) (junk : Bytes)

theorem watch_address : (s.without junk).address ((s.deviceWith C g).crypto C) = s.address C := by cases s <;> rfl

theorem watch_segwitAddress : (s.without junk).segwitAddress ((s.deviceWith C g).crypto C) = s.segwitAddress C := by
  cases s <;> rfl

theorem watch_kinds : (s.without junk).kinds ((s.deviceWith C g).crypto C) = s.kinds C := by cases s <;> rfl

theorem watch_canSign (u : Unspent) :
    (s.without junk).canSignUnspent ((s.deviceWith C g).crypto C) u = s.canSignUnspent C u := by cases s <;> rfl

theorem watch_getTransactions (ask : Str → Py (List Str)) (stored : List Str) :
    (s.without junk).getTransactions ((s.deviceWith C g).crypto C) ask stored = s.getTransactions C ask stored := by
  cases s <;> rfl

theorem watch_getUnspents (w : Wallet) (ask : Ask) :
    (w.without junk).getUnspents ((w.signer.deviceWith C g).crypto C) ask
      = ((w.getUnspents C ask).1.without junk, (w.getUnspents C ask).2) := by
  simp only [Wallet.getUnspents, Wallet.without, watch_kinds, watch_address, watch_segwitAddress]
  split
  · rfl
  · split
    · rfl
    · split
      · rfl
      · split
        · rfl
        · rfl
        · split <;> rfl

theorem watch_getBalance (w : Wallet) (ask : Ask) (prec : Nat) (limit now : Int) (answers : List (Py Int)) (currency : Str)
    (caches : RateCaches) :
    (w.without junk).getBalance ((w.signer.deviceWith C g).crypto C) ask prec limit now answers currency caches
      = ((w.getBalance C ask prec limit now answers currency caches).1.without junk,
        (w.getBalance C ask prec limit now answers currency caches).2) := by
  simp only [Wallet.getBalance, watch_getUnspents]
  generalize w.getUnspents C ask = r
  obtain ⟨v, got⟩ := r
  cases got <;> rfl

end

end Bit
