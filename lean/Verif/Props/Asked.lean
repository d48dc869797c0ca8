import Verif.Lemmas.Asked
import Verif.Props.JsonText
/-
C101: what a key or contract object asks of its secret for a payment. The secret is put into a device that only knows the
public key and signs. A device that answers the messages of the inputs of the one transaction as asked for, and refuses or
garbles every other message, gives the same transaction: nothing else needs to be signed.
-/
namespace Bit
open Concrete

theorem source_same {C : Crypto} {g : Bytes → Bytes} {w : Wallet} {ask : Ask} {src : Source} :
    w.source (C.resign g) ask src = w.source C ask src := by
  unfold Wallet.source
  simp only [resign_getUnspents]

theorem source_keeps (C : Crypto) (w : Wallet) (ask : Ask) (src : Source) :
    (w.source C ask src).1.signer = w.signer := source_device_signer C w ask src

theorem create_source {Amount : Type} {C : Crypto} {env : Env Amount} {args : TxArgs Amount} {ask : Ask} {w : Wallet}
    {src : Source} {us : List Unspent} (h : (w.source C ask src).2.1 = .ok us) (hne : us ≠ []) :
    (w.createTransaction C env args ask src).2 = (w.createTransaction C env args ask (.given us)).2 := by
  have hsig := source_keeps C w ask src
  have h2 : w.source C ask (.given us) = (w, .ok us, false) := by
    unfold Wallet.source
    dsimp only
    rw [if_neg (by simpa using hne)]
  unfold Wallet.createTransaction
  rw [h2]
  generalize w.source C ask src = r at h hsig ⊢
  obtain ⟨w', got, own⟩ := r
  dsimp only at h hsig ⊢
  subst h
  rw [hsig]
  dsimp only
  cases returnAddress C w.signer us with
  | error e => rfl
  | ok d =>
    dsimp only
    cases sanitizeArgs C env args us d w.signer.net with
    | error e => rfl
    | ok p => rfl

/-- Without coins nothing is created. -/
theorem create_none {Amount : Type} {C : Crypto} {env : Env Amount} {args : TxArgs Amount} {ask : Ask} {w : Wallet}
    {src : Source} {us : List Unspent} {r : Str} (h : (w.source C ask src).2.1 = .ok us)
    (hr : (w.createTransaction C env args ask src).2 = .ok r) : us ≠ [] := by
  rintro rfl
  unfold Wallet.createTransaction at hr
  generalize w.source C ask src = s at h hr
  obtain ⟨w', got, own⟩ := s
  dsimp only at h hr
  subst h
  dsimp only at hr
  cases hd : returnAddress C w'.signer [] with
  | error e => rw [hd] at hr; cases hr
  | ok d =>
    rw [hd] at hr
    dsimp only at hr
    have : ∃ e, sanitizeArgs C env args [] d w'.signer.net = .error e := by
      unfold sanitizeArgs sanitizeTxData
      cases convertOutputs env.conv args.outputs with
      | error e => exact ⟨e, rfl⟩
      | ok l => exact ⟨.valueError, rfl⟩
    obtain ⟨e, he⟩ := this
    rw [he] at hr
    cases hr

/-- The object afterwards does not depend on the signatures. -/
theorem create_after {Amount : Type} (C : Crypto) (g : Bytes → Bytes) (env : Env Amount) (args : TxArgs Amount) (ask : Ask)
    (w : Wallet) (src : Source) :
    (w.createTransaction (C.resign g) env args ask src).1 = (w.createTransaction C env args ask src).1 := by
  unfold Wallet.createTransaction
  rw [source_same]
  generalize w.source C ask src = s
  obtain ⟨w', got, own⟩ := s
  cases got with
  | error e => rfl
  | ok us =>
    dsimp only
    rw [resign_returnAddress]
    cases returnAddress C w'.signer us with
    | error e => rfl
    | ok d =>
      dsimp only
      rw [resign_sanitizeArgs, resign_listAfter]
      cases sanitizeArgs C env args us d w'.signer.net <;> rfl

/-- C101, `create_transaction`. Let `us` be the coins it is given or fetches, and `r` its result. There is one transaction `t`
built as asked for (`Built`, the specification of C63) from coins of `us`, and `r` is `t` signed. Any device for the same public
key which agrees with the secret on the messages of the inputs of `t` that spend coins of the object gives the same result, with
the same object afterwards. What the device does with any other message does not matter. -/
theorem C101_create {Amount : Type} (C : Crypto) (env : Env Amount) (hshuffle : ∀ l, (env.shuffle l).Perm l)
    (args : TxArgs Amount) (ask : Ask) (w : Wallet) (src : Source) (us : List Unspent)
    (hsrc : (w.source C ask src).2.1 = .ok us) (htx : ∀ u ∈ us, TxidOk u) (r : Str)
    (h : (w.createTransaction C env args ask src).2 = .ok r) :
    ∃ (sel : List Unspent) (change : Str) (fee : Int) (t : Spec.Tx), t.WF ∧
      Built C env args w.signer us sel change fee t ∧ (∀ i ∈ t.inputs, i.script = [] ∧ i.witness = []) ∧
      signTransactionHex C w.signer
        (bytesToHex (if sel.any (fun u => u.segwit = some true) then t.encodeExtended else t.encodeLegacy))
        (signedCoins args.replaceByFee sel) = .ok r ∧
      ∀ (g : Bytes → Bytes) (junk : Bytes), (∀ d, Asked C w.signer sel t d → g d = w.signer.sign C d) →
        (w.without junk).createTransaction ((w.signer.deviceWith C g).crypto C) env args ask src
          = ((w.createTransaction C env args ask src).1.without junk, .ok r) := by
  have hne := create_none hsrc h
  have hgiven := create_source (env := env) (args := args) hsrc hne
  rw [hgiven] at h
  obtain ⟨sel, change, fee, t, hwf, hb, hin, -, hall⟩ := built_any C env hshuffle args ask w us hne htx r h
  have hr := hall C rfl (fun _ => rfl) fun _ => rfl
  rw [h] at hr
  refine ⟨sel, change, fee, t, hwf, hb, hin, hr.symm, fun g junk hg => ?_⟩
  rw [resign_device, device_createTransaction, create_after]
  have hsrc' : (w.source (C.resign g) ask src).2.1 = .ok us := by rw [source_same]; exact hsrc
  rw [create_source hsrc' hne, hall (C.resign g) (resign_returnAddress _ _ _ _)
    (fun _ => resign_sanitizeArgs _ _ _ _ _ _ _) (resign_constructOutputs _ _)]
  have henc : (if sel.any (fun u => u.segwit = some true) then t.encodeExtended else t.encodeLegacy)
      = enc (sel.any (fun u => u.segwit = some true)) t := rfl
  rw [henc] at hr ⊢
  rw [asked_hex hwf _ (fun d hd => hg d (asked_signedCoins hd)) hr.symm]

/-- C101, `send`: what is handed to the services, the result and the object afterwards are the same too. -/
theorem C101_send {Amount : Type} (C : Crypto) (env : Env Amount) (hshuffle : ∀ l, (env.shuffle l).Perm l)
    (args : TxArgs Amount) (ask : Ask) (lists : Lists) (push : Service → Str → Py Bool) (w : Wallet) (src : Source)
    (us : List Unspent) (hsrc : (w.source C ask src).2.1 = .ok us) (htx : ∀ u ∈ us, TxidOk u) (r : Str)
    (h : (w.createTransaction C env args ask src).2 = .ok r) :
    ∃ (sel : List Unspent) (change : Str) (fee : Int) (t : Spec.Tx), t.WF ∧
      Built C env args w.signer us sel change fee t ∧
      ∀ (g : Bytes → Bytes) (junk : Bytes), (∀ d, Asked C w.signer sel t d → g d = w.signer.sign C d) →
        (w.without junk).send ((w.signer.deviceWith C g).crypto C) env args ask lists push src
          = ((w.send C env args ask lists push src).1.without junk, (w.send C env args ask lists push src).2) := by
  obtain ⟨sel, change, fee, t, hwf, hb, -, -, hall⟩ := C101_create C env hshuffle args ask w src us hsrc htx r h
  refine ⟨sel, change, fee, t, hwf, hb, fun g junk hg => ?_⟩
  have hnet : (w.without junk).signer.net = w.signer.net := device_net _ _
  unfold Wallet.send
  rw [hall g junk hg, hnet]
  generalize w.createTransaction C env args ask src = c at h ⊢
  obtain ⟨w', res⟩ := c
  dsimp only at h
  subst h
  rfl

/-- C101, `sign_transaction` of a transaction in hexadecimal, with a list of unspents or with the ones it fetches: only the
messages of the inputs of this transaction are signed, and of these only the ones whose coins pay to the object. -/
theorem C101_sign (C : Crypto) (readFloat : Str → PyFloat) (ask : Ask) (w : Wallet) (t : Spec.Tx) (hwf : t.WF) (segwit : Bool)
    (given : Option (List Unspent)) (us : List Unspent)
    (hus : given = some us ∧ us ≠ [] ∨ given = none ∧ (w.getUnspents C ask).2 = .ok us) (r : Str)
    (h : (w.signTransaction C readFloat ask (bytesToHex (if segwit then t.encodeExtended else t.encodeLegacy)) given).2 = .ok r)
    (g : Bytes → Bytes) (junk : Bytes) (hg : ∀ d, Asked C w.signer us t d → g d = w.signer.sign C d) :
    (w.without junk).signTransaction ((w.signer.deviceWith C g).crypto C) readFloat ask
        (bytesToHex (if segwit then t.encodeExtended else t.encodeLegacy)) given
      = ((w.signTransaction C readFloat ask
          (bytesToHex (if segwit then t.encodeExtended else t.encodeLegacy)) given).1.without junk, .ok r) := by
  have henc : (if segwit then t.encodeExtended else t.encodeLegacy) = enc segwit t := rfl
  rw [henc] at h ⊢
  have hhex : hexToBytes (bytesToHex (enc segwit t)) = .ok (enc segwit t) := hexToBytes_bytesToHex _
  obtain ⟨a1, a2⟩ := C78_hex C readFloat ask w _ _ hhex
  obtain ⟨b1, b2⟩ := C78_hex (C.resign g) readFloat ask w _ _ hhex
  rw [resign_device, device_signTransaction]
  rcases hus with ⟨rfl, hne⟩ | ⟨rfl, hu⟩
  · rw [a1 us hne] at h ⊢
    rw [b1 us hne, asked_hex hwf segwit hg h]
  · rw [resign_getUnspents] at b2
    have hsig : (w.getUnspents C ask).1.signer = w.signer := getUnspents_device_signer C w ask
    rw [hsig] at a2 b2
    rw [a2] at h ⊢
    rw [b2]
    rw [hu] at h ⊢
    exact congrArg _ (asked_hex hwf segwit hg h)

/-- C101, offline: the same for `sign_transaction` of data prepared by `prepare_transaction` from coins `us`. -/
theorem C101_offline {Amount : Type} (C : Crypto) (readFloat : Str → PyFloat) (hfloat : Spec.ReadsQuarters readFloat)
    (floats : Unspent → Bool) (env : Env Amount) (args : TxArgs Amount) (hshuffle : ∀ l, (env.shuffle l).Perm l) (w : Wallet)
    (us : List Unspent) (hne : us ≠ []) (hus : ∀ u ∈ us, Spec.Consistent u ∧ u.vsize4 < 2 ^ 50) (htx : ∀ u ∈ us, TxidOk u)
    (hmsg : args.message = none) (address : Str) (default : Option Str) (hret : returnAddress C w.signer us = .ok default)
    (hchange : default = some address ∨ ∃ l, args.leftover = some l ∧ l ≠ []) (ask ask' : Ask) (text r : Str)
    (hprep : prepareTransaction C readFloat floats env args ask w.signer.net address us = .ok text)
    (h : w.signTransaction C readFloat ask' text none = (w, .ok r)) :
    ∃ (sel : List Unspent) (change : Str) (fee : Int) (t : Spec.Tx), t.WF ∧
      Built C env args w.signer us sel change fee t ∧
      ∀ (g : Bytes → Bytes) (junk : Bytes), (∀ d, Asked C w.signer sel t d → g d = w.signer.sign C d) →
        (w.without junk).signTransaction ((w.signer.deviceWith C g).crypto C) readFloat ask' text none
          = (w.without junk, .ok r) := by
  have h1 := ((C51_offline C readFloat hfloat floats env args hshuffle w us hne hus hmsg address default hret hchange
    ask ask ask').2 text hprep).1 r |>.mpr h
  have hsrc : (w.source C ask (.given us)).2.1 = .ok us := by
    unfold Wallet.source
    dsimp only
    rw [if_neg (by simpa using hne)]
  obtain ⟨sel, change, fee, t, hwf, hb, -, -, hall⟩ :=
    C101_create C env hshuffle args ask w (.given us) us hsrc htx r (by rw [h1])
  refine ⟨sel, change, fee, t, hwf, hb, fun g junk hg => ?_⟩
  have h2 := hall g junk hg
  rw [h1] at h2
  have hnet : (w.without junk).signer.net = w.signer.net := device_net _ _
  have hret' : returnAddress ((w.signer.deviceWith C g).crypto C) (w.without junk).signer us = .ok default := by
    rw [resign_device]
    exact (device_returnAddress _ _ _ _).trans ((resign_returnAddress _ _ _ _).trans hret)
  have hprep' : prepareTransaction ((w.signer.deviceWith C g).crypto C) readFloat floats env args ask
      (w.without junk).signer.net address us = .ok text := by
    rw [hnet, device_prepareTransaction]
    exact hprep
  exact ((C51_offline _ readFloat hfloat floats env args hshuffle (w.without junk) us hne hus hmsg address default hret'
    hchange ask ask ask').2 text hprep').1 r |>.mp h2

/-! ### a case -/

/-- The payment of `Props/Create` from a legacy and a segwit coin. -/
def devicePays (C : Crypto) (junk : Bytes) : Py Str :=
  (((newWallet (.single keyB)).without junk).createTransaction C envB (argsB true) noNetwork
    (.given [plain 70000, unspentB])).2

/-- It succeeds, and a device that gives other answers makes another transaction: the messages are indeed signed. -/
example : (devicePays crypto keyB.secret).toOption.isSome = true ∧
    devicePays (((Signer.single keyB).deviceWith crypto fun _ => [1]).crypto crypto) [] ≠ devicePays crypto keyB.secret := by
  decide +kernel

open Classical in
/-- A device that signs only what it should makes the same payment. -/
example (r : Str) (h : devicePays crypto keyB.secret = .ok r) : ∃ sel t, t.WF ∧
    devicePays (((Signer.single keyB).deviceWith crypto fun d =>
      if Asked crypto (.single keyB) sel t d then crypto.sign keyB.secret d else []).crypto crypto) [] = .ok r := by
  have htx : ∀ u ∈ [plain 70000, unspentB], TxidOk u := by
    intro u hu
    rcases List.mem_cons.mp hu with rfl | hu
    · exact ⟨List.replicate 32 7, rfl, rfl⟩
    · rw [List.mem_singleton] at hu
      subst hu
      exact ⟨List.replicate 32 9, rfl, rfl⟩
  obtain ⟨sel, -, -, t, hwf, -, -, -, hall⟩ := C101_create crypto envB (fun l => List.Perm.refl l) (argsB true) noNetwork
    (newWallet (.single keyB)) (.given [plain 70000, unspentB]) _ rfl htx r h
  exact ⟨sel, t, hwf, congrArg Prod.snd (hall _ [] fun d hd => if_pos hd)⟩

end Bit
