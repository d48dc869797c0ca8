import Verif.Model.Send
import Verif.Props.Accept
import Verif.Props.Services
import Verif.Props.Rates
/-
C65: sending, that is creating, broadcasting and returning the transaction id. C66: fetching the balance
as text. C67: the transaction history of a key.
-/
namespace Bit
open Concrete

/-! ## C65 -/

theorem pushAll_cases (push : Service → Str → Py Bool) (text : Str) (success : Option Bool) (l : List Service) :
    (∃ pre s rest, l = pre ++ s :: rest ∧ (∀ p ∈ pre, Passed (push p text)) ∧ push s text = .ok true ∧
      pushAll push text success l = ((pre ++ [s]).map fun s => (s, text), .accepted)) ∨
    (∃ pre s rest e, l = pre ++ s :: rest ∧ (∀ p ∈ pre, Passed (push p text)) ∧ push s text = .error e ∧
      networkIgnored e = false ∧
      pushAll push text success l = ((pre ++ [s]).map fun s => (s, text), .raised e)) ∨
    ((∀ p ∈ l, Passed (push p text)) ∧ ∃ r, (r = .failed ∨ r = .unreachable) ∧
      pushAll push text success l = (l.map fun s => (s, text), r)) := by
  induction l generalizing success with
  | nil =>
    right; right
    refine ⟨by simp, if success = some false then .failed else .unreachable, ?_, rfl⟩
    split <;> simp
  | cons s l ih =>
    have next : ∀ success' : Option Bool, Passed (push s text) →
        pushAll push text success (s :: l) =
          ((s, text) :: (pushAll push text success' l).1, (pushAll push text success' l).2) →
        (∃ pre s' rest, s :: l = pre ++ s' :: rest ∧ (∀ p ∈ pre, Passed (push p text)) ∧ push s' text = .ok true ∧
          pushAll push text success (s :: l) = ((pre ++ [s']).map fun s => (s, text), .accepted)) ∨
        (∃ pre s' rest e, s :: l = pre ++ s' :: rest ∧ (∀ p ∈ pre, Passed (push p text)) ∧ push s' text = .error e ∧
          networkIgnored e = false ∧
          pushAll push text success (s :: l) = ((pre ++ [s']).map fun s => (s, text), .raised e)) ∨
        ((∀ p ∈ s :: l, Passed (push p text)) ∧ ∃ r, (r = .failed ∨ r = .unreachable) ∧
          pushAll push text success (s :: l) = ((s :: l).map fun s => (s, text), r)) := by
      intro success' hp heq
      rw [heq]
      rcases ih success' with ⟨pre, s', rest, rfl, h2, h3, h4⟩ | ⟨pre, s', rest, e, rfl, h2, h3, h4, h5⟩ | ⟨h1, r, h2, h3⟩
      · left
        refine ⟨s :: pre, s', rest, rfl, ?_, h3, by rw [h4]; rfl⟩
        intro p hp'
        rcases List.mem_cons.mp hp' with rfl | hp'
        · exact hp
        · exact h2 p hp'
      · right; left
        refine ⟨s :: pre, s', rest, e, rfl, ?_, h3, h4, by rw [h5]; rfl⟩
        intro p hp'
        rcases List.mem_cons.mp hp' with rfl | hp'
        · exact hp
        · exact h2 p hp'
      · right; right
        refine ⟨?_, r, h2, by rw [h3]; rfl⟩
        intro p hp'
        rcases List.mem_cons.mp hp' with rfl | hp'
        · exact hp
        · exact h1 p hp'
    cases hs : push s text with
    | ok b =>
      cases b with
      | true =>
        left
        exact ⟨[], s, l, rfl, by simp, hs, by simp [pushAll, hs]⟩
      | false => exact next (some false) (Or.inl hs) (by simp [pushAll, hs])
    | error e =>
      cases hi : networkIgnored e with
      | true => exact next success (Or.inr ⟨e, hs, hi⟩) (by simp [pushAll, hs, hi])
      | false =>
        right; left
        exact ⟨[], s, l, e, rfl, by simp, hs, hi, by simp [pushAll, hs, hi]⟩

/-- C65. What a call of `send` does, in every case. If the transaction cannot be created, no service is called and
the call fails as the creation does. Otherwise the services of the network of the key are called in order, all with
the text of the created transaction, up to the first one that accepts it or fails in an unexpected way. The call
returns the computed transaction id if a service accepts; it raises the unexpected failure, or a `ConnectionError`
if no service accepts. The key object changes as it does when the transaction is only created. -/
theorem C65_send_cases {Amount : Type} (C : Crypto) (env : Env Amount) (args : TxArgs Amount) (ask : Ask)
    (lists : Lists) (push : Service → Str → Py Bool) (w : Wallet) (src : Source) :
    let created := w.createTransaction C env args ask src
    let sent := w.send C env args ask lists push src
    let l := lists w.signer.net .broadcast
    sent.1 = created.1 ∧
    ((∃ e, created.2 = .error e ∧ sent.2 = ([], .error e)) ∨
     ∃ text, created.2 = .ok text ∧
      ((∃ pre s rest, l = pre ++ s :: rest ∧ (∀ p ∈ pre, Passed (push p text)) ∧ push s text = .ok true ∧
          sent.2 = ((pre ++ [s]).map fun s => (s, text), calcTxid C text)) ∨
       (∃ pre s rest e, l = pre ++ s :: rest ∧ (∀ p ∈ pre, Passed (push p text)) ∧ push s text = .error e ∧
          networkIgnored e = false ∧ sent.2 = ((pre ++ [s]).map fun s => (s, text), .error e)) ∨
       ((∀ p ∈ l, Passed (push p text)) ∧
          sent.2 = (l.map fun s => (s, text), .error .connectionError)))) := by
  intro created sent l
  rcases hc : w.createTransaction C env args ask src with ⟨w', r⟩
  have hcr : created = (w', r) := hc
  cases r with
  | error e =>
    have hs : sent = (w', [], .error e) := by
      show w.send C env args ask lists push src = _
      unfold Wallet.send
      rw [hc]
    rw [hs, hcr]
    exact ⟨rfl, Or.inl ⟨e, rfl, rfl⟩⟩
  | ok text =>
    have hs : sent = (w', (pushAll push text none l).1,
        match (pushAll push text none l).2.toPy with
        | .error e => .error e
        | .ok _ => calcTxid C text) := by
      show w.send C env args ask lists push src = _
      unfold Wallet.send
      rw [hc]
      rfl
    rw [hs, hcr]
    refine ⟨rfl, Or.inr ⟨text, rfl, ?_⟩⟩
    rcases pushAll_cases push text none l with ⟨pre, s, rest, h1, h2, h3, h4⟩ | ⟨pre, s, rest, e, h1, h2, h3, h4, h5⟩ |
      ⟨h1, r, h2, h3⟩
    · rw [h4]
      exact Or.inl ⟨pre, s, rest, h1, h2, h3, rfl⟩
    · rw [h5]
      exact Or.inr (Or.inl ⟨pre, s, rest, e, h1, h2, h3, h4, rfl⟩)
    · rw [h3]
      refine Or.inr (Or.inr ⟨h1, ?_⟩)
      rcases h2 with rfl | rfl <;> rfl

/-- A transaction was sent: the services `pre` did not take it, `s` did; the id returned is its transaction id,
that is the double SHA-256 of the serialisation without witnesses, reversed, in hexadecimal. -/
structure SentBy (C : Crypto) (push : Service → Str → Py Bool) (l : List Service) (t : Spec.Tx)
    (calls : List (Service × Str)) (id : Str) : Prop where
  wf : t.WF
  accepted : ∃ pre s rest, l = pre ++ s :: rest ∧ (∀ p ∈ pre, Passed (push p (bytesToHex t.encode))) ∧
    push s (bytesToHex t.encode) = .ok true ∧ calls = (pre ++ [s]).map fun s => (s, bytesToHex t.encode)
  id : id = bytesToHex (t.txidWith C.doubleSha256).reverse

/-- C65. If `send` of a key with explicit unspents of its own returns, then what it returned is the id of a
transaction that a service of its network accepted, which pays what was asked for (`Built`), and whose inputs are all accepted
by the script interpreter as spending the given unspents. -/
theorem C65_sent {Amount : Type} (C : Crypto) (k : PrivKey) (hk : KeyLaws C k) (env : Env Amount)
    (hshuffle : ∀ l, (env.shuffle l).Perm l) (args : TxArgs Amount) (ask : Ask) (lists : Lists)
    (push : Service → Str → Py Bool) (w : Wallet)
    (hw : w.signer = .single k) (us : List Unspent) (hne : us ≠ []) (htx : ∀ u ∈ us, TxidOk u) (hd : Distinct us)
    (hown : ∀ u ∈ us, TypeFits C k u) (id : Str)
    (h : (w.send C env args ask lists push (.given us)).2.2 = .ok id) :
    ∃ (t : Spec.Tx) (sel : List Unspent) (change : Str) (fee : Int),
      SentBy C push (lists k.net .broadcast) t (w.send C env args ask lists push (.given us)).2.1 id ∧
      Built C env args (.single k) us sel change fee t ∧
      ∀ (j : Nat) (u : Unspent) (i : Spec.TxInput), sel[j]? = some u → t.inputs[j]? = some i →
        ∃ script, u.script = bytesToHex script ∧ Spec.accepts C.hashing t j i script u.amount.toNat = true := by
  obtain ⟨-, hc⟩ := C65_send_cases C env args ask lists push w (.given us)
  rcases hc with ⟨e, -, h2⟩ | ⟨text, h1, hc⟩
  · rw [h2] at h; cases h
  rcases hc with ⟨pre, s, rest, g1, g2, g3, g4⟩ | ⟨pre, s, rest, e, -, -, -, -, g5⟩ | ⟨-, g2⟩
  · obtain ⟨sel, change, fee, t, h3, h4, -, -, h5, h6⟩ := C63_create C k hk env hshuffle args ask w hw us hne htx hd
      (fun u hu _ => hown u hu) text h1
    have h5 := h5 fun u hu => (hown u hu).pays
    subst h5
    rw [g4] at h ⊢
    rw [hw] at g1
    refine ⟨t, sel, change, fee, ⟨h3, ⟨pre, s, rest, g1, g2, g3, rfl⟩, ?_⟩, h4, ?_⟩
    · have := calcTxid_of C t h3 (!t.inputs.all fun i => i.witness.isEmpty)
      have e : (if (!t.inputs.all fun i => i.witness.isEmpty) = true then t.encodeExtended else t.encodeLegacy) =
          t.encode := by
        unfold Spec.Tx.encode
        cases t.inputs.all fun i => i.witness.isEmpty <;> rfl
      rw [e] at this
      dsimp only at h
      rw [this] at h
      exact (Except.ok.inj h).symm
    · intro j u i hu hi
      obtain ⟨script, hs, hsp⟩ := (h6 j u i hu hi).1 (hown u (h4.selected.subset (List.mem_of_getElem? hu))).pays
      exact ⟨script, hs, accepted hk.hash hsp⟩
  · rw [g5] at h; cases h
  · rw [g2] at h; cases h

/-- The network's answers for the addresses of the key are true: they list coins whose output scripts pay to the key,
or to its witness program inside a script hash. -/
structure TrueAnswers (C : Crypto) (k : PrivKey) (ask : Ask) : Prop where
  legacy : ∀ a l, k.address C = .ok a → ask a = .ok (some l) → ∀ u ∈ l,
    u.script = bytesToHex (Spec.p2pkhScript (C.ripemd160 (C.sha256 (k.publicKey C))))
  segwit : ∀ a l, k.segwitAddress C = .ok (some a) → ask a = .ok (some l) → ∀ u ∈ l,
    u.script = bytesToHex (Spec.p2shScript
      (C.ripemd160 (C.sha256 (Spec.witnessScript 0 (C.ripemd160 (C.sha256 (k.publicKey C)))))))

/-- With no coins of its own the key asks the network. -/
theorem create_fetched {Amount : Type} {C : Crypto} {env : Env Amount} {args : TxArgs Amount} {ask : Ask}
    {w w' : Wallet} {us : List Unspent} (hempty : w.unspents = []) (hg : w.getUnspents C ask = (w', .ok us))
    (hne : us ≠ []) : (w.createTransaction C env args ask .stored).2 =
      (w.createTransaction C env args ask (.given us)).2 := by
  have hsig : w'.signer = w.signer := by
    have := getUnspents_signer C ask w
    rwa [hg] at this
  have h1 : w.source C ask .stored = (w', .ok us, true) := by
    unfold Wallet.source
    dsimp only
    rw [hempty, if_pos List.isEmpty_nil, hg]
  have h2 : w.source C ask (.given us) = (w, .ok us, false) := by
    unfold Wallet.source
    dsimp only
    rw [if_neg (by simpa using hne)]
  unfold Wallet.createTransaction
  rw [h1, h2]
  dsimp only
  rw [hsig]
  cases returnAddress C w.signer us with
  | error e => rfl
  | ok d =>
    dsimp only
    cases sanitizeArgs C env args us d w.signer.net with
    | error e => rfl
    | ok p => rfl

theorem forall₂_right {α β : Type} {R : α → β → Prop} {l : List α} {l' : List β} (h : List.Forall₂ R l l')
    {b : β} (hb : b ∈ l') : ∃ a ∈ l, R a b := by
  induction h with
  | nil => cases hb
  | cons hab _ ih =>
    rcases List.mem_cons.mp hb with rfl | hb
    · exact ⟨_, List.mem_cons_self .., hab⟩
    · obtain ⟨a, ha, hr⟩ := ih hb
      exact ⟨a, List.mem_cons_of_mem _ ha, hr⟩

/-- Coins fetched from a true network get the type that fits their script. -/
theorem fetched_fits {C : Crypto} {k : PrivKey} (hk : KeyLaws C k) {ask : Ask} (ht : TrueAnswers C k ask)
    {w w' : Wallet} (hw : w.signer = .single k) {us : List Unspent} (hg : w.getUnspents C ask = (w', .ok us)) :
    ∀ u ∈ us, TypeFits C k u := by
  obtain ⟨a, seg, l₁, l₂, us₁, us₂, v₁, v₂, h1, h2, h3, h4, h5, -, rfl, h7, h8, -⟩ := C52_refresh C ask w w' us hg
  rw [hw] at h1 h2 h7 h8
  intro u hu
  rcases List.mem_append.mp hu with hu | hu
  · left
    obtain ⟨v, hv, hr⟩ := forall₂_right h7 hu
    refine ⟨?_, ?_⟩
    · unfold Unspent.isSegwit
      rw [hr.segwit]
      unfold legacyKind
      dsimp only
      split <;> rfl
    · rw [hr.script]
      exact ht.legacy a l₁ h1 h3 v hv
  · right
    obtain ⟨v, hv, hr⟩ := forall₂_right h8 hu
    cases hseg : seg with
    | none => rw [h4 hseg] at hv; cases hv
    | some a' =>
      rw [hseg] at h2
      refine ⟨?_, ?_, ?_⟩
      · unfold Unspent.isSegwit
        rw [hr.segwit]
        rfl
      · have hp := hk.pub
        cases hc : k.compressed with
        | true => rfl
        | false =>
          rw [hc] at hp
          have : k.segwitAddress C = .ok none := by
            unfold PrivKey.segwitAddress PrivKey.isCompressed
            rw [hp]; rfl
          rw [show (Signer.single k).segwitAddress C = k.segwitAddress C from rfl, this] at h2
          cases h2
      · rw [hr.script]
        exact ht.segwit a' l₂ h2 (h5 a' hseg) v hv

/-- C65, end to end. A key without stored coins fetches them. If the network's answers are true, with
transaction ids of 32 bytes and no outpoint twice, and `send` returns, then what it returned is the id of a
transaction that a service of the key's network accepted, that pays what was asked for, and whose inputs are all accepted
by the script interpreter. -/
theorem C65_sent_fetched {Amount : Type} (C : Crypto) (k : PrivKey) (hk : KeyLaws C k) (env : Env Amount)
    (hshuffle : ∀ l, (env.shuffle l).Perm l) (args : TxArgs Amount) (ask : Ask) (ht : TrueAnswers C k ask)
    (lists : Lists) (push : Service → Str → Py Bool) (w : Wallet) (hw : w.signer = .single k)
    (hempty : w.unspents = []) (us : List Unspent) (hus : (w.getUnspents C ask).2 = .ok us)
    (htx : ∀ u ∈ us, TxidOk u) (hd : Distinct us) (id : Str)
    (h : (w.send C env args ask lists push .stored).2.2 = .ok id) :
    ∃ (t : Spec.Tx) (sel : List Unspent) (change : Str) (fee : Int),
      SentBy C push (lists k.net .broadcast) t (w.send C env args ask lists push .stored).2.1 id ∧
      Built C env args (.single k) us sel change fee t ∧
      ∀ (j : Nat) (u : Unspent) (i : Spec.TxInput), sel[j]? = some u → t.inputs[j]? = some i →
        ∃ script, u.script = bytesToHex script ∧ Spec.accepts C.hashing t j i script u.amount.toNat = true := by
  rcases hg : w.getUnspents C ask with ⟨w', r⟩
  rw [hg] at hus
  dsimp only at hus
  subst hus
  have hne : us ≠ [] := by
    rintro rfl
    obtain ⟨-, hc⟩ := C65_send_cases C env args ask lists push w .stored
    rcases hc with ⟨e, -, h2⟩ | ⟨text, h1, -⟩
    · rw [h2] at h; cases h
    · have h1' : w.source C ask .stored = (w', .ok [], true) := by
        unfold Wallet.source
        dsimp only
        rw [hempty, if_pos List.isEmpty_nil, hg]
      unfold Wallet.createTransaction at h1
      rw [h1'] at h1
      dsimp only at h1
      split at h1
      · cases h1
      · rename_i d hd
        have : ∃ e, sanitizeArgs C env args [] d w'.signer.net = .error e := by
          unfold sanitizeArgs sanitizeTxData
          cases convertOutputs env.conv args.outputs with
          | error e => exact ⟨e, rfl⟩
          | ok o => exact ⟨_, rfl⟩
        obtain ⟨e, he⟩ := this
        rw [he] at h1
        cases h1
  have hcr := create_fetched (env := env) (args := args) hempty hg hne
  have hsend : (w.send C env args ask lists push .stored).2 = (w.send C env args ask lists push (.given us)).2 := by
    unfold Wallet.send
    rcases h1 : w.createTransaction C env args ask .stored with ⟨w1, r1⟩
    rcases h2 : w.createTransaction C env args ask (.given us) with ⟨w2, r2⟩
    rw [h1, h2] at hcr
    dsimp only at hcr
    subst hcr
    cases r1 with
    | error e => rfl
    | ok text => rfl
  rw [hsend] at h ⊢
  have hfit := fetched_fits hk ht hw hg
  exact C65_sent C k hk env hshuffle args ask lists push w hw us hne htx hd
    hfit id h

/-- A case: the sample key fetches three coins and sends 20000 satoshi; Blockchair times out, Blockstream takes the
transaction, and the others are not called. -/
def pushB (first : Py Bool) (others : Py Bool) : Service → Str → Py Bool := fun s _ =>
  if s = .blockchair then first else others

def sendB (first others : Py Bool) : List (Service × Str) × Py Str :=
  ((newWallet (.single keyB)).send crypto envB (argsB true) (askB (.ok (some [unspentBDefault]))) initialLists
    (pushB first others) .stored).2

example : (sendB (.error .requestsTimeout) (.ok true)).1.map Prod.fst = [.blockchair, .blockstream] ∧
    (sendB (.error .requestsTimeout) (.ok true)).2.toOption.isSome = true := by decide +kernel

/-- The sample meets the hypothesis on the network. -/
example : TrueAnswers crypto keyB (askB (.ok (some [unspentBDefault]))) := by
  constructor
  · intro a l ha hl u hu
    unfold askB at hl
    rw [if_pos (show (Signer.single keyB).address crypto = .ok a from ha)] at hl
    cases hl
    rcases List.mem_cons.mp hu with rfl | hu
    · decide +kernel
    · rw [List.mem_singleton] at hu
      subst hu
      decide +kernel
  · intro a l ha hl u hu
    unfold askB at hl
    have hne : (Signer.single keyB).address crypto ≠ .ok a := by
      intro e
      have : (Signer.single keyB).address crypto ≠
          .ok (((Signer.single keyB).segwitAddress crypto |>.toOption |>.getD none).getD []) := by decide +kernel
      rw [show (Signer.single keyB).segwitAddress crypto = keyB.segwitAddress crypto from rfl, ha] at this
      exact this e
    rw [if_neg hne] at hl
    cases hl
    rw [List.mem_singleton] at hu
    subst hu
    decide +kernel

/-- Limitation. A `ConnectionError` does not tell that the transaction is not on the network: if the first service
times out (perhaps after taking it) and the others refuse it (perhaps because they know it already), the call fails
although every service was given the transaction. -/
theorem C65_error_not_conclusive :
    (sendB (.error .requestsTimeout) (.ok false)).2 = .error .connectionError ∧
    ∃ text, (sendB (.error .requestsTimeout) (.ok false)).1 =
      (initialLists .main .broadcast).map fun s => (s, text) := by
  refine ⟨by decide +kernel, ((sendB (.error .requestsTimeout) (.ok false)).1.map Prod.snd).headD [], by decide +kernel⟩

/-! ## C66 -/

/-- C66. If fetching succeeds, the balance returned in a bitcoin unit is the exact decimal number of units of the sum
of all coins that the network reports for the two addresses, and it is the balance kept in the object. The cache holds
no rate for the unit yet, or its fixed rate. -/
theorem C66_get_balance (C : Crypto) (ask : Ask) (prec : Nat) (hp : 9 ≤ prec) (limit now : Int)
    (answers : List (Py Int)) (unit : Str) (k : Nat) (hu : (unit, k) ∈ bitcoinUnits) (caches : RateCaches)
    (hcache : (caches unit).satoshis = none ∨ (caches unit).satoshis = some ((10 ^ k : Nat) : Int))
    (w w' : Wallet) (us : List Unspent) (hus : w.getUnspents C ask = (w', .ok us)) (total : Nat)
    (htotal : (us.map Unspent.amount).sum = total) (hsmall : total < 10 ^ prec) :
    ∃ (address : Str) (segwit : Option Str) (l₁ l₂ : List Unspent) (text : Str),
      w.signer.address C = .ok address ∧ w.signer.segwitAddress C = .ok segwit ∧ ask address = .ok (some l₁) ∧
      (segwit = none → l₂ = []) ∧ (∀ a, segwit = some a → ask a = .ok (some l₂)) ∧
      (total : Int) = (l₁.map Unspent.amount).sum + (l₂.map Unspent.amount).sum ∧
      (w.getBalance C ask prec limit now answers unit caches).1 = w' ∧ w'.balance = total ∧
      (w.getBalance C ask prec limit now answers unit caches).2.2 = .ok text ∧
      Spec.Denotes text ((total : ℚ) / 10 ^ k) := by
  obtain ⟨a, seg, l₁, l₂, us₁, us₂, v₁, v₂, h1, h2, h3, h4, h5, -, -, -, -, -, h9, h10, h11⟩ :=
    C52_refresh C ask w w' us hus
  obtain ⟨hr, hpl⟩ := unit_rate unit k hu answers
  have hb : w'.balance = total := by rw [h11, h9, htotal]
  obtain ⟨text, ht, hden, -⟩ := C58_roundtrip prec (by omega) answers answers unit k total hu hsmall
  have hk : k ≤ 8 := by
    simp only [bitcoinUnits, List.mem_cons, Prod.mk.injEq, List.not_mem_nil, or_false] at hu
    rcases hu with ⟨-, rfl⟩ | ⟨-, rfl⟩ | ⟨-, rfl⟩ | ⟨-, rfl⟩ <;> omega
  have hfmt := cached_formatting prec (by omega) limit now answers unit caches ((10 ^ k : Nat) : Int) k total hpl
    (by
      rcases hcache with hc | hc
      · exact Or.inr ⟨by unfold CachedRate.hit; rw [hc], hr⟩
      · unfold CachedRate.hit
        rw [hc]
        dsimp only
        rw [if_neg (by positivity)]
        split
        · exact Or.inr ⟨rfl, hr⟩
        · exact Or.inl rfl)
    (by
      rw [Int.natAbs_natCast]
      exact Nat.pow_lt_pow_right (by norm_num) (by omega))
  have hft : formatAmount prec total ((10 ^ k : Nat) : Int) k = .ok text := by
    unfold satoshiToCurrency at ht
    rw [hr, hpl] at ht
    exact ht
  refine ⟨a, seg, l₁, l₂, text, h1, h2, h3, h4, h5, by rw [← hb, h10], ?_, hb, ?_, hden⟩
  · unfold Wallet.getBalance
    rw [hus]
  · unfold Wallet.getBalance
    rw [hus]
    dsimp only
    rw [hb, hfmt, hft]

/-- A case: three coins, shown in millibitcoin. -/
example : ((newWallet (.single keyB)).getBalance crypto (askB (.ok (some [unspentBDefault]))) 28 60 0 []
    "mbtc".toList (fun _ => ⟨none, 0⟩)).2.2 = .ok "1.55".toList := by decide +kernel

/-- C66. If fetching fails, so does the query, with the same error; the cache of rates stays as it is. -/
theorem C66_fetch_error (C : Crypto) (ask : Ask) (prec : Nat) (limit now : Int) (answers : List (Py Int))
    (currency : Str) (caches : RateCaches) (w : Wallet) (e : PyErr) (h : (w.getUnspents C ask).2 = .error e) :
    (w.getBalance C ask prec limit now answers currency caches).2 = (caches, .error e) := by
  unfold Wallet.getBalance
  rcases hg : w.getUnspents C ask with ⟨w', r⟩
  rw [hg] at h
  dsimp only at h
  subst h
  rfl

/-! ## C67 -/

/-- C67. If the call returns, the result is kept in the object and consists of the ids reported for the
legacy address followed by those for the segwit address, if there is one: nothing else, nothing missing, and
nothing of what was kept before. -/
theorem C67_transactions (C : Crypto) (ask : Str → Py (List Str)) (s : Signer) (stored kept r : List Str)
    (h : s.getTransactions C ask stored = (kept, .ok r)) :
    kept = r ∧ ∃ (address : Str) (segwit : Option Str) (l₁ l₂ : List Str),
      s.address C = .ok address ∧ s.segwitAddress C = .ok segwit ∧ ask address = .ok l₁ ∧
      (segwit = none → l₂ = []) ∧ (∀ a, segwit = some a → ask a = .ok l₂) ∧ r = l₁ ++ l₂ := by
  unfold Signer.getTransactions at h
  cases ha : s.address C with
  | error e => rw [ha] at h; cases h
  | ok a =>
    rw [ha] at h
    dsimp only at h
    cases h1 : ask a with
    | error e => rw [h1] at h; cases h
    | ok l₁ =>
      rw [h1] at h
      dsimp only at h
      cases hs : s.segwitAddress C with
      | error e => rw [hs] at h; cases h
      | ok seg =>
        rw [hs] at h
        cases seg with
        | none =>
          cases h
          exact ⟨rfl, a, none, _, [], rfl, rfl, h1, fun _ => rfl, by simp, by simp⟩
        | some a' =>
          dsimp only at h
          cases h2 : ask a' with
          | error e => rw [h2] at h; cases h
          | ok l₂ =>
            rw [h2] at h
            cases h
            refine ⟨rfl, a, some a', l₁, l₂, rfl, rfl, h1, by simp, ?_, rfl⟩
            intro b hb
            cases hb
            exact h2

/-- C67. A failure of the first query leaves the kept list as it was; a failure of the second leaves only the ids of
the first address in it. -/
theorem C67_failure (C : Crypto) (ask : Str → Py (List Str)) (s : Signer) (stored kept : List Str) (e : PyErr)
    (h : s.getTransactions C ask stored = (kept, .error e)) :
    kept = stored ∨ ∃ (address : Str), s.address C = .ok address ∧ ask address = .ok kept := by
  unfold Signer.getTransactions at h
  cases ha : s.address C with
  | error e => rw [ha] at h; cases h; exact Or.inl rfl
  | ok a =>
    rw [ha] at h
    dsimp only at h
    cases h1 : ask a with
    | error e => rw [h1] at h; cases h; exact Or.inl rfl
    | ok l₁ =>
      right
      refine ⟨a, rfl, ?_⟩
      rw [h1] at h ⊢
      dsimp only at h
      cases hs : s.segwitAddress C with
      | error e => rw [hs] at h; cases h; rfl
      | ok seg =>
        rw [hs] at h
        cases seg with
        | none => cases h
        | some a' =>
          dsimp only at h
          cases h2 : ask a' with
          | error e => rw [h2] at h; cases h; rfl
          | ok l₂ => rw [h2] at h; cases h

def historyB (second : Py (List Str)) : Str → Py (List Str) := fun a =>
  if (Signer.single keyB).address crypto = .ok a then .ok [str "aa", str "bb"] else second

example : (Signer.single keyB).getTransactions crypto (historyB (.ok [str "cc"])) [str "old"] =
    ([str "aa", str "bb", str "cc"], .ok [str "aa", str "bb", str "cc"]) := by decide +kernel

/-- Limitation. A transaction that concerns both addresses of the key is listed twice. -/
theorem C67_listed_twice : (Signer.single keyB).getTransactions crypto (historyB (.ok [str "bb"])) [] =
    ([str "aa", str "bb", str "bb"], .ok [str "aa", str "bb", str "bb"]) := by decide +kernel

end Bit
