import Verif.Props.Node
import Verif.Props.Program
/-
C88, C90, C91, C97 and C98 for contracts: payments of a contract go through, over services, over nodes and in programs.
-/
namespace Bit
open Concrete
open Bit.Spec (Gives Serves Converted FeeUsed ProgramDigits AmountIs netOf name)
open _root_.Spec.Ledger
variable {Amount : Type}

/-- C88. Creating the transaction of a contract needs no assumption on signatures: if the payment is in order and the given
coins can pay for it, it is created. -/
theorem C88_contract_creates (C : Crypto) (s : MultiSig) (hs : ContractLaws C s) (hadd : OrdinaryAddresses C (.multi s))
    (hk : SignerLaws C s s.key) (env : Env Amount) (hshuffle : ∀ l, (env.shuffle l).Perm l) (args : TxArgs Amount)
    (us : List Unspent) (hus : CoinsOk us) (amounts : List Int) (scripts : List Bytes) (changeScript : Bytes)
    (ho : InOrder C env args (.multi s) us amounts scripts changeScript)
    (h : needed env args us amounts scripts changeScript ≤ (us.map Unspent.amount).sum) (ask : Ask) (w : Wallet)
    (hw : w.signer = .multi s) : ∃ r, (w.createTransaction C env args ask (.given us)).2 = .ok r := by
  suffices hsign : ∀ sel : List Unspent, sel.Subperm us → ∀ t : Spec.Tx, t.WF →
      List.Forall₂ Takes (signedCoins args.replaceByFee sel) t.inputs → (∀ i ∈ t.inputs, i.script = [] ∧ i.witness = []) →
      ∃ r, signTransactionHex C (.multi s) (bytesToHex (enc ((signedCoins args.replaceByFee sel).any Unspent.isSegwit) t))
        (signedCoins args.replaceByFee sel) = .ok r ∧ True by
    obtain ⟨sel, r, -, h2, -⟩ := create_of (P := fun _ _ => True) hshuffle hus (contract_addresses hs hadd) ho h hsign hw (ask := ask)
    exact ⟨r, h2⟩
  intro sel hsub t hwf htk hun
  have hok : ∀ u ∈ signedCoins args.replaceByFee sel, CoinOk u := by
    intro v hv
    obtain ⟨u, hu, rfl | rfl⟩ := signedCoins_mem hv
    · exact hus.coin _ (hsub.subset hu)
    · exact (hus.coin u (hsub.subset hu)).optIn
  have hw' : (signedCoins args.replaceByFee sel).any Unspent.isSegwit = true ∨
      ∀ u ∈ signedCoins args.replaceByFee sel, u.isSegwit = false := by
    cases hb : (signedCoins args.replaceByFee sel).any Unspent.isSegwit with
    | true => exact .inl rfl
    | false => exact .inr fun u hu => by simpa using List.any_eq_false.mp hb u hu
  have hfr : Fresh C s (signedCoins args.replaceByFee sel) t :=
    Unsigned.fresh (fun i hi _ _ _ => hun i hi) hs hwf
  have hsign := (multi_sign_hex (k := s.key) (done := []) hs (by simp) hk (by simp) (by have := hs.pos; simp; omega) hw' hwf hfr
    (fun h => absurd rfl h)).mpr ⟨multi_can hs t hadd
      (fun u hu => by obtain ⟨b, -, hb⟩ := (hok u hu).txid; exact ⟨b, hb⟩)
      (fun u hu => (hok u hu).index) fun u hu => (hok u hu).amount, rfl⟩
  rw [multiTx_nil] at hsign
  exact ⟨_, hsign, trivial⟩

/-- C90. On the chain: if networks report the unspent outputs of the contract as they are and answer, the payments are in order
and the contract holds enough to pay for them, then one holder can create the transaction, the other co-signers needed can all
sign it, and a node takes the result. -/
theorem C90_pays (C : Crypto) (s : MultiSig) (hs : ContractLaws C s) (hadd : OrdinaryAddresses C (.multi s))
    (htwo : TwoScripts C s) (L : Spec.Ledger) (hL : L.WF) (hsane : Sane L) (env : Env Amount) (args : TxArgs Amount)
    (hpay : args.outputs ≠ []) (ask : Ask) (w w' : Wallet) (others : List Cosigner) (hp : Party C s L env args ask w others)
    (hseq : ∀ a l, (Signer.multi s).address C = .ok a ∨ (Signer.multi s).segwitAddress C = .ok (some a) →
      ask a = .ok (some l) → ∀ u ∈ l, 0 ≤ u.sequence ∧ u.sequence < 2 ^ 32)
    (hans : ∀ c ∈ others, ∃ us, (c.wallet.getUnspents C c.ask).2 = .ok us) (us : List Unspent)
    (hg : w.getUnspents C ask = (w', .ok us)) (amounts : List Int) (scripts : List Bytes) (changeScript : Bytes)
    (ho : InOrder C env args (.multi s) us amounts scripts changeScript)
    (h : needed env args us amounts scripts changeScript ≤ heldBy (contractScripts C s) L) (readFloat : Str → PyFloat) :
    ∃ (r : Str) (t : Spec.Tx), (w.createTransaction C env args ask (.given [])).2 = .ok r ∧
      cosignOnline C readFloat others r = .ok (bytesToHex t.encode) ∧ Valid C.hashing L t ∧
      ∀ c ∈ L.spentBy t, c.script ∈ contractScripts C s := by
  obtain ⟨cs, p1, p2, -, -⟩ := fetched_contract hs.toContractShape hp.honest hp.signer hg
  have hnd := scripts_nodup (contractScripts_nodup htwo) hL
  have hsum : (us.map Unspent.amount).sum = heldBy (contractScripts C s) L := by
    rw [tells_sum p2, worth_perm p1, scripts_worth]
  have hsub : cs.Subperm L := by
    refine p1.subperm.trans (List.subperm_of_subset (List.Nodup.of_map _ hnd) ?_)
    intro c hc
    obtain ⟨_, _, h1⟩ := List.mem_flatMap.mp hc
    exact List.mem_of_mem_filter h1
  have hheld : heldBy (contractScripts C s) L ≤ 2100000000000000 := by
    rw [← scripts_worth, ← worth_perm p1]
    exact (subperm_worth hsub).trans hsane.worth
  have hlen := p2.length_eq
  have hneeded : amounts.sum ≤ needed env args us amounts scripts changeScript := by
    unfold needed
    have h1 := ho.fee
    have h2 := feeFor_nonneg ho.fee (sizesOf scripts ((messageLength args.message args.messageIsHex + 79) / 80) changeScript) us
    split <;> omega
  have hus : CoinsOk us := by
    refine ⟨?_, ?_, ?_, ?_⟩
    · rintro rfl
      have h0 := sum_ge_length ho.positive
      have h1 := ho.cost.amounts.length_eq
      have h2 : args.outputs.length ≠ 0 := by simpa using hpay
      have h3 : (0 : Int) = heldBy (contractScripts C s) L := hsum
      omega
    · intro u hu
      obtain ⟨c, hc, htell⟩ := forall₂_right p2 hu
      have hcL := hsub.subset hc
      refine tells_coin htell (hL.txid c hcL) (hsane.index c hcL) ?_
        (fetched_sequences (by rw [hp.signer]; exact hseq) hg u hu)
      have h1 : c.value ≤ Spec.Ledger.worth L := List.le_sum_of_mem (List.mem_map_of_mem hcL)
      have h2 := hsane.worth
      omega
    · have := hsub.length_le
      have := hsane.count
      omega
    · rw [hsum]
      omega
  obtain ⟨r, hr⟩ := C88_contract_creates C s hs hadd (hp.laws _ List.mem_cons_self) env hp.shuffle args us hus amounts scripts
    changeScript ho (by rw [hsum]; exact h) ask w hp.signer
  have hr' := create_listed hg hus.nonempty hr
  obtain ⟨r', h'⟩ := C90_signed C s hs htwo L hL hsane.index env args ask w others hp hans readFloat r hr'
  obtain ⟨t, -, rfl, h3, h4, h5⟩ := C90_valid C s hs htwo L hL hsane.index env args ho.fee ask w others hp readFloat r r' hr' h'
  exact ⟨r, t, hr', h', h5 (h4 hpay), h3⟩

/-! ### Networks that answer -/

/-- A question on the address is answered with the unspent outputs with this script on the chain. -/
def Listed (L : Spec.Ledger) (ask : Ask) (address : Str) (script : Bytes) : Prop :=
  ∃ us, ask address = .ok (some us) ∧ (∃ cs, cs.Perm (L.coinsOf script) ∧ List.Forall₂ Tells cs us) ∧
    ∀ u ∈ us, u.sequence = 0xffffffff

/-- This is so for the addresses of a contract. -/
structure ListedContract (C : Crypto) (s : MultiSig) (L : Spec.Ledger) (ask : Ask) : Prop where
  legacy : ∀ a, (Signer.multi s).address C = .ok a →
    Listed L ask a (Spec.p2shScript (C.ripemd160 (C.sha256 s.redeemscript)))
  segwit : ∀ a, (Signer.multi s).segwitAddress C = .ok (some a) →
    Listed L ask a (Spec.p2shScript (C.ripemd160 (C.sha256 (Spec.witnessScript 0 (C.sha256 s.redeemscript)))))

theorem Listed.told {L : Spec.Ledger} {ask : Ask} {address : Str} {script : Bytes} (h : Listed L ask address script)
    {l : List Unspent} (hl : ask address = .ok (some l)) :
    (∃ cs, cs.Perm (L.coinsOf script) ∧ List.Forall₂ Tells cs l) ∧ ∀ u ∈ l, u.sequence = 0xffffffff := by
  obtain ⟨us, e, hu⟩ := h
  rw [hl] at e
  rw [Option.some.inj (Except.ok.inj e)]
  exact hu

theorem ListedContract.honest {C : Crypto} {s : MultiSig} {L : Spec.Ledger} {ask : Ask} (h : ListedContract C s L ask) :
    HonestFor C s L ask :=
  ⟨fun a _ ha hl => ((h.legacy a ha).told hl).1, fun a _ ha hl => ((h.segwit a ha).told hl).1⟩

theorem contract_kinds {C : Crypto} {s : MultiSig} (hs : ContractLaws C s) :
    ∃ legacy segwit, (Signer.multi s).kinds C = .ok (legacy, segwit) := by
  obtain ⟨-, h1, h2, -⟩ := redeem_head hs
  have h0 := hs.pos
  unfold Signer.kinds
  dsimp only
  rw [intToVarint_compact (by omega)]
  dsimp only
  have h3 : (Spec.compact s.redeemscript.length).length ≤ 9 := by
    unfold Spec.compact
    split
    · simp
    · split
      · simp [leEncode_length]
      · split <;> simp [leEncode_length]
  unfold intToVarintInt
  rw [if_neg (by omega), intToVarint_compact (by omega)]
  exact ⟨_, _, rfl⟩

/-- Then a refresh succeeds. -/
theorem ListedContract.fetch {C : Crypto} {s : MultiSig} (hs : ContractLaws C s) {L : Spec.Ledger} {ask : Ask}
    (h : ListedContract C s L ask) {w : Wallet} {k : PrivKey} (hw : w.signer = .multi { s with key := k }) :
    ∃ w' us, w.getUnspents C ask = (w', .ok us) := by
  obtain ⟨h1, h2⟩ := contract_both hs.toContractShape
  obtain ⟨us, e1, -⟩ := h.legacy _ h1
  obtain ⟨legacy, segwit, hk⟩ := contract_kinds hs
  have hk' : (Signer.multi { s with key := k }).kinds C = .ok (legacy, segwit) := hk
  have h1' : (Signer.multi { s with key := k }).address C = _ := h1
  have h2' : (Signer.multi { s with key := k }).segwitAddress C = _ := h2
  unfold Wallet.getUnspents
  rw [hw, hk', h1']
  dsimp only
  rw [e1]
  dsimp only [retype]
  rw [h2']
  by_cases hc : s.isCompressed = true
  · rw [if_pos hc] at h2 ⊢
    obtain ⟨us', e2, -⟩ := h.segwit _ h2
    dsimp only
    rw [e2]
    exact ⟨_, _, rfl⟩
  · rw [if_neg hc]
    exact ⟨_, _, rfl⟩

/-- Payments of a contract whose co-signers get answers go through. -/
theorem contract_pays {C : Crypto} {s : MultiSig} (hs : ContractLaws C s) (hadd : OrdinaryAddresses C (.multi s))
    (htwo : TwoScripts C s) {L : Spec.Ledger} (hL : L.WF) (hsane : Sane L) {ask : Ask} (hask : ListedContract C s L ask)
    {w : Wallet} (hw : w.signer = .multi s) {others : List Cosigner}
    (hothers : ∀ c ∈ others, c.wallet.signer = .multi { s with key := c.key } ∧ ListedContract C s L c.ask)
    (hlaws : ∀ k ∈ s.key :: others.map Cosigner.key, SignerLaws C s k)
    (hdistinct : ((s.key :: others.map Cosigner.key).map fun k => k.publicKey C).Nodup)
    (henough : (others.length : Int) + 1 = s.m) (readFloat : Str → PyFloat) :
    ∃ us, (w.getUnspents C ask).2 = .ok us ∧ ∀ (env : Env Amount) (args : TxArgs Amount) (amounts : List Int)
      (scripts : List Bytes) (changeScript : Bytes), (∀ l, (env.shuffle l).Perm l) → args.outputs ≠ [] →
      (∀ us sel change fee t, (∀ u ∈ us, ∃ c ∈ L, Tells c u) → Built C env args (.multi s) us sel change fee t →
        NoMixup C s (s.key :: others.map Cosigner.key) us t) →
      InOrder C env args (.multi s) us amounts scripts changeScript →
      needed env args us amounts scripts changeScript ≤ heldBy (contractScripts C s) L →
      ∃ (r : Str) (t : Spec.Tx), (w.createTransaction C env args ask (.given [])).2 = .ok r ∧
        cosignOnline C readFloat others r = .ok (bytesToHex t.encode) ∧ Valid C.hashing L t ∧
        ∀ c ∈ L.spentBy t, c.script ∈ contractScripts C s := by
  obtain ⟨w', us, hg⟩ := hask.fetch hs (k := s.key) hw
  refine ⟨us, by rw [hg], ?_⟩
  intro env args amounts scripts changeScript hshuffle hpay hap ho hn
  refine C90_pays C s hs hadd htwo L hL hsane env args hpay ask w w' others
    { shuffle := hshuffle, honest := hask.honest, signer := hw
      cosigner := fun c hc => ⟨(hothers c hc).1, (hothers c hc).2.honest⟩
      laws := hlaws, distinct := hdistinct, enough := henough, apart := hap } ?_ ?_ us hg amounts scripts changeScript ho hn readFloat
  · rintro a l (ha | ha) hl u hu
    · rw [((hask.legacy a ha).told hl).2 u hu]; decide
    · rw [((hask.segwit a ha).told hl).2 u hu]; decide
  · intro c hc
    obtain ⟨g1, g2⟩ := hothers c hc
    obtain ⟨_, us', e⟩ := g2.fetch hs g1
    exact ⟨us', by rw [e]⟩

/-! ## C91 -/

theorem p2sh_up {C : Crypto} (hC : C.HashLengths) (net : Net) (x : Bytes)
    (hb : bech32Decode (b58encodeCheck C (scriptHashByte net :: C.hash160 x)) = none) :
    Gives true (scriptHex C (b58encodeCheck C (scriptHashByte net :: C.hash160 x)))
      (· = bytesToHex (Spec.p2shScript (C.ripemd160 (C.sha256 x)))) := by
  obtain ⟨-, h1, -⟩ := p2sh_address hC net (C.hash160 x) (hC.ripemd160_length _)
  unfold scriptHex
  rw [(h1 hb).2]
  exact .inl ⟨_, rfl, rfl⟩

/-- Services that answer about the contract. -/
theorem listed_services {C : Crypto} {s : MultiSig} (hs : ContractShape C s) (hadd : OrdinaryAddresses C (.multi s))
    {outside : Str → Outside} {L : Spec.Ledger} (h : ReportsContract true C outside L s) {ask : Ask}
    (hask : Online C outside s.net L ask) : ListedContract C s L ask := by
  obtain ⟨h1, h2⟩ := contract_both hs
  have gets : ∀ {address script}, Reports true outside s.net L address script →
      Gives true (scriptHex C address) (· = bytesToHex script) → Listed L ask address script := by
    intro address script hr hg
    rcases asked hr hg hask with ⟨_, e, us, rfl, hu⟩ | ⟨h, -⟩
    · exact ⟨us, e, hu⟩
    · cases h
  constructor
  · intro a ha
    refine gets (h.legacy a ha) ?_
    have hb := hadd.1 a ha
    rw [h1] at ha
    have e := Except.ok.inj ha
    rw [← e] at hb ⊢
    exact p2sh_up hs.hash _ _ hb
  · intro a ha
    refine gets (h.segwit a ha) ?_
    have hb := hadd.2 a ha
    rw [h2] at ha
    split at ha
    · have e := Option.some.inj (Except.ok.inj ha)
      rw [← e] at hb ⊢
      exact p2sh_up hs.hash _ _ hb
    · cases ha

/-- C91. If the services that each co-signer of a contract asks answer, with what the chain has, then fetching the unspents
succeeds; and a payment that is in order and for which the contract holds enough can be created by one co-signer, signed by the others
needed, and a node takes the result. -/
theorem C91_contract_pays (C : Crypto) (s : MultiSig) (hs : ContractLaws C s) (hadd : OrdinaryAddresses C (.multi s))
    (htwo : TwoScripts C s) (L : Spec.Ledger) (hL : L.WF) (hsane : Sane L) (outside : Str → Outside)
    (hrep : ReportsContract true C outside L s) (ask : Ask) (hask : Online C outside s.net L ask)
    (w : Wallet) (hw : w.signer = .multi s) (others : List Cosigner)
    (hothers : ∀ c ∈ others, c.wallet.signer = .multi { s with key := c.key } ∧
      ∃ outside, ReportsContract true C outside L s ∧ Online C outside s.net L c.ask)
    (hlaws : ∀ k ∈ s.key :: others.map Cosigner.key, SignerLaws C s k)
    (hdistinct : ((s.key :: others.map Cosigner.key).map fun k => k.publicKey C).Nodup)
    (henough : (others.length : Int) + 1 = s.m) (readFloat : Str → PyFloat) :
    ∃ us, (w.getUnspents C ask).2 = .ok us ∧ ∀ (env : Env Amount) (args : TxArgs Amount) (amounts : List Int)
      (scripts : List Bytes) (changeScript : Bytes), (∀ l, (env.shuffle l).Perm l) → args.outputs ≠ [] →
      (∀ us sel change fee t, (∀ u ∈ us, ∃ c ∈ L, Tells c u) → Built C env args (.multi s) us sel change fee t →
        NoMixup C s (s.key :: others.map Cosigner.key) us t) →
      InOrder C env args (.multi s) us amounts scripts changeScript →
      needed env args us amounts scripts changeScript ≤ heldBy (contractScripts C s) L →
      ∃ (r : Str) (t : Spec.Tx), (w.createTransaction C env args ask (.given [])).2 = .ok r ∧
        cosignOnline C readFloat others r = .ok (bytesToHex t.encode) ∧ Valid C.hashing L t ∧
        ∀ c ∈ L.spentBy t, c.script ∈ contractScripts C s :=
  contract_pays hs hadd htwo hL hsane (listed_services hs.toContractShape hadd hrep hask) hw (fun c hc => by
    obtain ⟨g1, o, g2, g3⟩ := hothers c hc
    exact ⟨g1, listed_services hs.toContractShape hadd g2 g3⟩) hlaws hdistinct henough readFloat

/-- C91. The balance of a contract over the services is its balance on the chain. -/
theorem C91_contract_balance (C : Crypto) (s : MultiSig) (hs : ContractShape C s) (L : Spec.Ledger) (outside : Str → Outside)
    (hrep : ReportsContract false C outside L s) (ask : Ask) (hask : Online C outside s.net L ask) (w w' : Wallet)
    (hw : w.signer = .multi s) (prec : Nat) (hp : 9 ≤ prec) (limit now : Int) (answers : List (Py Int))
    (unit : Str) (n : Nat) (hu : (unit, n) ∈ bitcoinUnits) (caches caches' : RateCaches)
    (hcache : (caches unit).satoshis = none ∨ (caches unit).satoshis = some ((10 ^ n : Nat) : Int))
    (hsmall : heldBy (contractScripts C s) L < 10 ^ prec) (text : Str)
    (h : w.getBalance C ask prec limit now answers unit caches = (w', caches', .ok text)) :
    w'.balance = heldBy (contractScripts C s) L ∧ Spec.Denotes text ((heldBy (contractScripts C s) L : ℚ) / 10 ^ n) :=
  C90_shown C s hs L ask (honest_contract hs hrep hask) w w' hw prec hp limit now answers unit n hu caches caches' hcache hsmall
    text h

/-! ## C98 -/

/-- The node tells of the addresses of a contract what is on the chain. -/
structure NodeReportsContract (up : Bool) (C : Crypto) (answer : Rpc) (L : Spec.Ledger) (s : MultiSig) : Prop where
  legacy : ∀ address, (Signer.multi s).address C = .ok address → NodeReports up answer L address
    (Spec.p2shScript (C.ripemd160 (C.sha256 s.redeemscript)))
  segwit : ∀ address, (Signer.multi s).segwitAddress C = .ok (some address) → NodeReports up answer L address
    (Spec.p2shScript (C.ripemd160 (C.sha256 (Spec.witnessScript 0 (C.sha256 s.redeemscript)))))

/-- A program of a co-signer is connected to a node with these replies, which tells the truth about the addresses of the contract. -/
structure OverNode (up : Bool) (C : Crypto) (readFloat : Str → PyFloat) (L : Spec.Ledger) (s : MultiSig) (answer : Rpc)
    (ask : Ask) : Prop where
  connected : ∃ post settings history o prec fuel, Serves readFloat post (NodeSettings.url settings) answer ∧ 1 ≤ prec ∧
    Connected C post settings s.net history o prec fuel ask ∧ ∀ c ∈ L, c.value < 10 ^ prec
  reports : NodeReportsContract up C answer L s

theorem OverNode.honest {C : Crypto} {readFloat : Str → PyFloat} {L : Spec.Ledger} {s : MultiSig} {answer : Rpc} {ask : Ask}
    (h : OverNode false C readFloat L s answer ask) : HonestFor C s L ask := by
  obtain ⟨post, settings, history, o, prec, fuel, h1, h2, h3, h4⟩ := h.connected
  have told : ∀ {address script l}, NodeReports false answer L address script → ask address = .ok (some l) →
      ∃ cs, cs.Perm (L.coinsOf script) ∧ List.Forall₂ Tells cs l := by
    intro address script l h' hl
    rcases C98_unspent C readFloat h1 h2 h3 h4 h' with ⟨_, e, us, rfl, hu⟩ | ⟨-, e, he⟩
    · rw [hl] at e
      rw [Option.some.inj (Except.ok.inj e)]
      exact hu.1
    · rw [hl] at he
      cases he
  exact ⟨fun a _ ha hl => told (h.reports.legacy a ha) hl, fun a _ ha hl => told (h.reports.segwit a ha) hl⟩

theorem OverNode.listed {C : Crypto} {readFloat : Str → PyFloat} {L : Spec.Ledger} {s : MultiSig} {answer : Rpc} {ask : Ask}
    (h : OverNode true C readFloat L s answer ask) : ListedContract C s L ask := by
  obtain ⟨post, settings, history, o, prec, fuel, h1, h2, h3, h4⟩ := h.connected
  have gets : ∀ {address script}, NodeReports true answer L address script → Listed L ask address script := by
    intro address script h'
    rcases C98_unspent C readFloat h1 h2 h3 h4 h' with ⟨_, e, us, rfl, hu⟩ | ⟨h, -⟩
    · exact ⟨us, e, hu⟩
    · cases h
  exact ⟨fun a ha => gets (h.reports.legacy a ha), fun a ha => gets (h.reports.segwit a ha)⟩

/-- C98. A contract over nodes: each co-signer's program is connected to a node of their own, which tells the truth about the
addresses of the contract whenever it answers. If one creates a transaction and the others needed sign it, then the rules of the
chain allow it, and it spends coins of the contract only. -/
theorem C98_contract (C : Crypto) (s : MultiSig) (hs : ContractLaws C s) (htwo : TwoScripts C s) (L : Spec.Ledger) (hL : L.WF)
    (hidx : ∀ c ∈ L, c.index < 2 ^ 32) (readFloat : Str → PyFloat) (env : Env Amount) (hshuffle : ∀ l, (env.shuffle l).Perm l)
    (args : TxArgs Amount) (hfee : 0 ≤ askedFee env args) (hpay : args.outputs ≠ []) (answer : Rpc) (ask : Ask)
    (hask : OverNode false C readFloat L s answer ask) (w : Wallet) (hw : w.signer = .multi s) (others : List Cosigner)
    (hothers : ∀ c ∈ others, c.wallet.signer = .multi { s with key := c.key } ∧
      ∃ answer, OverNode false C readFloat L s answer c.ask)
    (hlaws : ∀ k ∈ s.key :: others.map Cosigner.key, SignerLaws C s k)
    (hdistinct : ((s.key :: others.map Cosigner.key).map fun k => k.publicKey C).Nodup)
    (henough : (others.length : Int) + 1 = s.m)
    (hapart : ∀ us sel change fee t, (∀ u ∈ us, ∃ c ∈ L, Tells c u) → Built C env args (.multi s) us sel change fee t →
      NoMixup C s (s.key :: others.map Cosigner.key) us t) (r r' : Str)
    (h : (w.createTransaction C env args ask (.given [])).2 = .ok r) (h' : cosignOnline C readFloat others r = .ok r') :
    ∃ t : Spec.Tx, t.WF ∧ r' = bytesToHex t.encode ∧ Valid C.hashing L t ∧
      ∀ c ∈ L.spentBy t, c.script ∈ contractScripts C s := by
  obtain ⟨t, h1, h2, h3, h4, h5⟩ := C90_valid C s hs htwo L hL hidx env args hfee ask w others
    { shuffle := hshuffle, honest := hask.honest, signer := hw
      cosigner := fun c hc => by
        obtain ⟨g1, _, g2⟩ := hothers c hc
        exact ⟨g1, g2.honest⟩
      laws := hlaws, distinct := hdistinct, enough := henough, apart := hapart } readFloat r r' h h'
  exact ⟨t, h1, h2, h5 (h4 hpay), h3⟩

/-- C98. If the nodes answer, a payment that is in order and for which the contract holds enough goes through; and if the node of
the last co-signer takes what the rules of the chain allow, `broadcast_tx` of that node gives `True` for it. -/
theorem C98_contract_pays (C : Crypto) (s : MultiSig) (hs : ContractLaws C s) (hadd : OrdinaryAddresses C (.multi s))
    (htwo : TwoScripts C s) (L : Spec.Ledger) (hL : L.WF) (hsane : Sane L) (readFloat : Str → PyFloat) (answer : Rpc) (ask : Ask)
    (hask : OverNode true C readFloat L s answer ask) (w : Wallet) (hw : w.signer = .multi s) (others : List Cosigner)
    (hothers : ∀ c ∈ others, c.wallet.signer = .multi { s with key := c.key } ∧
      ∃ answer, OverNode true C readFloat L s answer c.ask)
    (hlaws : ∀ k ∈ s.key :: others.map Cosigner.key, SignerLaws C s k)
    (hdistinct : ((s.key :: others.map Cosigner.key).map fun k => k.publicKey C).Nodup)
    (henough : (others.length : Int) + 1 = s.m) (post : Post) (settings : NodeSettings) (last : Rpc)
    (hlast : Serves readFloat post settings.url last)
    (htakes : ∀ t : Spec.Tx, Valid C.hashing L t → Took (last (name "sendrawtransaction") [.str (bytesToHex t.encode)])) :
    ∃ us, (w.getUnspents C ask).2 = .ok us ∧ ∀ (env : Env Amount) (args : TxArgs Amount) (amounts : List Int)
      (scripts : List Bytes) (changeScript : Bytes), (∀ l, (env.shuffle l).Perm l) → args.outputs ≠ [] →
      (∀ us sel change fee t, (∀ u ∈ us, ∃ c ∈ L, Tells c u) → Built C env args (.multi s) us sel change fee t →
        NoMixup C s (s.key :: others.map Cosigner.key) us t) →
      InOrder C env args (.multi s) us amounts scripts changeScript →
      needed env args us amounts scripts changeScript ≤ heldBy (contractScripts C s) L →
      ∃ (r r' : Str) (t : Spec.Tx), (w.createTransaction C env args ask (.given [])).2 = .ok r ∧
        cosignOnline C readFloat others r = .ok r' ∧ r' = bytesToHex t.encode ∧ Valid C.hashing L t ∧
        nodeBroadcast (settings.rpc post) r' = .ok true := by
  obtain ⟨us, h1, h2⟩ := contract_pays (Amount := Amount) hs hadd htwo hL hsane hask.listed hw (fun c hc => by
    obtain ⟨g1, _, g2⟩ := hothers c hc
    exact ⟨g1, g2.listed⟩) hlaws hdistinct henough readFloat
  refine ⟨us, h1, fun env args amounts scripts changeScript g1 g2 g3 g4 g5 => ?_⟩
  obtain ⟨r, t, e1, e2, e3, -⟩ := h2 env args amounts scripts changeScript g1 g2 g3 g4 g5
  exact ⟨r, _, t, e1, e2, rfl, e3, ((C98_broadcast readFloat post settings last hlast _).1).mpr (htakes t e3)⟩

/-! ## C97 -/

/-- The network as a program of a co-signer sees it, after any history of calls in which no node was connected for the network:
services that report the unspent outputs of the contract as the chain has them, whenever they answer. -/
def InProgram (C : Crypto) (s : MultiSig) (L : Spec.Ledger) (ask : Ask) : Prop :=
  ∃ now calls P world, ProgramDigits calls P ∧ (∀ n t, netOf t = s.net → ProgramCall.thread (.connect n t) ∉ calls) ∧
    (∀ c ∈ L, c.value < 10 ^ P) ∧ L.length ≤ Surround.fuel world ∧ ReportsContract false C world.outside L s ∧
    ask = ((Program.start now).after C calls).ask C world s.net

/-- C97 for contracts. A program creates a transaction of the contract, with amounts in currencies, after any history of calls; the
other co-signers needed sign it in programs of their own. If services report the unspent outputs of the contract as the chain has
them whenever they answer, and all calls return: a node takes the transaction (if the fee is not negative), and when it is
confirmed, every script of others has what it had plus the amounts paid to it, the contract loses the payments and
the fee, and change goes to the contract or to the address given for it. -/
theorem C97_contract (C : Crypto) (s : MultiSig) (hs : ContractLaws C s) (htwo : TwoScripts C s) (L : Spec.Ledger) (hL : L.WF)
    (hidx : ∀ c ∈ L, c.index < 2 ^ 32) (now : Int) (calls : List ProgramCall) (P : Nat) (hP : ProgramDigits calls P)
    (hnode : ∀ n t, netOf t = s.net → ProgramCall.thread (.connect n t) ∉ calls) (hsmall : ∀ c ∈ L, c.value < 10 ^ P)
    (world : Surround) (hfuel : L.length ≤ world.fuel) (hshuffle : ∀ l, (world.shuffle l).Perm l)
    (hrep : ReportsContract false C world.outside L s) (w : Wallet) (hw : w.signer = .multi s) (args : TxArgs (Str × Str))
    (others : List Cosigner)
    (hothers : ∀ c ∈ others, c.wallet.signer = .multi { s with key := c.key } ∧ InProgram C s L c.ask)
    (hlaws : ∀ k ∈ s.key :: others.map Cosigner.key, SignerLaws C s k)
    (hdistinct : ((s.key :: others.map Cosigner.key).map fun k => k.publicKey C).Nodup)
    (henough : (others.length : Int) + 1 = s.m)
    (hapart : ∀ rate pays us sel change fee t, (∀ u ∈ us, ∃ c ∈ L, Tells c u) →
      Built C (world.env rate) (args.inSatoshi pays) (.multi s) us sel change fee t →
      NoMixup C s (s.key :: others.map Cosigner.key) us t) (readFloat : Str → PyFloat) (r r' : Str)
    (h : (((Program.start now).after C calls).create C w args (.given []) world).2.2 = .ok r)
    (h' : cosignOnline C readFloat others r = .ok r') :
    ∃ (t : Spec.Tx) (pays : List (Str × Int)) (rate fee c : Int) (changeScript : Bytes),
      t.WF ∧ r' = bytesToHex t.encode ∧ pays.length = args.outputs.length ∧
      (∀ j o p, args.outputs[j]? = some o → pays[j]? = some p →
        p.1 = o.1 ∧ Converted calls P world args.outputs j o.2.1 o.2.2 p.2 ∧ ∀ n, AmountIs P o.2 n → p.2 = n) ∧
      FeeUsed calls world args.fee rate ∧ (args.absoluteFee = true → fee = rate) ∧
      (0 ≤ rate → args.outputs ≠ [] → Valid C.hashing L t) ∧ 0 ≤ c ∧
      (args.combine = true → c = heldBy (contractScripts C s) L - fee - (pays.map Prod.snd).sum) ∧
      (match args.leftover with
        | some (a :: l) => addressToScriptpubkey C (a :: l) = .ok (some changeScript)
        | _ => changeScript ∈ contractScripts C s) ∧
      let L' := L.apply C.doubleSha256 t
      (worth L' : Int) = worth L - fee ∧
      (∀ script, script ∉ contractScripts C s →
        (L'.balance script : Int) = L.balance script + paidTo C script pays + if script = changeScript then c else 0) ∧
      (heldBy (contractScripts C s) L' : Int) = heldBy (contractScripts C s) L - fee - (pays.map Prod.snd).sum - c +
        ((contractScripts C s).map fun script => paidTo C script pays + if script = changeScript then c else 0).sum := by
  obtain ⟨rate, pays, h1, h2, h3, h4, h5⟩ := C97_created C now calls P hP w args (.given []) world r h
  have hnet : w.signer.net = s.net := by rw [hw]; rfl
  have hh : HonestFor C s L (((Program.start now).after C calls).ask C world w.signer.net) := by
    refine honest_contract hs.toContractShape hrep ?_
    rw [hnet]
    exact program_online hP hnode hsmall hfuel
  have hp : Party C s L (world.env rate) (args.inSatoshi pays)
      (((Program.start now).after C calls).ask C world w.signer.net) w others :=
    { shuffle := hshuffle, honest := hh, signer := hw
      cosigner := fun c hc => by
        obtain ⟨g1, now', calls', P', world', g2, g3, g4, g5, g6, g7⟩ := hothers c hc
        rw [g7]
        exact ⟨g1, honest_contract hs.toContractShape g6 (program_online g2 g3 g4 g5)⟩
      laws := hlaws, distinct := hdistinct, enough := henough
      apart := fun us sel change fee t => hapart rate pays us sel change fee t }
  rw [h5] at h
  obtain ⟨t, pays', fee, c, changeScript, g1, g2, g3, ⟨us, sel, change, hb⟩, g5, g6, g7, g8, g9, g10⟩ :=
    C90_moves C s hs htwo L hL hidx (world.env rate) (args.inSatoshi pays) _ w others hp readFloat r r' h h'
  have epays : pays' = pays := by
    have : List.Forall₂ (· = ·) pays' pays := by
      refine (g3.flip).imp fun p o hp => Prod.ext hp.1 (Except.ok.inj hp.2).symm
    rwa [List.forall₂_eq_eq_eq] at this
  subst epays
  refine ⟨t, pays', rate, fee, c, changeScript, g1, g2, h2, h3, h1, ?_, ?_, g5, g6, g7, g8, g9, g10⟩
  · intro habs
    rw [← h4]
    exact hb.absolute habs
  · intro hr hne
    obtain ⟨t', v1, v2, -, v4, v5⟩ := C90_valid C s hs htwo L hL hidx (world.env rate) (args.inSatoshi pays')
      (by rw [h4]; exact hr) _ w others hp readFloat r r' h h'
    obtain rfl : t = t' := encode_inj' g1 v1 (bytesToHex_injective (g2.symm.trans v2))
    refine v5 (v4 ?_)
    show pays' ≠ []
    intro e
    rw [e] at h2
    exact hne (List.length_eq_zero_iff.mp h2.symm)

/-! ### The sample contract -/

theorem contract_both_signers {cs : List Cosigner} (h : cs.map Cosigner.key = [keyC]) :
    ∀ k ∈ contract.key :: cs.map Cosigner.key, SignerLaws crypto contract k := by
  intro k hk
  rw [h] at hk
  have hk : k ∈ [keyA, keyC] := hk
  simp only [List.mem_cons, List.not_mem_nil, or_false] at hk
  rcases hk with rfl | rfl
  · exact contract_signer (Or.inl rfl)
  · exact contract_signer (Or.inr (Or.inr rfl))

theorem inOrder_contract {us : List Unspent} (h : us.any (fun u => decide (u.segwit = some true)) = true) :
    InOrder crypto envB (argsB true) (.multi contract) us [20000] [unhex "76a91477bff20c60e522dfaa3350c39b030a5d004e839a88ac"]
      scriptM := by
  obtain ⟨a, ha⟩ : ∃ a, (Signer.multi contract).segwitAddress crypto = .ok (some a) ∧
      addressToScriptpubkey crypto a = .ok (some scriptM) :=
    ⟨(((Signer.multi contract).segwitAddress crypto).toOption.getD none).getD [], by decide +kernel, by decide +kernel⟩
  exact
    { cost := {
        amounts := .cons rfl .nil
        scripts := .cons (by decide +kernel) .nil
        change := ⟨a, ha.2, by
          show if (us.any fun u => decide (u.segwit = some true)) = true then _ else _
          rw [if_pos h]
          exact ha.1⟩ }
      positive := by decide
      nets := by
        intro o ho
        have ho : o ∈ [(addrA, (20000 : Int))] := ho
        rw [List.mem_singleton] at ho
        subst ho
        decide +kernel
      changeNet := by intro l hl; cases hl
      short := by decide +kernel
      message := trivial
      messageLength := by decide
      fee := by decide }

/-- For C88_contract_creates: key A creates from the two coins of the 2-of-3 contract. -/
example : ∃ r, (contractWallet.createTransaction crypto envB (argsB true) noNetwork (.given [unspentM, unspentL])).2 = .ok r := by
  refine C88_contract_creates crypto contract contract_laws contract_ordinary (contract_signer (Or.inl rfl)) envB
    (fun _ => List.Perm.refl _) (argsB true) [unspentM, unspentL] ⟨by decide, ?_, by decide, by decide⟩ [20000]
    [unhex "76a91477bff20c60e522dfaa3350c39b030a5d004e839a88ac"] scriptM (inOrder_contract (by decide +kernel)) (by decide +kernel)
    noNetwork contractWallet rfl
  intro u hu
  simp only [List.mem_cons, List.not_mem_nil, or_false] at hu
  rcases hu with rfl | rfl
  · exact ⟨⟨List.replicate 32 7, by decide, rfl⟩, by decide, by decide, by decide⟩
  · exact ⟨⟨List.replicate 32 9, by decide, rfl⟩, by decide, by decide, by decide⟩

theorem ledgerC_sane : Sane ledgerC := ⟨by decide +kernel, by decide, by decide +kernel⟩

/-- For C90_pays: the networks of `askC`. -/
example : ∃ (r : Str) (t : Spec.Tx), createdC = .ok r ∧ cosignOnline crypto exactFloat [cosignerC] r = .ok (bytesToHex t.encode) ∧
    Valid crypto.hashing ledgerC t := by
  have hg : contractWallet.getUnspents crypto (askC 3) = ((contractWallet.getUnspents crypto (askC 3)).1,
      .ok ((contractWallet.getUnspents crypto (askC 3)).2.toOption.getD [])) := by
    have h : (contractWallet.getUnspents crypto (askC 3)).2.toOption.isSome = true := by decide +kernel
    rcases e : contractWallet.getUnspents crypto (askC 3) with ⟨w', r | us⟩
    · rw [e] at h; cases h
    · rfl
  have hseq : ∀ a l, (Signer.multi contract).address crypto = .ok a ∨ (Signer.multi contract).segwitAddress crypto = .ok (some a) →
      askC 3 a = .ok (some l) → ∀ u ∈ l, 0 ≤ u.sequence ∧ u.sequence < 2 ^ 32 := by
    intro a l _ hl u hu
    unfold askC at hl
    split at hl
    · rw [← Option.some.inj (Except.ok.inj hl), List.mem_singleton] at hu
      subst hu
      decide
    · split at hl
      · rw [← Option.some.inj (Except.ok.inj hl), List.mem_singleton] at hu
        subst hu
        decide
      · cases hl
  have hans : ∀ c ∈ [cosignerC], ∃ us, (c.wallet.getUnspents crypto c.ask).2 = .ok us := by
    intro c hc
    rw [List.mem_singleton] at hc
    subst hc
    have h : (cosignerC.wallet.getUnspents crypto cosignerC.ask).2.toOption.isSome = true := by decide +kernel
    exact isSome_ok h
  obtain ⟨r, t, h1, h2, h3, -⟩ := C90_pays crypto contract contract_laws contract_ordinary twoC ledgerC ledgerC_wf ledgerC_sane envB
    (argsB true) (by decide +kernel) (askC 3) contractWallet _ [cosignerC] partyC hseq hans _ hg [20000] _ _
    (inOrder_contract (by decide +kernel)) (by decide +kernel) exactFloat
  exact ⟨r, t, h1, h2, h3⟩

/-- For C91_contract_pays: all servers answer. -/
def outsideV (address : Str) : Outside :=
  ⟨server (accountFor ledgerC (scriptOfC address)) .main address, fun _ _ _ => .error .requestsTimeout⟩

theorem scripts_of_C : (∀ a, (Signer.multi contract).address crypto = .ok a → a = addressC ∧
      scriptOfC a = Spec.p2shScript (crypto.ripemd160 (crypto.sha256 contract.redeemscript))) ∧
    ∀ a, (Signer.multi contract).segwitAddress crypto = .ok (some a) → a = segwitC ∧
      scriptOfC a = Spec.p2shScript (crypto.ripemd160 (crypto.sha256
        (Spec.witnessScript 0 (crypto.sha256 contract.redeemscript)))) := by
  constructor
  · intro a h
    have e : (Signer.multi contract).address crypto = .ok addressC := by decide +kernel
    rw [e] at h
    rw [← Except.ok.inj h]
    exact ⟨rfl, if_pos rfl⟩
  · intro a h
    have e : (Signer.multi contract).segwitAddress crypto = .ok (some segwitC) := by decide +kernel
    rw [e] at h
    rw [← Option.some.inj (Except.ok.inj h)]
    exact ⟨rfl, if_neg (by decide +kernel)⟩

theorem reports_V : ReportsContract true crypto outsideV ledgerC contract where
  legacy := fun a h => by rw [← (scripts_of_C.1 a h).2]; exact reports_up ledgerC .main scriptOfC a
  segwit := fun a h => by rw [← (scripts_of_C.2 a h).2]; exact reports_up ledgerC .main scriptOfC a

theorem online_V : Online crypto outsideV contract.net ledgerC (askOver outsideV 3) := askOver_online _ ledgerC ledgerC_values

def cosignerV : Cosigner := ⟨keyC, newWallet (.multi { contract with key := keyC }), askOver outsideV 3⟩

def listedV : List Unspent := (contractWallet.getUnspents crypto (askOver outsideV 3)).2.toOption.getD []

theorem listedV_segwit : listedV.any (fun u => decide (u.segwit = some true)) = true := by decide +kernel

theorem listedV_enough : needed envB (argsB true) listedV [20000]
    [unhex "76a91477bff20c60e522dfaa3350c39b030a5d004e839a88ac"] scriptM ≤ heldBy (contractScripts crypto contract) ledgerC := by
  decide +kernel

/-- The contract pays 20000 satoshi. -/
example : ∃ (r : Str) (t : Spec.Tx),
    (contractWallet.createTransaction crypto envB (argsB true) (askOver outsideV 3) (.given [])).2 = .ok r ∧
    cosignOnline crypto exactFloat [cosignerV] r = .ok (bytesToHex t.encode) ∧ Valid crypto.hashing ledgerC t := by
  obtain ⟨us, h1, h2⟩ := C91_contract_pays (Amount := Int) crypto contract contract_laws contract_ordinary twoC ledgerC ledgerC_wf
    ledgerC_sane outsideV reports_V (askOver outsideV 3) online_V contractWallet rfl [cosignerV] (fun c hc => by
      rw [List.mem_singleton] at hc
      subst hc
      exact ⟨rfl, outsideV, reports_V, online_V⟩) (contract_both_signers rfl) (by decide +kernel) (by decide) exactFloat
  have e : us = listedV := by
    unfold listedV
    rw [h1]
    rfl
  obtain ⟨r, t, g1, g2, g3, -⟩ := h2 envB (argsB true) [20000] _ _ (fun _ => List.Perm.refl _) (by decide +kernel)
    (fun us sel change fee t _ _ => contract_noMixup (by simp [contract, cosignerV]) _ _)
    (inOrder_contract (by rw [e]; exact listedV_segwit)) (by rw [e]; exact listedV_enough)
  exact ⟨r, t, g1, g2, g3⟩

/-- For C91_contract_balance: the contract holds 1.5 mBTC. -/
example : (contractWallet.getBalance crypto (askOver outsideV 3) 28 60 0 [] "mbtc".toList (fun _ => ⟨none, 0⟩)).2.2 =
    .ok "1.5".toList := by decide +kernel

/-! ### A node that knows the contract -/

def answerC : Rpc := fun method params =>
  .ok ⟨200, [], .ok (.obj [("error".toList, .null), ("result".toList,
    if method = "listunspent".toList then
      match params with
      | [_, _, .arr [.str address]] => if address = addressC then entries coinL "0.0006" else entries coinM "0.0009"
      | _ => .arr []
    else if method = "listreceivedbyaddress".toList then .arr []
    else .str "taken".toList)])⟩
where
  entries (c : Spec.Utxo) (amount : String) : Json :=
    .arr [.obj [("amount".toList, .float (exactFloat amount.toList)),
      ("confirmations".toList, .int ((accountFor ledgerC c.script).confirmations ⟨bytesToHex c.txid.reverse, c.index, c.value,
        if c.index = 1 then some 699990 else none⟩)),
      ("scriptPubKey".toList, .str (bytesToHex c.script)), ("txid".toList, .str (bytesToHex c.txid.reverse)),
      ("vout".toList, .int c.index)]]

theorem answerC_coin (c : Spec.Utxo) (amount : String) (hc : ledgerC.coinsOf c.script = [c])
    (hn : Spec.Number (exactFloat amount.toList).repr ((c.value : ℚ) / 10 ^ 8)) (address : Str)
    (h : (if address = addressC then answerC.entries coinL "0.0006" else answerC.entries coinM "0.0009") =
      answerC.entries c amount) :
    NodeReports true answerC ledgerC address c.script := by
  refine ⟨accountFor ledgerC c.script, [], accountFor_onChain _ _, ⟨(accountFor ledgerC c.script).coins, .refl _, .inl
    ⟨_, _, answerC.entries c amount, rfl, rfl, rfl, .step rfl (.here _), .step (v := answerC.entries c amount) ?_ (.here _), _, rfl, ?_⟩⟩,
    .inl ⟨_, _, _, rfl, rfl, rfl, .step rfl (.here _), .step rfl (.here _), .inl ⟨rfl, rfl⟩⟩⟩
  · rw [← h]
    rfl
  · have e : (accountFor ledgerC c.script).coins = [⟨bytesToHex c.txid.reverse, c.index, c.value,
        if c.index = 1 then some 699990 else none⟩] := by
      unfold accountFor Spec.Account.coins
      rw [hc]
      rfl
    rw [e]
    exact .cons ⟨⟨_, .step rfl (.here _), hn⟩, .step rfl (.here _), .step rfl (.here _), .step rfl (.here _), .step rfl (.here _)⟩ .nil

theorem answerC_reports : NodeReportsContract true crypto answerC ledgerC contract where
  legacy := fun address h => by
    obtain ⟨e1, e2⟩ := scripts_of_C.1 address h
    rw [← e2, e1, show scriptOfC addressC = coinL.script from if_pos rfl]
    refine answerC_coin coinL "0.0006" (by decide +kernel) ?_ _ (if_pos rfl)
    refine .inl ⟨false, "0".toList, "0006".toList, ⟨by decide, by decide, by decide⟩, ?_⟩
    have h1 : Spec.digitsValue ("0".toList ++ "0006".toList) = 6 := by decide
    have h2 : "0006".toList.length = 4 := by decide
    unfold Spec.plainValue
    rw [h1, h2]
    show _ = ((60000 : Nat) : ℚ) / 10 ^ 8
    norm_num
  segwit := fun address h => by
    obtain ⟨e1, e2⟩ := scripts_of_C.2 address h
    have hne : segwitC ≠ addressC := by decide +kernel
    rw [← e2, e1, show scriptOfC segwitC = coinM.script from if_neg hne]
    refine answerC_coin coinM "0.0009" (by decide +kernel) ?_ _ (if_neg hne)
    refine .inl ⟨false, "0".toList, "0009".toList, ⟨by decide, by decide, by decide⟩, ?_⟩
    have h1 : Spec.digitsValue ("0".toList ++ "0009".toList) = 9 := by decide
    have h2 : "0009".toList.length = 4 := by decide
    unfold Spec.plainValue
    rw [h1, h2]
    show _ = ((90000 : Nat) : ℚ) / 10 ^ 8
    norm_num

def outsideE : Outside := ⟨fun _ => .error .requestsConnection, fun _ => settingsB.rpc (serverAt settingsB.url answerC)⟩

def askE : Ask := fun address =>
  match networkUnspent crypto 28 outsideE (connected [(0, false)]) .main 3 address with
  | some r => r
  | none => .error .requestsConnection

theorem overE : OverNode true crypto exactFloat ledgerC contract answerC askE where
  connected := ⟨serverAt settingsB.url answerC, settingsB, [(0, false)], outsideE, 28, 3, serverAt_serves _ _, by decide,
    ⟨⟨0, rfl, rfl⟩, fun address r h => by unfold askE; rw [show networkUnspent _ _ _ _ .main _ _ = _ from h]⟩, ledgerC_values⟩
  reports := answerC_reports

/-- For C98_contract: the node may also fail to answer. -/
example : OverNode false crypto exactFloat ledgerC contract answerC askE :=
  ⟨overE.connected, fun a h => let ⟨x, r, h1, h2⟩ := answerC_reports.legacy a h; ⟨x, r, h1, h2.weaken⟩,
    fun a h => let ⟨x, r, h1, h2⟩ := answerC_reports.segwit a h; ⟨x, r, h1, h2.weaken⟩⟩

def cosignerE : Cosigner := ⟨keyC, newWallet (.multi { contract with key := keyC }), askE⟩

def listedE : List Unspent := (contractWallet.getUnspents crypto askE).2.toOption.getD []

theorem listedE_segwit : listedE.any (fun u => decide (u.segwit = some true)) = true := by decide +kernel

theorem listedE_enough : needed envB (argsB true) listedE [20000]
    [unhex "76a91477bff20c60e522dfaa3350c39b030a5d004e839a88ac"] scriptM ≤ heldBy (contractScripts crypto contract) ledgerC := by
  decide +kernel

/-- The contract pays 20000 satoshi over the node. -/
example : ∃ r r', (contractWallet.createTransaction crypto envB (argsB true) askE (.given [])).2 = .ok r ∧
    cosignOnline crypto exactFloat [cosignerE] r = .ok r' ∧
    nodeBroadcast (settingsB.rpc (serverAt settingsB.url answerC)) r' = .ok true := by
  obtain ⟨us, h1, h2⟩ := C98_contract_pays (Amount := Int) crypto contract contract_laws contract_ordinary twoC ledgerC ledgerC_wf
    ledgerC_sane exactFloat answerC askE overE contractWallet rfl [cosignerE] (fun c hc => by
      rw [List.mem_singleton] at hc
      subst hc
      exact ⟨rfl, answerC, overE⟩) (contract_both_signers rfl) (by decide +kernel) (by decide)
    _ settingsB answerC (serverAt_serves _ _) (fun _ _ => ⟨_, _, _, rfl, .inl rfl, rfl, .inr rfl, rfl⟩)
  have e : us = listedE := by
    unfold listedE
    rw [h1]
    rfl
  obtain ⟨r, r', t, g1, g2, -, -, g5⟩ := h2 envB (argsB true) [20000] _ _ (fun _ => List.Perm.refl _) (by decide +kernel)
    (fun us sel change fee t _ _ => contract_noMixup (by simp [contract, cosignerE]) _ _)
    (inOrder_contract (by rw [e]; exact listedE_segwit)) (by rw [e]; exact listedE_enough)
  exact ⟨r, r', g1, g2, g5⟩

/-! ### Programs of the co-signers -/

/-- The program of key A has made the calls of `callsP`; that of key C none. -/
def worldC : Surround := { worldP with outside := outsideFor ledgerC .main scriptOfC downB }

def cosignerP : Cosigner := ⟨keyC, newWallet (.multi { contract with key := keyC }),
  ((Program.start 3).after crypto []).ask crypto worldC .main⟩

theorem created_C : ((((Program.start 0).after crypto callsP).create crypto contractWallet argsP (.given []) worldC).2.2.bind
    (cosignOnline crypto exactFloat [cosignerP])).toOption.isSome = true := by decide +kernel

theorem inProgram_C : InProgram crypto contract ledgerC cosignerP.ask :=
  ⟨3, [], 28, worldC, .inr ⟨by
    rintro ⟨before, n, t, between, o, address, rest, h⟩
    cases before <;> simp [Spec.threadCalls] at h, rfl⟩, fun _ _ _ => by simp, ledgerC_values, by decide, reports_C downB, rfl⟩

/-- `C97_contract` applies: a tenth of a thousandth of a bitcoin are 10000 satoshi. -/
example : ∃ (t : Spec.Tx) (pays : List (Str × Int)), t.WF ∧ pays[0]? = some (addrA, 10000) ∧ pays.length = 2 := by
  obtain ⟨r', hr'⟩ := isSome_ok created_C
  obtain ⟨r, hr, h'⟩ : ∃ r, (((Program.start 0).after crypto callsP).create crypto contractWallet argsP (.given []) worldC).2.2 =
      .ok r ∧ cosignOnline crypto exactFloat [cosignerP] r = .ok r' := by
    rcases e : (((Program.start 0).after crypto callsP).create crypto contractWallet argsP (.given []) worldC).2.2 with x | r
    · rw [e] at hr'; cases hr'
    · rw [e] at hr'; exact ⟨r, rfl, hr'⟩
  obtain ⟨t, pays, rate, fee, c, cs, h1, -, h3, h4, -⟩ := C97_contract crypto contract contract_laws twoC ledgerC ledgerC_wf
    ledgerC_sane.index 0 callsP 28 digits_P (fun n t _ => nodes_P n t (by assumption)) ledgerC_values worldC (by decide)
    (fun _ => List.Perm.refl _) (reports_C downB) contractWallet rfl argsP [cosignerP] (fun c hc => by
      rw [List.mem_singleton] at hc
      subst hc
      exact ⟨rfl, inProgram_C⟩) (contract_both_signers rfl) (by decide +kernel) (by decide)
    (fun rate pays us sel change fee t _ _ => contract_noMixup (by simp [contract, cosignerP]) _ _) exactFloat r r' hr h'
  have hlen : pays.length = 2 := h3
  have e0 : pays[0]? = some pays[0] := List.getElem?_eq_getElem (by omega)
  obtain ⟨a1, -, a3⟩ := h4 0 _ pays[0] rfl e0
  exact ⟨t, pays, h1, by rw [e0]; exact congrArg some (Prod.ext a1 (a3 10000 amount_P)), hlen⟩

end Bit
