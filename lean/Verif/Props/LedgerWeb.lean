import Verif.Props.LedgerContract
import Verif.Props.Web
import Verif.Props.Live
/-
C91: from the replies of the services to the chain.
-/
namespace Bit
open Concrete
open Bit.Spec (Account Truthful Gives)
open _root_.Spec.Ledger
variable {Amount : Type}

/-! ## C91 -/

/-- The account is that of the script on the chain: it has its unspent outputs. -/
structure OnChain (L : Spec.Ledger) (script : Bytes) (a : Account) : Prop where
  locked : a.script = bytesToHex script
  coins : (a.coins.map fun c => (c.txid, c.index, c.value)).Perm
    ((L.coinsOf script).map fun c => (bytesToHex c.txid.reverse, c.index, c.value))

theorem tells_of_lists {L : Spec.Ledger} {script : Bytes} {a : Account} (h : OnChain L script a) {l : List Unspent}
    (hl : a.Lists l) : ∃ cs, cs.Perm (L.coinsOf script) ∧ List.Forall₂ Tells cs l := by
  obtain ⟨coins, h1, h2⟩ := hl
  have h3 : (l.map fun u => (u.txid, u.txindex, u.amount)).Perm
      ((L.coinsOf script).map fun c => (bytesToHex c.txid.reverse, (c.index : Int), (c.value : Int))) := by
    have e : (l.map fun u => (u.txid, u.txindex, u.amount)) =
        coins.map fun c => (c.txid, (c.index : Int), (c.value : Int)) := by
      clear h1
      induction h2 with
      | nil => rfl
      | cons h _ ih => rw [List.map_cons, List.map_cons, ih, h.1, h.2.2.2.1, h.2.2.2.2.1]
    rw [e]
    have h4 := ((h1.map fun c => (c.txid, c.index, c.value)).trans h.coins).map
      fun p : Str × Nat × Nat => (p.1, (p.2.1 : Int), (p.2.2 : Int))
    rw [List.map_map, List.map_map] at h4
    exact h4
  have hs : ∀ u ∈ l, u.script = bytesToHex script := by
    intro u hu
    obtain ⟨c, -, hd⟩ := forall₂_right h2 hu
    rw [hd.2.2.1, h.locked]
  have hR : List.Forall₂ (fun (p : Str × Int × Int) (u : Unspent) => p = (u.txid, u.txindex, u.amount))
      (l.map fun u => (u.txid, u.txindex, u.amount)) l := by
    clear h3 hs h2
    induction l with
    | nil => exact .nil
    | cons u l ih => exact .cons rfl ih
  obtain ⟨m, m1, m2⟩ := List.perm_comp_forall₂ h3.symm hR
  -- m1 relates the coins in chain order to a list of unspents
  have m3 : List.Forall₂ (fun (c : Spec.Utxo) (u : Unspent) => (u.txid, u.txindex, u.amount) =
      (bytesToHex c.txid.reverse, (c.index : Int), (c.value : Int))) (L.coinsOf script) m := by
    rw [List.forall₂_map_left_iff] at m1
    exact m1.imp fun _ _ h => h.symm
  obtain ⟨cs, c1, c2⟩ := List.perm_comp_forall₂ m2.symm m3.flip
  refine ⟨cs, c2, ?_⟩
  have hcs : ∀ c ∈ cs, c.script = script := by
    intro c hc
    have := List.of_mem_filter (c2.subset hc)
    simpa using this
  have c3 := c1.flip
  clear c1 c2 m1 m2 m3 h3 hR h2
  induction c3 with
  | nil => exact .nil
  | @cons c u cs l h' _ ih =>
    refine .cons ⟨congrArg (fun p => p.2.2) h', ?_, congrArg (fun p => p.1) h', congrArg (fun p => p.2.1) h'⟩
      (ih (fun v hv => hs v (List.mem_cons_of_mem _ hv)) fun c hc => hcs c (List.mem_cons_of_mem _ hc))
    rw [hs u List.mem_cons_self, hcs c List.mem_cons_self]

/-- Whenever services answer about the address, they report the unspent outputs with the script on the chain; with `up`
they answer. -/
def Reports (up : Bool) (outside : Str → Outside) (net : Net) (L : Spec.Ledger) (address : Str) (script : Bytes) : Prop :=
  ∃ a : Account, OnChain L script a ∧ Truthful up (outside address).web net address a

/-- They do so for the addresses of a key. -/
structure ReportsKey (up : Bool) (C : Crypto) (outside : Str → Outside) (L : Spec.Ledger) (k : PrivKey) : Prop where
  legacy : ∀ address, k.address C = .ok address → Reports up outside k.net L address
    (Spec.p2pkhScript (C.ripemd160 (C.sha256 (k.publicKey C))))
  segwit : ∀ address, k.segwitAddress C = .ok (some address) → Reports up outside k.net L address
    (Spec.p2shScript (C.ripemd160 (C.sha256 (Spec.witnessScript 0 (C.ripemd160 (C.sha256 (k.publicKey C)))))))

/-- And for those of a contract. -/
structure ReportsContract (up : Bool) (C : Crypto) (outside : Str → Outside) (L : Spec.Ledger) (s : MultiSig) : Prop where
  legacy : ∀ address, (Signer.multi s).address C = .ok address → Reports up outside s.net L address
    (Spec.p2shScript (C.ripemd160 (C.sha256 s.redeemscript)))
  segwit : ∀ address, (Signer.multi s).segwitAddress C = .ok (some address) → Reports up outside s.net L address
    (Spec.p2shScript (C.ripemd160 (C.sha256 (Spec.witnessScript 0 (C.sha256 s.redeemscript)))))

/-- The network object of a program asks services in the usual order; the precision of decimals is enough for the amounts
on the chain, and queries may take as many rounds as there are unspent outputs. -/
structure Online (C : Crypto) (outside : Str → Outside) (net : Net) (L : Spec.Ledger) (ask : Ask) : Prop where
  asks : ∃ prec fuel lists, 1 ≤ prec ∧ (∀ c ∈ L, c.value < 10 ^ prec) ∧ L.length ≤ fuel ∧
    lists net = initialLists net ∧ AsksWeb C prec outside lists net fuel ask

theorem asked {up : Bool} {C : Crypto} {outside : Str → Outside} {net : Net} {L : Spec.Ledger} {address : Str} {script : Bytes}
    (h : Reports up outside net L address script) (hs : Gives up (scriptHex C address) (· = bytesToHex script))
    {ask : Ask} (hask : Online C outside net L ask) :
    Gives up (ask address) fun l => ∃ us, l = some us ∧
      (∃ cs, cs.Perm (L.coinsOf script) ∧ List.Forall₂ Tells cs us) ∧ ∀ u ∈ us, u.sequence = 0xffffffff := by
  obtain ⟨prec, fuel, lists, hp, hv, hf, hl, ha⟩ := hask.asks
  obtain ⟨a, h1, h2⟩ := h
  have hcoin : ∀ c ∈ a.coins, c.value < 10 ^ prec := by
    intro c hc
    have := h1.coins.subset (List.mem_map_of_mem hc)
    obtain ⟨d, hd, e⟩ := List.mem_map.mp this
    have e : d.value = c.value := congrArg (fun p => p.2.2) e
    rw [← e]
    exact hv d (List.mem_of_mem_filter hd)
  have hlen : a.coins.length ≤ fuel := by
    have := h1.coins.length_eq
    rw [List.length_map, List.length_map] at this
    rw [this]
    exact (List.length_filter_le _ _).trans hf
  obtain ⟨r, hr, hg⟩ := C68_unspent C hp h2 (by rw [h1.locked]; exact hs) hcoin hl fuel hlen
  rw [ha address r hr]
  refine hg.imp ?_
  rintro l ⟨us, rfl, hu⟩
  refine ⟨us, rfl, tells_of_lists h1 hu, ?_⟩
  intro u hu'
  obtain ⟨c, -, hd⟩ := lists_mem hu hu'
  exact hd.2.2.2.2.2

theorem told {up : Bool} {C : Crypto} {outside : Str → Outside} {net : Net} {L : Spec.Ledger} {address : Str} {script : Bytes}
    (h : Reports up outside net L address script) (hs : Gives up (scriptHex C address) (· = bytesToHex script))
    {ask : Ask} (hask : Online C outside net L ask) {l : List Unspent} (hl : ask address = .ok (some l)) :
    (∃ cs, cs.Perm (L.coinsOf script) ∧ List.Forall₂ Tells cs l) ∧ ∀ u ∈ l, u.sequence = 0xffffffff := by
  rcases asked h hs hask with ⟨_, e, us, rfl, hu⟩ | ⟨-, e, he⟩
  · rw [hl] at e
    have := Option.some.inj (Except.ok.inj e)
    rw [this]
    exact hu
  · rw [hl] at he
    cases he

theorem honest_services {C : Crypto} {k : PrivKey} (hk : KeyLaws C k) {outside : Str → Outside} {L : Spec.Ledger}
    (h : ReportsKey false C outside L k) {ask : Ask} (hask : Online C outside k.net L ask) : Honest C k L ask where
  legacy := fun a _ ha hl => (told (h.legacy a ha) (legacy_script hk ha) hask hl).1
  segwit := fun a _ ha hl => (told (h.segwit a ha) (segwit_script hk ha) hask hl).1

theorem p2sh_script {C : Crypto} (hC : C.HashLengths) (net : Net) (x : Bytes) :
    Gives false (scriptHex C (b58encodeCheck C (scriptHashByte net :: C.hash160 x)))
      (· = bytesToHex (Spec.p2shScript (C.ripemd160 (C.sha256 x)))) := by
  obtain ⟨-, h1, h2⟩ := p2sh_address hC net (C.hash160 x) (hC.ripemd160_length _)
  unfold scriptHex
  by_cases hb : bech32Decode (b58encodeCheck C (scriptHashByte net :: C.hash160 x)) = none
  · rw [(h1 hb).2]; exact .inl ⟨_, rfl, rfl⟩
  · rw [(h2 hb).2]; exact .inr ⟨rfl, _, rfl⟩

theorem honest_contract {C : Crypto} {s : MultiSig} (hs : ContractShape C s) {outside : Str → Outside} {L : Spec.Ledger}
    (h : ReportsContract false C outside L s) {ask : Ask} (hask : Online C outside s.net L ask) : HonestFor C s L ask := by
  obtain ⟨h1, h2⟩ := contract_both hs
  constructor
  · intro a l ha hl
    refine (told (h.legacy a ha) ?_ hask hl).1
    rw [h1] at ha
    rw [← Except.ok.inj ha]
    exact p2sh_script hs.hash _ _
  · intro a l ha hl
    refine (told (h.segwit a ha) ?_ hask hl).1
    rw [h2] at ha
    split at ha
    · rw [← Option.some.inj (Except.ok.inj ha)]
      exact p2sh_script hs.hash _ _
    · cases ha

/-- C91. `send` over the services: if whatever services report about the addresses of the key is what the chain has, and
`send` of a new key object returns, then what it returned is the id of a transaction that some service took, that a node
takes too, and that spends coins of the key only. -/
theorem C91_send (C : Crypto) (k : PrivKey) (hk : KeyLaws C k) (L : Spec.Ledger) (hL : L.WF) (outside : Str → Outside)
    (hrep : ReportsKey false C outside L k) (ask : Ask) (hask : Online C outside k.net L ask) (env : Env Amount)
    (hshuffle : ∀ l, (env.shuffle l).Perm l) (args : TxArgs Amount) (hfee : 0 ≤ askedFee env args)
    (hpay : args.outputs ≠ []) (lists : Lists) (push : Service → Str → Py Bool) (w : Wallet) (hw : w.signer = .single k)
    (hempty : w.unspents = []) (id : Str) (h : (w.send C env args ask lists push .stored).2.2 = .ok id) :
    ∃ t : Spec.Tx, SentBy C push (lists k.net .broadcast) t (w.send C env args ask lists push .stored).2.1 id ∧
      Valid C.hashing L t ∧ ∀ c ∈ L.spentBy t, c.script ∈ keyScripts C k := by
  obtain ⟨-, hc⟩ := C65_send_cases C env args ask lists push w .stored
  rcases hc with ⟨e, -, h2⟩ | ⟨text, h1, hc⟩
  · rw [h2] at h; cases h
  rcases hc with ⟨pre, s, rest, g1, g2, g3, g4⟩ | ⟨pre, s, rest, e, -, -, -, -, g5⟩ | ⟨-, g2⟩
  · have h1 : (w.createTransaction C env args ask (.given [])).2 = .ok text := by
      rw [← h1]
      unfold Wallet.createTransaction Wallet.source
      rw [hempty]
      rfl
    obtain ⟨t, e1, rfl, e3, e4, e5⟩ := C87_valid C k hk L hL env hshuffle args hfee ask (honest_services hk hrep hask) w hw
      text h1
    rw [g4] at h ⊢
    rw [hw] at g1
    refine ⟨t, ⟨e1, ⟨pre, s, rest, g1, g2, g3, rfl⟩, ?_⟩, e5 (e4 hpay), e3⟩
    have := calcTxid_of C t e1 (!t.inputs.all fun i => i.witness.isEmpty)
    have e : (if (!t.inputs.all fun i => i.witness.isEmpty) = true then t.encodeExtended else t.encodeLegacy) =
        t.encode := by
      unfold Spec.Tx.encode
      cases t.inputs.all fun i => i.witness.isEmpty <;> rfl
    rw [e] at this
    dsimp only at h
    rw [this] at h
    exact (Except.ok.inj h).symm
  · rw [g5] at h; cases h
  · rw [g2] at h; cases h

/-- C91. A contract over services: what one holder creates and the others sign, each asking services of their own, is
taken by a node, if whatever the services report about the addresses of the contract is what the chain has. -/
theorem C91_contract (C : Crypto) (s : MultiSig) (hs : ContractLaws C s) (htwo : TwoScripts C s) (L : Spec.Ledger) (hL : L.WF)
    (hidx : ∀ c ∈ L, c.index < 2 ^ 32) (env : Env Amount) (hshuffle : ∀ l, (env.shuffle l).Perm l) (args : TxArgs Amount)
    (hfee : 0 ≤ askedFee env args) (hpay : args.outputs ≠ []) (outside : Str → Outside) (hrep : ReportsContract false C outside L s)
    (ask : Ask) (hask : Online C outside s.net L ask) (w : Wallet) (hw : w.signer = .multi s) (others : List Cosigner)
    (hothers : ∀ c ∈ others, c.wallet.signer = .multi { s with key := c.key } ∧
      ∃ outside, ReportsContract false C outside L s ∧ Online C outside s.net L c.ask)
    (hlaws : ∀ k ∈ s.key :: others.map Cosigner.key, SignerLaws C s k)
    (hdistinct : ((s.key :: others.map Cosigner.key).map fun k => k.publicKey C).Nodup)
    (henough : (others.length : Int) + 1 = s.m)
    (hapart : ∀ us sel change fee t, (∀ u ∈ us, ∃ c ∈ L, Tells c u) → Built C env args (.multi s) us sel change fee t →
      NoMixup C s (s.key :: others.map Cosigner.key) us t) (readFloat : Str → PyFloat) (r r' : Str)
    (h : (w.createTransaction C env args ask (.given [])).2 = .ok r) (h' : cosignOnline C readFloat others r = .ok r') :
    ∃ t : Spec.Tx, t.WF ∧ r' = bytesToHex t.encode ∧ Valid C.hashing L t ∧
      ∀ c ∈ L.spentBy t, c.script ∈ contractScripts C s := by
  obtain ⟨t, h1, h2, h3, h4, h5⟩ := C90_valid C s hs htwo L hL hidx env args hfee ask w others
    { shuffle := hshuffle, honest := honest_contract hs.toContractShape hrep hask, signer := hw
      cosigner := fun c hc => by
        obtain ⟨g1, o, g2, g3⟩ := hothers c hc
        exact ⟨g1, honest_contract hs.toContractShape g2 g3⟩
      laws := hlaws, distinct := hdistinct, enough := henough, apart := hapart } readFloat r r' h h'
  exact ⟨t, h1, h2, h5 (h4 hpay), h3⟩

/-- C91. The balance over the services is the balance on the chain. -/
theorem C91_balance (C : Crypto) (k : PrivKey) (hk : KeyLaws C k) (L : Spec.Ledger) (outside : Str → Outside)
    (hrep : ReportsKey false C outside L k) (ask : Ask) (hask : Online C outside k.net L ask) (w w' : Wallet)
    (hw : w.signer = .single k) (prec : Nat) (hp : 9 ≤ prec) (limit now : Int) (answers : List (Py Int))
    (unit : Str) (n : Nat) (hu : (unit, n) ∈ bitcoinUnits) (caches caches' : RateCaches)
    (hcache : (caches unit).satoshis = none ∨ (caches unit).satoshis = some ((10 ^ n : Nat) : Int))
    (hsmall : held C k L < 10 ^ prec) (text : Str)
    (h : w.getBalance C ask prec limit now answers unit caches = (w', caches', .ok text)) :
    w'.balance = held C k L ∧ Spec.Denotes text ((held C k L : ℚ) / 10 ^ n) :=
  C87_shown C k hk L ask (honest_services hk hrep hask) w w' hw prec hp limit now answers unit n hu caches caches' hcache
    hsmall text h

theorem legacy_up {C : Crypto} {k : PrivKey} (hk : KeyLaws C k) (hadd : OrdinaryAddresses C (.single k)) {address : Str}
    (h : k.address C = .ok address) :
    Gives true (scriptHex C address) (· = bytesToHex (Spec.p2pkhScript (C.ripemd160 (C.sha256 (k.publicKey C))))) := by
  rcases legacy_script hk h with h1 | ⟨-, e, h1⟩
  · exact .inl h1
  · obtain ⟨a, g1, -, g3, -⟩ := C17_p2pkh_address C hk.hash hk.zero (k.publicKey C) k.net hk.pub'
    have : a = address := Except.ok.inj (g1.symm.trans h)
    subst this
    unfold scriptHex at h1
    rw [(g3 (hadd.1 a h)).2] at h1
    cases h1

theorem segwit_up {C : Crypto} {k : PrivKey} (hk : KeyLaws C k) (hadd : OrdinaryAddresses C (.single k)) {address : Str}
    (h : k.segwitAddress C = .ok (some address)) :
    Gives true (scriptHex C address) (· = bytesToHex (Spec.p2shScript
      (C.ripemd160 (C.sha256 (Spec.witnessScript 0 (C.ripemd160 (C.sha256 (k.publicKey C)))))))) := by
  rcases segwit_script hk h with h1 | ⟨-, e, h1⟩
  · exact .inl h1
  · have hp := hk.pub
    cases hc : k.compressed with
    | false => rw [segwit_none hk hc] at h; cases h
    | true =>
      rw [hc] at hp
      obtain ⟨a, h', e1, rfl, -, e3, e4⟩ := (C18_segwit_address C hk.hash (k.publicKey C) k.net).2 hp
      have hs : k.segwitAddress C = .ok (some a) := by
        unfold PrivKey.segwitAddress PrivKey.isCompressed
        rw [hp, e1]; rfl
      have : a = address := by
        rw [h] at hs
        cases hs
        rfl
      subst this
      unfold scriptHex at h1
      rw [(e3 (hadd.2 a h)).2] at h1
      cases h1

/-- C91. If all services answer, with what the chain has, a refresh succeeds; and a payment that is in order and for which
the key holds enough gives a transaction that a node takes. -/
theorem C91_pays (C : Crypto) (k : PrivKey) (hk : KeyLaws C k) (hadd : OrdinaryAddresses C (.single k)) (L : Spec.Ledger)
    (hL : L.WF) (hsane : Sane L) (outside : Str → Outside) (hrep : ReportsKey true C outside L k) (ask : Ask)
    (hask : Online C outside k.net L ask) (w : Wallet) (hw : w.signer = .single k) :
    ∃ us, (w.getUnspents C ask).2 = .ok us ∧ ∀ (env : Env Amount) (args : TxArgs Amount) (amounts : List Int)
      (scripts : List Bytes) (changeScript : Bytes), (∀ l, (env.shuffle l).Perm l) → args.outputs ≠ [] →
      InOrder C env args (.single k) us amounts scripts changeScript →
      needed env args us amounts scripts changeScript ≤ held C k L →
      ∃ t : Spec.Tx, (w.createTransaction C env args ask (.given [])).2 = .ok (bytesToHex t.encode) ∧
        Valid C.hashing L t := by
  have hh : Honest C k L ask :=
    ⟨fun a _ ha hl => (told (hrep.legacy a ha) (legacy_up hk hadd ha) hask hl).1,
      fun a _ ha hl => (told (hrep.segwit a ha) (segwit_up hk hadd ha) hask hl).1⟩
  have hseq : ∀ a l, k.address C = .ok a ∨ k.segwitAddress C = .ok (some a) → ask a = .ok (some l) → ∀ u ∈ l,
      0 ≤ u.sequence ∧ u.sequence < 2 ^ 32 := by
    rintro a l (ha | ha) hl u hu
    · rw [(told (hrep.legacy a ha) (legacy_up hk hadd ha) hask hl).2 u hu]; decide
    · rw [(told (hrep.segwit a ha) (segwit_up hk hadd ha) hask hl).2 u hu]; decide
  obtain ⟨w', us, hg⟩ : ∃ w' us, w.getUnspents C ask = (w', .ok us) := by
    obtain ⟨⟨a, ha⟩, ⟨seg, hseg⟩, -⟩ := key_addresses hk hadd
    have e1 : ∃ us, ask a = .ok (some us) := by
      rcases asked (hrep.legacy a ha) (legacy_up hk hadd ha) hask with ⟨_, e, us, rfl, -⟩ | ⟨h, -⟩
      · exact ⟨us, e⟩
      · cases h
    obtain ⟨us, e1⟩ := e1
    unfold Wallet.getUnspents
    rw [hw]
    dsimp only [Signer.kinds]
    rw [ha]
    dsimp only
    rw [e1]
    dsimp only [retype]
    rw [hseg]
    cases seg with
    | none => exact ⟨_, _, rfl⟩
    | some b =>
      have e2 : ∃ us, ask b = .ok (some us) := by
        rcases asked (hrep.segwit b hseg) (segwit_up hk hadd hseg) hask with ⟨_, e, us, rfl, -⟩ | ⟨h, -⟩
        · exact ⟨us, e⟩
        · cases h
      obtain ⟨us', e2⟩ := e2
      dsimp only
      rw [e2]
      exact ⟨_, _, rfl⟩
  refine ⟨us, by rw [hg], ?_⟩
  intro env args amounts scripts changeScript hshuffle hpay ho hn
  exact C88_on_chain C k hk hadd L hL hsane env hshuffle args hpay ask hh w w' hw hseq us hg amounts scripts changeScript ho hn

/-! ### Servers for the sample key and the sample contract -/

/-- What a server knows about a script. -/
def accountFor (L : Spec.Ledger) (script : Bytes) : Account :=
  ⟨700000, bytesToHex script, (L.coinsOf script).map fun c =>
    ⟨⟨bytesToHex c.txid.reverse, c.index, c.value, if c.index = 1 then some 699990 else none⟩, none⟩, [], []⟩

theorem accountFor_onChain (L : Spec.Ledger) (script : Bytes) : OnChain L script (accountFor L script) where
  locked := rfl
  coins := by
    have e : (accountFor L script).coins = (L.coinsOf script).map fun c =>
        ⟨bytesToHex c.txid.reverse, c.index, c.value, if c.index = 1 then some 699990 else none⟩ := by
      unfold accountFor Account.coins
      dsimp only
      generalize L.coinsOf script = l
      induction l with
      | nil => rfl
      | cons c l ih => simpa using ih
    rw [e, List.map_map]
    exact List.Perm.refl _

/-- Servers that know the chain; `scriptOf` gives the scripts of addresses, and some requests fail. -/
def outsideFor (L : Spec.Ledger) (net : Net) (scriptOf : Str → Bytes) (down : Request → Bool) (address : Str) : Outside :=
  ⟨failing (server (accountFor L (scriptOf address)) net address) down, fun _ _ _ => .error .requestsTimeout⟩

theorem reports_for (L : Spec.Ledger) (net : Net) (scriptOf : Str → Bytes) (down : Request → Bool) (address : Str) :
    Reports false (outsideFor L net scriptOf down) net L address (scriptOf address) :=
  ⟨_, accountFor_onChain L _, failing_server _ _ _ List.nodup_nil List.not_mem_nil _⟩

theorem reports_up (L : Spec.Ledger) (net : Net) (scriptOf : Str → Bytes) (address : Str) :
    Reports true (fun address => ⟨server (accountFor L (scriptOf address)) net address, fun _ _ _ => .error .requestsTimeout⟩)
      net L address (scriptOf address) :=
  ⟨_, accountFor_onChain L _, server_truthful _ _ _ List.nodup_nil List.not_mem_nil⟩

/-- The query for unspents, over these servers. -/
def askOver (outside : Str → Outside) (fuel : Nat) : Ask := fun address =>
  match networkUnspent crypto 28 (outside address) initialLists .main fuel address with
  | some r => r
  | none => .error .requestsConnection

theorem askOver_online (outside : Str → Outside) (L : Spec.Ledger) (hv : ∀ c ∈ L, c.value < 10 ^ 28) :
    Online crypto outside .main L (askOver outside L.length) :=
  ⟨28, L.length, initialLists, by decide, hv, le_refl _, rfl, fun address r h => by unfold askOver; rw [h]⟩

/-- Blockstream, which is asked first for unspents, is down. -/
def downB (r : Request) : Bool :=
  match r with
  | .get url _ => isTo "https://blocks" url
  | _ => false

def scriptOfB (address : Str) : Bytes := if address = legacyB then scriptP2PKH keyB else scriptNested keyB

theorem segwitB_other : segwitB ≠ legacyB := by decide +kernel

theorem scripts_of_B : (∀ address, keyB.address crypto = .ok address → scriptOfB address =
      Spec.p2pkhScript (crypto.ripemd160 (crypto.sha256 (keyB.publicKey crypto)))) ∧
    ∀ address, keyB.segwitAddress crypto = .ok (some address) → scriptOfB address = Spec.p2shScript
      (crypto.ripemd160 (crypto.sha256 (Spec.witnessScript 0 (crypto.ripemd160 (crypto.sha256 (keyB.publicKey crypto)))))) := by
  constructor
  · intro address h
    rw [legacyB_is] at h
    rw [← Except.ok.inj h]
    exact (if_pos rfl).trans (by decide +kernel)
  · intro address h
    rw [segwitB_is] at h
    rw [← Option.some.inj (Except.ok.inj h)]
    exact (if_neg segwitB_other).trans (by decide +kernel)

/-- For C91_send and C91_balance. -/
theorem reports_B : ReportsKey false crypto (outsideFor ledgerB .main scriptOfB downB) ledgerB keyB where
  legacy := fun address h => by rw [← scripts_of_B.1 address h]; exact reports_for _ _ _ _ _
  segwit := fun address h => by rw [← scripts_of_B.2 address h]; exact reports_for _ _ _ _ _

theorem ledgerB_values : ∀ c ∈ ledgerB, c.value < 10 ^ 28 := by decide +kernel

theorem online_B : Online crypto (outsideFor ledgerB .main scriptOfB downB) .main ledgerB
    (askOver (outsideFor ledgerB .main scriptOfB downB) 3) := askOver_online _ ledgerB ledgerB_values

/-- The key sends, and the second service that it asks takes the transaction. -/
example : ((newWallet (.single keyB)).send crypto envB (argsB true) (askOver (outsideFor ledgerB .main scriptOfB downB) 3)
    initialLists (servicePush laterB .main) .stored).2.2.toOption.isSome = true := by decide +kernel

/-- It shows its balance. -/
example : ((newWallet (.single keyB)).getBalance crypto (askOver (outsideFor ledgerB .main scriptOfB downB) 3) 28 60 0 []
    "mbtc".toList (fun _ => ⟨none, 0⟩)).2.2 = .ok "1.5".toList := by decide +kernel

/-- For C91_pays: all servers answer. -/
def outsideU (address : Str) : Outside :=
  ⟨server (accountFor ledgerB (scriptOfB address)) .main address, fun _ _ _ => .error .requestsTimeout⟩

theorem reports_U : ReportsKey true crypto outsideU ledgerB keyB where
  legacy := fun address h => by rw [← scripts_of_B.1 address h]; exact reports_up ledgerB .main scriptOfB address
  segwit := fun address h => by rw [← scripts_of_B.2 address h]; exact reports_up ledgerB .main scriptOfB address

def listedU : List Unspent := ((newWallet (.single keyB)).getUnspents crypto (askOver outsideU 3)).2.toOption.getD []

theorem listedU_segwit : listedU.any (fun u => decide (u.segwit = some true)) = true := by decide +kernel

theorem listedU_enough : needed envB (argsB false) listedU [20000]
    [unhex "76a91477bff20c60e522dfaa3350c39b030a5d004e839a88ac"] (scriptNested keyB) ≤ held crypto keyB ledgerB := by
  decide +kernel

/-- The key pays 20000 satoshi. -/
example : ∃ t : Spec.Tx, ((newWallet (.single keyB)).createTransaction crypto envB (argsB false) (askOver outsideU 3)
    (.given [])).2 = .ok (bytesToHex t.encode) ∧ Valid crypto.hashing ledgerB t := by
  obtain ⟨us, h1, h2⟩ := C91_pays (Amount := Int) crypto keyB (toy_laws keyB (by decide)) keyB_ordinary ledgerB ledgerB_wf
    ⟨by decide +kernel, by decide, by decide +kernel⟩ outsideU reports_U (askOver outsideU 3)
    (askOver_online outsideU ledgerB ledgerB_values) (newWallet (.single keyB)) rfl
  have e : us = listedU := by
    unfold listedU
    rw [h1]
    rfl
  exact h2 envB (argsB false) [20000] _ _ (fun _ => List.Perm.refl _) (by decide +kernel)
    (inOrder_nested false (by rw [e]; exact listedU_segwit)) (by rw [e]; exact listedU_enough)

/-- For C91_contract: two holders, one of whom cannot reach Blockstream. -/
def scriptOfC (address : Str) : Bytes := if address = addressC then coinL.script else coinM.script

theorem reports_C (down : Request → Bool) :
    ReportsContract false crypto (outsideFor ledgerC .main scriptOfC down) ledgerC contract where
  legacy := fun address h => by
    have e : (Signer.multi contract).address crypto = .ok addressC := by decide +kernel
    rw [e] at h
    rw [← Except.ok.inj h]
    have e : scriptOfC addressC = Spec.p2shScript (crypto.ripemd160 (crypto.sha256 contract.redeemscript)) := if_pos rfl
    rw [← e]
    exact reports_for _ _ _ _ _
  segwit := fun address h => by
    have e : (Signer.multi contract).segwitAddress crypto = .ok (some segwitC) := by decide +kernel
    rw [e] at h
    rw [← Option.some.inj (Except.ok.inj h)]
    have e : scriptOfC segwitC = Spec.p2shScript (crypto.ripemd160 (crypto.sha256
      (Spec.witnessScript 0 (crypto.sha256 contract.redeemscript)))) := if_neg (by decide +kernel)
    rw [← e]
    exact reports_for _ _ _ _ _

def cosignerW : Cosigner := ⟨keyC, newWallet (.multi { contract with key := keyC }),
  askOver (outsideFor ledgerC .main scriptOfC downB) 3⟩

theorem ledgerC_values : ∀ c ∈ ledgerC, c.value < 10 ^ 28 := by decide +kernel

theorem online_C : Online crypto (outsideFor ledgerC .main scriptOfC downB) contract.net ledgerC
    (askOver (outsideFor ledgerC .main scriptOfC downB) 3) := askOver_online _ ledgerC ledgerC_values

theorem cosigners_W : ∀ c ∈ [cosignerW], c.wallet.signer = .multi { contract with key := c.key } ∧
    ∃ outside, ReportsContract false crypto outside ledgerC contract ∧ Online crypto outside contract.net ledgerC c.ask := by
  intro c hc
  rw [List.mem_singleton] at hc
  subst hc
  exact ⟨rfl, outsideFor ledgerC .main scriptOfC downB, reports_C downB, online_C⟩

def createdW : Py Str := (contractWallet.createTransaction crypto envB (argsB true)
  (askOver (outsideFor ledgerC .main scriptOfC fun _ => false) 3) (.given [])).2

def signedW : Py Str := createdW.bind (cosignOnline crypto exactFloat [cosignerW])

/-- They make the transaction of C90. -/
example : signedW = .ok (bytesToHex txC.encode) := by decide +kernel

end Bit
