import Verif.Lemmas.Ledger
import Verif.Props.Web
import Verif.Props.Fee
/-
C87: a wallet and the chain.
-/
namespace Bit
open Concrete
open Spec.Ledger
variable {Amount : Type}

/-! ## C87 -/

/-- The output scripts of the addresses of a key. -/
def keyScripts (C : Crypto) (k : PrivKey) : List Bytes :=
  Spec.p2pkhScript (C.ripemd160 (C.sha256 (k.publicKey C))) ::
    if k.compressed then [Spec.p2shScript
      (C.ripemd160 (C.sha256 (Spec.witnessScript 0 (C.ripemd160 (C.sha256 (k.publicKey C))))))] else []

/-- What belongs to the key. -/
def held (C : Crypto) (k : PrivKey) (L : Spec.Ledger) : Nat := ((keyScripts C k).map L.balance).sum

/-- The unspent object tells of an unspent output. -/
structure Tells (c : Spec.Utxo) (u : Unspent) : Prop where
  amount : u.amount = c.value
  script : u.script = bytesToHex c.script
  txid : u.txid = bytesToHex c.txid.reverse
  index : u.txindex = c.index

/-- The network answers questions on the addresses of the key with the unspent outputs there are, in any order, or it
fails. -/
structure Honest (C : Crypto) (k : PrivKey) (L : Spec.Ledger) (ask : Ask) : Prop where
  legacy : ∀ a l, k.address C = .ok a → ask a = .ok (some l) → ∃ cs,
    cs.Perm (L.coinsOf (Spec.p2pkhScript (C.ripemd160 (C.sha256 (k.publicKey C))))) ∧ List.Forall₂ Tells cs l
  segwit : ∀ a l, k.segwitAddress C = .ok (some a) → ask a = .ok (some l) → ∃ cs,
    cs.Perm (L.coinsOf (Spec.p2shScript
      (C.ripemd160 (C.sha256 (Spec.witnessScript 0 (C.ripemd160 (C.sha256 (k.publicKey C)))))))) ∧ List.Forall₂ Tells cs l

/-- What the payments pay to a script. -/
def paidTo (C : Crypto) (s : Bytes) (pays : List (Str × Int)) : Int :=
  ((pays.filter fun p => addressToScriptpubkey C p.1 = .ok (some s)).map Prod.snd).sum

theorem Honest.true {C : Crypto} {k : PrivKey} {L : Spec.Ledger} {ask : Ask} (h : Honest C k L ask) :
    TrueAnswers C k ask := by
  constructor
  · intro a l ha hl u hu
    obtain ⟨cs, hp, hf⟩ := h.legacy a l ha hl
    obtain ⟨c, hc, ht⟩ := forall₂_right hf hu
    have := (List.mem_filter.mp (hp.subset hc)).2
    rw [ht.script, of_decide_eq_true this]
  · intro a l ha hl u hu
    obtain ⟨cs, hp, hf⟩ := h.segwit a l ha hl
    obtain ⟨c, hc, ht⟩ := forall₂_right hf hu
    have := (List.mem_filter.mp (hp.subset hc)).2
    rw [ht.script, of_decide_eq_true this]

theorem Tells.retyped {c : Spec.Utxo} {u v : Unspent} {name : Str} {n : Nat} (h : Tells c u) (hr : Retyped name n u v) :
    Tells c v :=
  ⟨hr.amount.trans h.amount, hr.script.trans h.script, hr.txid.trans h.txid, hr.txindex.trans h.index⟩

theorem tells_retyped {name : Str} {n : Nat} : ∀ {cs : List Spec.Utxo} {l us : List Unspent}, List.Forall₂ Tells cs l →
    List.Forall₂ (Retyped name n) l us → List.Forall₂ Tells cs us
  | _, _, _, .nil, .nil => .nil
  | _, _, _, .cons h t, .cons h' t' => .cons (h.retyped h') (tells_retyped t t')

theorem segwit_none {C : Crypto} {k : PrivKey} (hk : KeyLaws C k) (hc : k.compressed = false) :
    k.segwitAddress C = .ok none := by
  have hp := hk.pub
  rw [hc] at hp
  unfold PrivKey.segwitAddress PrivKey.isCompressed
  rw [hp]; rfl

theorem segwit_some {C : Crypto} {k : PrivKey} (hk : KeyLaws C k) (hc : k.compressed = true) :
    ∃ a, k.segwitAddress C = .ok (some a) := by
  have hp := hk.pub
  rw [hc] at hp
  obtain ⟨a, h', e1, -⟩ := (C18_segwit_address C hk.hash (k.publicKey C) k.net).2 hp
  exact ⟨a, by unfold PrivKey.segwitAddress PrivKey.isCompressed; rw [hp, e1]; rfl⟩

/-- A refresh lists the unspent outputs of the key. -/
theorem fetched_coins {C : Crypto} {k : PrivKey} (hk : KeyLaws C k) {L : Spec.Ledger} {ask : Ask} (h : Honest C k L ask)
    {w w' : Wallet} (hw : w.signer = .single k) {us : List Unspent} (hg : w.getUnspents C ask = (w', .ok us)) :
    ∃ cs, cs.Perm ((keyScripts C k).flatMap L.coinsOf) ∧ List.Forall₂ Tells cs us ∧
      w'.balance = (us.map Unspent.amount).sum := by
  obtain ⟨a, seg, l₁, l₂, us₁, us₂, v₁, v₂, h1, h2, h3, h4, h5, -, rfl, h7, h8, -, h9, -, h10⟩ :=
    C52_refresh C ask w w' us hg
  rw [hw] at h1 h2
  rw [h9] at h10
  obtain ⟨cs₁, p1, f1⟩ := h.legacy a l₁ h1 h3
  have f1' := tells_retyped f1 h7
  cases hc : k.compressed with
  | false =>
    have hs : seg = none := Except.ok.inj (h2.symm.trans (segwit_none hk hc))
    rw [h4 hs] at h8
    cases h8
    refine ⟨cs₁, ?_, by rw [List.append_nil]; exact f1', h10⟩
    unfold keyScripts
    rw [hc]
    simpa using p1
  | true =>
    obtain ⟨a', ha'⟩ := segwit_some hk hc
    have hs : seg = some a' := Except.ok.inj (h2.symm.trans ha')
    obtain ⟨cs₂, p2, f2⟩ := h.segwit a' l₂ ha' (h5 a' hs)
    have f2' := tells_retyped f2 h8
    refine ⟨cs₁ ++ cs₂, ?_, List.rel_append f1' f2', h10⟩
    unfold keyScripts
    rw [hc]
    simpa using p1.append p2

theorem scripts_ne (C : Crypto) (k : PrivKey) : (keyScripts C k).Nodup := by
  unfold keyScripts
  split
  · simp [Spec.p2pkhScript, Spec.p2shScript]
  · simp

theorem owned_worth (C : Crypto) (k : PrivKey) (L : Spec.Ledger) :
    worth ((keyScripts C k).flatMap L.coinsOf) = held C k L := by
  unfold held
  induction keyScripts C k with
  | nil => rfl
  | cons s ss ih =>
    rw [List.flatMap_cons, worth_append, List.map_cons, List.sum_cons, ih]
    rfl

theorem owned_nodup (C : Crypto) (k : PrivKey) {L : Spec.Ledger} (hL : L.WF) :
    (((keyScripts C k).flatMap L.coinsOf).map Spec.Utxo.outpoint).Nodup := by
  have hn : ((keyScripts C k).flatMap L.coinsOf).Nodup := by
    rw [List.nodup_flatMap]
    refine ⟨fun s _ => (List.Nodup.of_map _ hL.nodup).filter _, ?_⟩
    refine (scripts_ne C k).imp ?_
    intro s s' hne c h1 h2
    have e1 := of_decide_eq_true (List.mem_filter.mp h1).2
    have e2 := of_decide_eq_true (List.mem_filter.mp h2).2
    exact hne (e1.symm.trans e2)
  refine hn.map_on ?_
  intro c hc d hd e
  obtain ⟨_, _, h1⟩ := List.mem_flatMap.mp hc
  obtain ⟨_, _, h2⟩ := List.mem_flatMap.mp hd
  exact List.inj_on_of_nodup_map hL.nodup (List.mem_of_mem_filter h1) (List.mem_of_mem_filter h2) e

theorem tells_key {cs : List Spec.Utxo} {us : List Unspent} (h : List.Forall₂ Tells cs us) :
    us.map (fun u => (u.txid, u.txindex)) = cs.map fun c => (bytesToHex c.txid.reverse, (c.index : Int)) := by
  induction h with
  | nil => rfl
  | cons h _ ih => rw [List.map_cons, List.map_cons, ih, h.txid, h.index]

theorem tells_sum {cs : List Spec.Utxo} {us : List Unspent} (h : List.Forall₂ Tells cs us) :
    (us.map Unspent.amount).sum = (worth cs : Nat) := by
  induction h with
  | nil => rfl
  | cons h _ ih =>
    rw [List.map_cons, List.sum_cons, ih, h.amount]
    unfold worth
    rw [List.map_cons, List.sum_cons]
    push_cast
    rfl

theorem tells_distinct {cs : List Spec.Utxo} {us : List Unspent} (h : List.Forall₂ Tells cs us)
    (hn : (cs.map Spec.Utxo.outpoint).Nodup) : Distinct us := by
  unfold Distinct
  rw [tells_key h]
  have : (cs.map fun c => (bytesToHex c.txid.reverse, (c.index : Int))) =
      (cs.map Spec.Utxo.outpoint).map fun p => (bytesToHex p.1.reverse, (p.2 : Int)) := by
    rw [List.map_map]; rfl
  rw [this]
  refine hn.map ?_
  rintro ⟨a, b⟩ ⟨c, d⟩ he
  simp only [Prod.mk.injEq, Int.natCast_inj] at he
  rw [List.reverse_injective (bytesToHex_injective he.1), he.2]

/-- A sublist of the objects, up to order, tells of some of the outputs. -/
theorem tells_subperm {cs : List Spec.Utxo} {us sel : List Unspent} (h : List.Forall₂ Tells cs us) (hs : sel.Subperm us) :
    ∃ ds, ds.Subperm cs ∧ List.Forall₂ Tells ds sel := by
  obtain ⟨l, h1, h2⟩ := hs
  obtain ⟨ds, hd, hf⟩ : ∃ ds, ds.Sublist cs ∧ List.Forall₂ Tells ds l := by
    clear h1
    induction h2 generalizing cs with
    | slnil => cases h; exact ⟨[], .slnil, .nil⟩
    | cons a _ ih =>
      cases h with
      | cons _ h => obtain ⟨ds, h1, h2⟩ := ih h; exact ⟨ds, .cons _ h1, h2⟩
    | cons_cons a _ ih =>
      cases h with
      | cons h0 h => obtain ⟨ds, h1, h2⟩ := ih h; exact ⟨_ :: ds, .cons_cons _ h1, .cons h0 h2⟩
  obtain ⟨es, e1, e2⟩ := List.perm_comp_forall₂ h1.symm hf.flip
  exact ⟨es, e2.subperm.trans hd.subperm, e1.flip⟩

/-- What a request pays to a script. -/
def part (C : Crypto) (s : Bytes) (q : Dest × Int) : Int :=
  match q.1 with
  | .str a => if addressToScriptpubkey C a = .ok (some s) then q.2 else 0
  | .bytes _ => 0

/-- The outputs pay what was asked for. -/
theorem outTo_pays {C : Crypto} (s : Bytes) {reqs : List (Dest × Int)} {os : List Spec.TxOutput}
    (h : List.Forall₂ (fun q o => Pays C q.1 q.2 o) reqs os) :
    (outTo s os : Int) = (reqs.map (part C s)).sum := by
  induction h with
  | nil => rfl
  | @cons q o qs os hq _ ih =>
    have hv : (outTo s (o :: os) : Int) = (if o.script = s then (o.value : Int) else 0) + (outTo s os : Nat) := by
      unfold outTo
      by_cases hs : o.script = s <;> simp [hs]
    rw [hv, List.map_cons, List.sum_cons, ih]
    congr 1
    unfold part
    by_cases hz : q.2 = 0
    · have : o.value = 0 := by have := hq.value; omega
      rw [this]
      cases q.1 <;> simp [hz]
    · obtain ⟨a, e1, e2⟩ := hq.payment hz
      rw [e1]
      dsimp only
      rw [e2, hq.value]
      by_cases hs : o.script = s
      · rw [if_pos hs, if_pos (by rw [hs])]
      · rw [if_neg hs, if_neg (by simpa using hs)]

theorem paidTo_append (C : Crypto) (s : Bytes) (a b : List (Str × Int)) :
    paidTo C s (a ++ b) = paidTo C s a + paidTo C s b := by
  unfold paidTo
  rw [List.filter_append, List.map_append, List.sum_append]

theorem outTo_paid {C : Crypto} (s : Bytes) {pays : List (Str × Int)} {pieces : List Bytes} {os : List Spec.TxOutput}
    (h : List.Forall₂ (fun q o => Pays C q.1 q.2 o)
      (pays.map (fun p => (Dest.str p.1, p.2)) ++ pieces.map (fun c => (Dest.bytes c, 0))) os) :
    (outTo s os : Int) = paidTo C s pays := by
  rw [outTo_pays s h, List.map_append, List.sum_append, List.map_map, List.map_map]
  have e2 : (pieces.map (part C s ∘ fun c => (Dest.bytes c, 0))).sum = 0 := by
    clear h
    induction pieces with
    | nil => rfl
    | cons p ps ih => rw [List.map_cons, List.sum_cons, ih]; rfl
  rw [e2, add_zero]
  clear h e2
  unfold paidTo
  induction pays with
  | nil => rfl
  | cons p ps ih =>
    rw [List.map_cons, List.sum_cons, ih, List.filter_cons]
    simp only [Function.comp, part]
    by_cases hs : addressToScriptpubkey C p.1 = .ok (some s) <;> simp [hs]

theorem fee_nonneg {C : Crypto} {env : Env Amount} {args : TxArgs Amount} {s : Signer} {us sel : List Unspent}
    {change : Str} {fee : Int} {t : Spec.Tx} (h : Built C env args s us sel change fee t) (h0 : 0 ≤ askedFee env args) :
    0 ≤ fee := by
  cases ha : args.absoluteFee with
  | true => rw [h.absolute ha]; exact h0
  | false =>
    obtain ⟨pays, changes, pieces, scripts, changeScript, -, -, -, h4, -, -, h7⟩ := h.outputs
    rcases h7 ha with h8 | ⟨-, rfl, h8⟩
    · rw [h8]
      unfold feeFor
      obtain ⟨size, e, -⟩ := C28_formula (sel.map Unspent.vsize4).sum sel.length
        (sizesOf scripts pieces.length changeScript).sum (sizesOf scripts pieces.length changeScript).length
        (askedFee env args) (sel.any fun u => u.segwit = some true)
      rw [e]
      positivity
    · have hs := pays_sum h4
      have hb := h.balanced
      have hl := h8.lower
      have h1 : (sel.map fun u => 4 * u.amount - askedFee env args * u.vsize4).sum ≤ 4 * (sel.map Unspent.amount).sum := by
        generalize sel = l
        induction l with
        | nil => simp
        | cons u l ih =>
          simp only [List.map_cons, List.sum_cons]
          have : 0 ≤ askedFee env args * u.vsize4 := by positivity
          omega
      have h2 : 0 ≤ askedFee env args * (9 + (sizesOf scripts pieces.length changeScript).dropLast.sum : Nat) := by
        positivity
      have h3 : (((pays ++ []).map (fun p : Str × Int => (Dest.str p.1, p.2)) ++ pieces.map fun c => (Dest.bytes c, (0 : Int))).map
          Prod.snd).sum = (pays.map Prod.snd).sum := by
        simp [List.map_append, List.sum_append, Function.comp_def]
      rw [h3] at hs
      omega

/-- Without a list of unspents the key asks the network. -/
theorem create_asks {C : Crypto} {env : Env Amount} {args : TxArgs Amount} {ask : Ask} {w : Wallet} {r : Str}
    (h : (w.createTransaction C env args ask (.given [])).2 = .ok r) :
    ∃ w' us, w.getUnspents C ask = (w', .ok us) ∧ us ≠ [] ∧
      (w.createTransaction C env args ask (.given us)).2 = .ok r := by
  rcases hg : w.getUnspents C ask with ⟨w', got⟩
  have h1 : w.source C ask (.given []) = (w', got, true) := by
    unfold Wallet.source
    dsimp only
    rw [if_pos List.isEmpty_nil, hg]
  have hsig : w'.signer = w.signer := by
    have := getUnspents_signer C ask w
    rwa [hg] at this
  unfold Wallet.createTransaction at h
  rw [h1] at h
  cases got with
  | error e => cases h
  | ok us =>
    dsimp only at h
    rw [hsig] at h
    have hne : us ≠ [] := by
      rintro rfl
      cases hr : returnAddress C w.signer [] with
      | error e => rw [hr] at h; cases h
      | ok d =>
        rw [hr] at h
        have : ∃ e, sanitizeArgs C env args [] d w.signer.net = .error e := by
          unfold sanitizeArgs sanitizeTxData
          cases convertOutputs env.conv args.outputs with
          | error e => exact ⟨e, rfl⟩
          | ok o => exact ⟨_, rfl⟩
        obtain ⟨e, he⟩ := this
        dsimp only at h
        rw [he] at h
        cases h
    refine ⟨w', us, rfl, hne, ?_⟩
    have h2 : w.source C ask (.given us) = (w, .ok us, false) := by
      unfold Wallet.source
      dsimp only
      rw [if_neg (by simpa using hne)]
    unfold Wallet.createTransaction
    rw [h2]
    dsimp only
    cases hr : returnAddress C w.signer us with
    | error e => rw [hr] at h; cases h
    | ok d =>
      rw [hr] at h
      dsimp only at h ⊢
      cases hs : sanitizeArgs C env args us d w.signer.net with
      | error e => rw [hs] at h; cases h
      | ok p => rw [hs] at h; exact h

/-- What a key creates from the coins that an honest network lists. -/
theorem spend_core {C : Crypto} {k : PrivKey} (hk : KeyLaws C k) {L : Spec.Ledger} (hL : L.WF) {env : Env Amount}
    (hshuffle : ∀ l, (env.shuffle l).Perm l) {args : TxArgs Amount} {ask : Ask} (ht : Honest C k L ask) {w : Wallet}
    (hw : w.signer = .single k) {r : Str} (h : (w.createTransaction C env args ask (.given [])).2 = .ok r) :
    ∃ (us sel : List Unspent) (change : Str) (fee : Int) (t : Spec.Tx) (ds : List Spec.Utxo), t.WF ∧
      Built C env args (.single k) us sel change fee t ∧ r = bytesToHex t.encode ∧ List.Forall₂ Tells ds sel ∧
      (∀ c ∈ ds, c ∈ L ∧ c.script ∈ keyScripts C k) ∧ ds.Perm (L.spentBy t) ∧
      (t.inputs.map Spec.TxInput.prevout).Nodup ∧ ds.map Spec.Utxo.outpoint = t.inputs.map Spec.TxInput.prevout ∧
      (us.map Unspent.amount).sum = held C k L ∧
      (∀ j i c, t.inputs[j]? = some i → ds[j]? = some c → Spec.accepts C.hashing t j i c.script c.value = true) := by
  obtain ⟨w', us, hg, hne, h⟩ := create_asks h
  obtain ⟨cs, hp, hf, -⟩ := fetched_coins hk ht hw hg
  have hfit := fetched_fits hk ht.true hw hg
  have hn := (hp.map Spec.Utxo.outpoint).nodup_iff.mpr (owned_nodup C k hL)
  have hmem : ∀ c ∈ cs, c ∈ L ∧ c.script ∈ keyScripts C k := by
    intro c hc
    obtain ⟨s, hs, h1⟩ := List.mem_flatMap.mp (hp.subset hc)
    exact ⟨List.mem_of_mem_filter h1, by rw [of_decide_eq_true (List.mem_filter.mp h1).2]; exact hs⟩
  have htx : ∀ u ∈ us, TxidOk u := by
    intro u hu
    obtain ⟨c, hc, hu⟩ := forall₂_right hf hu
    exact ⟨c.txid.reverse, by rw [List.length_reverse]; exact hL.txid c (hmem c hc).1, hu.txid⟩
  obtain ⟨sel, change, fee, t, h1, h2, -, -, h5, h6⟩ := C63_create C k hk env hshuffle args ask w hw us hne htx
    (tells_distinct hf hn) (fun u hu _ => hfit u hu) r h
  obtain ⟨ds, d1, d2⟩ := tells_subperm hf h2.selected
  have hnd : (ds.map Spec.Utxo.outpoint).Nodup := by
    obtain ⟨l, e1, e2⟩ := d1
    exact (e1.map _).nodup_iff.mp ((e2.map _).nodup hn)
  have hout : ds.map Spec.Utxo.outpoint = t.inputs.map Spec.TxInput.prevout := by
    have hin := h2.inputs
    have aux : ∀ {ds : List Spec.Utxo} {sel : List Unspent}, List.Forall₂ Tells ds sel → ∀ {is : List Spec.TxInput},
        List.Forall₂ (fun (u : Unspent) (i : Spec.TxInput) => u.txid = bytesToHex i.prevTxid.reverse ∧
          (i.prevIndex : Int) = u.txindex) sel is → ds.map Spec.Utxo.outpoint = is.map Spec.TxInput.prevout := by
      intro ds sel d2
      induction d2 with
      | nil => intro is hin; cases hin; rfl
      | cons hu _ ih =>
        intro is hin
        cases hin with
        | cons hi hin =>
          rw [List.map_cons, List.map_cons, ih hin]
          congr 1
          unfold Spec.Utxo.outpoint Spec.TxInput.prevout
          rw [List.reverse_injective (bytesToHex_injective (hu.txid.symm.trans hi.1))]
          congr 1
          have := hi.2.trans hu.index
          exact_mod_cast this.symm
    exact aux d2 (hin.imp fun _ _ h => ⟨h.1, h.2.1⟩)
  have hsub : ∀ c ∈ ds, c ∈ L ∧ c.script ∈ keyScripts C k := fun c hc => hmem c (d1.subset hc)
  refine ⟨us, sel, change, fee, t, ds, h1, h2, h5 fun u hu => (hfit u hu).pays, d2, hsub,
    spent_perm hL (fun c hc => (hsub c hc).1) hout hnd, hout ▸ hnd, hout, ?_, ?_⟩
  · rw [tells_sum hf, worth_perm hp, owned_worth]
  intro j i c hi hc
  obtain ⟨u, hu⟩ := get_of_length d2.length_eq hc
  have htell : Tells c u := (forall₂_iff_get.mp d2).2 j _ _ hc hu
  obtain ⟨script, e1, e2⟩ := (h6 j u i hu hi).1 (hfit u (h2.selected.subset (List.mem_of_getElem? hu))).pays
  have e3 : script = c.script := bytesToHex_injective (e1.symm.trans htell.script)
  have e4 : u.amount.toNat = c.value := by rw [htell.amount]; rfl
  rw [e3, e4] at e2
  exact accepted hk.hash e2

/-- C87. If the network reports the chain truthfully and a key creates a transaction from the coins reported, then a node
takes it: it spends unspent outputs of the key, each once, satisfies their scripts, and does not pay more than it
spends. (A sweep without payments may leave no output; a payment always makes one.) -/
theorem C87_valid (C : Crypto) (k : PrivKey) (hk : KeyLaws C k) (L : Spec.Ledger) (hL : L.WF) (env : Env Amount)
    (hshuffle : ∀ l, (env.shuffle l).Perm l) (args : TxArgs Amount) (hfee : 0 ≤ askedFee env args) (ask : Ask)
    (ht : Honest C k L ask) (w : Wallet) (hw : w.signer = .single k) (r : Str)
    (h : (w.createTransaction C env args ask (.given [])).2 = .ok r) :
    ∃ t : Spec.Tx, t.WF ∧ r = bytesToHex t.encode ∧ (∀ c ∈ L.spentBy t, c.script ∈ keyScripts C k) ∧
      (args.outputs ≠ [] → t.outputs ≠ []) ∧ (t.outputs ≠ [] → Valid C.hashing L t) := by
  obtain ⟨us, sel, change, fee, t, ds, h1, h2, h3, h4, h5, h6, h7, h8, hall, h9⟩ := spend_core hk hL hshuffle ht hw h
  refine ⟨t, h1, h3, fun c hc => (h5 c (h6.symm.subset hc)).2, ?_, ?_⟩
  · intro hne hnil
    obtain ⟨pays, changes, pieces, scripts, changeScript, g1, -, -, g4, -⟩ := h2.outputs
    rw [hnil] at g4
    have : pays = [] := by
      have := g4.length_eq
      simp at this
      exact this.1
    rw [this] at g1
    exact hne (List.forall₂_nil_right_iff.mp g1)
  · intro hne
    refine ⟨h1, hne, h7, ?_, ?_⟩
    · intro j i hi
      obtain ⟨c, hc⟩ := get_of_length (by simpa using (congrArg List.length h8).symm : t.inputs.length = ds.length) hi
      refine ⟨c, (h5 c (List.mem_of_getElem? hc)).1, ?_, h9 j i c hi hc⟩
      have e1 : (ds.map Spec.Utxo.outpoint)[j]? = some c.outpoint := by rw [List.getElem?_map, hc]; rfl
      rw [h8, List.getElem?_map, hi] at e1
      exact (Option.some.inj e1).symm
    · have e1 := tells_sum h4
      rw [worth_perm h6] at e1
      have e2 := h2.balanced
      have e3 := fee_nonneg h2 hfee
      have e4 : (t.outputs.map fun o => (o.value : Int)).sum = ((t.outputs.map Spec.TxOutput.value).sum : Nat) := by
        generalize t.outputs = os
        induction os with
        | nil => rfl
        | cons o os ih => simp only [List.map_cons, List.sum_cons, ih]; push_cast; rfl
      omega

theorem balance_zero {L : Spec.Ledger} {s : Bytes} (h : ∀ c ∈ L, c.script ≠ s) : L.balance s = 0 := by
  unfold balance coinsOf
  rw [List.filter_eq_nil_iff.mpr (by simpa using h)]
  rfl

theorem balance_cons (c : Spec.Utxo) (L : Spec.Ledger) (s : Bytes) :
    balance (c :: L) s = (if c.script = s then c.value else 0) + L.balance s := by
  unfold balance coinsOf worth
  by_cases h : c.script = s <;> simp [h]

/-- Coins with scripts out of a list are worth what the scripts of the list have. -/
theorem worth_scripts {ss : List Bytes} (hn : ss.Nodup) : ∀ {L : Spec.Ledger}, (∀ c ∈ L, c.script ∈ ss) →
    (ss.map L.balance).sum = worth L
  | [], _ => by
    have : (fun s => balance [] s) = fun _ => 0 := rfl
    show (ss.map fun s => balance [] s).sum = 0
    rw [this]
    simp
  | c :: L, h => by
    have ih := worth_scripts hn (L := L) fun d hd => h d (List.mem_cons_of_mem _ hd)
    have hc := h c List.mem_cons_self
    have e : (ss.map (balance (c :: L))).sum = (ss.map fun s => if c.script = s then c.value else 0).sum +
        (ss.map (balance L)).sum := by
      rw [← List.sum_map_add]
      congr 1
      exact List.map_congr_left fun s _ => balance_cons c L s
    have e2 : ∀ {l : List Bytes}, l.Nodup → (l.map fun s => if c.script = s then c.value else 0).sum =
        if c.script ∈ l then c.value else 0 := by
      intro l hl
      induction l with
      | nil => rfl
      | cons a l ih =>
        rw [List.nodup_cons] at hl
        rw [List.map_cons, List.sum_cons, ih hl.2]
        by_cases ha : c.script = a
        · subst ha
          simp [hl.1]
        · simp [ha]
    rw [e, e2 hn, if_pos hc, ih]
    unfold worth
    rw [List.map_cons, List.sum_cons]

theorem outputs_sum (os : List Spec.TxOutput) :
    (os.map fun o => (o.value : Int)).sum = ((os.map Spec.TxOutput.value).sum : Nat) := by
  induction os with
  | nil => rfl
  | cons o os ih => simp only [List.map_cons, List.sum_cons, ih]; push_cast; rfl

theorem sum_cast (ss : List Bytes) (f : Bytes → Nat) : ((ss.map f).sum : Int) = (ss.map fun s => (f s : Int)).sum := by
  induction ss with
  | nil => rfl
  | cons a ss ih => rw [List.map_cons, List.map_cons, List.sum_cons, List.sum_cons, ← ih]; push_cast; rfl

theorem sum_add (ss : List Bytes) (f g : Bytes → Int) : (ss.map fun s => f s + g s).sum = (ss.map f).sum + (ss.map g).sum := by
  induction ss with
  | nil => rfl
  | cons a ss ih => simp only [List.map_cons, List.sum_cons, ih]; omega

/-- The default address for change is one of the key's own. -/
theorem change_own {C : Crypto} {k : PrivKey} (hk : KeyLaws C k) {change : Str} {script : Bytes}
    (h : k.address C = .ok change ∨ k.segwitAddress C = .ok (some change))
    (hs : addressToScriptpubkey C change = .ok (some script)) : script ∈ keyScripts C k := by
  rcases h with h | h
  · rcases legacy_script hk h with ⟨x, h1, h2⟩ | ⟨-, e, h1⟩
    · unfold scriptHex at h1
      rw [hs] at h1
      rw [← Except.ok.inj h1] at h2
      rw [bytesToHex_injective h2]
      exact List.mem_cons_self
    · unfold scriptHex at h1
      rw [hs] at h1
      cases h1
  · rcases segwit_script hk h with ⟨x, h1, h2⟩ | ⟨-, e, h1⟩
    · unfold scriptHex at h1
      rw [hs] at h1
      rw [← Except.ok.inj h1] at h2
      rw [bytesToHex_injective h2]
      unfold keyScripts
      cases hc : k.compressed with
      | false => rw [segwit_none hk hc] at h; cases h
      | true => simp
    · unfold scriptHex at h1
      rw [hs] at h1
      cases h1

/-- C87. What the transaction does to the chain when it is confirmed, `pays` being the payments in satoshi: all together
the chain loses the fee. Every script of others gets what the payments say, and nothing is taken from it. The key
loses the fee and the payments, except for payments to itself. Change (`c`) goes to the key, or to the address given
for it; if all coins are used (`combine`, the default) it is all the key has but for the fee and the payments. -/
theorem C87_moves (C : Crypto) (k : PrivKey) (hk : KeyLaws C k) (L : Spec.Ledger) (hL : L.WF) (env : Env Amount)
    (hshuffle : ∀ l, (env.shuffle l).Perm l) (args : TxArgs Amount) (ask : Ask) (ht : Honest C k L ask) (w : Wallet)
    (hw : w.signer = .single k) (r : Str) (h : (w.createTransaction C env args ask (.given [])).2 = .ok r) :
    ∃ (t : Spec.Tx) (pays : List (Str × Int)) (fee c : Int) (changeScript : Bytes), t.WF ∧ r = bytesToHex t.encode ∧
      List.Forall₂ (fun o p => p.1 = o.1 ∧ env.conv o.2 = .ok p.2) args.outputs pays ∧
      (∃ us sel change, Built C env args (.single k) us sel change fee t) ∧ 0 ≤ c ∧
      (args.combine = true → c = held C k L - fee - (pays.map Prod.snd).sum) ∧
      (match args.leftover with
        | some (a :: l) => addressToScriptpubkey C (a :: l) = .ok (some changeScript)
        | _ => changeScript ∈ keyScripts C k) ∧
      let L' := L.apply C.doubleSha256 t
      (worth L' : Int) = worth L - fee ∧
      (∀ s, s ∉ keyScripts C k →
        (L'.balance s : Int) = L.balance s + paidTo C s pays + if s = changeScript then c else 0) ∧
      (held C k L' : Int) = held C k L - fee - (pays.map Prod.snd).sum - c +
        ((keyScripts C k).map fun s => paidTo C s pays + if s = changeScript then c else 0).sum := by
  obtain ⟨us, sel, change, fee, t, ds, h1, h2, h3, h4, h5, h6, h7, h8, hall, h9⟩ := spend_core hk hL hshuffle ht hw h
  obtain ⟨pays, changes, pieces, scripts, changeScript, g1, g2, -, g4, -, g6, -⟩ := h2.outputs
  obtain ⟨c, hc0, hcp, hcs⟩ : ∃ c : Int, 0 ≤ c ∧ (∀ s, paidTo C s changes = if s = changeScript then c else 0) ∧
      (changes.map Prod.snd).sum = c := by
    rcases g2 with rfl | ⟨c, hc, rfl⟩
    · exact ⟨0, le_refl _, fun s => by simp [paidTo], rfl⟩
    · refine ⟨c, hc.le, fun s => ?_, by simp⟩
      unfold paidTo
      by_cases hs : s = changeScript
      · subst hs; simp [g6]
      · have : ¬ changeScript = s := fun e => hs e.symm
        simp [g6, hs, this]
  have hspent : ∀ c ∈ L.spentBy t, c.script ∈ keyScripts C k := fun c hc => (h5 c (h6.symm.subset hc)).2
  have e1 := tells_sum h4
  rw [worth_perm h6] at e1
  have e2 := h2.balanced
  have e3 := outputs_sum t.outputs
  have e4 := pays_sum g4
  have e5 : (((pays ++ changes).map (fun p : Str × Int => (Dest.str p.1, p.2)) ++
      pieces.map fun c => (Dest.bytes c, (0 : Int))).map Prod.snd).sum = (pays.map Prod.snd).sum + c := by
    rw [← hcs]
    simp [List.map_append, List.sum_append, Function.comp_def]
  rw [e5] at e4
  have hout : ∀ s, (outTo s t.outputs : Int) = paidTo C s pays + if s = changeScript then c else 0 := by
    intro s
    rw [outTo_paid s g4, paidTo_append, hcp]
  refine ⟨t, pays, fee, c, changeScript, h1, h3, g1, ⟨us, sel, change, h2⟩, hc0, ?_, ?_, ?_, ?_, ?_⟩
  · intro hcomb
    rw [h2.combined hcomb, hall] at e2
    omega
  · have hl := h2.leftover
    have own : (if us.any (fun u => u.segwit = some true) then (Signer.single k).segwitAddress C = .ok (some change)
        else (Signer.single k).address C = .ok change) → changeScript ∈ keyScripts C k := by
      intro hx
      split at hx
      · exact change_own hk (.inr hx) g6
      · exact change_own hk (.inl hx) g6
    cases hlo : args.leftover with
    | none => rw [hlo] at hl; exact own hl
    | some x =>
      rw [hlo] at hl
      cases x with
      | nil => exact own hl
      | cons a l =>
        have hl : change = a :: l := hl
        subst hl; exact g6
  · have := apply_worth C.doubleSha256 L t
    omega
  · intro s hs
    have := apply_balance C.doubleSha256 L t s
    rw [balance_zero (L := L.spentBy t) fun c hc (e : c.script = s) => hs (e ▸ hspent c hc)] at this
    have := hout s
    omega
  · have a1 : ((keyScripts C k).map fun s => ((L.apply C.doubleSha256 t).balance s : Int) + ((L.spentBy t).balance s : Nat)) =
        (keyScripts C k).map fun s => (L.balance s : Int) + (paidTo C s pays + if s = changeScript then c else 0) := by
      refine List.map_congr_left fun s _ => ?_
      rw [← hout s]
      exact_mod_cast apply_balance C.doubleSha256 L t s
    have a2 := congrArg List.sum a1
    rw [sum_add, sum_add, ← sum_cast, ← sum_cast, ← sum_cast, worth_scripts (scripts_ne C k) hspent] at a2
    have a3 : (held C k (L.apply C.doubleSha256 t) : Int) + (worth (L.spentBy t) : Nat) = held C k L +
        ((keyScripts C k).map fun s => paidTo C s pays + if s = changeScript then c else 0).sum := a2
    omega

/-- A refresh shows what belongs to the key. -/
theorem shown_sum {C : Crypto} {k : PrivKey} (hk : KeyLaws C k) {L : Spec.Ledger} {ask : Ask} (ht : Honest C k L ask)
    {w w' : Wallet} (hw : w.signer = .single k) {us : List Unspent} (h : w.getUnspents C ask = (w', .ok us)) :
    w'.balance = held C k L ∧ (us.map Unspent.amount).sum = held C k L := by
  obtain ⟨cs, h1, h2, h3⟩ := fetched_coins hk ht hw h
  rw [h3, tells_sum h2, worth_perm h1, owned_worth]
  exact ⟨rfl, rfl⟩

/-- C87. If `get_balance` returns, it gives the exact number of units of what belongs to the key, and the balance kept
in the object is that number of satoshi. -/
theorem C87_shown (C : Crypto) (k : PrivKey) (hk : KeyLaws C k) (L : Spec.Ledger) (ask : Ask) (ht : Honest C k L ask)
    (w w' : Wallet) (hw : w.signer = .single k) (prec : Nat) (hp : 9 ≤ prec) (limit now : Int) (answers : List (Py Int))
    (unit : Str) (n : Nat) (hu : (unit, n) ∈ bitcoinUnits) (caches caches' : RateCaches)
    (hcache : (caches unit).satoshis = none ∨ (caches unit).satoshis = some ((10 ^ n : Nat) : Int))
    (hsmall : held C k L < 10 ^ prec) (text : Str)
    (h : w.getBalance C ask prec limit now answers unit caches = (w', caches', .ok text)) :
    w'.balance = held C k L ∧ Spec.Denotes text ((held C k L : ℚ) / 10 ^ n) := by
  rcases hg : w.getUnspents C ask with ⟨w₁, r⟩
  cases r with
  | error e =>
    unfold Wallet.getBalance at h
    rw [hg] at h
    cases h
  | ok us =>
    have hw' : w₁ = w' := by
      unfold Wallet.getBalance at h
      rw [hg] at h
      exact congrArg Prod.fst h
    subst hw'
    obtain ⟨h1, h2⟩ := shown_sum hk ht hw hg
    obtain ⟨_, _, _, _, text', -, -, -, -, -, -, -, -, h8, h9⟩ := C66_get_balance C ask prec hp limit now answers unit n hu
      caches hcache w w₁ us hg _ h2 hsmall
    rw [h] at h8
    cases h8
    exact ⟨h1, h9⟩

/-- What happens to a key: it sends payments for a fee, or it receives. -/
inductive Entry
  | sent (pays : List (Str × Int)) (fee : Int)
  | received (n : Nat)

/-- What an entry adds: a key that sends loses the fee and the payments, except for payments to itself. -/
def Entry.adds (C : Crypto) (k : PrivKey) : Entry → Int
  | .sent pays fee => -fee - (pays.map Prod.snd).sum + ((keyScripts C k).map fun s => paidTo C s pays).sum
  | .received n => n

/-- The chain over time, as seen from a key: it creates transactions from what the network reports at that moment, and
they are confirmed; others make transactions that a node takes and that do not spend the coins of the key; new coins
are mined. (A reorganisation of the chain is not among the steps.) -/
inductive Life (Amount : Type) (C : Crypto) (k : PrivKey) (L : Spec.Ledger) : List Entry → Spec.Ledger → Prop
  | start : Life Amount C k L [] L
  | sends {es : List Entry} {L' : Spec.Ledger} (before : Life Amount C k L es L') (env : Env Amount)
      (shuffles : ∀ l, (env.shuffle l).Perm l) (args : TxArgs Amount) (change : args.leftover = none) (ask : Ask)
      (honest : Honest C k L' ask) (w : Wallet) (signer : w.signer = .single k) (r : Str)
      (creates : (w.createTransaction C env args ask (.given [])).2 = .ok r)
      (t : Spec.Tx) (wf : t.WF) (text : r = bytesToHex t.encode) (fresh : L'.Fresh C.doubleSha256 t)
      (pays : List (Str × Int))
      (amounts : List.Forall₂ (fun o p => p.1 = o.1 ∧ env.conv o.2 = .ok p.2) args.outputs pays)
      (fee : Int) (leaves : fee = worth (L'.spentBy t) - (t.outputs.map Spec.TxOutput.value).sum) :
      Life Amount C k L (.sent pays fee :: es) (L'.apply C.doubleSha256 t)
  | others {es : List Entry} {L' : Spec.Ledger} (before : Life Amount C k L es L') (t : Spec.Tx)
      (valid : Valid C.hashing L' t) (fresh : L'.Fresh C.doubleSha256 t)
      (foreign : ∀ c ∈ L'.spentBy t, c.script ∉ keyScripts C k) :
      Life Amount C k L (.received ((keyScripts C k).map fun s =>
        ((t.outputs.filter fun o => o.script = s).map Spec.TxOutput.value).sum).sum :: es) (L'.apply C.doubleSha256 t)
  | mined {es : List Entry} {L' : Spec.Ledger} (before : Life Amount C k L es L') (cs : List Spec.Utxo)
      (wf : Spec.Ledger.WF (L' ++ cs)) : Life Amount C k L (.received (held C k cs) :: es) (L' ++ cs)

theorem pays_functional {conv : Amount → Py Int} {os : List (Str × Amount)} {ps qs : List (Str × Int)}
    (h : List.Forall₂ (fun o p => p.1 = o.1 ∧ conv o.2 = .ok p.2) os ps)
    (h' : List.Forall₂ (fun o p => p.1 = o.1 ∧ conv o.2 = .ok p.2) os qs) : ps = qs := by
  induction h generalizing qs with
  | nil => cases h'; rfl
  | cons a _ ih =>
    cases h' with
    | cons b h' =>
      rw [ih h']
      congr 1
      refine Prod.ext (a.1.trans b.1.symm) ?_
      exact Except.ok.inj (a.2.symm.trans b.2)

theorem held_append (C : Crypto) (k : PrivKey) (a b : Spec.Ledger) : held C k (a ++ b) = held C k a + held C k b := by
  unfold held
  rw [← List.sum_map_add]
  congr 1
  refine List.map_congr_left fun s _ => ?_
  unfold balance
  rw [coinsOf_append, worth_append]

theorem own_change {ss : List Bytes} (hn : ss.Nodup) {cs : Bytes} (h : cs ∈ ss) (c : Int) :
    (ss.map fun s => if s = cs then c else 0).sum = c := by
  induction ss with
  | nil => cases h
  | cons a ss ih =>
    rw [List.nodup_cons] at hn
    rw [List.map_cons, List.sum_cons]
    by_cases ha : a = cs
    · subst ha
      have : (ss.map fun s => if s = a then c else 0) = ss.map fun _ => 0 :=
        List.map_congr_left fun s hs => if_neg fun (e : s = a) => hn.1 (e ▸ hs)
      rw [this]
      simp
    · rw [ih hn.2 ((List.mem_cons.mp h).resolve_left fun e => ha e.symm), if_neg ha, zero_add]

/-- C87. Over any history, what belongs to a key is what it had, plus what it received, minus its payments to
others and the fees. And at any moment a node takes what the key creates. -/
theorem C87_history (C : Crypto) (k : PrivKey) (hk : KeyLaws C k) (L : Spec.Ledger) (hL : L.WF) (es : List Entry)
    (L' : Spec.Ledger) (h : Life Amount C k L es L') :
    L'.WF ∧ (held C k L' : Int) = held C k L + (es.map (Entry.adds C k)).sum ∧
    ∀ (env : Env Amount), (∀ l, (env.shuffle l).Perm l) → ∀ (args : TxArgs Amount), 0 ≤ askedFee env args →
      args.outputs ≠ [] → ∀ (ask : Ask), Honest C k L' ask → ∀ (w : Wallet), w.signer = .single k → ∀ (r : Str),
      (w.createTransaction C env args ask (.given [])).2 = .ok r →
      ∃ t : Spec.Tx, r = bytesToHex t.encode ∧ Valid C.hashing L' t := by
  have main : L'.WF ∧ (held C k L' : Int) = held C k L + (es.map (Entry.adds C k)).sum := by
    have h32 : ∀ b, (C.doubleSha256 b).length = 32 := fun b => hk.hash.sha256_length _
    induction h with
    | start => exact ⟨hL, by simp⟩
    | @sends es L' before env shuffles args change ask honest w signer r creates t wf text fresh pays amounts fee leaves ih =>
      obtain ⟨ih1, ih2⟩ := ih
      refine ⟨apply_wf h32 ih1 fresh, ?_⟩
      obtain ⟨t', pays', fee', c, changeScript, g1, g2, g3, -, -, -, g6, g7, -, g9⟩ := C87_moves C k hk L' ih1 env shuffles
        args ask honest w signer r creates
      have et : t' = t := encode_inj' g1 wf (bytesToHex_injective (g2.symm.trans text))
      subst et
      have ep := pays_functional g3 amounts
      subst ep
      rw [change] at g6
      rw [g9, ih2, sum_add, own_change (scripts_ne C k) g6, List.map_cons, List.sum_cons]
      have := apply_worth C.doubleSha256 L' t'
      have ef : fee' = fee := by omega
      unfold Entry.adds
      dsimp only
      omega
    | @others es L' before t valid fresh foreign ih =>
      obtain ⟨ih1, ih2⟩ := ih
      refine ⟨apply_wf h32 ih1 fresh, ?_⟩
      have e : held C k (L'.apply C.doubleSha256 t) = held C k L' + ((keyScripts C k).map fun s => outTo s t.outputs).sum := by
        unfold held
        rw [← List.sum_map_add]
        congr 1
        refine List.map_congr_left fun s hs => ?_
        have := apply_balance C.doubleSha256 L' t s
        rw [balance_zero (L := L'.spentBy t) fun c hc (e : c.script = s) => foreign c hc (e ▸ hs)] at this
        omega
      rw [e, List.map_cons, List.sum_cons]
      push_cast
      rw [ih2]
      unfold Entry.adds
      dsimp only
      have : ((keyScripts C k).map fun s => ((t.outputs.filter fun o => o.script = s).map Spec.TxOutput.value).sum) =
        (keyScripts C k).map fun s => outTo s t.outputs := rfl
      rw [this]
      omega
    | @mined es L' before cs wf ih =>
      obtain ⟨ih1, ih2⟩ := ih
      refine ⟨wf, ?_⟩
      rw [held_append, List.map_cons, List.sum_cons]
      push_cast
      rw [ih2]
      unfold Entry.adds
      dsimp only
      omega
  refine ⟨main.1, main.2, ?_⟩
  intro env hs args hfee hne ask ht w hw r hr
  obtain ⟨t, -, h2, -, h4, h5⟩ := C87_valid C k hk L' main.1 env hs args hfee ask ht w hw r hr
  exact ⟨t, h2, h5 (h4 hne)⟩

/-! ### A chain with two coins of the sample key and one of somebody else -/

def coinPlain : Spec.Utxo := ⟨List.replicate 32 7, 1, 70000, scriptP2PKH keyB⟩
def coinNested : Spec.Utxo := ⟨List.replicate 32 9, 70000, 80000, scriptNested keyB⟩
def coinOther : Spec.Utxo := ⟨List.replicate 32 5, 4, 999, scriptP2PKH keyA⟩

def ledgerB : Spec.Ledger := [coinPlain, coinOther, coinNested]

/-- An honest network. -/
def askL : Ask := fun a =>
  if a = legacyB then .ok (some [plain 70000]) else if a = segwitB then .ok (some [unspentBDefault])
  else .error .connectionError

theorem ledgerB_wf : ledgerB.WF := ⟨by decide +kernel, by decide +kernel⟩

theorem legacyB_is : keyB.address crypto = .ok legacyB := by decide +kernel

theorem segwitB_is : keyB.segwitAddress crypto = .ok (some segwitB) := by decide +kernel

theorem askL_honest : Honest crypto keyB ledgerB askL := by
  constructor
  · intro a l ha hl
    rw [legacyB_is] at ha
    have ha := Except.ok.inj ha
    subst ha
    have e : askL legacyB = .ok (some [plain 70000]) := by decide +kernel
    rw [e] at hl
    have hl := Option.some.inj (Except.ok.inj hl)
    subst hl
    have e : ledgerB.coinsOf (Spec.p2pkhScript (crypto.ripemd160 (crypto.sha256 (keyB.publicKey crypto)))) =
      [coinPlain] := by decide +kernel
    rw [e]
    exact ⟨[coinPlain], List.Perm.refl _, .cons ⟨by decide +kernel, by decide +kernel, by decide +kernel, by decide +kernel⟩ .nil⟩
  · intro a l ha hl
    rw [segwitB_is] at ha
    have ha := Option.some.inj (Except.ok.inj ha)
    subst ha
    have e : askL segwitB = .ok (some [unspentBDefault]) := by decide +kernel
    rw [e] at hl
    have hl := Option.some.inj (Except.ok.inj hl)
    subst hl
    have e : ledgerB.coinsOf (Spec.p2shScript (crypto.ripemd160 (crypto.sha256 (Spec.witnessScript 0
      (crypto.ripemd160 (crypto.sha256 (keyB.publicKey crypto))))))) = [coinNested] := by decide +kernel
    rw [e]
    exact ⟨[coinNested], List.Perm.refl _, .cons ⟨by decide +kernel, by decide +kernel, by decide +kernel, by decide +kernel⟩ .nil⟩

def unhex (s : String) : Bytes := (fromHex s.toList).toOption.getD []

/-- What the key creates to pay 20000 satoshi for a fee of 316 when it spends both coins. -/
def txB : Spec.Tx :=
  { version := 1
    inputs := [
      { prevTxid := List.replicate 32 7, prevIndex := 1
        script := unhex "22302136e0fe549b6c829b99996f953bb8178e11c176f0e2212e0108c06c9a96eda00121020909090909090909090909090909090909090909090909090909090909090909"
        sequence := 4294967295, witness := [] },
      { prevTxid := List.replicate 32 9, prevIndex := 70000
        script := unhex "1600144dabe1a2cbabe7814fec1c837f55d3ce81297e27"
        sequence := 4294967295
        witness := [unhex "308fdf1be2cd65ef36e27535f4b2b8b27f8f868413875f34166c834e4c01b01c6701",
          unhex "020909090909090909090909090909090909090909090909090909090909090909"] }]
    outputs := [⟨20000, unhex "76a91477bff20c60e522dfaa3350c39b030a5d004e839a88ac"⟩, ⟨129684, scriptNested keyB⟩]
    lockTime := 0 }

theorem txB_wf : txB.WF where
  version := by decide
  nonempty := by decide
  inputs := by decide
  input := by
    intro i hi
    simp only [txB, List.mem_cons, List.not_mem_nil, or_false] at hi
    rcases hi with rfl | rfl <;>
      exact ⟨by decide, by decide, by decide +kernel, by decide, by decide +kernel, by decide +kernel⟩
  outputs := by decide
  output := by
    intro i hi
    simp only [txB, List.mem_cons, List.not_mem_nil, or_false] at hi
    rcases hi with rfl | rfl <;> exact ⟨by decide, by decide +kernel⟩
  lockTime := by decide

theorem createdL : ((newWallet (.single keyB)).createTransaction crypto envB (argsB true) askL (.given [])).2 =
    .ok (bytesToHex txB.encode) := by decide +kernel

theorem txB_fresh : ledgerB.Fresh crypto.doubleSha256 txB := by unfold Spec.Ledger.Fresh; decide +kernel

/-- For C87_valid: a node takes it. -/
example : Valid crypto.hashing ledgerB txB := by
  obtain ⟨t, h1, h2, -, h4, h5⟩ := C87_valid crypto keyB (toy_laws keyB (by decide)) ledgerB ledgerB_wf envB
    (fun _ => List.Perm.refl _) (argsB true) (by decide) askL askL_honest (newWallet (.single keyB)) rfl _ createdL
  have e : txB = t := encode_inj' txB_wf h1 (bytesToHex_injective h2)
  rw [e]
  exact h5 (h4 (by decide))

/-- For C87_history: the key pays 20000 and then somebody mines 600 to it; it had 150000 and has 130284. -/
theorem lifeB : Life Int crypto keyB ledgerB [.received 600, .sent [(addrA, 20000)] 316]
    (ledgerB.apply crypto.doubleSha256 txB ++ [⟨List.replicate 32 6, 0, 600, scriptP2PKH keyB⟩]) := by
  have e : held crypto keyB [⟨List.replicate 32 6, 0, 600, scriptP2PKH keyB⟩] = 600 := by decide +kernel
  have h0 : Life Int crypto keyB ledgerB [.sent [(addrA, 20000)] 316] (ledgerB.apply crypto.doubleSha256 txB) :=
    .sends .start envB (fun _ => List.Perm.refl _) (argsB true) rfl askL askL_honest (newWallet (.single keyB)) rfl _
      createdL txB txB_wf rfl txB_fresh [(addrA, 20000)] (.cons ⟨rfl, rfl⟩ .nil) 316 (by decide +kernel)
  have h := h0.mined [⟨List.replicate 32 6, 0, 600, scriptP2PKH keyB⟩] ⟨by decide +kernel, by decide +kernel⟩
  rw [e] at h
  exact h

example : held crypto keyB ledgerB = 150000 ∧ (held crypto keyB
    (ledgerB.apply crypto.doubleSha256 txB ++ [⟨List.replicate 32 6, 0, 600, scriptP2PKH keyB⟩]) : Int) = 130284 := by
  have h := (C87_history crypto keyB (toy_laws keyB (by decide)) ledgerB ledgerB_wf _ _ lifeB).2.1
  have e : held crypto keyB ledgerB = 150000 := by decide +kernel
  refine ⟨e, ?_⟩
  rw [h, e]
  decide +kernel

/-- For C87_shown: a new wallet shows it. -/
example : ((newWallet (.single keyB)).getBalance crypto askL 28 60 0 [] "mbtc".toList (fun _ => ⟨none, 0⟩)).2.2 =
    .ok "1.5".toList := by decide +kernel

end Bit
