import Verif.Props.Ledger
import Verif.Props.Errors
/-
C88: payments that are in order and can be paid for are made.
-/
namespace Bit
open Concrete
open Spec.Ledger
variable {Amount : Type}

/-! ## C88 -/

/-- The fields of a coin are in the ranges of the wire format. -/
structure CoinOk (u : Unspent) : Prop where
  txid : TxidOk u
  index : 0 ≤ u.txindex ∧ u.txindex < 2 ^ 32
  amount : 0 ≤ u.amount ∧ u.amount < 2 ^ 64
  sequence : 0 ≤ u.sequence ∧ u.sequence < 2 ^ 32

theorem CoinOk.optIn {u : Unspent} (h : CoinOk u) : CoinOk u.optInForRBF := by
  obtain ⟨e1, -, -, e4, e5, -, -, -, e9⟩ := optIn_fields u
  refine ⟨?_, by rw [e5]; exact h.index, by rw [e1]; exact h.amount, ?_⟩
  · obtain ⟨b, hb, hu⟩ := h.txid
    exact ⟨b, hb, by rw [e4]; exact hu⟩
  · have := h.sequence
    rw [e9]
    omega

theorem toBytesLE_of {n : Int} {len : Nat} (h : 0 ≤ n ∧ n < 256 ^ len) : ∃ b, toBytesLE n len = .ok b := by
  unfold toBytesLE
  rw [if_pos (by push_cast; exact h)]
  exact ⟨_, rfl⟩

theorem unsignedInputs_of : ∀ {us : List Unspent}, (∀ u ∈ us, CoinOk u) → ∃ xs, unsignedInputs us = .ok xs
  | [], _ => ⟨[], rfl⟩
  | u :: us, h => by
    obtain ⟨xs, hxs⟩ := unsignedInputs_of fun v hv => h v (List.mem_cons_of_mem _ hv)
    have hu := h u List.mem_cons_self
    obtain ⟨b, -, hb⟩ := hu.txid
    obtain ⟨i, hi⟩ := toBytesLE_of (len := 4) (n := u.txindex) (by have := hu.index; norm_num at this ⊢; exact this)
    obtain ⟨a, ha⟩ := toBytesLE_of (len := 8) (n := u.amount) (by have := hu.amount; norm_num at this ⊢; exact this)
    obtain ⟨s, hs⟩ := toBytesLE_of (len := 4) (n := u.sequence) (by have := hu.sequence; norm_num at this ⊢; exact this)
    rw [unsignedInputs]
    unfold unsignedInput
    rw [hb, hexToBytes_bytesToHex]
    dsimp only
    rw [hi]
    dsimp only
    rw [ha]
    dsimp only
    rw [hs]
    dsimp only
    rw [show mkTxIn [] b.reverse i [] (some a) s (u.segwit.getD false) = .ok _ from rfl]
    dsimp only
    rw [hxs]
    exact ⟨_, rfl⟩

/-- What can be an output. -/
def OutputOk (C : Crypto) (q : Dest × Int) : Prop :=
  (∃ a s, q.1 = .str a ∧ 0 < q.2 ∧ q.2 < 2 ^ 64 ∧ addressToScriptpubkey C a = .ok (some s) ∧ s.length < 2 ^ 64) ∨
  (∃ b, q.1 = .bytes b ∧ q.2 = 0 ∧ b.length ≤ 80)

theorem constructOutputs_of {C : Crypto} : ∀ {reqs : List (Dest × Int)}, (∀ q ∈ reqs, OutputOk C q) →
    ∃ xs, constructOutputs C reqs = .ok xs
  | [], _ => ⟨[], rfl⟩
  | (d, n) :: reqs, h => by
    obtain ⟨xs, hxs⟩ := constructOutputs_of fun v hv => h v (List.mem_cons_of_mem _ hv)
    have : ∃ x, constructOutput C d n = .ok x := by
      unfold constructOutput
      rcases h _ List.mem_cons_self with ⟨a, s, h1, h2, h3, h4, h5⟩ | ⟨b, h1, h2, h3⟩
      · dsimp only at h1 h2 h3
        subst h1
        obtain ⟨m, hm⟩ := toBytesLE_of (len := 8) (n := n) ⟨h2.le, by norm_num at h3 ⊢; exact h3⟩
        rw [if_pos (by omega)]
        dsimp only
        rw [h4]
        dsimp only
        rw [hm]
        dsimp only
        unfold mkTxOut
        obtain ⟨l, hl, -⟩ := (C13_varint_size s.length).1 h5
        rw [hl]
        exact ⟨_, rfl⟩
      · dsimp only at h1 h2
        subst h1 h2
        rw [if_neg (by simp)]
        dsimp only
        obtain ⟨m, hm⟩ := toBytesLE_of (len := 1) (n := b.length) ⟨by omega, by norm_num; omega⟩
        rw [hm]
        dsimp only
        have hl := (toBytesLE_eq_ok hm).2.2
        unfold mkTxOut
        obtain ⟨l, hl', -⟩ := (C13_varint_size ([0x6a] ++ m ++ b).length).1 (by
          rw [hl, List.length_append, List.length_append, leBytes_length]
          simp only [List.length_cons, List.length_nil]
          omega)
        rw [hl']
        exact ⟨_, rfl⟩
    obtain ⟨x, hx⟩ := this
    rw [constructOutputs, hx]
    dsimp only
    rw [hxs]
    exact ⟨_, rfl⟩

/-- Creating succeeds if signing does. -/
theorem createNew_of {C : Crypto} {s : Signer} {us : List Unspent} {reqs : List (Dest × Int)} (hne : us ≠ [])
    (hus : ∀ u ∈ us, CoinOk u) (hlen : us.length < 2 ^ 64) (hreqs : ∀ q ∈ reqs, OutputOk C q) (hout : reqs.length < 2 ^ 64)
    {P : Str → Prop}
    (hsign : ∀ t : Spec.Tx, t.WF → List.Forall₂ Takes us t.inputs → (∀ i ∈ t.inputs, i.script = [] ∧ i.witness = []) →
      ∃ r, signTransactionHex C s (bytesToHex (enc (us.any Unspent.isSegwit) t)) us = .ok r ∧ P r) :
    ∃ r, createNewTransaction C s us reqs = .ok r ∧ P r := by
  obtain ⟨outs, h1⟩ := constructOutputs_of hreqs
  obtain ⟨ins, h2⟩ := unsignedInputs_of hus
  obtain ⟨os, o1, o2, o3⟩ := constructOutputs_ok h1
  obtain ⟨is, i1, i2, i3, i4, i5⟩ := unsignedInputs_ok (fun u hu => (hus u hu).txid) h2
  have hin := mkTxObj_inputs i3 (fun i hi => (i1 i hi).2.2) [0x01, 0x00, 0x00, 0x00] outs [0x00, 0x00, 0x00, 0x00]
  have ew : (ins.map TxIn.segwitInput).any id = us.any Unspent.isSegwit := by
    rw [i4, List.any_map]; rfl
  rw [ew] at hin
  have hwf : Spec.Tx.WF ⟨1, is, os, 0⟩ := by
    refine ⟨by simp, ?_, ?_, fun i hi => (i1 i hi).1, ?_, o1, by simp⟩
    · intro he
      have he : is = [] := he
      subst he
      cases i2
      exact hne rfl
    · have := i2.length_eq
      show is.length < 2 ^ 64
      omega
    · have := o2.length_eq
      show os.length < 2 ^ 64
      omega
  have hrep : Represents (us.any Unspent.isSegwit)
      (mkTxObj [0x01, 0x00, 0x00, 0x00] ins outs [0x00, 0x00, 0x00, 0x00]) ⟨1, is, os, 0⟩ :=
    ⟨show [1, 0, 0, 0] = Spec.leEncode 4 1 by decide, hin, o3, show [0, 0, 0, 0] = Spec.leEncode 4 0 by decide⟩
  obtain ⟨r, hr, hP⟩ := hsign ⟨1, is, os, 0⟩ hwf i2 fun i hi => (i1 i hi).2
  refine ⟨r, ?_, hP⟩
  unfold createNewTransaction
  rw [h1]
  dsimp only
  rw [h2]
  dsimp only
  rw [signTx_represents hrep hwf]
  exact hr

theorem checkVersions_of {C : Crypto} {net : Net} : ∀ {os : List (Str × Int)}, (∀ o ∈ os, getVersion C o.1 = .ok net) →
    checkVersions C net os = .ok ()
  | [], _ => rfl
  | (d, n) :: os, h => by
    have := h _ List.mem_cons_self
    dsimp only at this
    rw [checkVersions, this]
    dsimp only
    rw [if_neg (by simp)]
    exact checkVersions_of fun o ho => h o (List.mem_cons_of_mem _ ho)

/-- A message that can be stored: none, a text, or bytes with `message_is_hex`. -/
def MessageOk (message : Option Dest) (messageIsHex : Bool) : Prop :=
  match message with
  | none => True
  | some (.str m) => m = [] ∨ messageIsHex = false
  | some (.bytes b) => b = [] ∨ messageIsHex = true

theorem messageChunks_of {m : Option Dest} {hex : Bool} (h : MessageOk m hex) :
    ∃ chunks, messageChunks m hex = .ok chunks ∧ ∀ c ∈ chunks, ∃ b, c = .bytes b ∧ b.length ≤ 80 := by
  have main : ∀ b : Bytes, ∀ c ∈ (chunkData b 80).map Dest.bytes, ∃ b, c = .bytes b ∧ b.length ≤ 80 := by
    intro b c hc
    obtain ⟨x, hx, rfl⟩ := List.mem_map.mp hc
    obtain ⟨-, h2, -⟩ := chunkAux_props (by decide : 0 < 80) b.length b (le_refl _)
    exact ⟨x, rfl, (h2 x hx).2⟩
  unfold messageChunks
  unfold MessageOk at h
  split
  · exact ⟨_, rfl, by simp⟩
  · split
    · exact ⟨_, rfl, by simp⟩
    · rename_i m hm
      have : hex = false := h.resolve_left (by simpa using hm)
      subst this
      rw [if_neg (by simp)]
      exact ⟨_, rfl, main _⟩
  · split
    · exact ⟨_, rfl, by simp⟩
    · rename_i m hm
      have : hex = true := h.resolve_left (by simpa using hm)
      subst this
      rw [if_pos rfl]
      exact ⟨_, rfl, main _⟩

theorem subperm_sum {sel us : List Unspent} (h : sel.Subperm us) (h0 : ∀ u ∈ us, 0 ≤ u.amount) :
    (sel.map Unspent.amount).sum ≤ (us.map Unspent.amount).sum := by
  obtain ⟨l, hp, hs⟩ := h
  rw [← (hp.map Unspent.amount).sum_eq]
  clear hp
  induction hs with
  | slnil => exact le_refl _
  | cons a _ ih =>
    have := ih fun u hu => h0 u (List.mem_cons_of_mem _ hu)
    have := h0 a List.mem_cons_self
    rw [List.map_cons, List.sum_cons]
    omega
  | cons_cons a _ ih =>
    have := ih fun u hu => h0 u (List.mem_cons_of_mem _ hu)
    rw [List.map_cons, List.sum_cons, List.map_cons, List.sum_cons]
    omega

theorem feeFor_nonneg {rate : Int} (h : 0 ≤ rate) (sizes : List Nat) (us : List Unspent) : 0 ≤ feeFor rate sizes us := by
  unfold feeFor
  obtain ⟨size, e, -⟩ := C28_formula (us.map Unspent.vsize4).sum us.length sizes.sum sizes.length rate
    (us.any fun u => u.segwit = some true)
  rw [e]
  positivity

/-- A call of `create_transaction` that is in order: amounts are positive, all addresses can be paid to and belong to the
network of the key or contract, the message can be stored, the fee is not negative. -/
structure InOrder (C : Crypto) (env : Env Amount) (args : TxArgs Amount) (s : Signer) (us : List Unspent)
    (amounts : List Int) (scripts : List Bytes) (changeScript : Bytes) : Prop where
  cost : Cost C env args s us amounts scripts changeScript
  positive : ∀ a ∈ amounts, 0 < a
  nets : ∀ o ∈ args.outputs, getVersion C o.1 = .ok s.net
  changeNet : ∀ l, args.leftover = some l → l ≠ [] → getVersion C l = .ok s.net
  short : (∀ b ∈ scripts, b.length < 2 ^ 64) ∧ changeScript.length < 2 ^ 64
  message : MessageOk args.message args.messageIsHex
  messageLength : messageLength args.message args.messageIsHex < 2 ^ 63
  fee : 0 ≤ askedFee env args

/-- Coins that can be spent: at least one, with fields in the ranges of the wire format, and not too many. -/
structure CoinsOk (us : List Unspent) : Prop where
  nonempty : us ≠ []
  coin : ∀ u ∈ us, CoinOk u
  count : us.length < 2 ^ 64
  total : (us.map Unspent.amount).sum < 2 ^ 63

theorem sum_ge_length {l : List Int} (h : ∀ a ∈ l, 0 < a) : (l.length : Int) ≤ l.sum := by
  induction l with
  | nil => simp
  | cons a l ih =>
    have := ih fun b hb => h b (List.mem_cons_of_mem _ hb)
    have := h a List.mem_cons_self
    rw [List.length_cons, List.sum_cons]
    omega

theorem le_sum_of_pos {l : List Int} (h : ∀ a ∈ l, 0 < a) : ∀ a ∈ l, a ≤ l.sum := by
  intro a ha
  induction l with
  | nil => cases ha
  | cons b l ih =>
    have h' := fun c hc => h c (List.mem_cons_of_mem _ hc)
    have h1 := sum_ge_length h'
    have h2 := h b List.mem_cons_self
    rw [List.sum_cons]
    rcases List.mem_cons.mp ha with rfl | ha
    · omega
    · have := ih h' ha
      omega

/-- Payments that are in order and that the coins can pay for are prepared. -/
theorem sanitize_of {C : Crypto} {env : Env Amount} (hshuffle : ∀ l, (env.shuffle l).Perm l) {args : TxArgs Amount}
    {s : Signer} {us : List Unspent} (hus : CoinsOk us) (hnet : ∀ a, s.address C = .ok a ∨ s.segwitAddress C = .ok (some a) →
      getVersion C a = .ok s.net) {amounts : List Int} {scripts : List Bytes} {changeScript : Bytes}
    (ho : InOrder C env args s us amounts scripts changeScript)
    (h : needed env args us amounts scripts changeScript ≤ (us.map Unspent.amount).sum) {default : Option Str}
    (h1 : returnAddress C s us = .ok default) :
    ∃ sel outs, sanitizeArgs C env args us default s.net = .ok (signedCoins args.replaceByFee sel, outs) ∧ sel ≠ [] ∧
      sel.Subperm us ∧ (∀ q ∈ outs, OutputOk C q) ∧ outs.length < 2 ^ 64 := by
  have hc := ho.cost
  have hok : ∃ p, sanitizeArgs C env args us default s.net = .ok p := by
    unfold sanitizeArgs sanitizeTxData
    obtain ⟨pays, hp, hps⟩ : ∃ pays : List (Str × Int),
        List.Forall₂ (fun o p => p.1 = o.1 ∧ env.conv o.2 = .ok p.2) args.outputs pays ∧ pays.map Prod.snd = amounts := by
      have := hc.amounts
      generalize args.outputs = os at this
      clear hc h ho
      induction this with
      | nil => exact ⟨[], .nil, rfl⟩
      | @cons o a _ _ hoa _ ih =>
        obtain ⟨pays, h1, h2⟩ := ih
        exact ⟨(o.1, a) :: pays, .cons ⟨rfl, hoa⟩ h1, by rw [List.map_cons, h2]⟩
    rw [convertOutputs_iff.mpr hp]
    dsimp only
    rw [if_neg (by simpa using hus.nonempty)]
    obtain ⟨chunks, h4, -⟩ := messageChunks_of ho.message
    rw [h4]
    dsimp only
    rw [outputSizes_of ((forall₂_address hp (fun a b => addressToScriptpubkey C a = .ok (some b)) _).mp hc.scripts)]
    dsimp only
    obtain ⟨change, hcs, hch⟩ := hc.change
    have h6 : leftoverOf args default = some change ∧ getVersion C change = .ok s.net := by
      have hdef : (if us.any (fun u => decide (u.segwit = some true)) then s.segwitAddress C = .ok (some change)
          else s.address C = .ok change) → default = some change ∧ getVersion C change = .ok s.net := by
        intro hd
        unfold returnAddress at h1
        split at hd
        · rename_i hx
          rw [if_pos hx, hd] at h1
          cases h1; exact ⟨rfl, hnet _ (.inr hd)⟩
        · rename_i hx
          rw [if_neg hx, hd] at h1
          cases h1; exact ⟨rfl, hnet _ (.inl hd)⟩
      unfold leftoverOf
      cases hl : args.leftover with
      | none => rw [hl] at hch; exact hdef hch
      | some l =>
        rw [hl] at hch
        cases l with
        | nil => exact hdef hch
        | cons c l =>
          have hch : change = c :: l := hch
          subst hch
          exact ⟨rfl, ho.changeNet _ hl (by simp)⟩
    rw [h6.1]
    dsimp only
    unfold outputSizeOf
    rw [hcs]
    dsimp only
    have e1 : (scripts.map fun s => s.length + 9) ++ [chunks.length * (80 + 9)] ++ [changeScript.length + 9]
        = sizesOf scripts chunks.length changeScript := by
      unfold sizesOf; rw [Nat.mul_comm]
    unfold needed at h
    rw [← feeOf_asked, ← messageChunks_count h4] at h
    rw [e1, hps]
    cases h8 : selectCoins env.flips env.shuffle amounts.sum (feeOf env args) (sizesOf scripts chunks.length changeScript) 0
        args.absoluteFee args.combine us with
    | error e =>
      have := (select_error hshuffle hus.nonempty h8).2
      omega
    | ok r =>
      obtain ⟨sel, rem⟩ := r
      dsimp only
      rw [checkVersions_of]
      · exact ⟨_, rfl⟩
      · have hpn : ∀ p ∈ pays, getVersion C p.1 = .ok s.net := by
          intro p hpm
          obtain ⟨o, hom, e, -⟩ := forall₂_right hp hpm
          rw [e]
          exact ho.nets o hom
        intro o hom
        split at hom
        · rcases List.mem_append.mp hom with hom | hom
          · exact hpn o hom
          · rw [List.mem_singleton] at hom
            subst hom
            exact h6.2
        · exact hpn o hom
  obtain ⟨⟨us', outs⟩, hp⟩ := hok
  obtain ⟨sel, h4, rfl⟩ := sanitizeArgs_rbf hp
  obtain ⟨hsel, hsub⟩ := C41_unchanged C env.conv env.flips env.shuffle hshuffle us args.outputs _ _ _ _ _ _ _ _ sel
    outs h4
  obtain ⟨pays, changes, chunks, change, fee, scripts', loScript, c1, c2, c3, c4, c5, c6, c7, c8, c9, c10⟩ :=
    C37_outputs C env.conv env.flips env.shuffle hshuffle us args.outputs _ _ _ _ _ _ (le_refl 0) _ _ _ sel outs h4
  have hpays : pays.map Prod.snd = amounts := forall₂_functional (fun a b b' h1 h2 => by rw [h1] at h2; cases h2; rfl)
    (snds c1) hc.amounts
  have hscr : scripts' = scripts := forall₂_functional (fun a b b' h1 h2 => by rw [h1] at h2; cases h2; rfl)
    ((forall₂_address c1 (fun a b => addressToScriptpubkey C a = .ok (some b)) _).mpr c7) hc.scripts
  have hlo : loScript = changeScript := by
    obtain ⟨a, g1, g2⟩ := hc.change
    have := leftover_default h1 c2
    have e : a = change := by
      have default : ∀ {x x' : Str},
          (if us.any (fun u => u.segwit = some true) then s.segwitAddress C = .ok (some x) else s.address C = .ok x) →
          (if us.any (fun u => u.segwit = some true) then s.segwitAddress C = .ok (some x') else s.address C = .ok x') →
          x = x' := by
        intro x x' g g'
        split at g
        · rename_i hs
          rw [if_pos hs, g] at g'
          cases g'; rfl
        · rename_i hs
          rw [if_neg hs, g] at g'
          cases g'; rfl
      split at g2
      · rename_i hl
        rw [hl] at this
        exact g2.trans this.symm
      · rename_i hl
        split at this
        · rename_i hl'
          exact absurd hl' (hl _ _)
        · exact default g2 this
    subst e
    rw [g1] at c8
    cases c8; rfl
  subst hscr hlo
  have hsum := subperm_sum hsub fun u hu => (hus.coin u hu).amount.1
  have htot := hus.total
  have hpos : ∀ p ∈ pays, 0 < p.2 := fun p hp => ho.positive _ (hpays ▸ List.mem_map_of_mem hp)
  have hamt : (amounts.length : Int) ≤ amounts.sum := sum_ge_length ho.positive
  have hfee : 0 ≤ needed env args us amounts scripts' loScript - amounts.sum := by
    unfold needed
    have h1 := ho.fee
    have h2 := feeFor_nonneg ho.fee (sizesOf scripts' ((messageLength args.message args.messageIsHex + 79) / 80) loScript) us
    split <;> omega
  obtain ⟨chunks', g1, g2⟩ := messageChunks_of ho.message
  rw [c4] at g1
  cases g1
  have hcount := messageChunks_count c4
  have hml := ho.messageLength
  refine ⟨sel, outs, hp, hsel, hsub, ?_, ?_⟩
  · intro q hq
    rw [c5, List.map_append, List.mem_append, List.mem_append] at hq
    rcases hq with (hq | hq) | hq
    · obtain ⟨p, hpm, rfl⟩ := List.mem_map.mp hq
      obtain ⟨b, hb, hpb⟩ := forall₂_left c7 hpm
      have := le_sum_of_pos ho.positive p.2 (hpays ▸ List.mem_map_of_mem hpm)
      exact .inl ⟨p.1, b, rfl, hpos p hpm, by dsimp only; omega, hpb, ho.short.1 b hb⟩
    · obtain ⟨p, hpm, rfl⟩ := List.mem_map.mp hq
      rcases c3 with rfl | ⟨c, hc0, rfl⟩
      · cases hpm
      · rw [List.mem_singleton] at hpm
        subst hpm
        have hfee' : 0 ≤ fee := by
          rw [feeOf_asked] at c9 c10
          cases ha : args.absoluteFee with
          | true => rw [c9 ha]; exact ho.fee
          | false =>
            rcases c10 ha with e | ⟨-, e, -⟩
            · rw [e]; exact feeFor_nonneg ho.fee _ _
            · cases e
        have e : (outs.map Prod.snd).sum = amounts.sum + c := by
          rw [c5, ← hpays]
          simp [List.map_append, List.sum_append, Function.comp_def]
        refine .inl ⟨change, loScript, rfl, hc0, ?_, c8, ho.short.2⟩
        dsimp only
        omega
    · obtain ⟨c, hcm, rfl⟩ := List.mem_map.mp hq
      obtain ⟨b, rfl, hb⟩ := g2 c hcm
      exact .inr ⟨b, rfl, rfl, hb⟩
  · have hl : changes.length ≤ 1 := by
      rcases c3 with rfl | ⟨c, -, rfl⟩ <;> simp
    have hl' : pays.length = amounts.length := by rw [← hpays, List.length_map]
    rw [c5]
    simp only [List.length_append, List.length_map]
    omega

theorem key_addresses {C : Crypto} {k : PrivKey} (hk : KeyLaws C k) (hadd : OrdinaryAddresses C (.single k)) :
    (∃ a, (Signer.single k).address C = .ok a) ∧ (∃ a, (Signer.single k).segwitAddress C = .ok a) ∧
    ∀ a, (Signer.single k).address C = .ok a ∨ (Signer.single k).segwitAddress C = .ok (some a) →
      getVersion C a = .ok k.net := by
  obtain ⟨a, h1, -, h3, -⟩ := C17_p2pkh_address C hk.hash hk.zero (k.publicKey C) k.net hk.pub'
  have ha : (Signer.single k).address C = .ok a := h1
  refine ⟨⟨a, ha⟩, ?_, ?_⟩
  · cases hc : k.compressed with
    | false => exact ⟨none, segwit_none hk hc⟩
    | true =>
      obtain ⟨b, hb⟩ := segwit_some hk hc
      exact ⟨some b, hb⟩
  · rintro b (hb | hb)
    · rw [ha] at hb
      cases hb
      exact (h3 (hadd.1 a ha)).1
    · cases hc : k.compressed with
      | false =>
        have := segwit_none hk hc
        have hb : k.segwitAddress C = .ok (some b) := hb
        rw [this] at hb
        cases hb
      | true =>
        have hp := hk.pub
        rw [hc] at hp
        obtain ⟨b', h', e1, -, -, e2, -⟩ := (C18_segwit_address C hk.hash (k.publicKey C) k.net).2 hp
        have : k.segwitAddress C = .ok (some b') := by
          unfold PrivKey.segwitAddress PrivKey.isCompressed; rw [hp, e1]; rfl
        have hb' : k.segwitAddress C = .ok (some b) := hb
        rw [this] at hb'
        cases hb'
        exact (e2 (hadd.2 b hb)).1

theorem source_given {C : Crypto} {ask : Ask} {w : Wallet} {us : List Unspent} (hne : us ≠ []) :
    w.source C ask (.given us) = (w, .ok us, false) := by
  unfold Wallet.source
  dsimp only
  rw [if_neg (by simpa using hne)]

/-- Creating from a list of coins, for any signer that can sign. -/
theorem create_of {C : Crypto} {env : Env Amount} (hshuffle : ∀ l, (env.shuffle l).Perm l) {args : TxArgs Amount}
    {s : Signer} {us : List Unspent} (hus : CoinsOk us) (hadd : (∃ a, s.address C = .ok a) ∧ (∃ a, s.segwitAddress C = .ok a) ∧
      ∀ a, s.address C = .ok a ∨ s.segwitAddress C = .ok (some a) → getVersion C a = .ok s.net)
    {amounts : List Int} {scripts : List Bytes} {changeScript : Bytes}
    (ho : InOrder C env args s us amounts scripts changeScript)
    (h : needed env args us amounts scripts changeScript ≤ (us.map Unspent.amount).sum)
    {P : List Unspent → Str → Prop} (hsign : ∀ sel : List Unspent, sel.Subperm us → ∀ t : Spec.Tx, t.WF →
      List.Forall₂ Takes (signedCoins args.replaceByFee sel) t.inputs → (∀ i ∈ t.inputs, i.script = [] ∧ i.witness = []) →
      ∃ r, signTransactionHex C s (bytesToHex (enc ((signedCoins args.replaceByFee sel).any Unspent.isSegwit) t))
        (signedCoins args.replaceByFee sel) = .ok r ∧ P sel r)
    {ask : Ask} {w : Wallet} (hw : w.signer = s) :
    ∃ sel r, sel.Subperm us ∧ (w.createTransaction C env args ask (.given us)).2 = .ok r ∧ P sel r := by
  subst hw
  obtain ⟨default, h1⟩ : ∃ d, returnAddress C w.signer us = .ok d := by
    unfold returnAddress
    split
    · exact hadd.2.1
    · obtain ⟨a, ha⟩ := hadd.1
      rw [ha]; exact ⟨_, rfl⟩
  obtain ⟨sel, outs, h2, h3, h4, h5, h6⟩ := sanitize_of hshuffle hus hadd.2.2 ho h h1
  have hok : ∀ u ∈ signedCoins args.replaceByFee sel, CoinOk u := by
    intro v hv
    obtain ⟨u, hu, rfl | rfl⟩ := signedCoins_mem hv
    · exact hus.coin _ (h4.subset hu)
    · exact (hus.coin u (h4.subset hu)).optIn
  have hlen : (signedCoins args.replaceByFee sel).length < 2 ^ 64 := by
    rw [signedCoins_length]
    have := h4.length_le
    have := hus.count
    omega
  have hne : signedCoins args.replaceByFee sel ≠ [] := by
    rw [← List.length_pos_iff, signedCoins_length, List.length_pos_iff]
    exact h3
  obtain ⟨r, hr, hP⟩ := createNew_of hne hok hlen h5 h6 (hsign sel h4)
  refine ⟨sel, r, h4, ?_, hP⟩
  unfold Wallet.createTransaction
  rw [source_given hus.nonempty]
  dsimp only
  rw [h1]
  dsimp only
  rw [h2]
  exact hr

theorem exists_and_true {p : Str → Prop} (h : ∃ r, p r) : ∃ r, p r ∧ True := by
  obtain ⟨r, hr⟩ := h
  exact ⟨r, hr, trivial⟩

/-- C88. A payment that is in order and that the given coins can pay for is made, whatever the random choices. -/
theorem C88_succeeds (C : Crypto) (k : PrivKey) (hk : KeyLaws C k) (hadd : OrdinaryAddresses C (.single k))
    (env : Env Amount) (hshuffle : ∀ l, (env.shuffle l).Perm l) (args : TxArgs Amount) (us : List Unspent) (hus : CoinsOk us)
    (amounts : List Int) (scripts : List Bytes) (changeScript : Bytes)
    (ho : InOrder C env args (.single k) us amounts scripts changeScript)
    (h : needed env args us amounts scripts changeScript ≤ (us.map Unspent.amount).sum) (ask : Ask) (w : Wallet)
    (hw : w.signer = .single k) : ∃ r, (w.createTransaction C env args ask (.given us)).2 = .ok r := by
  have hsign : ∀ sel : List Unspent, sel.Subperm us → ∀ t : Spec.Tx, t.WF →
      List.Forall₂ Takes (signedCoins args.replaceByFee sel) t.inputs → (∀ i ∈ t.inputs, i.script = [] ∧ i.witness = []) →
      ∃ r, signTransactionHex C (.single k) (bytesToHex (enc ((signedCoins args.replaceByFee sel).any Unspent.isSegwit) t))
        (signedCoins args.replaceByFee sel) = .ok r ∧ True := by
    intro sel hsub t hwf _ _
    have hok : ∀ u ∈ signedCoins args.replaceByFee sel, CoinOk u := by
      intro v hv
      obtain ⟨u, hu, rfl | rfl⟩ := signedCoins_mem hv
      · exact hus.coin _ (hsub.subset hu)
      · exact (hus.coin u (hsub.subset hu)).optIn
    refine exists_and_true ?_
    refine C45_succeeds C k hk _ _ t hwf ?_ hadd ?_ (fun u hu => (hok u hu).index) fun u hu => (hok u hu).amount
    · cases hb : (signedCoins args.replaceByFee sel).any Unspent.isSegwit with
      | true => exact .inl rfl
      | false => exact .inr fun u hu => by simpa using List.any_eq_false.mp hb u hu
    · intro u hu
      obtain ⟨b, -, hb⟩ := (hok u hu).txid
      exact ⟨b, hb⟩
  obtain ⟨_, r, _, hr, _⟩ := create_of (P := fun _ _ => True) hshuffle hus (key_addresses hk hadd) ho h hsign hw
  exact ⟨r, hr⟩

/-- C88. With consolidation a call in order succeeds exactly if the coins are worth the payments and the fee; otherwise it
raises `InsufficientFunds`. -/
theorem C88_exactly (C : Crypto) (k : PrivKey) (hk : KeyLaws C k) (hadd : OrdinaryAddresses C (.single k))
    (env : Env Amount) (hshuffle : ∀ l, (env.shuffle l).Perm l) (args : TxArgs Amount) (hall : args.combine = true)
    (us : List Unspent) (hus : CoinsOk us) (amounts : List Int) (scripts : List Bytes) (changeScript : Bytes)
    (ho : InOrder C env args (.single k) us amounts scripts changeScript) (ask : Ask) (w : Wallet)
    (hw : w.signer = .single k) :
    if needed env args us amounts scripts changeScript ≤ (us.map Unspent.amount).sum then
      ∃ r, (w.createTransaction C env args ask (.given us)).2 = .ok r
    else (w.createTransaction C env args ask (.given us)).2 = .error .insufficientFunds := by
  split
  · rename_i h
    exact C88_succeeds C k hk hadd env hshuffle args us hus amounts scripts changeScript ho h ask w hw
  · rename_i h
    obtain ⟨h1, h2, -⟩ := key_addresses hk hadd
    refine C86_refused C env hshuffle args ask w us hus.nonempty hall (by rw [hw]; exact h1) (by rw [hw]; exact h2) ?_
      amounts scripts changeScript (by rw [hw]; exact ho.cost) (by omega)
    intro b hb
    have := ho.message
    unfold MessageOk at this
    rw [hb] at this
    exact this

theorem contract_addresses {C : Crypto} {s : MultiSig} (hs : ContractLaws C s) (hadd : OrdinaryAddresses C (.multi s)) :
    (∃ a, (Signer.multi s).address C = .ok a) ∧ (∃ a, (Signer.multi s).segwitAddress C = .ok a) ∧
    ∀ a, (Signer.multi s).address C = .ok a ∨ (Signer.multi s).segwitAddress C = .ok (some a) →
      getVersion C a = .ok s.net := by
  obtain ⟨a, ha⟩ : ∃ a, multisigToAddress C s.publicKeys s.m s.net = .ok a := by
    unfold multisigToAddress
    rw [hs.redeem]
    exact ⟨_, rfl⟩
  have ea : (Signer.multi s).address C = .ok a := ha
  have eb : (Signer.multi s).segwitAddress C = .ok none ∨ ∃ b, (Signer.multi s).segwitAddress C = .ok (some b) ∧
      multisigToSegwitAddress C s.publicKeys s.m s.net = .ok b := by
    obtain ⟨b, hb⟩ : ∃ a, multisigToSegwitAddress C s.publicKeys s.m s.net = .ok a := by
      unfold multisigToSegwitAddress
      rw [hs.redeem]
      exact ⟨_, rfl⟩
    unfold Signer.segwitAddress MultiSig.segwitAddress
    dsimp only
    rw [hb]
    split
    · exact .inr ⟨b, rfl, rfl⟩
    · exact .inl rfl
  refine ⟨⟨a, ea⟩, ?_, ?_⟩
  · rcases eb with eb | ⟨b, eb, -⟩
    · exact ⟨_, eb⟩
    · exact ⟨_, eb⟩
  rintro c (hc | hc)
  · rw [ea] at hc
    cases hc
    obtain ⟨_, _, _, h3, _⟩ := C75_contract_address C hs.hash s.publicKeys s.m hs.pos s.net a ha
    exact (h3 (hadd.1 a ea)).1
  · rcases eb with eb | ⟨b, eb, hb⟩
    · rw [eb] at hc; cases hc
    · rw [eb] at hc
      cases hc
      obtain ⟨_, _, _, _, _, h3, _⟩ := C75_contract_segwit_address C hs.hash s.publicKeys s.m hs.pos s.net c hb
      exact (h3 (hadd.2 c eb)).1

/-- C88. The same for a contract of which `s` is the object of one co-signer; and up to `m` - 1 further co-signers can then sign one
after the other. -/
theorem C88_contract (C : Crypto) (s : MultiSig) (hs : ContractLaws C s) (hadd : OrdinaryAddresses C (.multi s))
    (ks : List PrivKey) (hks : ∀ k ∈ s.key :: ks, SignerLaws C s k)
    (hdiff : ((s.key :: ks).map fun k => k.publicKey C).Nodup) (hm : (ks.length : Int) + 1 ≤ s.m)
    (env : Env Amount) (hshuffle : ∀ l, (env.shuffle l).Perm l) (args : TxArgs Amount) (us : List Unspent) (hus : CoinsOk us)
    (hap : ∀ (sel : List Unspent) (t : Spec.Tx), sel.Subperm us → t.WF →
      List.Forall₂ Takes (signedCoins args.replaceByFee sel) t.inputs →
      NoMixup C s (s.key :: ks) (signedCoins args.replaceByFee sel) t)
    (amounts : List Int) (scripts : List Bytes) (changeScript : Bytes)
    (ho : InOrder C env args (.multi s) us amounts scripts changeScript)
    (h : needed env args us amounts scripts changeScript ≤ (us.map Unspent.amount).sum) (ask : Ask) (w : Wallet)
    (hw : w.signer = .multi s) :
    ∃ sel r r', sel.Subperm us ∧ (w.createTransaction C env args ask (.given us)).2 = .ok r ∧
      cosign C s (signedCoins args.replaceByFee sel) ks r = .ok r' := by
  have hsign : ∀ sel : List Unspent, sel.Subperm us → ∀ t : Spec.Tx, t.WF →
      List.Forall₂ Takes (signedCoins args.replaceByFee sel) t.inputs → (∀ i ∈ t.inputs, i.script = [] ∧ i.witness = []) →
      ∃ r, signTransactionHex C (.multi s) (bytesToHex (enc ((signedCoins args.replaceByFee sel).any Unspent.isSegwit) t))
        (signedCoins args.replaceByFee sel) = .ok r ∧ ∃ r', cosign C s (signedCoins args.replaceByFee sel) ks r = .ok r' := by
    intro sel hsub t hwf htk hun
    have hok : ∀ u ∈ signedCoins args.replaceByFee sel, CoinOk u := by
      intro v hv
      obtain ⟨u, hu, rfl | rfl⟩ := signedCoins_mem hv
      · exact hus.coin _ (hsub.subset hu)
      · exact (hus.coin u (hsub.subset hu)).optIn
    have hw' : (signedCoins args.replaceByFee sel).any Unspent.isSegwit = true ∨
        ∀ u ∈ signedCoins args.replaceByFee sel, u.isSegwit = false := by
      cases hb : (signedCoins args.replaceByFee sel).any Unspent.isSegwit with
      | true => exact .inl rfl
      | false => exact .inr fun u hu => by simpa using List.any_eq_false.mp hb u hu
    obtain ⟨r', hr'⟩ := C48_succeeds C s hs _ _ t hwf hw' (fun i hi _ _ _ => hun i hi) (s.key :: ks) hks (hap sel t hsub hwf htk)
      hdiff (by rw [List.length_cons]; push_cast; exact hm) hadd
      (fun u hu => by obtain ⟨b, -, hb⟩ := (hok u hu).txid; exact ⟨b, hb⟩)
      (fun u hu => (hok u hu).index) fun u hu => (hok u hu).amount
    rw [cosign] at hr'
    have e : ({ s with key := s.key } : MultiSig) = s := rfl
    rw [e] at hr'
    split at hr'
    · cases hr'
    · rename_i r hr
      exact ⟨r, hr, r', hr'⟩
  obtain ⟨sel, r, h1, h2, r', h3⟩ := create_of
    (P := fun sel r => ∃ r', cosign C s (signedCoins args.replaceByFee sel) ks r = .ok r') hshuffle hus
    (contract_addresses hs hadd) ho h hsign hw
  exact ⟨sel, r, r', h1, h2, h3⟩

/-- What holds of the chain: outputs are numbered with 32 bits, there are not too many unspent outputs, and they are not
worth more than 21 million bitcoins. -/
structure Sane (L : Spec.Ledger) : Prop where
  index : ∀ c ∈ L, c.index < 2 ^ 32
  count : L.length < 2 ^ 63
  worth : worth L ≤ 2100000000000000

theorem subperm_worth {a b : List Spec.Utxo} (h : a.Subperm b) : Spec.Ledger.worth a ≤ Spec.Ledger.worth b := by
  obtain ⟨l, hp, hs⟩ := h
  rw [← worth_perm hp]
  clear hp
  unfold Spec.Ledger.worth
  induction hs with
  | slnil => exact le_refl _
  | cons a _ ih =>
    rw [List.map_cons, List.sum_cons]
    omega
  | cons_cons a _ ih =>
    rw [List.map_cons, List.sum_cons, List.map_cons, List.sum_cons]
    omega

theorem fetched_sequences {C : Crypto} {ask : Ask} {w w' : Wallet} (hseq : ∀ a l, w.signer.address C = .ok a ∨
    w.signer.segwitAddress C = .ok (some a) → ask a = .ok (some l) → ∀ u ∈ l, 0 ≤ u.sequence ∧ u.sequence < 2 ^ 32)
    {us : List Unspent} (hg : w.getUnspents C ask = (w', .ok us)) :
    ∀ u ∈ us, 0 ≤ u.sequence ∧ u.sequence < 2 ^ 32 := by
  obtain ⟨a, seg, l₁, l₂, us₁, us₂, v₁, v₂, h1, h2, h3, h4, h5, -, rfl, h7, h8, -, h9, -, h10⟩ :=
    C52_refresh C ask w w' us hg
  intro u hu
  rcases List.mem_append.mp hu with hu | hu
  · obtain ⟨v, hv, hr⟩ := forall₂_right h7 hu
    rw [hr.sequence]
    exact hseq a l₁ (.inl h1) h3 v hv
  · obtain ⟨v, hv, hr⟩ := forall₂_right h8 hu
    rw [hr.sequence]
    cases seg with
    | none => rw [h4 rfl] at hv; cases hv
    | some b => exact hseq b l₂ (.inr h2) (h5 b rfl) v hv

theorem tells_coin {c : Spec.Utxo} {u : Unspent} (h : Tells c u) (h1 : c.txid.length = 32) (h2 : c.index < 2 ^ 32)
    (h3 : c.value < 2 ^ 64) (h4 : 0 ≤ u.sequence ∧ u.sequence < 2 ^ 32) : CoinOk u := by
  refine ⟨⟨c.txid.reverse, by rw [List.length_reverse, h1], h.txid⟩, ?_, ?_, h4⟩
  · rw [h.index]; omega
  · rw [h.amount]; omega

/-- Creating from what the network lists. -/
theorem create_listed {C : Crypto} {env : Env Amount} {args : TxArgs Amount} {ask : Ask} {w w' : Wallet} {us : List Unspent}
    (hg : w.getUnspents C ask = (w', .ok us)) (hne : us ≠ []) {r : Str}
    (h : (w.createTransaction C env args ask (.given us)).2 = .ok r) :
    (w.createTransaction C env args ask (.given [])).2 = .ok r := by
  have h1 : w.source C ask (.given []) = (w', .ok us, true) := by
    unfold Wallet.source
    dsimp only
    rw [if_pos List.isEmpty_nil, hg]
  have hsig : w'.signer = w.signer := by
    have := getUnspents_signer C ask w
    rwa [hg] at this
  unfold Wallet.createTransaction at h ⊢
  rw [source_given hne] at h
  rw [h1]
  dsimp only at h ⊢
  rw [hsig]
  cases hr : returnAddress C w.signer us with
  | error e => rw [hr] at h; cases h
  | ok d =>
    rw [hr] at h
    dsimp only at h ⊢
    cases hs : sanitizeArgs C env args us d w.signer.net with
    | error e => rw [hs] at h; cases h
    | ok p => rw [hs] at h; exact h

/-- C88. On the chain: if the services report the unspent outputs of the key as they are, the payments are in order and the
key holds enough to pay for them, then `create_transaction` gives a transaction that a node takes. -/
theorem C88_on_chain (C : Crypto) (k : PrivKey) (hk : KeyLaws C k) (hadd : OrdinaryAddresses C (.single k))
    (L : Spec.Ledger) (hL : L.WF) (hsane : Sane L) (env : Env Amount) (hshuffle : ∀ l, (env.shuffle l).Perm l)
    (args : TxArgs Amount) (hpay : args.outputs ≠ []) (ask : Ask) (ht : Honest C k L ask)
    (w w' : Wallet) (hw : w.signer = .single k)
    (hseq : ∀ a l, k.address C = .ok a ∨ k.segwitAddress C = .ok (some a) → ask a = .ok (some l) → ∀ u ∈ l,
      0 ≤ u.sequence ∧ u.sequence < 2 ^ 32) (us : List Unspent) (hg : w.getUnspents C ask = (w', .ok us))
    (amounts : List Int) (scripts : List Bytes) (changeScript : Bytes)
    (ho : InOrder C env args (.single k) us amounts scripts changeScript)
    (h : needed env args us amounts scripts changeScript ≤ held C k L) :
    ∃ t : Spec.Tx, (w.createTransaction C env args ask (.given [])).2 = .ok (bytesToHex t.encode) ∧
      Valid C.hashing L t := by
  obtain ⟨cs, p1, p2, -⟩ := fetched_coins hk ht hw hg
  obtain ⟨-, hsum⟩ := shown_sum hk ht hw hg
  have hsub : cs.Subperm L := by
    refine p1.subperm.trans (List.subperm_of_subset ?_ ?_)
    · exact List.Nodup.of_map _ (owned_nodup C k hL)
    · intro c hc
      obtain ⟨_, _, h1⟩ := List.mem_flatMap.mp hc
      exact List.mem_of_mem_filter h1
  have hheld : held C k L ≤ 2100000000000000 := by
    rw [← owned_worth, ← worth_perm p1]
    exact (subperm_worth hsub).trans hsane.worth
  have hlen := p2.length_eq
  have hneeded : amounts.sum ≤ needed env args us amounts scripts changeScript := by
    unfold needed
    have h1 := ho.fee
    have h2 := feeFor_nonneg ho.fee (sizesOf scripts ((messageLength args.message args.messageIsHex + 79) / 80) changeScript) us
    split <;> omega
  have hus : CoinsOk us := by
    refine ⟨?_, ?_, ?_, ?_⟩
    · rintro rfl
      have h0 := sum_ge_length ho.positive
      have h1 := ho.cost.amounts.length_eq
      have h2 : args.outputs.length ≠ 0 := by simpa using hpay
      have h3 : (0 : Int) = held C k L := hsum
      omega
    · intro u hu
      obtain ⟨c, hc, htell⟩ := forall₂_right p2 hu
      have hcL := hsub.subset hc
      refine tells_coin htell (hL.txid c hcL) (hsane.index c hcL) ?_ (fetched_sequences (by rw [hw]; exact hseq) hg u hu)
      have h1 : c.value ≤ Spec.Ledger.worth L := List.le_sum_of_mem (List.mem_map_of_mem hcL)
      have h2 := hsane.worth
      omega
    · have := hsub.length_le
      have := hsane.count
      omega
    · rw [hsum]
      omega
  obtain ⟨r, hr⟩ := C88_succeeds C k hk hadd env hshuffle args us hus amounts scripts changeScript ho (by rw [hsum]; exact h)
    ask w hw
  have hr' := create_listed hg hus.nonempty hr
  obtain ⟨t, -, rfl, -, h4, h5⟩ := C87_valid C k hk L hL env hshuffle args ho.fee ask ht w hw r hr'
  exact ⟨t, hr', h5 (h4 hpay)⟩

/-! ### The sample key of C87 again -/

/-- What a new wallet lists. -/
def listedL : List Unspent := ((newWallet (.single keyB)).getUnspents crypto askL).2.toOption.getD []

theorem listedL_is : (newWallet (.single keyB)).getUnspents crypto askL =
    (((newWallet (.single keyB)).getUnspents crypto askL).1, .ok listedL) := by decide +kernel

/-- A payment of 20000 satoshi to address A, with or without consolidation. -/
theorem inOrder_nested (all : Bool) {us : List Unspent} (hus : us.any (fun u => decide (u.segwit = some true)) = true) :
    InOrder crypto envB (argsB all) (.single keyB) us [20000]
    [unhex "76a91477bff20c60e522dfaa3350c39b030a5d004e839a88ac"] (scriptNested keyB) where
  cost := {
    amounts := .cons rfl .nil
    scripts := .cons (by decide +kernel) .nil
    change := ⟨segwitB, by decide +kernel, by
      show if (us.any fun u => decide (u.segwit = some true)) = true then _ else _
      rw [if_pos hus]
      exact segwitB_is⟩ }
  positive := by decide
  nets := by
    intro o ho
    have ho : o ∈ [(addrA, (20000 : Int))] := ho
    rw [List.mem_singleton] at ho
    subst ho
    decide +kernel
  changeNet := by intro l hl; cases hl
  short := by decide +kernel
  message := trivial
  messageLength := by cases all <;> decide
  fee := by cases all <;> decide

theorem inOrderB (all : Bool) : InOrder crypto envB (argsB all) (.single keyB) listedL [20000]
    [unhex "76a91477bff20c60e522dfaa3350c39b030a5d004e839a88ac"] (scriptNested keyB) :=
  inOrder_nested all (by decide +kernel)

/-- For C88_on_chain. The key holds 150000, and 20316 are needed. -/
example : ∃ t : Spec.Tx, ((newWallet (.single keyB)).createTransaction crypto envB (argsB false) askL (.given [])).2 =
      .ok (bytesToHex t.encode) ∧ Valid crypto.hashing ledgerB t := by
  refine C88_on_chain crypto keyB (toy_laws keyB (by decide)) keyB_ordinary ledgerB ledgerB_wf
    ⟨by decide +kernel, by decide, by decide +kernel⟩ envB (fun _ => List.Perm.refl _) (argsB false) (by decide +kernel) askL
    askL_honest (newWallet (.single keyB)) _ rfl ?_ listedL listedL_is [20000] _ _ (inOrderB false) (by decide +kernel)
  intro a l _ hl u hu
  unfold askL at hl
  split at hl
  · have hl := Option.some.inj (Except.ok.inj hl)
    subst hl
    rw [List.mem_singleton] at hu
    subst hu
    decide
  · split at hl
    · have hl := Option.some.inj (Except.ok.inj hl)
      subst hl
      rw [List.mem_singleton] at hu
      subst hu
      decide
    · cases hl

/-- The script of the segwit address of the sample contract. -/
def scriptM : Bytes := Spec.p2shScript (crypto.ripemd160 (crypto.sha256
  (Spec.witnessScript 0 (crypto.sha256 contract.redeemscript))))

/-- For C88_contract: key A creates from the two coins of the 2-of-3 contract, key C signs. -/
example : ∃ sel r r', sel.Subperm [unspentM, unspentL] ∧
    (contractWallet.createTransaction crypto envB (argsB true) noNetwork (.given [unspentM, unspentL])).2 = .ok r ∧
    cosign crypto contract (signedCoins false sel) [keyC] r = .ok r' := by
  obtain ⟨a, ha⟩ : ∃ a, (Signer.multi contract).segwitAddress crypto = .ok (some a) ∧
      addressToScriptpubkey crypto a = .ok (some scriptM) :=
    ⟨(((Signer.multi contract).segwitAddress crypto).toOption.getD none).getD [], by decide +kernel, by decide +kernel⟩
  refine C88_contract crypto contract contract_laws contract_ordinary [keyC] ?_ (by decide +kernel) (by decide) envB
    (fun _ => List.Perm.refl _) (argsB true) [unspentM, unspentL] ⟨by decide, ?_, by decide, by decide⟩ ?_ [20000]
    [unhex "76a91477bff20c60e522dfaa3350c39b030a5d004e839a88ac"] scriptM ?_ (by decide +kernel) noNetwork contractWallet rfl
  · intro k hk
    have hk : k ∈ [keyA, keyC] := hk
    simp only [List.mem_cons, List.not_mem_nil, or_false] at hk
    rcases hk with rfl | rfl
    · exact contract_signer (Or.inl rfl)
    · exact contract_signer (Or.inr (Or.inr rfl))
  · intro u hu
    simp only [List.mem_cons, List.not_mem_nil, or_false] at hu
    rcases hu with rfl | rfl
    · exact ⟨⟨List.replicate 32 7, by decide, rfl⟩, by decide, by decide, by decide⟩
    · exact ⟨⟨List.replicate 32 9, by decide, rfl⟩, by decide, by decide, by decide⟩
  · intro sel t _ _ _
    exact contract_noMixup (by simp [contract]) _ _
  · exact
      { cost := {
          amounts := .cons rfl .nil
          scripts := .cons (by decide +kernel) .nil
          change := ⟨a, ha.2, by
            show if ([unspentM, unspentL].any fun u => decide (u.segwit = some true)) = true then _ else _
            rw [if_pos (by decide +kernel)]
            exact ha.1⟩ }
        positive := by decide
        nets := by
          intro o ho
          have ho : o ∈ [(addrA, (20000 : Int))] := ho
          rw [List.mem_singleton] at ho
          subst ho
          decide +kernel
        changeNet := by intro l hl; cases hl
        short := by decide +kernel
        message := trivial
        messageLength := by decide
        fee := by decide }

end Bit
