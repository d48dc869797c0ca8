import Verif.Lemmas.Create
import Verif.Props.Wallet
/-
C63: creating a transaction from explicit unspents, end to end.
-/
namespace Bit
open Concrete

/-! ## C63 -/

/-- The fee a call asks for, per byte or with `absolute_fee` in all: the argument `fee`, or the recommended fee if
the argument is left out or zero. -/
def askedFee {Amount : Type} (env : Env Amount) (args : TxArgs Amount) : Int :=
  if args.fee = none ∨ args.fee = some 0 then env.feeCached else args.fee.getD 0

theorem feeOf_asked {Amount : Type} (env : Env Amount) (args : TxArgs Amount) :
    feeOf env args = askedFee env args := by
  unfold feeOf askedFee
  cases h : args.fee with
  | none => simp
  | some f =>
    by_cases hf : f = 0
    · simp [hf]
    · simp [hf]

/-- `t` is a transaction as asked for by a call of `create_transaction` with the coins `us`: it spends the
coins `sel` and pays `fee`; `change` is the address for change. Nothing is said on scripts and witnesses
of the inputs. -/
structure Built {Amount : Type} (C : Crypto) (env : Env Amount) (args : TxArgs Amount) (s : Signer)
    (us sel : List Unspent) (change : Str) (fee : Int) (t : Spec.Tx) : Prop where
  version : t.version = 1
  lockTime : t.lockTime = 0
  nonempty : sel ≠ []
  selected : sel.Subperm us
  /-- every input spends a selected coin, in order; with `replace_by_fee` its sequence number is lowered to
  the largest one that signals replaceability -/
  inputs : List.Forall₂ (fun (u : Unspent) (i : Spec.TxInput) => u.txid = bytesToHex i.prevTxid.reverse ∧
    (i.prevIndex : Int) = u.txindex ∧
    (i.sequence : Int) = if args.replaceByFee then min u.sequence 0xfffffffd else u.sequence) sel t.inputs
  /-- the address for change is the given one, or the one of the key (or contract), the segwit one if any coin is
  segwit -/
  leftover : match args.leftover with
    | some (c :: l) => change = c :: l
    | _ => if us.any (fun u => u.segwit = some true) then s.segwitAddress C = .ok (some change)
      else s.address C = .ok change
  /-- coins in, outputs and fee balance -/
  balanced : (sel.map Unspent.amount).sum = (t.outputs.map fun o => (o.value : Int)).sum + fee
  absolute : args.absoluteFee = true → fee = askedFee env args
  /-- the outputs are the payments in order, then at most one change output, then the messages, each with the
  script of its address or as `OP_RETURN` output; a fee that is not absolute is the rate times the size estimate,
  or there is no change and the coins are a perfect match -/
  outputs : ∃ (pays changes : List (Str × Int)) (pieces : List Bytes) (scripts : List Bytes) (changeScript : Bytes),
    List.Forall₂ (fun o p => p.1 = o.1 ∧ env.conv o.2 = .ok p.2) args.outputs pays ∧
    (changes = [] ∨ ∃ c, 0 < c ∧ changes = [(change, c)]) ∧
    MessagePieces args.message args.messageIsHex pieces ∧
    List.Forall₂ (fun q o => Pays C q.1 q.2 o)
      ((pays ++ changes).map (fun p => (Dest.str p.1, p.2)) ++ pieces.map (fun c => (Dest.bytes c, 0))) t.outputs ∧
    List.Forall₂ (fun p s => addressToScriptpubkey C p.1 = .ok (some s)) pays scripts ∧
    addressToScriptpubkey C change = .ok (some changeScript) ∧
    (args.absoluteFee = false →
      fee = feeFor (askedFee env args) (sizesOf scripts pieces.length changeScript) sel ∨
      (args.combine = false ∧ changes = [] ∧ PerfectMatch (pays.map Prod.snd).sum (askedFee env args)
        (sizesOf scripts pieces.length changeScript) sel))
  /-- with `combine` (the default) all coins are spent, in order -/
  combined : args.combine = true → sel = us

/-- The coins as they are signed: with `replace_by_fee` their sequence numbers are lowered. -/
def signedCoins (rbf : Bool) (sel : List Unspent) : List Unspent :=
  if rbf then sel.map Unspent.optInForRBF else sel

theorem Built.skeleton {Amount : Type} {C : Crypto} {env : Env Amount} {args : TxArgs Amount} {s : Signer}
    {us sel : List Unspent} {change : Str} {fee : Int} {t t' : Spec.Tx}
    (h : Built C env args s us sel change fee t) (hsk : Spec.SameSkeleton t t') :
    Built C env args s us sel change fee t' := by
  obtain ⟨b1, b2, b3, b4, b5, b6, b7, b8, b9, b10⟩ := h
  refine ⟨hsk.version.trans b1, hsk.lockTime.trans b2, b3, b4, ?_, b6, ?_, b8, ?_, b10⟩
  · rw [forall₂_iff_get] at b5 ⊢
    refine ⟨?_, ?_⟩
    · rw [skeleton_length hsk]; exact b5.1
    · intro j a b ha hb
      have hj : j < t.inputs.length := by
        rw [← skeleton_length hsk]
        exact (List.getElem?_eq_some_iff.mp hb).1
      have hb0 : t.inputs[j]? = some t.inputs[j] := List.getElem?_eq_getElem hj
      obtain ⟨e1, e2, e3⟩ := skeleton_get hsk hb0 hb
      rw [e1, e2, e3]
      exact b5.2 j a _ ha hb0
  · rw [hsk.outputs]; exact b7
  · rw [hsk.outputs]; exact b9

theorem forall₂_left {α β : Type} {R : α → β → Prop} {as : List α} {bs : List β} (h : List.Forall₂ R as bs)
    {a : α} (ha : a ∈ as) : ∃ b ∈ bs, R a b := by
  induction h with
  | nil => cases ha
  | cons hr _ ih =>
    rcases List.mem_cons.mp ha with rfl | ha
    · exact ⟨_, List.mem_cons_self, hr⟩
    · obtain ⟨b, hb, h'⟩ := ih ha
      exact ⟨b, List.mem_cons_of_mem _ hb, h'⟩

theorem pays_sum {C : Crypto} {reqs : List (Dest × Int)} {os : List Spec.TxOutput}
    (h : List.Forall₂ (fun q o => Pays C q.1 q.2 o) reqs os) :
    (os.map fun o => (o.value : Int)).sum = (reqs.map Prod.snd).sum := by
  induction h with
  | nil => rfl
  | cons a _ ih => rw [List.map_cons, List.map_cons, List.sum_cons, List.sum_cons, ih, a.value]

/-- The selection and the outputs do not depend on `replace_by_fee`. -/
theorem sanitizeArgs_rbf {Amount : Type} {C : Crypto} {env : Env Amount} {args : TxArgs Amount}
    {us us' : List Unspent} {default : Option Str} {net : Net} {outs : List (Dest × Int)}
    (h : sanitizeArgs C env args us default net = .ok (us', outs)) :
    ∃ sel, sanitizeTxData C env.conv env.flips env.shuffle us args.outputs (feeOf env args)
        (leftoverOf args default) args.combine args.message args.absoluteFee 0 net args.messageIsHex false
        = .ok (sel, outs) ∧ us' = signedCoins args.replaceByFee sel := by
  unfold sanitizeArgs at h
  cases hr : args.replaceByFee with
  | false =>
    rw [hr] at h
    exact ⟨us', h, rfl⟩
  | true =>
    rw [hr, C41_replace_by_fee] at h
    cases hs : sanitizeTxData C env.conv env.flips env.shuffle us args.outputs (feeOf env args)
        (leftoverOf args default) args.combine args.message args.absoluteFee 0 net args.messageIsHex false with
    | error e => rw [hs] at h; cases h
    | ok p =>
      rw [hs] at h
      simp only [Except.map, Except.ok.injEq, Prod.mk.injEq] at h
      obtain ⟨h1, h2⟩ := h
      subst h2
      refine ⟨p.1, rfl, ?_⟩
      rw [← h1]
      unfold signedCoins
      rw [if_pos rfl]
      apply List.map_congr_left
      intro u _
      have := optIn_fields u
      cases hv : u.optInForRBF
      rw [hv] at this
      simp_all

/-- With `combine` everything is selected. -/
theorem sanitize_combined {Amount : Type} {C : Crypto} {conv : Amount → Py Int} {flips : Nat → Bool}
    {shuffle : List Unspent → List Unspent} (hshuffle : ∀ l, (shuffle l).Perm l) {unspents : List Unspent}
    {outputs : List (Str × Amount)} {fee : Int} {leftover : Option Str} {message : Option Dest} {absoluteFee : Bool}
    {minChange : Int} {version : Net} {messageIsHex : Bool} {us : List Unspent} {outs : List (Dest × Int)}
    (h : sanitizeTxData C conv flips shuffle unspents outputs fee leftover true message absoluteFee
      minChange version messageIsHex false = .ok (us, outs)) : us = unspents := by
  obtain ⟨pays, chunks, sizes, lo, lsize, sel, remaining, -, hne, -, -, -, -, h7, h8, -, -⟩ := sanitize_ok h
  rw [h8]
  rw [C35_consolidate flips shuffle hshuffle _ _ _ _ _ _ hne] at h7
  generalize (if absoluteFee then fee else _) = f at h7
  split at h7
  · injection h7 with h7
    injection h7 with h7 _
    exact h7.symm
  · cases h7

theorem create_given {Amount : Type} {C : Crypto} {env : Env Amount} {args : TxArgs Amount} {ask : Ask}
    {w : Wallet} {us : List Unspent} (hne : us ≠ []) {r : Str}
    (h : (w.createTransaction C env args ask (.given us)).2 = .ok r) :
    ∃ default us' outs, returnAddress C w.signer us = .ok default ∧
      sanitizeArgs C env args us default w.signer.net = .ok (us', outs) ∧
      createNewTransaction C w.signer us' outs = .ok r := by
  have hs : w.source C ask (.given us) = (w, .ok us, false) := by
    unfold Wallet.source
    dsimp only
    rw [if_neg (by simpa using hne)]
  unfold Wallet.createTransaction at h
  rw [hs] at h
  dsimp only at h
  cases h1 : returnAddress C w.signer us with
  | error e => rw [h1] at h; cases h
  | ok default =>
    rw [h1] at h
    dsimp only at h
    cases h2 : sanitizeArgs C env args us default w.signer.net with
    | error e => rw [h2] at h; cases h
    | ok p =>
      rw [h2] at h
      exact ⟨default, p.1, p.2, rfl, h2, h⟩

theorem signedCoins_mem {rbf : Bool} {sel : List Unspent} {v : Unspent} (h : v ∈ signedCoins rbf sel) :
    ∃ u ∈ sel, v = u ∨ v = u.optInForRBF := by
  unfold signedCoins at h
  split at h
  · obtain ⟨u, hu, rfl⟩ := List.mem_map.mp h
    exact ⟨u, hu, Or.inr rfl⟩
  · exact ⟨v, h, Or.inl rfl⟩

theorem signedCoins_any (rbf : Bool) (sel : List Unspent) :
    (signedCoins rbf sel).any Unspent.isSegwit = sel.any Unspent.isSegwit := by
  unfold signedCoins
  split
  · rw [List.any_map]
    congr 1
    funext u
    show u.optInForRBF.segwit.getD false = u.segwit.getD false
    rw [(optIn_fields u).2.2.1]
  · rfl

theorem signedCoins_length (rbf : Bool) (sel : List Unspent) : (signedCoins rbf sel).length = sel.length := by
  unfold signedCoins
  split <;> simp

/-- As `C63_unsigned` below, also with any other functions that give the same addresses and scripts. If creating a transaction from explicit unspents succeeds, there is an unsigned
transaction as asked for, and what is returned is the result of signing its serialisation (without
witnesses, or with empty ones if any coin is segwit) with the selected coins. -/
theorem built_any {Amount : Type} (C : Crypto) (env : Env Amount) (hshuffle : ∀ l, (env.shuffle l).Perm l)
    (args : TxArgs Amount) (ask : Ask) (w : Wallet) (us : List Unspent) (hne : us ≠ [])
    (htx : ∀ u ∈ us, TxidOk u) (r : Str)
    (h : (w.createTransaction C env args ask (.given us)).2 = .ok r) :
    ∃ (sel : List Unspent) (change : Str) (fee : Int) (t : Spec.Tx), t.WF ∧
      Built C env args w.signer us sel change fee t ∧ (∀ i ∈ t.inputs, i.script = [] ∧ i.witness = []) ∧
      (∀ u ∈ sel, 0 ≤ u.amount ∧ u.amount < 2 ^ 64) ∧
      ∀ C', returnAddress C' w.signer us = returnAddress C w.signer us →
        (∀ default, sanitizeArgs C' env args us default w.signer.net = sanitizeArgs C env args us default w.signer.net) →
        (∀ reqs, constructOutputs C' reqs = constructOutputs C reqs) →
        (w.createTransaction C' env args ask (.given us)).2 = signTransactionHex C' w.signer
          (bytesToHex (if sel.any (fun u => u.segwit = some true) then t.encodeExtended else t.encodeLegacy))
          (signedCoins args.replaceByFee sel) := by
  obtain ⟨default, us', outs, h1, h2, h3⟩ := create_given hne h
  obtain ⟨sel, h4, rfl⟩ := sanitizeArgs_rbf h2
  obtain ⟨hsel, hsub⟩ := C41_unchanged C env.conv env.flips env.shuffle hshuffle us args.outputs _ _ _ _ _ _ _ _ sel
    outs h4
  obtain ⟨pays, changes, chunks, change, fee, scripts, loScript, c1, c2, c3, c4, c5, c6, c7, c8, c9, c10⟩ :=
    C37_outputs C env.conv env.flips env.shuffle hshuffle us args.outputs _ _ _ _ _ _ (le_refl 0) _ _ _ sel outs h4
  have hne' : signedCoins args.replaceByFee sel ≠ [] := by
    rw [← List.length_pos_iff, signedCoins_length, List.length_pos_iff]
    exact hsel
  have htx' : ∀ u ∈ signedCoins args.replaceByFee sel, TxidOk u := by
    intro v hv
    obtain ⟨u, hu, e⟩ := signedCoins_mem hv
    obtain ⟨b, hb, hub⟩ := htx u (hsub.subset hu)
    refine ⟨b, hb, ?_⟩
    rcases e with rfl | rfl
    · exact hub
    · rw [(optIn_fields u).2.2.2.1]; exact hub
  obtain ⟨t, d1, d2, d3, d4, d5, d6, d7, d8⟩ := create_unsigned_any hne' htx' h3
  rw [feeOf_asked] at c9 c10
  refine ⟨sel, change, fee, t, d1, ⟨d2, d3, hsel, hsub, ?_, ?_, ?_, c9, ?_, ?_⟩, d5, ?_, ?_⟩
  · unfold signedCoins at d4
    cases hr : args.replaceByFee with
    | false =>
      rw [hr] at d4
      exact d4.imp fun u i h => ⟨h.txid, h.index, h.sequence⟩
    | true =>
      rw [hr, if_pos rfl, List.forall₂_map_left_iff] at d4
      refine d4.imp fun u i h => ?_
      obtain ⟨-, -, -, e1, e2, -, -, -, e3⟩ := optIn_fields u
      exact ⟨e1.symm.trans h.txid, h.index.trans e2, h.sequence.trans e3⟩
  · have hdef : (if us.any (fun u => decide (u.segwit = some true)) then
        w.signer.segwitAddress C = .ok default else ∃ a, w.signer.address C = .ok a ∧ default = some a) := by
      unfold returnAddress at h1
      split
      · rename_i ha
        rwa [if_pos ha] at h1
      · rename_i ha
        rw [if_neg ha] at h1
        cases hadd : w.signer.address C with
        | error e => rw [hadd] at h1; cases h1
        | ok a =>
          rw [hadd] at h1
          simp only [Except.ok.injEq] at h1
          exact ⟨a, rfl, h1.symm⟩
    unfold leftoverOf at c2
    have hfin : default = some change → (if us.any (fun u => decide (u.segwit = some true)) then
        w.signer.segwitAddress C = .ok (some change) else w.signer.address C = .ok change) := by
      intro e
      subst e
      split
      · rename_i ha
        rwa [if_pos ha] at hdef
      · rename_i ha
        rw [if_neg ha] at hdef
        obtain ⟨a, e1, e2⟩ := hdef
        injection e2 with e2
        rw [e1, e2]
    cases hl : args.leftover with
    | none =>
      rw [hl] at c2
      exact hfin c2
    | some l =>
      rw [hl] at c2
      cases l with
      | nil => exact hfin c2
      | cons a l =>
        simp only [List.isEmpty_cons, Bool.false_eq_true, if_false, Option.some.injEq] at c2
        exact c2.symm
  · rw [pays_sum d6]; exact c6
  · rw [c5] at d6
    have hb : ∀ c ∈ chunks, ∃ b, c = .bytes b := by
      intro c hc
      obtain ⟨o, -, ho⟩ := forall₂_left d6 (List.mem_append_right _ (List.mem_map_of_mem hc))
      obtain ⟨b, e, -⟩ := ho.message rfl
      exact ⟨b, e⟩
    obtain ⟨pieces, rfl, hp⟩ := messagePieces_of c4 hb
    rw [List.length_map] at c10
    refine ⟨pays, changes, pieces, scripts, loScript, c1, c3, hp, ?_, c7, c8, c10⟩
    rw [List.map_map] at d6
    exact d6
  · intro hc
    rw [hc] at h4
    exact sanitize_combined hshuffle h4
  · intro u hu
    cases hr : args.replaceByFee with
    | false =>
      rw [hr] at d7
      exact d7 u hu
    | true =>
      rw [hr] at d7
      have := d7 u.optInForRBF (by
        unfold signedCoins
        rw [if_pos rfl]
        exact List.mem_map.mpr ⟨u, hu, rfl⟩)
      rwa [(optIn_fields u).1] at this
  · rw [signedCoins_any] at d8
    have e : (sel.any fun u => decide (u.segwit = some true)) = sel.any Unspent.isSegwit := by
      congr 1
      funext u
      unfold Unspent.isSegwit
      cases u.segwit with
      | none => rfl
      | some b => cases b <;> rfl
    rw [e]
    intro C' g1 g2 g3
    unfold Wallet.createTransaction
    rw [show w.source C' ask (.given us) = (w, .ok us, false) by
      unfold Wallet.source
      dsimp only
      rw [if_neg (by simpa using hne)]]
    dsimp only
    rw [g1, h1]
    dsimp only
    rw [g2, h2]
    exact d8 C' (g3 _)

/-- C63, for any signer. If creating a transaction from explicit unspents succeeds, there is an unsigned
transaction as asked for, and what is returned is the result of signing its serialisation (without
witnesses, or with empty ones if any coin is segwit) with the selected coins. -/
theorem C63_unsigned {Amount : Type} (C : Crypto) (env : Env Amount) (hshuffle : ∀ l, (env.shuffle l).Perm l)
    (args : TxArgs Amount) (ask : Ask) (w : Wallet) (us : List Unspent) (hne : us ≠ [])
    (htx : ∀ u ∈ us, TxidOk u) (r : Str)
    (h : (w.createTransaction C env args ask (.given us)).2 = .ok r) :
    ∃ (sel : List Unspent) (change : Str) (fee : Int) (t : Spec.Tx), t.WF ∧
      Built C env args w.signer us sel change fee t ∧ (∀ i ∈ t.inputs, i.script = [] ∧ i.witness = []) ∧
      (∀ u ∈ sel, 0 ≤ u.amount ∧ u.amount < 2 ^ 64) ∧
      signTransactionHex C w.signer
        (bytesToHex (if sel.any (fun u => u.segwit = some true) then t.encodeExtended else t.encodeLegacy))
        (signedCoins args.replaceByFee sel) = .ok r := by
  obtain ⟨sel, change, fee, t, h1, h2, h3, h4, h5⟩ := built_any C env hshuffle args ask w us hne htx r h
  exact ⟨sel, change, fee, t, h1, h2, h3, h4, (h5 C rfl (fun _ => rfl) fun _ => rfl).symm.trans h⟩

/-- The coins have different outpoints. -/
def Distinct (us : List Unspent) : Prop := (us.map fun u => (u.txid, u.txindex)).Nodup

theorem outpointOf_takes {u : Unspent} {i : Spec.TxInput} (htx : u.txid = bytesToHex i.prevTxid.reverse)
    (hix : (i.prevIndex : Int) = u.txindex) (hwf : i.WF) : outpointOf u = .ok (Spec.TxInput.outpoint i) := by
  have hlt : i.prevIndex < 256 ^ 4 := lt_of_lt_of_eq hwf.index (by norm_num)
  have e := toBytesLE_ok hlt
  unfold outpointOf Spec.TxInput.outpoint
  rw [htx, hexToBytes_bytesToHex, ← hix, e, leEncode_eq]
  dsimp only
  rw [List.reverse_reverse]

theorem outpointOf_key {u v : Unspent} (hu : TxidOk u) (hv : TxidOk v) {key : Bytes}
    (h1 : outpointOf u = .ok key) (h2 : outpointOf v = .ok key) : (u.txid, u.txindex) = (v.txid, v.txindex) := by
  obtain ⟨a, ha, hua⟩ := hu
  obtain ⟨b, hb, hvb⟩ := hv
  unfold outpointOf at h1 h2
  rw [hua, hexToBytes_bytesToHex] at h1
  rw [hvb, hexToBytes_bytesToHex] at h2
  dsimp only at h1 h2
  cases h3 : toBytesLE u.txindex 4 with
  | error e => rw [h3] at h1; cases h1
  | ok x =>
    cases h4 : toBytesLE v.txindex 4 with
    | error e => rw [h4] at h2; cases h2
    | ok y =>
      rw [h3] at h1
      rw [h4] at h2
      simp only [Except.ok.injEq] at h1 h2
      have e := h1.trans h2.symm
      obtain ⟨e1, e2⟩ := List.append_inj e (by simp [ha, hb])
      have e1 : a = b := by simpa using e1
      obtain ⟨p1, p2, p3⟩ := toBytesLE_eq_ok h3
      obtain ⟨q1, q2, q3⟩ := toBytesLE_eq_ok h4
      have e3 : u.txindex.toNat = v.txindex.toNat := by
        have := congrArg leNat (p3.symm.trans (e2.trans q3))
        rw [leNat_leBytes_of_lt (by norm_num at p2 ⊢; omega), leNat_leBytes_of_lt (by norm_num at q2 ⊢; omega)] at this
        exact this
      rw [hua, hvb, e1]
      have : u.txindex = v.txindex := by omega
      rw [this]

theorem canSign_optIn (C : Crypto) (s : Signer) (u : Unspent) :
    s.canSignUnspent C u.optInForRBF = s.canSignUnspent C u := by
  unfold Signer.canSignUnspent
  rw [(optIn_fields u).2.2.2.2.2.1]

theorem outpointOf_optIn (u : Unspent) : outpointOf u.optInForRBF = outpointOf u := by
  unfold outpointOf
  rw [(optIn_fields u).2.2.2.1, (optIn_fields u).2.2.2.2.1]

theorem signedCoins_get {rbf : Bool} {sel : List Unspent} {j : Nat} {u : Unspent} (h : sel[j]? = some u) :
    ∃ v, (signedCoins rbf sel)[j]? = some v ∧ v.amount = u.amount ∧ v.isSegwit = u.isSegwit ∧ v.script = u.script ∧
      (∀ (C : Crypto) (s : Signer), s.canSignUnspent C v = s.canSignUnspent C u) ∧ outpointOf v = outpointOf u ∧
      v.txid = u.txid ∧ v.txindex = u.txindex := by
  unfold signedCoins
  cases rbf with
  | false => exact ⟨u, h, rfl, rfl, rfl, fun _ _ => rfl, rfl, rfl, rfl⟩
  | true =>
    obtain ⟨e1, -, e2, e3, e4, e5, -⟩ := optIn_fields u
    refine ⟨u.optInForRBF, ?_, e1, ?_, e5, fun C s => canSign_optIn C s u, outpointOf_optIn u, e3, e4⟩
    · rw [if_pos rfl, List.getElem?_map, h]
      rfl
    · unfold Unspent.isSegwit
      rw [e2]

theorem distinct_signedCoins {rbf : Bool} {sel us : List Unspent} (hsub : sel.Subperm us) (h : Distinct us) :
    Distinct (signedCoins rbf sel) := by
  have h1 : Distinct sel := by
    unfold Distinct
    obtain ⟨l, h1, h2⟩ := hsub
    exact (h1.map _).nodup_iff.mp ((h2.map _).nodup h)
  unfold signedCoins
  split
  · unfold Distinct at h1 ⊢
    rw [List.map_map]
    have : ((fun u : Unspent => (u.txid, u.txindex)) ∘ Unspent.optInForRBF) = fun u => (u.txid, u.txindex) := by
      funext u
      simp only [Function.comp, (optIn_fields u).2.2.2.1, (optIn_fields u).2.2.2.2.1]
    rw [this]
    exact h1
  · exact h1

/-- The coin looked up for an outpoint, if the coins have different outpoints. -/
theorem chosen_distinct {C : Crypto} {s : Signer} {us : List Unspent} (hd : Distinct us) (htx : ∀ u ∈ us, TxidOk u)
    {d : List (Bytes × Unspent)} (hdict : inputDict C s us [] = .ok d) {u : Unspent} (hu : u ∈ us) {key : Bytes}
    (hkey : outpointOf u = .ok key) :
    chosen C s us key = if s.canSignUnspent C u = .ok true then some u else none := by
  have huniq : ∀ v ∈ us, outpointOf v = .ok key → v = u := by
    intro v hv hvk
    exact List.inj_on_of_nodup_map hd hv hu (outpointOf_key (htx v hv) (htx u hu) hvk hkey)
  split
  · rename_i hc
    cases h : chosen C s us key with
    | none =>
      exact absurd ⟨hc, hkey⟩ ((chosen_none hdict).mp h u hu)
    | some v =>
      obtain ⟨h1, h2⟩ := chosen_mem h
      rw [huniq v h1 h2.2]
  · rename_i hc
    rw [chosen_none hdict]
    intro v hv hm
    have := huniq v hv hm.2
    subst this
    exact hc hm.1

/-- What the input of a coin of the key looks like: nested segwit has a script of 23 bytes and a signature with
hash type and the key as witness; a legacy input has a script that pushes these two. -/
def SignedShape (C : Crypto) (k : PrivKey) (u : Unspent) (i : Spec.TxInput) : Prop :=
  ∃ data, if u.isSegwit then
      i.script.length = 23 ∧ i.witness = [C.sign k.secret data ++ [0x01], k.publicKey C]
    else i.witness = [] ∧ i.script.length = (C.sign k.secret data).length + (k.publicKey C).length + 3

theorem signedInput_shape {C : Crypto} {k : PrivKey} (hk : KeyLaws C k) (t : Spec.Tx) (j : Nat) {u v : Unspent}
    (hv : v.isSegwit = u.isSegwit) (i : Spec.TxInput) : SignedShape C k u (signedInput C k t j v i) := by
  unfold SignedShape signedInput
  refine ⟨digest C t j i (Spec.p2pkhScript (C.hash160 (k.publicKey C))) v.isSegwit v.amount.toNat, ?_⟩
  rw [hv]
  cases u.isSegwit with
  | false =>
    refine ⟨rfl, ?_⟩
    simp only [Bool.false_eq_true, if_false, List.cons_append, List.length_cons, List.length_append, List.length_nil]
    omega
  | true =>
    refine ⟨?_, rfl⟩
    simp only [if_true, Spec.witnessScript, List.length_cons, List.length_append, List.length_nil,
      show (C.hash160 (k.publicKey C)).length = 20 from hk.hash.ripemd160_length _]

theorem create_spends {Amount : Type} (C : Crypto) (k : PrivKey) (hk : KeyLaws C k) (env : Env Amount)
    (hshuffle : ∀ l, (env.shuffle l).Perm l) (args : TxArgs Amount) (ask : Ask) (w : Wallet)
    (hw : w.signer = .single k) (us : List Unspent) (hne : us ≠ []) (htx : ∀ u ∈ us, TxidOk u) (hd : Distinct us)
    (hfit : ∀ u ∈ us, (Signer.single k).canSignUnspent C u = .ok true → TypeFits C k u) (r : Str)
    (h : (w.createTransaction C env args ask (.given us)).2 = .ok r) :
    ∃ (sel : List Unspent) (change : Str) (fee : Int) (t : Spec.Tx), t.WF ∧
      Built C env args (.single k) us sel change fee t ∧
      r = bytesToHex (if sel.any (fun u => u.segwit = some true) then t.encodeExtended else t.encodeLegacy) ∧
      (∃ x, deserializeHex r = .ok x ∧ Represents (sel.any fun u => u.segwit = some true) x t) ∧
      ((∀ u ∈ us, (Signer.single k).canSignUnspent C u = .ok true) → r = bytesToHex t.encode) ∧
      ∀ (j : Nat) (u : Unspent) (i : Spec.TxInput), sel[j]? = some u → t.inputs[j]? = some i →
        if (Signer.single k).canSignUnspent C u = .ok true then
          (∃ script, u.script = bytesToHex script ∧ Spec.Spends C.hashing t j i script u.amount.toNat) ∧
            SignedShape C k u i
        else i.script = [] ∧ i.witness = [] := by
  obtain ⟨sel, change, fee, t, h1, h2, h3, -, h4⟩ := C63_unsigned C env hshuffle args ask w us hne htx r h
  rw [hw] at h2 h4
  have eseg : ∀ u : Unspent, decide (u.segwit = some true) = u.isSegwit := by
    intro u
    unfold Unspent.isSegwit
    cases u.segwit with
    | none => rfl
    | some b => cases b <;> rfl
  simp only [eseg] at h4 ⊢
  have hsub := h2.selected
  have htx' : ∀ v ∈ signedCoins args.replaceByFee sel, TxidOk v := by
    intro v hv
    obtain ⟨u, hu, e⟩ := signedCoins_mem hv
    obtain ⟨b, hb, hub⟩ := htx u (hsub.subset hu)
    refine ⟨b, hb, ?_⟩
    rcases e with rfl | rfl
    · exact hub
    · rw [(optIn_fields u).2.2.2.1]; exact hub
  have hd' := distinct_signedCoins (rbf := args.replaceByFee) hsub hd
  have hw' : sel.any Unspent.isSegwit = true ∨ ∀ u ∈ signedCoins args.replaceByFee sel, u.isSegwit = false := by
    cases hb : sel.any Unspent.isSegwit with
    | true => exact Or.inl rfl
    | false =>
      right
      rw [← signedCoins_any args.replaceByFee] at hb
      intro u hu
      have := List.any_eq_false.mp hb u hu
      simpa using this
  obtain ⟨⟨⟨d, hdict⟩, -⟩, hr⟩ := (single_sign_hex hk h1 hw').mp h4
  have hsk := signedTx_skeleton C k (signedCoins args.replaceByFee sel) t
  have hwf' := signedTx_wf hk (us := signedCoins args.replaceByFee sel) h1
  have hlen := h2.inputs.length_eq
  have hget := (forall₂_iff_get.mp h2.inputs).2
  -- the input signed at each position
  have hin : ∀ (j : Nat) (u : Unspent) (i : Spec.TxInput), sel[j]? = some u → t.inputs[j]? = some i →
      ∃ v, v.amount = u.amount ∧ v.isSegwit = u.isSegwit ∧ v.script = u.script ∧
        (signedTx C k (signedCoins args.replaceByFee sel) t).inputs[j]? = some
          (if (Signer.single k).canSignUnspent C u = .ok true then signedInput C k t j v i else i) := by
    intro j u i hu hi
    obtain ⟨v, v1, v2, v3, v4, v5, v6, v7, v8⟩ := signedCoins_get (rbf := args.replaceByFee) hu
    obtain ⟨g1, g2, -⟩ := hget j u i hu hi
    have hop : outpointOf v = .ok (Spec.TxInput.outpoint i) := by
      rw [v6]
      exact outpointOf_takes g1 g2 (h1.input i (List.mem_of_getElem? hi))
    have hch := chosen_distinct hd' htx' hdict (List.mem_of_getElem? v1) hop
    rw [v5] at hch
    refine ⟨v, v2, v3, v4, ?_⟩
    rw [signedTx_get, hi, Option.map_some, hch]
    by_cases hc : (Signer.single k).canSignUnspent C u = .ok true
    · rw [if_pos hc, if_pos hc]
    · rw [if_neg hc, if_neg hc]
  refine ⟨sel, change, fee, signedTx C k (signedCoins args.replaceByFee sel) t, hwf', h2.skeleton hsk, hr, ?_, ?_, ?_⟩
  · obtain ⟨x, hx, hrep⟩ := deserialize_enc hwf' (sel.any Unspent.isSegwit)
    exact ⟨x, by rw [hr, deserializeHex_bytesToHex]; exact hx, hrep⟩
  · intro hall
    rw [hr]
    congr 1
    unfold Spec.Tx.encode
    have : (signedTx C k (signedCoins args.replaceByFee sel) t).inputs.all (fun i => i.witness.isEmpty) =
        !(sel.any Unspent.isSegwit) := by
      rw [Bool.eq_iff_iff, Bool.not_eq_true', List.all_eq_true, List.any_eq_false]
      have hwit : ∀ (j : Nat) (u : Unspent) (i i' : Spec.TxInput), sel[j]? = some u → t.inputs[j]? = some i →
          (signedTx C k (signedCoins args.replaceByFee sel) t).inputs[j]? = some i' →
          (i'.witness = [] ↔ u.isSegwit = false) := by
        intro j u i i' hu hi hi'
        obtain ⟨v, v1, v2, v3, v4⟩ := hin j u i hu hi
        rw [if_pos (hall u (hsub.subset (List.mem_of_getElem? hu))), hi'] at v4
        injection v4 with v4
        rw [v4]
        unfold signedInput
        dsimp only
        rw [v2]
        cases u.isSegwit <;> simp
      constructor
      · intro ha u hu
        obtain ⟨j, hj⟩ := List.mem_iff_getElem?.mp hu
        have hlt : j < t.inputs.length := by rw [← hlen]; exact (List.getElem?_eq_some_iff.mp hj).1
        have hlt' : j < (signedTx C k (signedCoins args.replaceByFee sel) t).inputs.length := by
          rw [skeleton_length hsk]; exact hlt
        have := ha _ (List.getElem_mem hlt')
        have := (hwit j u _ _ hj (List.getElem?_eq_getElem hlt) (List.getElem?_eq_getElem hlt')).mp (by simpa using this)
        simp [this]
      · intro ha i' hi'
        obtain ⟨j, hj⟩ := List.mem_iff_getElem?.mp hi'
        have hlt : j < t.inputs.length := by
          rw [← skeleton_length hsk]; exact (List.getElem?_eq_some_iff.mp hj).1
        have hlt' : j < sel.length := by rw [hlen]; exact hlt
        have := (hwit j _ _ i' (List.getElem?_eq_getElem hlt') (List.getElem?_eq_getElem hlt) hj).mpr
          (by simpa using ha _ (List.getElem_mem hlt'))
        simp [this]
    rw [this]
    cases sel.any Unspent.isSegwit <;> rfl
  · intro j u i' hu hi'
    have hlt : j < t.inputs.length := by
      rw [← hlen]; exact (List.getElem?_eq_some_iff.mp hu).1
    have hi := List.getElem?_eq_getElem hlt
    obtain ⟨v, v1, v2, v3, v4⟩ := hin j u _ hu hi
    rw [hi'] at v4
    injection v4 with v4
    split
    · rename_i hc
      rw [if_pos hc] at v4
      have hf := hfit u (hsub.subset (List.mem_of_getElem? hu)) hc
      have hfv : TypeFits C k v := by
        unfold TypeFits at hf ⊢
        rw [v2, v3]
        exact hf
      obtain ⟨script, s1, s2⟩ := signedInput_spends hk hsk (j := j) (i := t.inputs[j]) hfv
      rw [v4]
      refine ⟨?_, signedInput_shape hk t j v2 _⟩
      rw [← v3, ← v1]
      exact ⟨script, s1, s2⟩
    · rename_i hc
      rw [if_neg hc] at v4
      rw [v4]
      exact h3 _ (List.getElem_mem hlt)

/-- If creating a transaction worked, the wallet can tell which coins it can sign. -/
theorem created_can {Amount : Type} {C : Crypto} {env : Env Amount} (hshuffle : ∀ l, (env.shuffle l).Perm l)
    {args : TxArgs Amount} {ask : Ask} {w : Wallet} {us : List Unspent} (hne : us ≠ [])
    (htx : ∀ u ∈ us, TxidOk u) {r : Str} (h : (w.createTransaction C env args ask (.given us)).2 = .ok r) :
    ∃ u b, w.signer.canSignUnspent C u = .ok b := by
  obtain ⟨sel, change, fee, t, -, h2, -, -, h4⟩ := C63_unsigned C env hshuffle args ask w us hne htx r h
  cases hs : signedCoins args.replaceByFee sel with
  | nil =>
    have := signedCoins_length args.replaceByFee sel
    rw [hs] at this
    exact absurd (List.length_eq_zero_iff.mp this.symm) h2.nonempty
  | cons u us' =>
    rw [hs] at h4
    unfold signTransactionHex at h4
    split at h4
    · cases h4
    · unfold signTx signTxObj at h4
      cases hd : inputDict C w.signer (u :: us') [] with
      | error e => rw [hd] at h4; cases h4
      | ok d => exact ⟨u, inputDict_can hd u List.mem_cons_self⟩

/-- C63. If a key creates a transaction from explicit unspents, the returned text is the hexadecimal wire
format of a transaction as asked for (inputs, outputs, change, messages, fee). In it every input whose coin
pays to the key spends that coin: it satisfies the coin's script, with a signature over the signature hash of this
very transaction. Other inputs are left empty. If all coins pay to the key, the encoding is the one BIP-144
prescribes. -/
theorem C63_create {Amount : Type} (C : Crypto) (k : PrivKey) (hk : KeyLaws C k) (env : Env Amount)
    (hshuffle : ∀ l, (env.shuffle l).Perm l) (args : TxArgs Amount) (ask : Ask) (w : Wallet)
    (hw : w.signer = .single k) (us : List Unspent) (hne : us ≠ []) (htx : ∀ u ∈ us, TxidOk u) (hd : Distinct us)
    (hfit : ∀ u ∈ us, PaysKey C k u → TypeFits C k u) (r : Str)
    (h : (w.createTransaction C env args ask (.given us)).2 = .ok r) :
    ∃ (sel : List Unspent) (change : Str) (fee : Int) (t : Spec.Tx), t.WF ∧
      Built C env args (.single k) us sel change fee t ∧
      r = bytesToHex (if sel.any (fun u => u.segwit = some true) then t.encodeExtended else t.encodeLegacy) ∧
      (∃ x, deserializeHex r = .ok x ∧ Represents (sel.any fun u => u.segwit = some true) x t) ∧
      ((∀ u ∈ us, PaysKey C k u) → r = bytesToHex t.encode) ∧
      ∀ (j : Nat) (u : Unspent) (i : Spec.TxInput), sel[j]? = some u → t.inputs[j]? = some i →
        (PaysKey C k u → ∃ script, u.script = bytesToHex script ∧
          Spec.Spends C.hashing t j i script u.amount.toNat) ∧
        (¬ PaysKey C k u → i.script = [] ∧ i.witness = []) := by
  obtain ⟨v, b, hv⟩ := created_can hshuffle hne htx h
  rw [hw] at hv
  have hcan := can_iff_pays hk hv
  obtain ⟨sel, change, fee, t, h1, h2, h3, h4, h5, h6⟩ := create_spends C k hk env hshuffle args ask w hw us hne htx hd
    (fun u hu hc => hfit u hu ((hcan u).mp hc)) r h
  refine ⟨sel, change, fee, t, h1, h2, h3, h4, fun ho => h5 fun u hu => (hcan u).mpr (ho u hu), ?_⟩
  intro j u i hu hi
  have := h6 j u i hu hi
  exact ⟨fun hp => by rw [if_pos ((hcan u).mpr hp)] at this; exact this.1,
    fun hp => by rwa [if_neg fun hc => hp ((hcan u).mp hc)] at this⟩

/-- C39. A text message with `message_is_hex` is never sent: creating the transaction fails, whatever the
text and the coins. -/
theorem C39_hex_text_refused {Amount : Type} (C : Crypto) (env : Env Amount) (hshuffle : ∀ l, (env.shuffle l).Perm l)
    (args : TxArgs Amount) (ask : Ask) (w : Wallet) (us : List Unspent) (hne : us ≠ [])
    (htx : ∀ u ∈ us, TxidOk u) (text : Str) (hm : args.message = some (.str text)) (htext : text ≠ [])
    (hflag : args.messageIsHex = true) :
    ∃ e, (w.createTransaction C env args ask (.given us)).2 = .error e := by
  cases h : (w.createTransaction C env args ask (.given us)).2 with
  | error e => exact ⟨e, rfl⟩
  | ok r =>
    obtain ⟨sel, change, fee, t, -, h2, -⟩ := C63_unsigned C env hshuffle args ask w us hne htx r h
    obtain ⟨pays, changes, pieces, scripts, changeScript, -, -, h3, -⟩ := h2.outputs
    rw [(h3.text text hm).2 htext] at hflag
    cases hflag

/-! ### Contracts -/

theorem prepareInput_dict {C : Crypto} {s : Signer} {d d' : List (Bytes × Unspent)} {i : TxIn}
    (h : (d.lookup (i.txid ++ i.txindex)).map (fun u => (u.isSegwit, u.amount)) =
      (d'.lookup (i.txid ++ i.txindex)).map fun u => (u.isSegwit, u.amount)) :
    prepareInput C s d i = prepareInput C s d' i := by
  unfold prepareInput
  cases h1 : d.lookup (i.txid ++ i.txindex) with
  | none =>
    cases h2 : d'.lookup (i.txid ++ i.txindex) with
    | none => rfl
    | some v => rw [h1, h2] at h; cases h
  | some u =>
    cases h2 : d'.lookup (i.txid ++ i.txindex) with
    | none => rw [h1, h2] at h; cases h
    | some v =>
      rw [h1, h2] at h
      simp only [Option.map_some, Option.some.injEq, Prod.mk.injEq] at h
      have e1 : u.segwit.getD false = v.segwit.getD false := h.1
      dsimp only
      rw [e1, h.2]

theorem prepareInputs_dict {C : Crypto} {s : Signer} {d d' : List (Bytes × Unspent)} : ∀ {is : List TxIn},
    (∀ i ∈ is, (d.lookup (i.txid ++ i.txindex)).map (fun u => (u.isSegwit, u.amount)) =
      (d'.lookup (i.txid ++ i.txindex)).map fun u => (u.isSegwit, u.amount)) →
    prepareInputs C s d is = prepareInputs C s d' is
  | [], _ => rfl
  | i :: is, h => by
    rw [prepareInputs, prepareInputs, prepareInput_dict (h i List.mem_cons_self),
      prepareInputs_dict fun j hj => h j (List.mem_cons_of_mem _ hj)]

/-- Signing looks at the coins of the inputs only. -/
theorem signTx_dict {C : Crypto} {s : Signer} {us us' : List Unspent} {d d' : List (Bytes × Unspent)}
    (hd : inputDict C s us [] = .ok d) (hd' : inputDict C s us' [] = .ok d') {x : TxObj}
    (h : ∀ i ∈ x.ins, (chosen C s us (i.txid ++ i.txindex)).map (fun u => (u.isSegwit, u.amount)) =
      (chosen C s us' (i.txid ++ i.txindex)).map fun u => (u.isSegwit, u.amount)) :
    signTx C s x us = signTx C s x us' := by
  unfold signTx signTxObj
  rw [hd, hd']
  dsimp only
  rw [prepareInputs_dict (d := d) (d' := d')]
  intro i hi
  rw [chosen_eq hd, chosen_eq hd']
  exact h i hi

theorem signTransactionHex_dict {C : Crypto} {s : Signer} {tx : Str} {us : List Unspent} {r : Str}
    (h : signTransactionHex C s tx us = .ok r) : ∃ d, inputDict C s us [] = .ok d := by
  unfold signTransactionHex at h
  cases h1 : deserializeHex tx with
  | error e => rw [h1] at h; cases h
  | ok x =>
    rw [h1] at h
    dsimp only at h
    unfold signTx signTxObj at h
    cases h2 : inputDict C s us [] with
    | error e => rw [h2] at h; cases h
    | ok d => exact ⟨d, rfl⟩

theorem txidOk_signedCoins {rbf : Bool} {sel us : List Unspent} (hsub : sel.Subperm us)
    (htx : ∀ u ∈ us, TxidOk u) : ∀ v ∈ signedCoins rbf sel, TxidOk v := by
  intro v hv
  obtain ⟨u, hu, e⟩ := signedCoins_mem hv
  obtain ⟨b, hb, hub⟩ := htx u (hsub.subset hu)
  refine ⟨b, hb, ?_⟩
  rcases e with rfl | rfl
  · exact hub
  · rw [(optIn_fields u).2.2.2.1]; exact hub

/-- A co-signer may use the whole list of coins. -/
theorem sign_whole_list {Amount : Type} {C : Crypto} {env : Env Amount} {args : TxArgs Amount} {s S : Signer}
    {us sel : List Unspent} {change : Str} {fee : Int} {t t' : Spec.Tx} (hb : Built C env args s us sel change fee t)
    (hwf : t'.WF) (hsk : Spec.SameSkeleton t t') (htx : ∀ u ∈ us, TxidOk u) (hd : Distinct us)
    {d : List (Bytes × Unspent)} (hdict : inputDict C S (signedCoins args.replaceByFee sel) [] = .ok d)
    {w : Bool} {r : Str} (h : signTransactionHex C S (bytesToHex (enc w t')) us = .ok r) :
    signTransactionHex C S (bytesToHex (enc w t')) (signedCoins args.replaceByFee sel) = .ok r := by
  obtain ⟨d0, hd0⟩ := signTransactionHex_dict h
  obtain ⟨x, hx, hrep⟩ := deserialize_enc hwf w
  unfold signTransactionHex at h ⊢
  rw [deserializeHex_bytesToHex, hx] at h ⊢
  dsimp only at h ⊢
  rw [← h]
  symm
  apply signTx_dict hd0 hdict
  intro i hi
  have hb' := hb.skeleton hsk
  obtain ⟨ti, hti, hir⟩ := forall₂_mem_left hrep.inputs i hi
  obtain ⟨j, hj⟩ := List.mem_iff_getElem?.mp hti
  have hlt : j < sel.length := by
    rw [hb'.inputs.length_eq]
    exact (List.getElem?_eq_some_iff.mp hj).1
  have hu := List.getElem?_eq_getElem hlt
  obtain ⟨g1, g2, -⟩ := (forall₂_iff_get.mp hb'.inputs).2 j _ _ hu hj
  have hop := outpointOf_takes g1 g2 (hwf.input ti hti)
  obtain ⟨v, v1, v2, v3, v4, v5, v6, v7, v8⟩ := signedCoins_get (rbf := args.replaceByFee) hu
  rw [hir.outpoint, chosen_distinct hd htx hd0 (hb.selected.subset (List.getElem_mem hlt)) hop,
    chosen_distinct (distinct_signedCoins hb.selected hd) (txidOk_signedCoins hb.selected htx) hdict
      (List.mem_of_getElem? v1) (v6.trans hop), v5]
  split
  · rw [Option.map_some, Option.map_some, v2, v3]
  · rfl

theorem cosign_whole_list {Amount : Type} {C : Crypto} {env : Env Amount} {args : TxArgs Amount} {s : MultiSig}
    (hs : ContractLaws C s) {us sel : List Unspent} {change : Str} {fee : Int} {t : Spec.Tx}
    (hb : Built C env args (.multi s) us sel change fee t) (hwf : t.WF)
    (hfr : Fresh C s (signedCoins args.replaceByFee sel) t) (htx : ∀ u ∈ us, TxidOk u) (hd : Distinct us)
    {d : List (Bytes × Unspent)} (hdict : inputDict C (.multi s) (signedCoins args.replaceByFee sel) [] = .ok d)
    {w : Bool} (hw : w = true ∨ ∀ u ∈ signedCoins args.replaceByFee sel, u.isSegwit = false) {r : Str} :
    ∀ (ks done : List PrivKey), (∀ a ∈ ks, SignerLaws C s a) → (∀ a ∈ done, SignerLaws C s a) →
      AllApart C s (ks ++ done) (signedCoins args.replaceByFee sel) t →
      ((ks ++ done).map fun k => k.publicKey C).Nodup → ((ks.length + done.length : Nat) : Int) ≤ s.m →
      cosign C s us ks (bytesToHex (enc w (multiTx C s done (signedCoins args.replaceByFee sel) t))) = .ok r →
      cosign C s (signedCoins args.replaceByFee sel) ks
        (bytesToHex (enc w (multiTx C s done (signedCoins args.replaceByFee sel) t))) = .ok r
  | [], _, _, _, _, _, _, h => h
  | k :: ks, done, h1, h2, hap, h3, h4, h => by
    rw [List.length_cons] at h4
    have hk := h1 k List.mem_cons_self
    have hperm : (ks ++ (k :: done)).Perm (k :: ks ++ done) := by
      simp
    have h3' : ((ks ++ (k :: done)).map fun k => k.publicKey C).Nodup := (hperm.map _).nodup_iff.mpr h3
    have hn : ((k :: done).map fun k => k.publicKey C).Nodup := by
      rw [List.map_append] at h3'
      exact (List.nodup_append.mp h3').2.1
    have hlt : (done.length : Int) < s.m := by push_cast at h4; omega
    rw [cosign] at h
    cases hsg : signTransactionHex C (.multi { s with key := k })
        (bytesToHex (enc w (multiTx C s done (signedCoins args.replaceByFee sel) t))) us with
    | error e => rw [hsg] at h; cases h
    | ok r1 =>
      rw [hsg] at h
      dsimp only at h
      have hdk : inputDict C (.multi { s with key := k }) (signedCoins args.replaceByFee sel) [] = .ok d := by
        rw [inputDict_key]; exact hdict
      have hsg' := sign_whole_list hb (multiTx_wf hs h2 hwf) (multiTx_skeleton C s done _ t) htx hd hdk hsg
      obtain ⟨-, e⟩ := (multi_sign_hex hs h2 hk hn hlt hw hwf hfr
        fun _ => hap.mono (by intro a ha; simp; tauto)).mp hsg'
      rw [cosign, hsg']
      dsimp only
      rw [e] at h ⊢
      refine cosign_whole_list hs hb hwf hfr htx hd hdict hw ks (k :: done)
        (fun a ha => h1 a (List.mem_cons_of_mem _ ha)) ?_
        (hap.mono (by intro a ha; simp at ha ⊢; tauto)) h3' ?_ h
      · intro a ha
        rcases List.mem_cons.mp ha with rfl | ha
        · exact hk
        · exact h2 a ha
      · rw [List.length_cons]; push_cast at h4 ⊢; omega

theorem create_contract_spends {Amount : Type} (C : Crypto) (s : MultiSig) (hs : ContractLaws C s)
    (env : Env Amount) (hshuffle : ∀ l, (env.shuffle l).Perm l) (args : TxArgs Amount) (ask : Ask) (w : Wallet)
    (hw : w.signer = .multi s) (us : List Unspent) (hne : us ≠ []) (htx : ∀ u ∈ us, TxidOk u) (hd : Distinct us)
    (hfit : ∀ u ∈ us, (Signer.multi s).canSignUnspent C u = .ok true → ContractFits C s u)
    (others : List PrivKey) (hks : ∀ k ∈ s.key :: others, SignerLaws C s k)
    (hap : ∀ sel change fee t, Built C env args (.multi s) us sel change fee t → NoMixup C s (s.key :: others) us t)
    (hdiff : ((s.key :: others).map fun k => k.publicKey C).Nodup) (hm : ((s.key :: others).length : Int) = s.m)
    (r r' : Str) (h : (w.createTransaction C env args ask (.given us)).2 = .ok r)
    (h' : cosign C s us others r = .ok r') :
    ∃ (sel : List Unspent) (change : Str) (fee : Int) (t : Spec.Tx), t.WF ∧
      Built C env args (.multi s) us sel change fee t ∧
      r' = bytesToHex (if sel.any (fun u => u.segwit = some true) then t.encodeExtended else t.encodeLegacy) ∧
      (∃ x, deserializeHex r' = .ok x ∧ Represents (sel.any fun u => u.segwit = some true) x t) ∧
      ∀ (j : Nat) (u : Unspent) (i : Spec.TxInput), sel[j]? = some u → t.inputs[j]? = some i →
        if (Signer.multi s).canSignUnspent C u = .ok true then
          (∃ script, u.script = bytesToHex script ∧ Spec.Spends C.hashing t j i script u.amount.toNat) ∧
          ∃ t₀ j₀ v i₀, i = multiInput C s (s.key :: others).reverse t₀ j₀ v i₀ ∧ v.isSegwit = u.isSegwit
        else i.script = [] ∧ i.witness = [] := by
  obtain ⟨sel, change, fee, t, h1, h2, h3, -, h4⟩ := C63_unsigned C env hshuffle args ask w us hne htx r h
  rw [hw] at h2 h4
  have eseg : ∀ u : Unspent, decide (u.segwit = some true) = u.isSegwit := by
    intro u
    unfold Unspent.isSegwit
    cases u.segwit with
    | none => rfl
    | some b => cases b <;> rfl
  simp only [eseg] at h4 ⊢
  have hsub := h2.selected
  have hd' := distinct_signedCoins (rbf := args.replaceByFee) hsub hd
  have htx' := txidOk_signedCoins (rbf := args.replaceByFee) hsub htx
  have hw' : sel.any Unspent.isSegwit = true ∨ ∀ u ∈ signedCoins args.replaceByFee sel, u.isSegwit = false := by
    cases hb : sel.any Unspent.isSegwit with
    | true => exact Or.inl rfl
    | false =>
      right
      rw [← signedCoins_any args.replaceByFee] at hb
      intro u hu
      have := List.any_eq_false.mp hb u hu
      simpa using this
  have hun : Unsigned C s (signedCoins args.replaceByFee sel) t := fun i hi _ _ _ => h3 i hi
  obtain ⟨d, hdict⟩ := signTransactionHex_dict h4
  have hap' : NoMixup C s (s.key :: others) (signedCoins args.replaceByFee sel) t := by
    intro j i v hi hv hown
    obtain ⟨j', hj'⟩ := List.mem_iff_getElem?.mp hv
    have hlt : j' < sel.length := by
      rw [← signedCoins_length args.replaceByFee]; exact (List.getElem?_eq_some_iff.mp hj').1
    obtain ⟨v', v1, v2, v3, v4, v5, v6, v7, v8⟩ :=
      signedCoins_get (rbf := args.replaceByFee) (List.getElem?_eq_getElem hlt)
    rw [hj'] at v1
    injection v1 with v1
    subst v1
    have := hap sel change fee t h2 j i _ hi (hsub.subset (List.getElem_mem hlt)) ?_
    · rw [v2, v3]; exact this
    · unfold OwnsContract PaysContract Names at hown ⊢
      rw [← v4, ← v7, ← v8]
      exact hown
  have hapart := hap'.apart hs h1
  have hkey := hks s.key List.mem_cons_self
  have hpos : 0 < s.m := hs.pos
  have hnil : multiTx C s [] (signedCoins args.replaceByFee sel) t = t := multiTx_nil C s _ t
  have hstep : signTransactionHex C (.multi { s with key := s.key })
      (bytesToHex (enc (sel.any Unspent.isSegwit) (multiTx C s [] (signedCoins args.replaceByFee sel) t)))
      (signedCoins args.replaceByFee sel) = .ok r := by
    rw [hnil]; exact h4
  obtain ⟨-, hr⟩ := (multi_sign_hex hs (by simp) hkey (by simp) (by simpa using hpos) hw' h1 (hun.fresh hs h1)
    fun h => absurd rfl h).mp hstep
  rw [hr] at h'
  have hco := cosign_whole_list hs h2 h1 (hun.fresh hs h1) htx hd hdict hw' others [s.key]
    (fun a ha => hks a (List.mem_cons_of_mem _ ha)) (by simpa using hkey)
    (hapart.mono (by intro a ha; simp at ha ⊢; tauto))
    (by
      have hp : (others ++ [s.key]).Perm (s.key :: others) := List.perm_append_singleton _ _
      exact (hp.map _).nodup_iff.mpr hdiff)
    (by rw [List.length_cons] at hm; rw [List.length_singleton]; exact hm.le) h'
  have hfull : cosign C s (signedCoins args.replaceByFee sel) (s.key :: others)
      (bytesToHex (if sel.any Unspent.isSegwit then t.encodeExtended else t.encodeLegacy)) = .ok r' := by
    rw [cosign]
    have h4' : signTransactionHex C (.multi { s with key := s.key })
      (bytesToHex (if sel.any Unspent.isSegwit then t.encodeExtended else t.encodeLegacy))
      (signedCoins args.replaceByFee sel) = .ok r := h4
    rw [h4']
    dsimp only
    rw [hr]
    exact hco
  have hfit' : ∀ v ∈ signedCoins args.replaceByFee sel, (Signer.multi s).canSignUnspent C v = .ok true →
      ContractFits C s v := by
    intro v hv hc
    obtain ⟨j, hj⟩ := List.mem_iff_getElem?.mp hv
    have hlt : j < sel.length := by
      rw [← signedCoins_length args.replaceByFee]; exact (List.getElem?_eq_some_iff.mp hj).1
    obtain ⟨v', v1, v2, v3, v4, v5, -⟩ := signedCoins_get (rbf := args.replaceByFee) (List.getElem?_eq_getElem hlt)
    rw [hj] at v1
    injection v1 with v1
    subst v1
    rw [v5] at hc
    have := hfit _ (hsub.subset (List.getElem_mem hlt)) hc
    unfold ContractFits at this ⊢
    rw [v3, v4]
    exact this
  have hcan : ∀ v, (Signer.multi s).canSignUnspent C v = .ok true ↔ PaysContract C s v := by
    cases hsc : signedCoins args.replaceByFee sel with
    | nil =>
      have := signedCoins_length args.replaceByFee sel
      rw [hsc] at this
      exact absurd (List.length_eq_zero_iff.mp this.symm) h2.nonempty
    | cons u us' =>
      obtain ⟨b, hb⟩ := inputDict_can hdict u (by rw [hsc]; exact List.mem_cons_self)
      exact can_iff_pays_contract hs.toContractShape hb
  obtain ⟨t', w1, w2, w3, w4⟩ := complete_spends C s hs _ _ t h1 hw' hun (fun v hv hp => hfit' v hv ((hcan v).mpr hp)) (s.key :: others) hks hap' hdiff hm r' hfull
  refine ⟨sel, change, fee, t', w1, h2.skeleton w2, w3, ?_, ?_⟩
  · obtain ⟨x, hx, hrep⟩ := deserialize_enc w1 (sel.any Unspent.isSegwit)
    exact ⟨x, by rw [w3, deserializeHex_bytesToHex]; exact hx, hrep⟩
  · intro j u i' hu hi'
    have hlt : j < t.inputs.length := by
      rw [← h2.inputs.length_eq]; exact (List.getElem?_eq_some_iff.mp hu).1
    have hi := List.getElem?_eq_getElem hlt
    obtain ⟨g1, g2, -⟩ := (forall₂_iff_get.mp h2.inputs).2 j _ _ hu hi
    have hop := outpointOf_takes g1 g2 (h1.input _ (List.getElem_mem hlt))
    obtain ⟨v, v1, v2, v3, v4, v5, v6, v7, v8⟩ := signedCoins_get (rbf := args.replaceByFee) hu
    have hvmem := List.mem_of_getElem? v1
    rcases w4 j _ i' hi hi' with ⟨z1, z2⟩ | ⟨u', z1, z2, script, z3, z4, z5⟩
    · rw [if_neg]
      · rw [z2]; exact h3 _ (List.getElem_mem hlt)
      · intro hc
        exact z1 v hvmem ⟨(hcan v).mp ((v5 C _).trans hc), (outpoint_names (h1.input _ (List.getElem_mem hlt))).mp (v6.trans hop)⟩
    · have : u' = v := List.inj_on_of_nodup_map hd' z1 hvmem
        (outpointOf_key (htx' _ z1) (htx' _ hvmem) ((outpoint_names (h1.input _ (List.getElem_mem hlt))).mpr z2.2)
          (v6.trans hop))
      subst this
      rw [if_pos ((v5 C _).symm.trans ((hcan _).mpr z2.1))]
      rw [← v2, ← v4]
      exact ⟨⟨script, z3, z4⟩, _, _, _, _, z5, v3⟩

/-- C63 for contracts. If the holder of one key creates a transaction from explicit unspents, and the other
co-signers needed sign the returned text one after the other with the same list of unspents, the final text
is the hexadecimal wire format of a transaction as asked for, in which every input whose coin pays to the
contract spends that coin. -/
theorem C63_create_contract {Amount : Type} (C : Crypto) (s : MultiSig) (hs : ContractLaws C s)
    (env : Env Amount) (hshuffle : ∀ l, (env.shuffle l).Perm l) (args : TxArgs Amount) (ask : Ask) (w : Wallet)
    (hw : w.signer = .multi s) (us : List Unspent) (hne : us ≠ []) (htx : ∀ u ∈ us, TxidOk u) (hd : Distinct us)
    (hfit : ∀ u ∈ us, PaysContract C s u → ContractFits C s u)
    (others : List PrivKey) (hks : ∀ k ∈ s.key :: others, SignerLaws C s k)
    (hap : ∀ sel change fee t, Built C env args (.multi s) us sel change fee t → NoMixup C s (s.key :: others) us t)
    (hdiff : ((s.key :: others).map fun k => k.publicKey C).Nodup) (hm : ((s.key :: others).length : Int) = s.m)
    (r r' : Str) (h : (w.createTransaction C env args ask (.given us)).2 = .ok r)
    (h' : cosign C s us others r = .ok r') :
    ∃ (sel : List Unspent) (change : Str) (fee : Int) (t : Spec.Tx), t.WF ∧
      Built C env args (.multi s) us sel change fee t ∧
      r' = bytesToHex (if sel.any (fun u => u.segwit = some true) then t.encodeExtended else t.encodeLegacy) ∧
      (∃ x, deserializeHex r' = .ok x ∧ Represents (sel.any fun u => u.segwit = some true) x t) ∧
      ∀ (j : Nat) (u : Unspent) (i : Spec.TxInput), sel[j]? = some u → t.inputs[j]? = some i →
        (PaysContract C s u → ∃ script, u.script = bytesToHex script ∧
          Spec.Spends C.hashing t j i script u.amount.toNat) ∧
        (¬ PaysContract C s u → i.script = [] ∧ i.witness = []) := by
  obtain ⟨v, b, hv⟩ := created_can hshuffle hne htx h
  rw [hw] at hv
  have hcan := can_iff_pays_contract hs.toContractShape hv
  obtain ⟨sel, change, fee, t, h1, h2, h3, h4, h5⟩ := create_contract_spends C s hs env hshuffle args ask w hw us hne htx hd
    (fun u hu hc => hfit u hu ((hcan u).mp hc)) others hks hap hdiff hm r r' h h'
  refine ⟨sel, change, fee, t, h1, h2, h3, h4, ?_⟩
  intro j u i hu hi
  have := h5 j u i hu hi
  exact ⟨fun hp => by rw [if_pos ((hcan u).mpr hp)] at this; exact this.1,
    fun hp => by rwa [if_neg fun hc => hp ((hcan u).mp hc)] at this⟩

/-! Samples: key B pays 20000 satoshi from its two coins, with a message and `replace_by_fee`; the 2-of-3
contract pays from its segwit coin and its legacy coin, signed by the first and the third key. -/

def argsM : TxArgs Int := { argsB true with message := some (.str (str "hello")), replaceByFee := true }

theorem createdB : ∃ r, ((newWallet (.single keyB)).createTransaction crypto envB argsM noNetwork
    (.given [plain 70000, unspentB])).2 = .ok r :=
  isSome_ok (by decide +kernel)

example : ∀ u ∈ [plain 70000, unspentB], TxidOk u := by
  intro u hu
  rcases List.mem_cons.mp hu with rfl | hu
  · exact ⟨List.replicate 32 7, rfl, rfl⟩
  · rw [List.mem_singleton] at hu
    subst hu
    exact ⟨List.replicate 32 9, rfl, rfl⟩

example : Distinct [plain 70000, unspentB] := by
  unfold Distinct
  decide +kernel

example : ∀ u ∈ [plain 70000, unspentB], PaysKey crypto keyB u ∧ TypeFits crypto keyB u := by
  intro u hu
  rcases List.mem_cons.mp hu with rfl | hu
  · exact ⟨Or.inl rfl, Or.inl ⟨by decide, rfl⟩⟩
  · rw [List.mem_singleton] at hu
    subst hu
    exact ⟨Or.inr ⟨rfl, rfl⟩, Or.inr ⟨by decide, by decide, rfl⟩⟩

def contractWallet : Wallet := newWallet (.multi contract)

/-- Key A creates, key C signs. -/
def createdByContract : Py Str :=
  match (contractWallet.createTransaction crypto envB (argsB true) noNetwork (.given [unspentM, unspentL])).2 with
  | .error e => .error e
  | .ok r => cosign crypto contract [unspentM, unspentL] [keyC] r

example : createdByContract.toOption.isSome = true ∧ Distinct [unspentM, unspentL] ∧
    ((keyA :: [keyC]).length : Int) = contract.m := by
  unfold Distinct
  decide +kernel

example (t : Spec.Tx) : NoMixup crypto contract [keyA, keyC] [unspentM, unspentL] t := contract_noMixup (by simp) _ _

end Bit
