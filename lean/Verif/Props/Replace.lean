import Verif.Spec.Replace
import Verif.Props.FeeContract
import Verif.Lemmas.Ledger
/-
C95: raising the fee of a transaction.
-/
namespace Bit
open Bit.Concrete

/-! ## The outputs are determined by what is asked for -/

theorem forall₂_same {α β : Type} {R S : α → β → Prop} : ∀ {as : List α} {bs cs : List β},
    (∀ a ∈ as, ∀ b c, R a b → S a c → b = c) → List.Forall₂ R as bs → List.Forall₂ S as cs → bs = cs
  | [], _, _, _, .nil, .nil => rfl
  | a :: as, _, _, h, .cons h1 t1, .cons h2 t2 => by
    rw [h a List.mem_cons_self _ _ h1 h2,
      forall₂_same (fun a ha => h a (List.mem_cons_of_mem _ ha)) t1 t2]

theorem pays_unique {C : Crypto} {d : Dest} {n : Int} {o o' : Spec.TxOutput} (h : Pays C d n o)
    (h' : Pays C d n o') : o = o' := by
  have hv : o.value = o'.value := by
    have := h.value.trans h'.value.symm
    exact_mod_cast this
  have hs : o.script = o'.script := by
    by_cases hn : n = 0
    · obtain ⟨b, e, s⟩ := h.message hn
      obtain ⟨b', e', s'⟩ := h'.message hn
      rw [e] at e'
      injection e' with e'
      rw [s, s', e']
    · obtain ⟨a, e, s⟩ := h.payment hn
      obtain ⟨a', e', s'⟩ := h'.payment hn
      rw [e] at e'
      injection e' with e'
      subst e'
      rw [s] at s'
      injection s' with s'
      injection s'
  cases o; cases o'
  simp_all

theorem pieces_unique_aux : ∀ (a b : List Bytes), a.flatten = b.flatten →
    (∀ c ∈ a, c ≠ [] ∧ c.length ≤ 80) → (∀ c ∈ a.dropLast, c.length = 80) →
    (∀ c ∈ b, c ≠ [] ∧ c.length ≤ 80) → (∀ c ∈ b.dropLast, c.length = 80) → a = b
  | [], [], _, _, _, _, _ => rfl
  | [], y :: ys, h, _, _, hb, _ => by
    exfalso
    have := (hb y List.mem_cons_self).1
    simp only [List.flatten_nil, List.flatten_cons] at h
    exact this (List.append_eq_nil_iff.mp h.symm).1
  | x :: xs, [], h, ha, _, _, _ => by
    exfalso
    have := (ha x List.mem_cons_self).1
    simp only [List.flatten_nil, List.flatten_cons] at h
    exact this (List.append_eq_nil_iff.mp h).1
  | x :: xs, y :: ys, h, ha, fa, hb, fb => by
    have hl := congrArg List.length h
    simp only [List.flatten_cons, List.length_append] at hl
    have hx := ha x List.mem_cons_self
    have hy := hb y List.mem_cons_self
    have hxs : xs ≠ [] → x.length = 80 := by
      intro hne
      obtain ⟨z, zs, rfl⟩ := List.exists_cons_of_ne_nil hne
      exact fa x (by simp [List.dropLast])
    have hys : ys ≠ [] → y.length = 80 := by
      intro hne
      obtain ⟨z, zs, rfl⟩ := List.exists_cons_of_ne_nil hne
      exact fb y (by simp [List.dropLast])
    have hlen : x.length = y.length := by
      by_cases h1 : xs = []
      · by_cases h2 : ys = []
        · subst h1; subst h2
          simpa using hl
        · have := hys h2
          subst h1
          have : 0 < ys.flatten.length := by
            obtain ⟨z, zs, rfl⟩ := List.exists_cons_of_ne_nil h2
            have := List.length_pos_iff.mpr (hb z (by simp)).1
            simp only [List.flatten_cons, List.length_append]
            omega
          simp only [List.flatten_nil, List.length_nil] at hl
          omega
      · by_cases h2 : ys = []
        · have := hxs h1
          subst h2
          have : 0 < xs.flatten.length := by
            obtain ⟨z, zs, rfl⟩ := List.exists_cons_of_ne_nil h1
            have := List.length_pos_iff.mpr (ha z (by simp)).1
            simp only [List.flatten_cons, List.length_append]
            omega
          simp only [List.flatten_nil, List.length_nil] at hl
          omega
        · rw [hxs h1, hys h2]
    simp only [List.flatten_cons] at h
    obtain ⟨e1, e2⟩ := List.append_inj h hlen
    have hd : ∀ (z : Bytes) (zs : List Bytes), (∀ c ∈ (z :: zs).dropLast, c.length = 80) →
        ∀ c ∈ zs.dropLast, c.length = 80 := by
      intro z zs h c hc
      cases zs with
      | nil => simp at hc
      | cons w ws => exact h c (by rw [List.dropLast_cons_of_ne_nil (by simp)]; exact List.mem_cons_of_mem _ hc)
    rw [e1, pieces_unique_aux xs ys e2 (fun c hc => ha c (List.mem_cons_of_mem _ hc)) (hd _ _ fa)
      (fun c hc => hb c (List.mem_cons_of_mem _ hc)) (hd _ _ fb)]

theorem utf8_unique {a b : Bytes} {m : Array Char} (ha : a.toByteArray.utf8Decode? = some m)
    (hb : b.toByteArray.utf8Decode? = some m) : a = b := by
  have e : ∀ x : Bytes, x.toByteArray.utf8Decode? = some m → x.toByteArray = m.toList.utf8Encode := by
    intro x hx
    have h : x.toByteArray.utf8Decode?.isSome := by rw [hx]; rfl
    have := ByteArray.utf8Encode_get_utf8Decode? (b := x.toByteArray) (h := h)
    rw [← this]
    congr 2
    simp [hx]
  have h : a.toByteArray = b.toByteArray := (e a ha).trans (e b hb).symm
  have := congrArg (fun x => x.data.toList) h
  simpa using this

theorem messagePieces_unique {m : Option Dest} {x : Bool} {a b : List Bytes} (ha : MessagePieces m x a)
    (hb : MessagePieces m x b) : a = b := by
  match m, ha, hb with
  | none, ha, hb => rw [ha.none rfl, hb.none rfl]
  | some (.str s), ha, hb =>
    exact pieces_unique_aux a b (utf8_unique (ha.text s rfl).1 (hb.text s rfl).1) ha.small ha.full hb.small hb.full
  | some (.bytes s), ha, hb =>
    exact pieces_unique_aux a b ((ha.bytes s rfl).1.trans (hb.bytes s rfl).1.symm) ha.small ha.full hb.small hb.full

theorem Built.change_unique {Amount : Type} {C : Crypto} {env env' : Env Amount} {args args' : TxArgs Amount}
    {s : Signer} {us sel sel' : List Unspent} {c c' : Str} {fee fee' : Int} {t t' : Spec.Tx}
    (h : Built C env args s us sel c fee t) (h' : Built C env' args' s us sel' c' fee' t')
    (e : args'.leftover = args.leftover) : c = c' := by
  have key : (if us.any (fun u => u.segwit = some true) then s.segwitAddress C = .ok (some c)
        else s.address C = .ok c) → (if us.any (fun u => u.segwit = some true) then s.segwitAddress C = .ok (some c')
        else s.address C = .ok c') → c = c' := by
    intro h h'
    split at h
    · rename_i ha
      rw [if_pos ha] at h'
      rw [h] at h'
      injection h' with h'
      injection h'
    · rename_i ha
      rw [if_neg ha] at h'
      rw [h] at h'
      injection h'
  have hl := h.leftover
  have hl' := h'.leftover
  rw [e] at hl'
  cases hm : args.leftover with
  | none => rw [hm] at hl hl'; exact key hl hl'
  | some l =>
    rw [hm] at hl hl'
    cases l with
    | nil => exact key hl hl'
    | cons a l => exact hl.trans hl'.symm

theorem feeFor_linear (sizes : List Nat) (coins : List Unspent) :
    ∃ size : Nat, ∀ rate, feeFor rate sizes coins = rate * size := by
  refine ⟨(((coins.map Unspent.vsize4).sum + 4 * Spec.byteWidth coins.length + 4 * sizes.sum
      + 4 * Spec.byteWidth sizes.length + 4 * 8 + (if coins.any fun u => u.segwit = some true then 2 else 0)) + 3) / 4, ?_⟩
  intro rate
  unfold feeFor estimateTxFee
  rw [unkLen_byteWidth, unkLen_byteWidth]
  split
  · rename_i h; simp [h]
  · exact Int.mul_comm _ _

/-- What one call makes beside another one with a different fee. -/
structure Bumped {Amount : Type} (env env' : Env Amount) (args args' : TxArgs Amount) (us : List Unspent) (t t' : Spec.Tx)
    (fee fee' : Int) : Prop where
  balanced : (us.map Unspent.amount).sum = (t.outputs.map fun o => (o.value : Int)).sum + fee
  balanced' : (us.map Unspent.amount).sum = (t'.outputs.map fun o => (o.value : Int)).sum + fee'
  same : Spec.SameButChange t t' fee fee'
  signals : ∀ i ∈ t.inputs, i.sequence < 0xfffffffe
  absolute : args.absoluteFee = true → fee = askedFee env args ∧ fee' = askedFee env' args'
  relative : args.absoluteFee = false → ∃ size : Nat, fee = askedFee env args * size ∧
    fee' = askedFee env' args' * size

theorem built_bumped {Amount : Type} {C : Crypto} {env env' : Env Amount} {args args' : TxArgs Amount} {s : Signer}
    {us sel sel' : List Unspent} {change change' : Str} {fee fee' : Int} {t t' : Spec.Tx}
    (hsame : args' = { args with fee := args'.fee }) (hconv : ∀ o ∈ args.outputs, env.conv o.2 = env'.conv o.2)
    (hall : args.combine = true) (hrbf : args.replaceByFee = true)
    (h : Built C env args s us sel change fee t) (h' : Built C env' args' s us sel' change' fee' t') :
    Bumped env env' args args' us t t' fee fee' := by
  have s1 : args'.combine = args.combine := by rw [hsame]
  have s2 : args'.outputs = args.outputs := by rw [hsame]
  have s3 : args'.message = args.message := by rw [hsame]
  have s4 : args'.messageIsHex = args.messageIsHex := by rw [hsame]
  have s5 : args'.leftover = args.leftover := by rw [hsame]
  have s6 : args'.absoluteFee = args.absoluteFee := by rw [hsame]
  obtain rfl := (h.combined hall).symm
  obtain rfl := (h'.combined (s1.trans hall)).symm
  obtain rfl := h.change_unique h' s5
  obtain ⟨pays, changes, pieces, scripts, script, o1, o2, o3, o4, o5, o6, o7⟩ := h.outputs
  obtain ⟨pays', changes', pieces', scripts', script', p1, p2, p3, p4, p5, p6, p7⟩ := h'.outputs
  rw [s2] at p1
  rw [s3, s4] at p3
  obtain rfl := messagePieces_unique o3 p3
  obtain rfl : pays = pays' := by
    refine forall₂_same ?_ o1 p1
    rintro o ho ⟨b1, b2⟩ ⟨c1, c2⟩ ⟨e1, e2⟩ ⟨e3, e4⟩
    rw [hconv o ho, e4] at e2
    injection e2 with e2
    simp only at e1 e3 e2
    rw [e1, e3, e2]
  obtain rfl : scripts = scripts' := by
    refine forall₂_same ?_ o5 p5
    intro p _ b c e1 e2
    rw [e1] at e2
    injection e2 with e2
    injection e2
  obtain rfl : script = script' := by
    rw [o6] at p6
    injection p6 with p6
    injection p6
  have hcut : ∀ {changes : List (Str × Int)} {t : Spec.Tx}, (changes = [] ∨ ∃ c, 0 < c ∧ changes = [(change, c)]) →
      List.Forall₂ (fun q o => Pays C q.1 q.2 o)
        ((pays ++ changes).map (fun p => (Dest.str p.1, p.2)) ++ pieces.map (fun c => (Dest.bytes c, 0))) t.outputs →
      ∃ (before after : List Spec.TxOutput) (c : Nat), t.outputs = before ++ Spec.changeOutput c script ++ after ∧
        List.Forall₂ (fun q o => Pays C q.1 q.2 o) (pays.map (fun p => (Dest.str p.1, p.2))) before ∧
        List.Forall₂ (fun q o => Pays C q.1 q.2 o) (pieces.map (fun c => (Dest.bytes c, 0))) after := by
    intro changes t hc ht
    obtain ⟨x, after, e1, x1, x2⟩ := forall₂_split ht
    rw [List.map_append] at x1
    obtain ⟨before, ch, e2, x3, x4⟩ := forall₂_split x1
    rcases hc with rfl | ⟨c, hpos, rfl⟩
    · cases x4
      exact ⟨before, after, 0, by rw [e1, e2]; rfl, x3, x2⟩
    · cases x4 with
      | cons hp hnil =>
        rename_i o os
        cases hnil
        refine ⟨before, after, o.value, ?_, x3, x2⟩
        rw [e1, e2]
        have hv := hp.value
        simp only at hv
        obtain ⟨a, ea, es⟩ := hp.payment (by simp only; omega)
        simp only at ea
        injection ea with ea
        subst ea
        rw [o6] at es
        injection es with es
        injection es with es
        unfold Spec.changeOutput
        rw [if_neg (by omega), es]
  obtain ⟨before, after, c, q1, q2, q3⟩ := hcut o2 o4
  obtain ⟨before', after', c', r1, r2, r3⟩ := hcut p2 p4
  obtain rfl : before = before' := forall₂_same (R := fun (q : Dest × Int) o => Pays C q.1 q.2 o)
    (S := fun (q : Dest × Int) o => Pays C q.1 q.2 o) (fun _ _ _ _ a b => pays_unique a b) q2 r2
  obtain rfl : after = after' := forall₂_same (R := fun (q : Dest × Int) o => Pays C q.1 q.2 o)
    (S := fun (q : Dest × Int) o => Pays C q.1 q.2 o) (fun _ _ _ _ a b => pays_unique a b) q3 r3
  have hsum : ∀ c : Nat, ((before ++ Spec.changeOutput c script ++ after).map fun o => (o.value : Int)).sum =
      (before.map fun o => (o.value : Int)).sum + c + (after.map fun o => (o.value : Int)).sum := by
    intro c
    unfold Spec.changeOutput
    split
    · rename_i h0; subst h0; simp
    · simp [add_assoc]
  have hb := h.balanced
  have hb' := h'.balanced
  refine ⟨hb, hb', ⟨?_, before, after, script, c, c', q1, r1, ?_⟩, ?_, ?_, ?_⟩
  · have e : ∀ {i : List Spec.TxInput} {f : Unspent → Int → Prop},
        List.Forall₂ (fun (u : Unspent) (i : Spec.TxInput) => u.txid = bytesToHex i.prevTxid.reverse ∧
          (i.prevIndex : Int) = u.txindex ∧ f u i.sequence) us i →
        List.Forall₂ (fun (u : Unspent) (p : Bytes × Nat) => u.txid = bytesToHex p.1.reverse ∧
          (p.2 : Int) = u.txindex) us (i.map Spec.TxInput.prevout) := by
      intro i f hi
      rw [List.forall₂_map_right_iff]
      exact hi.imp fun u i h => ⟨h.1, h.2.1⟩
    refine forall₂_same ?_ (e (f := fun u n => n = if args.replaceByFee then min u.sequence 0xfffffffd
      else u.sequence) h.inputs) (e (f := fun u n => n = if args'.replaceByFee then min u.sequence 0xfffffffd
      else u.sequence) h'.inputs)
    rintro u _ ⟨b1, b2⟩ ⟨c1, c2⟩ ⟨e1, e2⟩ ⟨e3, e4⟩
    simp only at e1 e2 e3 e4
    have e5 := bytesToHex_injective (e1.symm.trans e3)
    rw [List.reverse_inj.mp e5]
    have : b2 = c2 := by
      have := e2.trans e4.symm
      exact_mod_cast this
    rw [this]
  · rw [q1, hsum] at hb
    rw [r1, hsum] at hb'
    linarith
  · intro i hi
    obtain ⟨j, hj⟩ := List.mem_iff_getElem?.mp hi
    have hlt : j < us.length := by
      rw [h.inputs.length_eq]; exact (List.getElem?_eq_some_iff.mp hj).1
    have hq := ((forall₂_iff_get.mp h.inputs).2 j _ i (List.getElem?_eq_getElem hlt) hj).2.2
    rw [if_pos hrbf] at hq
    omega
  · intro ha
    exact ⟨h.absolute ha, h'.absolute (s6.trans ha)⟩
  · intro hr
    have e1 : fee = feeFor (askedFee env args) (sizesOf scripts pieces.length script) us := by
      rcases o7 hr with e | ⟨e, -⟩
      · exact e
      · rw [hall] at e; cases e
    have e2 : fee' = feeFor (askedFee env' args') (sizesOf scripts pieces.length script) us := by
      rcases p7 (s6.trans hr) with e | ⟨e, -⟩
      · exact e
      · rw [s1, hall] at e; cases e
    obtain ⟨size, f1⟩ := feeFor_linear (sizesOf scripts pieces.length script) us
    exact ⟨size, e1.trans (f1 _), e2.trans (f1 _)⟩

/-- The size for which the fee is paid is at least the virtual size of the transaction. -/
theorem bump_rate {t' : Spec.Tx} {f f' fee fee' : Int} {size extra : Nat} (hf : 0 ≤ f) (hmore : f < f')
    (e : fee = f * size) (e' : fee' = f' * size) (h : 4 * (f' * t'.vsize) ≤ 4 * fee' + f' * extra) :
    4 * ((f' - f) * t'.vsize) ≤ 4 * (fee' - fee) + (f' - f) * extra := by
  subst e e'
  have hpos : 0 < f' := by omega
  have : (4 * t'.vsize : Int) ≤ 4 * size + extra := by
    refine le_of_mul_le_mul_left ?_ hpos
    linarith
  have := Int.mul_le_mul_of_nonneg_left this (show 0 ≤ f' - f by omega)
  linarith

theorem replaces_of {t t' : Spec.Tx} {fee fee' : Int} (hwf : t.WF) (hs : Spec.SameButChange t t' fee fee')
    (hq : ∀ i ∈ t.inputs, i.sequence < 0xfffffffe) (h : (t'.vsize : Int) ≤ fee' - fee) : Spec.Replaces t t' fee fee' := by
  obtain ⟨i, is, e⟩ := List.exists_cons_of_ne_nil hwf.nonempty
  have hi : i ∈ t.inputs := by rw [e]; exact List.mem_cons_self
  refine ⟨⟨i, hi, hq i hi⟩, ⟨_, List.mem_map_of_mem hi, ?_⟩, ?_, by omega, h⟩
  · rw [← hs.1]; exact List.mem_map_of_mem hi
  · rw [hs.1]; exact fun p hp => hp

/-! ## C95 -/

/-- C95. A key creates a transaction from coins of its own with `replace_by_fee`, and then calls `create_transaction` again with the
same coins and the same arguments but for the fee (all coins are used: `combine`, the default). The second transaction
spends the same coins and makes the same payments and messages; only the change is smaller by what the fee is larger (there
is no change output if nothing is left). All inputs of the first signal that it may be replaced.
If the fee is absolute and is raised by at least the virtual size of the second transaction, or if the fee is a rate and
is raised by one satoshi per byte or more, a node takes the second in place of the first (BIP-125). For rates this takes what `C76_fee_rate`
takes; without the conditions on the kind of inputs and the length of messages, there is the shortfall of C76. -/
theorem C95_bump {Amount : Type} (C : Crypto) (k : PrivKey) (hk : KeyLaws C k)
    (hsig : ∀ data, (C.sign k.secret data).length ≤ 71) (env env' : Env Amount)
    (hshuffle : ∀ l, (env.shuffle l).Perm l) (hshuffle' : ∀ l, (env'.shuffle l).Perm l) (args args' : TxArgs Amount)
    (hsame : args' = { args with fee := args'.fee }) (hconv : ∀ o ∈ args.outputs, env.conv o.2 = env'.conv o.2)
    (hall : args.combine = true) (hrbf : args.replaceByFee = true) (ask ask' : Ask) (w w' : Wallet)
    (hw : w.signer = .single k) (hw' : w'.signer = .single k) (us : List Unspent) (hne : us ≠ [])
    (htx : ∀ u ∈ us, TxidOk u) (hd : Distinct us) (hown : ∀ u ∈ us, TypeFits C k u ∧ WellSized k u) (r r' : Str)
    (h : (w.createTransaction C env args ask (.given us)).2 = .ok r)
    (h' : (w'.createTransaction C env' args' ask' (.given us)).2 = .ok r') :
    ∃ (t t' : Spec.Tx) (fee fee' : Int), t.WF ∧ t'.WF ∧ r = bytesToHex t.encode ∧ r' = bytesToHex t'.encode ∧
      (us.map Unspent.amount).sum = (t.outputs.map fun o => (o.value : Int)).sum + fee ∧
      (us.map Unspent.amount).sum = (t'.outputs.map fun o => (o.value : Int)).sum + fee' ∧
      Spec.SameButChange t t' fee fee' ∧ (∀ i ∈ t.inputs, i.sequence < 0xfffffffe) ∧
      (args.absoluteFee = true → fee = askedFee env args ∧ fee' = askedFee env' args' ∧
        ((t'.vsize : Int) ≤ askedFee env' args' - askedFee env args → Spec.Replaces t t' fee fee')) ∧
      (args.absoluteFee = false → 0 ≤ askedFee env args → askedFee env args < askedFee env' args' →
        t'.inputs.length < 253 → t'.outputs.length < 253 → (∀ o ∈ t'.outputs, o.script.length < 253) →
        4 * ((askedFee env' args' - askedFee env args) * t'.vsize) ≤ 4 * (fee' - fee) +
          (askedFee env' args' - askedFee env args) * (9 + bareInputs t' + 8 * messageOutputs t' : Nat) ∧
        (((∀ i ∈ t'.inputs, i.witness = []) ∨ ∀ i ∈ t'.inputs, i.witness ≠ []) →
          (∀ o ∈ t'.outputs, o.script.head? = some 0x6a → o.script.length ≤ 80) →
          (askedFee env' args' - askedFee env args) * t'.vsize ≤ fee' - fee ∧ Spec.Replaces t t' fee fee')) := by
  obtain ⟨sel, change, fee, t, h1, hr, h2, -, -⟩ :=
    created_shape C k hk hsig env hshuffle args ask w hw us hne htx hd hown r h
  obtain ⟨sel', change', fee', t', h1', hr', h2', hshape, hkinds⟩ :=
    created_shape C k hk hsig env' hshuffle' args' ask' w' hw' us hne htx hd hown r' h'
  have hb := built_bumped hsame hconv hall hrbf h2 h2'
  refine ⟨t, t', fee, fee', h1, h1', hr, hr', hb.balanced, hb.balanced', hb.same, hb.signals, ?_, ?_⟩
  · intro ha
    obtain ⟨e, e'⟩ := hb.absolute ha
    exact ⟨e, e', fun hle => replaces_of h1 hb.same hb.signals (by rw [e, e']; exact hle)⟩
  · intro hrel hf hmore hin hout hsc
    obtain ⟨size, e, e'⟩ := hb.relative hrel
    obtain ⟨c1, c2⟩ := fee_core h2' (by rw [hsame]; exact hrel) (by omega) hshape hkinds hin hout hsc
    refine ⟨bump_rate hf hmore e e' c1, fun hkind hshort => ?_⟩
    have := c2 (by rw [hsame]; exact hall) (hkind.imp_right Or.inl) hshort
    have := bump_rate (extra := 0) (t' := t') hf hmore e e' (by push_cast; linarith)
    have hle : (askedFee env' args' - askedFee env args) * t'.vsize ≤ fee' - fee := by push_cast at this; linarith
    refine ⟨hle, replaces_of h1 hb.same hb.signals ?_⟩
    have := Int.mul_le_mul_of_nonneg_right (show 1 ≤ askedFee env' args' - askedFee env args by omega)
      (show (0 : Int) ≤ t'.vsize from Int.natCast_nonneg _)
    linarith

/-- C95 for contracts: the holder of one key creates the two transactions and the co-signers needed complete
them (they may be others for the second). -/
theorem C95_bump_contract {Amount : Type} (C : Crypto) (s : MultiSig) (hs : ContractLaws C s) (env env' : Env Amount)
    (hshuffle : ∀ l, (env.shuffle l).Perm l) (hshuffle' : ∀ l, (env'.shuffle l).Perm l) (args args' : TxArgs Amount)
    (hsame : args' = { args with fee := args'.fee }) (hconv : ∀ o ∈ args.outputs, env.conv o.2 = env'.conv o.2)
    (hall : args.combine = true) (hrbf : args.replaceByFee = true) (ask ask' : Ask) (w w' : Wallet)
    (hw : w.signer = .multi s) (hw' : w'.signer = .multi s) (us : List Unspent) (hne : us ≠ [])
    (htx : ∀ u ∈ us, TxidOk u) (hd : Distinct us)
    (hown : ∀ u ∈ us, PaysContract C s u ∧ ContractFits C s u ∧ Booked s u) (others others' : List PrivKey)
    (hks : ∀ os ∈ [others, others'], (∀ k ∈ s.key :: os, SignerLaws C s k ∧ ∀ data, (C.sign k.secret data).length ≤ 71) ∧
      ((s.key :: os).map fun k => k.publicKey C).Nodup ∧ ((s.key :: os).length : Int) = s.m)
    (hap : ∀ sel change fee t, Built C env args (.multi s) us sel change fee t → NoMixup C s (s.key :: others) us t)
    (hap' : ∀ sel change fee t, Built C env' args' (.multi s) us sel change fee t → NoMixup C s (s.key :: others') us t)
    (p p' r r' : Str) (h : (w.createTransaction C env args ask (.given us)).2 = .ok p)
    (hc : cosign C s us others p = .ok r) (h' : (w'.createTransaction C env' args' ask' (.given us)).2 = .ok p')
    (hc' : cosign C s us others' p' = .ok r') :
    ∃ (t t' : Spec.Tx) (fee fee' : Int), t.WF ∧ t'.WF ∧ r = bytesToHex t.encode ∧ r' = bytesToHex t'.encode ∧
      (us.map Unspent.amount).sum = (t.outputs.map fun o => (o.value : Int)).sum + fee ∧
      (us.map Unspent.amount).sum = (t'.outputs.map fun o => (o.value : Int)).sum + fee' ∧
      Spec.SameButChange t t' fee fee' ∧ (∀ i ∈ t.inputs, i.sequence < 0xfffffffe) ∧
      (args.absoluteFee = true → fee = askedFee env args ∧ fee' = askedFee env' args' ∧
        ((t'.vsize : Int) ≤ askedFee env' args' - askedFee env args → Spec.Replaces t t' fee fee')) ∧
      (args.absoluteFee = false → 0 ≤ askedFee env args → askedFee env args < askedFee env' args' →
        t'.inputs.length < 253 → t'.outputs.length < 253 → (∀ o ∈ t'.outputs, o.script.length < 253) →
        4 * ((askedFee env' args' - askedFee env args) * t'.vsize) ≤ 4 * (fee' - fee) +
          (askedFee env' args' - askedFee env args) * (9 + bareInputs t' + 8 * messageOutputs t' : Nat) ∧
        ((2 ≤ s.m ∨ (∀ i ∈ t'.inputs, i.witness = []) ∨ ∀ i ∈ t'.inputs, i.witness ≠ []) →
          (∀ o ∈ t'.outputs, o.script.head? = some 0x6a → o.script.length ≤ 80) →
          (askedFee env' args' - askedFee env args) * t'.vsize ≤ fee' - fee ∧ Spec.Replaces t t' fee fee')) := by
  obtain ⟨hk1, hn1, hm1⟩ := hks others (by simp)
  obtain ⟨hk2, hn2, hm2⟩ := hks others' (by simp)
  obtain ⟨sel, change, fee, t, h1, hr, h2, -, -, -⟩ := contract_shape C s hs env hshuffle args ask w hw us hne htx hd hown
    others (fun k hk => (hk1 k hk).1) (fun k hk => (hk1 k hk).2) hap hn1 hm1 p r h hc
  obtain ⟨sel', change', fee', t', h1', hr', h2', hshape, hkinds, htight⟩ := contract_shape C s hs env' hshuffle' args' ask' w'
    hw' us hne htx hd hown others' (fun k hk => (hk2 k hk).1) (fun k hk => (hk2 k hk).2) hap' hn2 hm2 p' r' h' hc'
  have hb := built_bumped hsame hconv hall hrbf h2 h2'
  refine ⟨t, t', fee, fee', h1, h1', hr, hr', hb.balanced, hb.balanced', hb.same, hb.signals, ?_, ?_⟩
  · intro ha
    obtain ⟨e, e'⟩ := hb.absolute ha
    exact ⟨e, e', fun hle => replaces_of h1 hb.same hb.signals (by rw [e, e']; exact hle)⟩
  · intro hrel hf hmore hin hout hsc
    obtain ⟨size, e, e'⟩ := hb.relative hrel
    obtain ⟨c1, c2⟩ := fee_core h2' (by rw [hsame]; exact hrel) (by omega) hshape hkinds hin hout hsc
    refine ⟨bump_rate hf hmore e e' c1, fun hkind hshort => ?_⟩
    have := c2 (by rw [hsame]; exact hall) (by
      rcases hkind with h2m | hk | hk
      · exact Or.inr (Or.inr (inputs_sum (htight h2m)))
      · exact Or.inl hk
      · exact Or.inr (Or.inl hk)) hshort
    have := bump_rate (extra := 0) (t' := t') hf hmore e e' (by push_cast; linarith)
    have hle : (askedFee env' args' - askedFee env args) * t'.vsize ≤ fee' - fee := by push_cast at this; linarith
    refine ⟨hle, replaces_of h1 hb.same hb.signals ?_⟩
    have := Int.mul_le_mul_of_nonneg_right (show 1 ≤ askedFee env' args' - askedFee env args by omega)
      (show (0 : Int) ≤ t'.vsize from Int.natCast_nonneg _)
    linarith

open _root_.Spec.Ledger in
/-- C95. Of two such transactions only one can be confirmed: once the chain has taken one, the other is not valid. So
nobody is paid twice. -/
theorem C95_once (H : Spec.Hashing) (dsha : Bytes → Bytes) (L : Spec.Ledger) (t t' : Spec.Tx) (fee fee' : Int)
    (hs : Spec.SameButChange t t' fee fee') :
    (Valid H L t → L.Fresh dsha t → ¬ Valid H (L.apply dsha t) t') ∧
    (Valid H L t' → L.Fresh dsha t' → ¬ Valid H (L.apply dsha t') t) := by
  have key : ∀ {a b : Spec.Tx}, a.inputs.map Spec.TxInput.prevout = b.inputs.map Spec.TxInput.prevout →
      Valid H L a → L.Fresh dsha a → ¬ Valid H (L.apply dsha a) b := by
    intro a b e hv hf hv'
    obtain ⟨i, is, ei⟩ := List.exists_cons_of_ne_nil hv'.wf.nonempty
    obtain ⟨c, hc, hp, -⟩ := hv'.spends 0 i (by rw [ei]; rfl)
    have hi : i.prevout ∈ a.inputs.map Spec.TxInput.prevout := by
      rw [e, ei]; exact List.mem_cons_self
    rcases List.mem_append.mp hc with hc | hc
    · have := (List.mem_filter.mp hc).2
      rw [hp] at this
      simp [hi] at this
    · obtain ⟨i', hi', ep⟩ := List.mem_map.mp hi
      obtain ⟨j, hj⟩ := List.mem_iff_getElem?.mp hi'
      obtain ⟨c', hc', hp', -⟩ := hv.spends j i' hj
      refine hf c' hc' ?_
      have h1 := (made_txid hc).1
      have h2 : c'.outpoint = c.outpoint := by rw [hp', hp, ep]
      rw [← h1]
      exact congrArg Prod.fst h2
  exact ⟨key hs.1, key hs.1.symm⟩

/-! Samples: key B pays 20000 satoshi, first at one and then at two satoshi per byte. -/

/-- A payment that may be replaced. -/
def argsR (combine : Bool) (fee : Int) : TxArgs Int := { argsB combine with fee := some fee, replaceByFee := true }

/-- The transactions that key B creates from the coins at one and at two satoshi per byte. -/
def pairB (combine : Bool) (us : List Unspent) : Option (Spec.Tx × Spec.Tx) :=
  match ((newWallet (.single keyB)).createTransaction crypto71 envB (argsR combine 1) noNetwork (.given us)).2,
      ((newWallet (.single keyB)).createTransaction crypto71 envB (argsR combine 2) noNetwork (.given us)).2 with
  | .ok r, .ok r' =>
    match readTx r, readTx r' with
    | some t, some t' => if r = bytesToHex t.encode ∧ r' = bytesToHex t'.encode then some (t, t') else none
    | _, _ => none
  | _, _ => none

theorem pairB_spec {combine : Bool} {us : List Unspent} {f : Spec.Tx → Spec.Tx → Bool}
    (h : ((pairB combine us).any fun p => f p.1 p.2) = true) : ∃ (r r' : Str) (t t' : Spec.Tx),
      ((newWallet (.single keyB)).createTransaction crypto71 envB (argsR combine 1) noNetwork (.given us)).2 = .ok r ∧
      ((newWallet (.single keyB)).createTransaction crypto71 envB (argsR combine 2) noNetwork (.given us)).2 = .ok r' ∧
      r = bytesToHex t.encode ∧ r' = bytesToHex t'.encode ∧ f t t' = true := by
  unfold pairB at h
  split at h
  · rename_i r r' e e'
    split at h
    · rename_i t t' _ _
      split at h
      · rename_i hr
        exact ⟨r, r', t, t', e, e', hr.1, hr.2, h⟩
      · cases h
    · cases h
  · cases h

/-- The hypotheses of `C95_bump`: all but these are in the sample of `C76_fee_rate`. Both calls succeed, and the second transaction takes the place of the first. -/
example : argsR true 2 = { argsR true 1 with fee := (argsR true 2).fee } ∧
    askedFee envB (argsR true 1) = 1 ∧ askedFee envB (argsR true 2) = 2 ∧
    ∃ (r r' : Str) (t t' : Spec.Tx),
      ((newWallet (.single keyB)).createTransaction crypto71 envB (argsR true 1) noNetwork (.given [plain71 70000 1])).2 = .ok r ∧
      ((newWallet (.single keyB)).createTransaction crypto71 envB (argsR true 2) noNetwork (.given [plain71 70000 1])).2 = .ok r' ∧
      r = bytesToHex t.encode ∧ r' = bytesToHex t'.encode ∧
      t.outputs.map Spec.TxOutput.value = [20000, 49774] ∧ t'.outputs.map Spec.TxOutput.value = [20000, 49548] ∧
      t'.vsize = 226 := by
  refine ⟨rfl, by decide, by decide, ?_⟩
  obtain ⟨r, r', t, t', e1, e2, e3, e4, h⟩ := pairB_spec (combine := true) (us := [plain71 70000 1])
    (f := fun t t' => decide (t.outputs.map Spec.TxOutput.value = [20000, 49774]) &&
      decide (t'.outputs.map Spec.TxOutput.value = [20000, 49548]) && decide (t'.vsize = 226)) (by decide +kernel)
  simp only [Bool.and_eq_true, decide_eq_true_eq] at h
  exact ⟨r, r', t, t', e1, e2, e3, e4, h.1.1, h.1.2, h.2⟩

/-- C95 (violated: mixed coins). With three P2PKH coins and one nested segwit coin, raising the fee by one satoshi per
byte is not enough for a node: the fee is not larger by one satoshi for every byte of the second transaction. -/
theorem C95_mixed_refused : ∃ (r r' : Str) (t t' : Spec.Tx),
    ((newWallet (.single keyB)).createTransaction crypto71 envB (argsR true 1) noNetwork
      (.given [plain71 70000 1, plain71 70000 2, plain71 60000 3, unspentB])).2 = .ok r ∧
    ((newWallet (.single keyB)).createTransaction crypto71 envB (argsR true 2) noNetwork
      (.given [plain71 70000 1, plain71 70000 2, plain71 60000 3, unspentB])).2 = .ok r' ∧
    r = bytesToHex t.encode ∧ r' = bytesToHex t'.encode ∧
    ∀ fee fee' : Int, 280000 = (t.outputs.map fun o => (o.value : Int)).sum + fee →
      280000 = (t'.outputs.map fun o => (o.value : Int)).sum + fee' → ¬ Spec.Replaces t t' fee fee' := by
  obtain ⟨r, r', t, t', e1, e2, e3, e4, h⟩ := pairB_spec (combine := true)
    (us := [plain71 70000 1, plain71 70000 2, plain71 60000 3, unspentB])
    (f := fun t t' => decide ((t.outputs.map fun o => (o.value : Int)).sum - (t'.outputs.map fun o => (o.value : Int)).sum <
      (t'.vsize : Int))) (by decide +kernel)
  rw [decide_eq_true_eq] at h
  refine ⟨r, r', t, t', e1, e2, e3, e4, fun fee fee' h1 h2 hr => ?_⟩
  have := hr.bandwidth
  omega

/-- C95 (not so without `combine`). If coins are selected, the call with the higher fee may select others. Then the
two transactions have no input in common, so the second does not replace the first, both can be confirmed, and the
payment of 20000 satoshi is made twice. -/
theorem C95_selected_pays_twice : ∃ (r r' : Str) (t t' : Spec.Tx),
    ((newWallet (.single keyB)).createTransaction crypto71 envB (argsR false 1) noNetwork
      (.given [plain71 20200 1, plain71 20400 2])).2 = .ok r ∧
    ((newWallet (.single keyB)).createTransaction crypto71 envB (argsR false 2) noNetwork
      (.given [plain71 20200 1, plain71 20400 2])).2 = .ok r' ∧
    r = bytesToHex t.encode ∧ r' = bytesToHex t'.encode ∧
    (∀ p ∈ t.inputs.map Spec.TxInput.prevout, p ∉ t'.inputs.map Spec.TxInput.prevout) ∧
    (∀ fee fee' : Int, ¬ Spec.Replaces t t' fee fee') ∧
    t.outputs.map Spec.TxOutput.value = [20000] ∧ t'.outputs.map Spec.TxOutput.value = [20000] := by
  obtain ⟨r, r', t, t', e1, e2, e3, e4, h⟩ := pairB_spec (combine := false) (us := [plain71 20200 1, plain71 20400 2])
    (f := fun t t' => decide (∀ p ∈ t.inputs.map Spec.TxInput.prevout, p ∉ t'.inputs.map Spec.TxInput.prevout) &&
      decide (t.outputs.map Spec.TxOutput.value = [20000]) && decide (t'.outputs.map Spec.TxOutput.value = [20000]))
    (by decide +kernel)
  simp only [Bool.and_eq_true, decide_eq_true_eq] at h
  refine ⟨r, r', t, t', e1, e2, e3, e4, h.1.1, ?_, h.1.2, h.2⟩
  intro fee fee' hr
  obtain ⟨p, hp, hp'⟩ := hr.conflict
  exact h.1.1 p hp hp'

end Bit
