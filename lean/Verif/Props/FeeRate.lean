import Verif.Props.Create
import Verif.Props.Fee
/-
The fee rate of created transactions (C76).
-/
namespace Bit
open Bit.Concrete

/-! ## C76 -/

/-- Inputs without a witness, if any input has one: each of them takes a witness count byte. -/
def bareInputs (t : Spec.Tx) : Nat :=
  if t.inputs.all (fun i => i.witness.isEmpty) then 0 else (t.inputs.filter fun i => i.witness.isEmpty).length

/-- Outputs whose script begins with `OP_RETURN`. -/
def messageOutputs (t : Spec.Tx) : Nat := (t.outputs.filter fun o => o.script.head? = some 0x6a).length

/-- The size the coin is booked with is at least what spending it takes. -/
def WellSized (k : PrivKey) (u : Unspent) : Prop :=
  4 * (if u.isSegwit then 91 else if k.compressed then 148 else 180) ≤ u.vsize4

theorem shape_weight {C : Crypto} {k : PrivKey} (hk : KeyLaws C k) (hsig : ∀ data, (C.sign k.secret data).length ≤ 71)
    {u : Unspent} (hfit : TypeFits C k u) (hsize : WellSized k u) {i : Spec.TxInput} (hi : i.prevTxid.length = 32)
    (h : SignedShape C k u i) :
    4 * i.encode.length + (Spec.encodeStack i.witness).length ≤ u.vsize4 + (if i.witness.isEmpty then 1 else 0) ∧
    4 * i.encode.length ≤ u.vsize4 := by
  obtain ⟨data, h⟩ := h
  have hs := hsig data
  have hp := hk.pub
  unfold WellSized at hsize
  rw [input_length hi]
  cases hu : u.isSegwit with
  | false =>
    rw [hu] at h hsize
    simp only [Bool.false_eq_true, if_false] at h hsize
    obtain ⟨h1, h2⟩ := h
    have e : (Spec.encodeStack []).length = 1 := by decide
    rw [h1, e, h2]
    have hlt : (C.sign k.secret data).length + (k.publicKey C).length + 3 < 253 := by
      split at hp <;> omega
    rw [compact_length hlt]
    simp only [List.isEmpty_nil, if_true]
    split at hp <;> rename_i hc <;> simp only [hc, if_true, Bool.false_eq_true, if_false] at hsize <;> omega
  | true =>
    rw [hu] at h hsize
    simp only [if_true] at h hsize
    obtain ⟨h1, h2⟩ := h
    have hc : k.compressed = true := by
      rcases hfit with ⟨h, -⟩ | ⟨-, h, -⟩
      · rw [hu] at h; cases h
      · exact h
    rw [if_pos hc] at hp
    rw [h1, h2, compact_length (by norm_num)]
    simp only [Spec.encodeStack, Spec.varBytes, List.length_append, List.flatMap_cons,
      List.flatMap_nil, List.length_cons, List.length_nil, hp, List.isEmpty_cons, Bool.false_eq_true, if_false]
    rw [compact_length (n := (C.sign k.secret data).length + (0 + 1)) (by omega), compact_length (by norm_num),
      compact_length (by norm_num)]
    omega

theorem inputs_weight {sel : List Unspent} {ins : List Spec.TxInput}
    (h : List.Forall₂ (fun (u : Unspent) (i : Spec.TxInput) =>
      4 * i.encode.length + (Spec.encodeStack i.witness).length ≤ u.vsize4 + (if i.witness.isEmpty then 1 else 0) ∧
      4 * i.encode.length ≤ u.vsize4) sel ins) :
    4 * (ins.flatMap Spec.TxInput.encode).length + (ins.flatMap fun i => Spec.encodeStack i.witness).length ≤
      (sel.map Unspent.vsize4).sum + (ins.filter fun i => i.witness.isEmpty).length ∧
    4 * (ins.flatMap Spec.TxInput.encode).length ≤ (sel.map Unspent.vsize4).sum := by
  induction h with
  | nil => simp
  | @cons u i us is hr _ ih =>
    obtain ⟨h1, h2⟩ := hr
    simp only [List.flatMap_cons, List.length_append, List.map_cons, List.sum_cons, List.filter_cons]
    cases hw : i.witness.isEmpty with
    | true =>
      rw [hw] at h1
      simp only [if_true, List.length_cons] at h1 ⊢
      omega
    | false =>
      rw [hw] at h1
      simp only [Bool.false_eq_true, if_false] at h1 ⊢
      omega

theorem forall₂_split {α β : Type} {R : α → β → Prop} : ∀ {as as' : List α} {bs : List β},
    List.Forall₂ R (as ++ as') bs → ∃ cs cs', bs = cs ++ cs' ∧ List.Forall₂ R as cs ∧ List.Forall₂ R as' cs'
  | [], as', bs, h => ⟨[], bs, rfl, .nil, h⟩
  | a :: as, as', _, .cons hr h => by
    obtain ⟨cs, cs', e, h1, h2⟩ := forall₂_split (as := as) h
    exact ⟨_ :: cs, cs', by rw [e]; rfl, .cons hr h1, h2⟩

theorem payments_size {C : Crypto} : ∀ {pays : List (Str × Int)} {scripts : List Bytes} {os : List Spec.TxOutput},
    List.Forall₂ (fun q o => Pays C q.1 q.2 o) (pays.map fun p => (Dest.str p.1, p.2)) os →
    List.Forall₂ (fun p s => addressToScriptpubkey C p.1 = .ok (some s)) pays scripts →
    (os.map fun o => o.script.length + 9).sum = (scripts.map fun s => s.length + 9).sum
  | [], [], _, .nil, _ => rfl
  | p :: ps, s :: ss, o :: os, .cons h1 h2, .cons h3 h4 => by
    have hn : p.2 ≠ 0 := by
      intro h0
      obtain ⟨b, e, -⟩ := h1.message h0
      cases e
    obtain ⟨a, e1, e2⟩ := h1.payment hn
    injection e1 with e1
    subst e1
    rw [h3] at e2
    injection e2 with e2
    injection e2 with e2
    rw [List.map_cons, List.map_cons, List.sum_cons, List.sum_cons, payments_size h2 h4, e2]

theorem messages_size {C : Crypto} : ∀ {pieces : List Bytes} {os : List Spec.TxOutput},
    List.Forall₂ (fun q o => Pays C q.1 q.2 o) (pieces.map fun c => (Dest.bytes c, (0 : Int))) os →
    (∀ c ∈ pieces, c.length ≤ 80) →
    (os.map fun o => o.script.length + 9).sum ≤ 89 * pieces.length +
        2 * (os.filter fun o => o.script.head? = some 0x6a).length ∧
    ((∀ o ∈ os, o.script.head? = some 0x6a → o.script.length ≤ 80) →
      (os.map fun o => o.script.length + 9).sum ≤ 89 * pieces.length)
  | [], _, .nil, _ => by simp
  | p :: ps, o :: os, .cons h1 h2, hb => by
    obtain ⟨ih1, ih2⟩ := messages_size h2 fun c hc => hb c (List.mem_cons_of_mem _ hc)
    obtain ⟨b, e, hs⟩ := h1.message rfl
    injection e with e
    subst e
    have hp := hb p List.mem_cons_self
    have hh : o.script.head? = some 0x6a := by rw [hs]; rfl
    have hl : o.script.length = p.length + 2 := by rw [hs]; rfl
    constructor
    · rw [List.map_cons, List.sum_cons, List.filter_cons, if_pos (by simpa using hh), List.length_cons, List.length_cons]
      omega
    · intro hshort
      have := ih2 fun o' ho' => hshort o' (List.mem_cons_of_mem _ ho')
      have := hshort o List.mem_cons_self hh
      rw [List.map_cons, List.sum_cons, List.length_cons]
      omega

theorem sum_sub {us : List Unspent} {rate : Int} :
    (us.map fun u => 4 * u.amount - rate * u.vsize4).sum =
      4 * (us.map Unspent.amount).sum - rate * ((us.map Unspent.vsize4).sum : Nat) := by
  induction us with
  | nil => simp
  | cons u us ih =>
    simp only [List.map_cons, List.sum_cons, ih]
    push_cast
    ring

/-- What the fee of a built transaction covers, if no input takes more than its coin is booked with. -/
theorem fee_core {Amount : Type} {C : Crypto} {env : Env Amount} {args : TxArgs Amount} {signer : Signer}
    {us sel : List Unspent} {change : Str} {fee : Int} {t : Spec.Tx}
    (h2 : Built C env args signer us sel change fee t) (hrel : args.absoluteFee = false)
    (hrate : 0 ≤ askedFee env args)
    (hshape : List.Forall₂ (fun (u : Unspent) (i : Spec.TxInput) =>
      4 * i.encode.length + (Spec.encodeStack i.witness).length ≤ u.vsize4 + (if i.witness.isEmpty then 1 else 0) ∧
      4 * i.encode.length ≤ u.vsize4) sel t.inputs)
    (hkinds : List.Forall₂ (fun (u : Unspent) (i : Spec.TxInput) => i.witness.isEmpty = !u.isSegwit) sel t.inputs)
    (hin : t.inputs.length < 253) (hout : t.outputs.length < 253) (hsc : ∀ o ∈ t.outputs, o.script.length < 253) :
    4 * (askedFee env args * t.vsize) ≤
      4 * fee + askedFee env args * (9 + bareInputs t + 8 * messageOutputs t : Nat) ∧
    (args.combine = true → ((∀ i ∈ t.inputs, i.witness = []) ∨ (∀ i ∈ t.inputs, i.witness ≠ []) ∨
        4 * (t.inputs.flatMap Spec.TxInput.encode).length +
          (t.inputs.flatMap fun i => Spec.encodeStack i.witness).length ≤ (sel.map Unspent.vsize4).sum) →
      (∀ o ∈ t.outputs, o.script.head? = some 0x6a → o.script.length ≤ 80) →
      askedFee env args * t.vsize ≤ fee) := by
  obtain ⟨pays, changes, pieces, scripts, changeScript, o1, o2, o3, o4, o5, o6, o7⟩ := h2.outputs
  have hsegwit : ∀ (u : Unspent), u ∈ sel → ∃ i ∈ t.inputs, (i.witness.isEmpty = !u.isSegwit) := by
    intro u hu
    obtain ⟨j, hj⟩ := List.mem_iff_getElem?.mp hu
    have hlt : j < t.inputs.length := by
      rw [← h2.inputs.length_eq]; exact (List.getElem?_eq_some_iff.mp hj).1
    exact ⟨_, List.getElem_mem hlt, (forall₂_iff_get.mp hkinds).2 j u _ hj (List.getElem?_eq_getElem hlt)⟩
  have hseg' : ∀ i ∈ t.inputs, ∃ u ∈ sel, (i.witness.isEmpty = !u.isSegwit) := by
    intro i hi
    obtain ⟨j, hj⟩ := List.mem_iff_getElem?.mp hi
    have hlt : j < sel.length := by
      rw [h2.inputs.length_eq]; exact (List.getElem?_eq_some_iff.mp hj).1
    exact ⟨_, List.getElem_mem hlt, (forall₂_iff_get.mp hkinds).2 j _ i (List.getElem?_eq_getElem hlt) hj⟩
  have hall : (t.inputs.all fun i => i.witness.isEmpty) = !(sel.any fun u => decide (u.segwit = some true)) := by
    have e : ∀ u : Unspent, decide (u.segwit = some true) = u.isSegwit := by
      intro u
      unfold Unspent.isSegwit
      cases u.segwit with
      | none => rfl
      | some b => cases b <;> rfl
    simp only [e]
    rw [Bool.eq_iff_iff, Bool.not_eq_true', List.all_eq_true, List.any_eq_false]
    constructor
    · intro ha u hu
      obtain ⟨i, hi, e⟩ := hsegwit u hu
      rw [ha i hi] at e
      simpa using e.symm
    · intro ha i hi
      obtain ⟨u, hu, e⟩ := hseg' i hi
      rw [e]
      simpa using ha u hu
  obtain ⟨w1, w2⟩ := inputs_weight hshape
  -- outputs
  obtain ⟨os, ms, eo, p1, p2⟩ := forall₂_split o4
  rw [List.map_append] at p1
  obtain ⟨ps, cs, ep, p3, p4⟩ := forall₂_split p1
  have q1 := payments_size p3 o5
  have q2 : changes.length = cs.length ∧
      (cs.map fun o => o.script.length + 9).sum = changes.length * (changeScript.length + 9) := by
    rcases o2 with rfl | ⟨c, -, rfl⟩
    · cases p4; exact ⟨rfl, by simp⟩
    · have := payments_size p4 (.cons o6 .nil)
      rw [this]
      refine ⟨?_, by simp⟩
      rw [← p4.length_eq, List.length_map]
  have hch : changes.length ≤ 1 := by
    rcases o2 with rfl | ⟨c, -, rfl⟩ <;> simp
  obtain ⟨q3, q4⟩ := messages_size p2 fun c hc => (o3.small c hc).2
  have hmc : (ms.filter fun o => o.script.head? = some 0x6a).length ≤ messageOutputs t := by
    unfold messageOutputs
    rw [eo, List.filter_append, List.length_append]
    omega
  have hol := outputs_length hsc
  have hsum : (t.outputs.map fun o => o.script.length + 9).sum = (scripts.map fun s => s.length + 9).sum +
      changes.length * (changeScript.length + 9) + (ms.map fun o => o.script.length + 9).sum := by
    rw [eo, ep, List.map_append, List.map_append, List.sum_append, List.sum_append, q1, q2.2]
  have hl := legacy_length t
  rw [compact_length hin, compact_length hout, hol, hsum] at hl
  have hx := extended_length t
  -- the weight
  have hweight : t.weight = if t.inputs.all (fun i => i.witness.isEmpty) then 4 * t.encodeLegacy.length
      else 4 * t.encodeLegacy.length + 2 + (t.inputs.flatMap fun i => Spec.encodeStack i.witness).length := by
    unfold Spec.Tx.weight Spec.Tx.encode
    split
    · omega
    · rw [hx]; omega
  have hv4 : 4 * t.vsize ≤ t.weight + 3 := by unfold Spec.Tx.vsize; omega
  have hchange : changes.length * (changeScript.length + 9) ≤ changeScript.length + 9 := by
    calc changes.length * (changeScript.length + 9) ≤ 1 * (changeScript.length + 9) := Nat.mul_le_mul_right _ hch
      _ = _ := by omega
  have hsizes : (sizesOf scripts pieces.length changeScript).sum =
      (scripts.map fun s => s.length + 9).sum + 89 * pieces.length + (changeScript.length + 9) := by
    unfold sizesOf
    rw [List.sum_append, List.sum_append, List.sum_singleton, List.sum_singleton]
  have hdrop : (sizesOf scripts pieces.length changeScript).dropLast.sum =
      (scripts.map fun s => s.length + 9).sum + 89 * pieces.length := by
    unfold sizesOf
    rw [List.dropLast_concat, List.sum_append, List.sum_singleton]
  generalize hseg : (sel.any fun u => decide (u.segwit = some true)) = seg at *
  obtain ⟨f1, f2, f3, -⟩ : ∃ size : Nat, feeFor (askedFee env args) (sizesOf scripts pieces.length changeScript) sel =
      askedFee env args * size ∧ (sel.map Unspent.vsize4).sum +
      4 * ((sizesOf scripts pieces.length changeScript).sum + 8 + Spec.byteWidth sel.length +
        Spec.byteWidth (sizesOf scripts pieces.length changeScript).length) + (if seg then 2 else 0) ≤ 4 * size ∧ True := by
    obtain ⟨size, e, a, -⟩ := C28_formula (sel.map Unspent.vsize4).sum sel.length
      (sizesOf scripts pieces.length changeScript).sum (sizesOf scripts pieces.length changeScript).length
      (askedFee env args) seg
    refine ⟨size, ?_, a, trivial⟩
    unfold feeFor
    rw [hseg]
    exact e
  have b1 := byteWidth_pos sel.length
  have b2 := byteWidth_pos (sizesOf scripts pieces.length changeScript).length
  refine ⟨?_, ?_⟩
  · rcases o7 hrel with o7 | ⟨-, rfl, hpm⟩
    · rw [o7, f2]
      have : 4 * t.vsize ≤ 4 * f1 + (9 + bareInputs t + 8 * messageOutputs t) := by
        unfold bareInputs
        rw [hall] at hweight ⊢
        cases seg <;> simp only [Bool.not_true, Bool.not_false, Bool.false_eq_true, if_false, if_true] at hweight f3 ⊢ <;> omega
      have := Int.mul_le_mul_of_nonneg_left (show (4 * t.vsize : Int) ≤ 4 * f1 + ((9 + bareInputs t + 8 * messageOutputs t : Nat) : Int)
        by exact_mod_cast this) hrate
      linarith
    · have hlow := hpm.lower
      rw [sum_sub, hdrop, h2.balanced, pays_sum o4] at hlow
      have e : (((pays ++ ([] : List (Str × Int))).map (fun p : Str × Int => (Dest.str p.1, p.2)) ++
          pieces.map (fun c => (Dest.bytes c, (0 : Int)))).map Prod.snd).sum = (pays.map Prod.snd).sum := by
        simp [List.sum_append, Function.comp_def]
      rw [e] at hlow
      have : 4 * t.vsize ≤ (sel.map Unspent.vsize4).sum +
          4 * (9 + ((scripts.map fun s => s.length + 9).sum + 89 * pieces.length)) +
          (9 + bareInputs t + 8 * messageOutputs t) := by
        unfold bareInputs
        rw [hall] at hweight ⊢
        simp only [List.length_nil] at *
        cases seg <;> simp only [Bool.not_true, Bool.not_false, Bool.false_eq_true, if_false, if_true] at hweight f3 ⊢ <;> omega
      have := Int.mul_le_mul_of_nonneg_left (show (4 * t.vsize : Int) ≤ (((sel.map Unspent.vsize4).sum : Nat) : Int) +
          4 * ((9 + ((scripts.map fun s => s.length + 9).sum + 89 * pieces.length) : Nat) : Int) +
          ((9 + bareInputs t + 8 * messageOutputs t : Nat) : Int)
        by exact_mod_cast this) hrate
      linarith
  · intro hcomb hkind hshort
    rcases o7 hrel with o7 | ⟨hc, -⟩
    · rw [o7, f2]
      have hq := q4 fun o ho => hshort o (by rw [eo]; exact List.mem_append_right _ ho)
      refine Int.mul_le_mul_of_nonneg_left ?_ hrate
      have : t.vsize ≤ f1 := by
        unfold Spec.Tx.vsize
        rw [hall] at hweight
        cases seg with
        | false =>
          simp only [Bool.not_false, if_true, Bool.false_eq_true, if_false] at hweight f3
          omega
        | true =>
          have hnone : 4 * (t.inputs.flatMap Spec.TxInput.encode).length +
              (t.inputs.flatMap fun i => Spec.encodeStack i.witness).length ≤ (sel.map Unspent.vsize4).sum := by
            rcases hkind with hk' | hk' | hk'
            · exfalso
              rw [show (t.inputs.all fun i => i.witness.isEmpty) = true by
                rw [List.all_eq_true]; intro i hi; rw [hk' i hi]; rfl] at hall
              cases hall
            · have : (t.inputs.filter fun i => i.witness.isEmpty) = [] := by
                rw [List.filter_eq_nil_iff]
                intro i hi
                simpa using hk' i hi
              rw [this, List.length_nil] at w1
              exact w1
            · exact hk'
          simp only [Bool.not_true, Bool.false_eq_true, if_false, if_true] at hweight f3
          omega
      exact_mod_cast this
    · rw [hcomb] at hc; cases hc

/-- A transaction created by a key from its own coins: no input takes more than its coin is booked with. -/
theorem created_shape {Amount : Type} (C : Crypto) (k : PrivKey) (hk : KeyLaws C k)
    (hsig : ∀ data, (C.sign k.secret data).length ≤ 71) (env : Env Amount)
    (hshuffle : ∀ l, (env.shuffle l).Perm l) (args : TxArgs Amount) (ask : Ask) (w : Wallet)
    (hw : w.signer = .single k) (us : List Unspent) (hne : us ≠ []) (htx : ∀ u ∈ us, TxidOk u) (hd : Distinct us)
    (hown : ∀ u ∈ us, TypeFits C k u ∧ WellSized k u) (r : Str)
    (h : (w.createTransaction C env args ask (.given us)).2 = .ok r) :
    ∃ (sel : List Unspent) (change : Str) (fee : Int) (t : Spec.Tx), t.WF ∧ r = bytesToHex t.encode ∧
      Built C env args (.single k) us sel change fee t ∧
      List.Forall₂ (fun (u : Unspent) (i : Spec.TxInput) =>
        4 * i.encode.length + (Spec.encodeStack i.witness).length ≤ u.vsize4 + (if i.witness.isEmpty then 1 else 0) ∧
        4 * i.encode.length ≤ u.vsize4) sel t.inputs ∧
      List.Forall₂ (fun (u : Unspent) (i : Spec.TxInput) => i.witness.isEmpty = !u.isSegwit) sel t.inputs := by
  obtain ⟨v, b, hv⟩ := created_can hshuffle hne htx h
  rw [hw] at hv
  have hcan := can_iff_pays hk hv
  obtain ⟨sel, change, fee, t, h1, h2, -, -, h5, h6⟩ := create_spends C k hk env hshuffle args ask w hw us hne htx hd
    (fun u hu _ => (hown u hu).1) r h
  have hr := h5 fun u hu => (hcan u).mpr (hown u hu).1.pays
  have hshape : List.Forall₂ (fun (u : Unspent) (i : Spec.TxInput) =>
      4 * i.encode.length + (Spec.encodeStack i.witness).length ≤ u.vsize4 + (if i.witness.isEmpty then 1 else 0) ∧
      4 * i.encode.length ≤ u.vsize4) sel t.inputs := by
    rw [forall₂_iff_get]
    refine ⟨h2.inputs.length_eq, ?_⟩
    intro j u i hu hi
    have hmem := h2.selected.subset (List.mem_of_getElem? hu)
    have := h6 j u i hu hi
    rw [if_pos ((hcan u).mpr (hown u hmem).1.pays)] at this
    exact shape_weight hk hsig (hown u hmem).1 (hown u hmem).2 (h1.input i (List.mem_of_getElem? hi)).txid this.2
  have hkinds : List.Forall₂ (fun (u : Unspent) (i : Spec.TxInput) => i.witness.isEmpty = !u.isSegwit) sel t.inputs := by
    rw [forall₂_iff_get]
    refine ⟨h2.inputs.length_eq, ?_⟩
    intro j u i hu hi
    have := h6 j u i hu hi
    rw [if_pos ((hcan u).mpr (hown u (h2.selected.subset (List.mem_of_getElem? hu))).1.pays)] at this
    obtain ⟨-, data, hsh⟩ := this
    cases hb : u.isSegwit with
    | true => rw [hb, if_pos rfl] at hsh; rw [hsh.2]; rfl
    | false => rw [hb] at hsh; rw [hsh.1]; rfl
  exact ⟨sel, change, fee, t, h1, hr, h2, hshape, hkinds⟩

/-- C76. A transaction created by a key from its own coins with a fee rate (satoshi per byte): what it
leaves to the miners is at least the rate times its virtual size (BIP-141), but for a shortfall of at most
9/4 bytes, a quarter of a byte for every input without witness beside one with a witness, and two bytes for
every message output. There is no shortfall if all coins are used (`combine`, the default), all inputs are of the same kind
and no message output has a script of more than 80 bytes. It takes: signatures of at most 71 bytes (low-S DER),
coins booked with at least the size it takes to spend them, at most 252 inputs and outputs and output scripts
of at most 252 bytes. -/
theorem C76_fee_rate {Amount : Type} (C : Crypto) (k : PrivKey) (hk : KeyLaws C k)
    (hsig : ∀ data, (C.sign k.secret data).length ≤ 71) (env : Env Amount)
    (hshuffle : ∀ l, (env.shuffle l).Perm l) (args : TxArgs Amount) (ask : Ask) (w : Wallet)
    (hw : w.signer = .single k) (us : List Unspent) (hne : us ≠ []) (htx : ∀ u ∈ us, TxidOk u) (hd : Distinct us)
    (hown : ∀ u ∈ us, TypeFits C k u ∧ WellSized k u) (hrel : args.absoluteFee = false)
    (hrate : 0 ≤ askedFee env args) (r : Str) (h : (w.createTransaction C env args ask (.given us)).2 = .ok r) :
    ∃ (t : Spec.Tx) (sel : List Unspent) (fee : Int), t.WF ∧ r = bytesToHex t.encode ∧ sel.Subperm us ∧
      List.Forall₂ (fun (u : Unspent) (i : Spec.TxInput) => u.txid = bytesToHex i.prevTxid.reverse ∧
        (i.prevIndex : Int) = u.txindex) sel t.inputs ∧
      (sel.map Unspent.amount).sum = (t.outputs.map fun o => (o.value : Int)).sum + fee ∧
      (t.inputs.length < 253 → t.outputs.length < 253 → (∀ o ∈ t.outputs, o.script.length < 253) →
        4 * (askedFee env args * t.vsize) ≤
          4 * fee + askedFee env args * (9 + bareInputs t + 8 * messageOutputs t : Nat) ∧
        (args.combine = true → ((∀ i ∈ t.inputs, i.witness = []) ∨ ∀ i ∈ t.inputs, i.witness ≠ []) →
          (∀ o ∈ t.outputs, o.script.head? = some 0x6a → o.script.length ≤ 80) →
          askedFee env args * t.vsize ≤ fee)) := by
  obtain ⟨sel, change, fee, t, h1, hr, h2, hshape, hkinds⟩ :=
    created_shape C k hk hsig env hshuffle args ask w hw us hne htx hd hown r h
  refine ⟨t, sel, fee, h1, hr, h2.selected, h2.inputs.imp fun u i h => ⟨h.1, h.2.1⟩, h2.balanced, ?_⟩
  intro hin hout hsc
  obtain ⟨c1, c2⟩ := fee_core h2 hrel hrate hshape hkinds hin hout hsc
  exact ⟨c1, fun hcomb hkind => c2 hcomb (hkind.imp_right Or.inl)⟩

/-! Samples, with a signature scheme whose signatures have 71 bytes: key B pays 20000 satoshi at one
satoshi per byte. -/

/-- The toy scheme with signatures padded to 71 bytes. -/
def crypto71 : Crypto :=
  { crypto with
    sign := fun secret data => crypto.sign secret data ++ List.replicate 38 0
    verify := fun sig data pub => crypto.verify (sig.take 33) data pub }

/-- A coin of key B's P2PKH address. -/
def plain71 (amount : Int) (n : UInt8) : Unspent :=
  mkUnspent amount 3 (bytesToHex (scriptP2PKH keyB)) (bytesToHex (List.replicate 32 n)) 1 "p2pkh".toList 0
    none 4294967295

theorem crypto71_sig (secret : Bytes) (hs : secret.length = 32) (data : Bytes) :
    (crypto71.sign secret data).length = 71 := by
  show (toySig (toyPub secret true) data ++ List.replicate 38 0).length = 71
  unfold toySig toyPub
  simp [sha256_length, hs]

/-- Split a serialised witness (of items below 253 bytes) into its items. -/
def witnessItems : Nat → Bytes → List Bytes
  | 0, _ => []
  | _, [] => []
  | n + 1, l :: rest => rest.take l.toNat :: witnessItems n (rest.drop l.toNat)

/-- Read the transaction of a text. -/
def readTx (r : Str) : Option Spec.Tx :=
  match deserializeHex r with
  | .error _ => none
  | .ok x => some
    { version := leNat x.version
      inputs := x.ins.map fun i =>
        { prevTxid := i.txid, prevIndex := leNat i.txindex, script := i.scriptSig
          sequence := leNat i.sequence
          witness := match i.witness with
            | [] => []
            | n :: rest => witnessItems n.toNat rest }
      outputs := x.outs.map fun o => { value := leNat o.amount, script := o.scriptPubkey }
      lockTime := leNat x.locktime }

/-- Whether key B creates, with the coins `us`, the text of a transaction that leaves less than its virtual
size (a rate of one satoshi per byte is asked for). All coins must be used. -/
def underpaid (args : TxArgs Int) (us : List Unspent) : Bool :=
  match ((newWallet (.single keyB)).createTransaction crypto71 envB args noNetwork (.given us)).2 with
  | .error _ => false
  | .ok r =>
    match readTx r with
    | none => false
    | some t => decide (r = bytesToHex t.encode) && decide (t.inputs.length = us.length) &&
        decide ((us.map Unspent.amount).sum - (t.outputs.map fun o => (o.value : Int)).sum < 1 * (t.vsize : Int))

theorem underpaid_spec {args : TxArgs Int} {us : List Unspent} (h : underpaid args us = true) :
    ∃ (r : Str) (t : Spec.Tx),
      ((newWallet (.single keyB)).createTransaction crypto71 envB args noNetwork (.given us)).2 = .ok r ∧
      r = bytesToHex t.encode ∧ t.inputs.length = us.length ∧
      (us.map Unspent.amount).sum - (t.outputs.map fun o => (o.value : Int)).sum < 1 * (t.vsize : Int) := by
  unfold underpaid at h
  cases hc : ((newWallet (.single keyB)).createTransaction crypto71 envB args noNetwork (.given us)).2 with
  | error e => rw [hc] at h; cases h
  | ok r =>
    rw [hc] at h
    dsimp only at h
    cases ht : readTx r with
    | none => rw [ht] at h; cases h
    | some t =>
      rw [ht] at h
      simp only [Bool.and_eq_true, decide_eq_true_eq] at h
      exact ⟨r, t, rfl, h.1.1, h.1.2, h.2⟩

/-- C76 (violated: long message). With a message of 80 bytes the transaction pays less than the rate of one
satoshi per byte that is asked for: the estimate leaves out two bytes of every message output. -/
theorem C76_message_underpaid : ∃ (r : Str) (t : Spec.Tx),
    ((newWallet (.single keyB)).createTransaction crypto71 envB
      { argsB true with message := some (.str (List.replicate 80 'a')) } noNetwork
      (.given [plain71 70000 1])).2 = .ok r ∧
    r = bytesToHex t.encode ∧ t.inputs.length = 1 ∧
    70000 - (t.outputs.map fun o => (o.value : Int)).sum < 1 * (t.vsize : Int) := by
  have := underpaid_spec (args := { argsB true with message := some (.str (List.replicate 80 'a')) })
    (us := [plain71 70000 1]) (by decide +kernel)
  exact this

/-- C76 (violated: perfect match). Without `combine`, a coin whose value allows for no change is taken
although it leaves less than the rate of one satoshi per byte that is asked for. -/
theorem C76_match_underpaid : ∃ (r : Str) (t : Spec.Tx),
    ((newWallet (.single keyB)).createTransaction crypto71 envB (argsB false) noNetwork
      (.given [plain71 20191 1])).2 = .ok r ∧
    r = bytesToHex t.encode ∧ t.inputs.length = 1 ∧
    20191 - (t.outputs.map fun o => (o.value : Int)).sum < 1 * (t.vsize : Int) := by
  have := underpaid_spec (args := argsB false) (us := [plain71 20191 1]) (by decide +kernel)
  exact this

/-- C76 (violated: mixed coins). With three P2PKH coins and one nested segwit coin the transaction pays less
than the rate of one satoshi per byte that is asked for: the estimate leaves out the empty witnesses. -/
theorem C76_mixed_underpaid : ∃ (r : Str) (t : Spec.Tx),
    ((newWallet (.single keyB)).createTransaction crypto71 envB (argsB true) noNetwork
      (.given [plain71 70000 1, plain71 70000 2, plain71 60000 3, unspentB])).2 = .ok r ∧
    r = bytesToHex t.encode ∧ t.inputs.length = 4 ∧
    280000 - (t.outputs.map fun o => (o.value : Int)).sum < 1 * (t.vsize : Int) := by
  have := underpaid_spec (args := argsB true) (us := [plain71 70000 1, plain71 70000 2, plain71 60000 3, unspentB])
    (by decide +kernel)
  exact this

theorem laws71 (k : PrivKey) (hl : k.secret.length = 32) : KeyLaws crypto71 k where
  hash := ⟨sha256_length, ripemd160_length⟩
  zero := crypto_zeroPayloadOk
  pub := (toy_laws k hl).pub
  sig := fun data => by rw [crypto71_sig _ hl]; decide
  verify := by
    intro data
    have h : ((crypto71.sign k.secret data).take 33) = crypto.sign k.secret data := by
      show (toySig (toyPub k.secret true) data ++ List.replicate 38 0).take 33 = toySig (toyPub k.secret true) data
      have : (toySig (toyPub k.secret true) data).length = 33 := by
        unfold toySig toyPub
        simp [sha256_length, hl]
      rw [← this, List.take_left]
    show crypto.verify ((crypto71.sign k.secret data).take 33) data (k.publicKey crypto) = true
    rw [h]
    exact (toy_laws k hl).verify data

/-- The hypotheses of `C76_fee_rate`. -/
example : KeyLaws crypto71 keyB ∧ (∀ data, (crypto71.sign keyB.secret data).length ≤ 71) ∧
    (∀ u ∈ [plain71 70000 1, unspentB], TypeFits crypto71 keyB u ∧ WellSized keyB u) ∧
    0 ≤ askedFee envB (argsB true) := by
  refine ⟨laws71 _ rfl, fun data => by rw [crypto71_sig _ rfl], ?_, by decide⟩
  intro u hu
  rcases List.mem_cons.mp hu with rfl | hu
  · exact ⟨Or.inl ⟨by decide, rfl⟩, by unfold WellSized; decide⟩
  · rw [List.mem_singleton] at hu
    subst hu
    exact ⟨Or.inr ⟨by decide, by decide, rfl⟩, by unfold WellSized; decide⟩

end Bit
