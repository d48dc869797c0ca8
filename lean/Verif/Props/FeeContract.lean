import Verif.Props.FeeRate
import Verif.Props.Wallet
/-
The fee rate of transactions completed by the co-signers of a contract (C81).
-/
namespace Bit
open Bit.Concrete

/-! ## C81 -/

/-- The coin is booked with at least the size that `get_unspents` gives to the coins of the contract
(`kindSizes`). -/
def Booked (s : MultiSig) (u : Unspent) : Prop :=
  (if u.isSegwit then (kindSizes (.multi s)).2 else (kindSizes (.multi s)).1) ≤ u.vsize4

theorem compact_mono {a b : Nat} (h : a ≤ b) : (Spec.compact a).length ≤ (Spec.compact b).length := by
  unfold Spec.compact
  split_ifs <;> first | omega | simp [leEncode_length]

theorem pushPrefix_length {n : Nat} (h : n ≤ 520) :
    (pushPrefix n).length ≤ (Spec.compact n).length + 1 := by
  have e : (pushPrefix n).length = if n ≤ 75 then 1 else if n < 256 then 2 else 3 := by
    unfold pushPrefix scriptPush
    split_ifs
    · rw [intToUnknownBytes_lt256 (by omega)]; simp
    · rw [intToUnknownBytes_lt256 (by omega)]; simp
    · rw [toBytesLE_ok (by norm_num; omega)]
      show List.length (0x4d :: leBytes 2 n) = 3
      simp [leBytes]
    · omega
  rw [e]
  unfold Spec.compact
  split_ifs <;> first | omega | simp [leEncode_length]

/-- Signatures of at most 71 bytes, each with its hash type and its length prefix. -/
theorem sigs_size : ∀ (l : List Bytes), (∀ b ∈ l, b.length ≤ 72) → (l.flatMap Spec.varBytes).length ≤ 73 * l.length
  | [], _ => by simp
  | b :: l, h => by
    have hb := h b List.mem_cons_self
    have := sigs_size l fun c hc => h c (List.mem_cons_of_mem _ hc)
    rw [List.flatMap_cons, List.length_append, Spec.varBytes, compact_small (by omega), List.length_append,
      List.length_singleton, List.length_cons]
    omega

theorem contract_weight {C : Crypto} {s : MultiSig} (hs : ContractLaws C s) {ks : List PrivKey}
    (hks : ∀ k ∈ ks, SignerLaws C s k) (hsig : ∀ k ∈ ks, ∀ data, (C.sign k.secret data).length ≤ 71)
    (hdiff : (ks.map fun k => k.publicKey C).Nodup) (hm : (ks.length : Int) = s.m) {t : Spec.Tx} {j : Nat}
    {u v : Unspent} {i i' : Spec.TxInput} (hi : i'.prevTxid.length = 32) (he : i' = multiInput C s ks t j v i)
    (hseg : v.isSegwit = u.isSegwit) (hb : Booked s u) :
    (4 * i'.encode.length + (Spec.encodeStack i'.witness).length ≤
        u.vsize4 + (if i'.witness.isEmpty then 1 else 0) ∧ 4 * i'.encode.length ≤ u.vsize4) ∧
      i'.witness.isEmpty = !u.isSegwit ∧
      (2 ≤ s.m → 4 * i'.encode.length + (Spec.encodeStack i'.witness).length ≤ u.vsize4) := by
  obtain ⟨-, hrl, -, -, -⟩ := redeem_head hs
  have hpos := hs.pos
  have hne : ks ≠ [] := by
    intro h
    rw [h] at hm
    simp at hm
    omega
  have hmn : s.m.toNat = ks.length := by omega
  have hlen : ∀ d, (sigsFor C s ks d).length = ks.length := fun d =>
    sigsFor_length hs.nodup hdiff fun k hk => (hks k hk).mem
  have hitem : ∀ d, ∀ b ∈ sigsFor C s ks d, b.length ≤ 72 := by
    intro d b hb
    unfold sigsFor at hb
    obtain ⟨p, hp, rfl⟩ := List.mem_map.mp hb
    obtain ⟨k, hk, -, e⟩ := sigOf_mem (C := C) (d := d) (by simpa using (List.mem_filter.mp hp).2)
    rw [e, List.length_append, List.length_singleton]
    have := hsig k hk d
    omega
  have hpad : padding C s ks.length = 0 := by
    unfold padding
    split <;> omega
  unfold Booked kindSizes at hb
  rw [input_length hi]
  unfold multiInput at he
  dsimp only at he hb
  rw [if_neg hne, hmn, Nat.sub_self, hpad] at he
  rw [hmn] at hb
  cases hu : u.isSegwit with
  | false =>
    rw [hseg, hu] at he
    rw [hu] at hb
    simp only [Bool.false_eq_true, if_false] at he hb
    generalize hS : sigsFor C s ks _ = S at he
    have h1 := sigs_size S (by rw [← hS]; exact hitem _)
    have h2 : S.length = ks.length := by rw [← hS]; exact hlen _
    have h3 := pushPrefix_length hrl
    have hl : i'.script.length ≤ 1 + ks.length * 74 + (Spec.compact s.redeemscript.length).length +
        s.redeemscript.length := by
      rw [he]
      simp only [List.length_append, List.length_cons, List.length_nil, List.replicate_zero]
      have : 1 ≤ ks.length := by
        rcases ks with _ | ⟨a, l⟩
        · exact absurd rfl hne
        · simp
      omega
    have h4 := compact_mono hl
    have hw : i'.witness = [] := by rw [he]
    have e : (Spec.encodeStack []).length = 1 := by decide
    rw [hw, e]
    simp only [List.isEmpty_nil, if_true, Bool.not_false]
    refine ⟨⟨?_, ?_⟩, trivial, fun h2 => ?_⟩
    · omega
    · omega
    · have h5 : i'.script.length + 1 ≤ 1 + ks.length * 74 + (Spec.compact s.redeemscript.length).length +
          s.redeemscript.length := by
        rw [he]
        simp only [List.length_append, List.length_cons, List.length_nil, List.replicate_zero]
        omega
      omega
  | true =>
    rw [hseg, hu] at he
    rw [hu] at hb
    simp only [if_true] at he hb
    generalize hS : sigsFor C s ks _ = S at he
    have h1 := sigs_size S (by rw [← hS]; exact hitem _)
    have h2 : S.length = ks.length := by rw [← hS]; exact hlen _
    have h32 : (C.sha256 s.redeemscript).length = 32 := hs.hash.sha256_length _
    have hsc : i'.script.length = 35 := by
      rw [he]
      simp [Spec.witnessScript, h32]
    have hw : i'.witness = [] :: (S ++ [s.redeemscript]) := by
      rw [he]
      simp
    have hk15 : ks.length ≤ 15 := by
      obtain ⟨-, -, h, -, -⟩ := redeem_head hs
      omega
    have hst : (Spec.encodeStack i'.witness).length ≤
        2 + 73 * ks.length + (Spec.compact s.redeemscript.length).length + s.redeemscript.length := by
      rw [hw]
      have e0 : (Spec.varBytes ([] : Bytes)).length = 1 := by decide
      simp only [Spec.encodeStack, List.length_append, List.flatMap_cons, List.flatMap_append, List.flatMap_nil,
        List.length_cons, List.length_nil, e0]
      rw [compact_length (by omega)]
      have : (Spec.varBytes s.redeemscript).length =
          (Spec.compact s.redeemscript.length).length + s.redeemscript.length := by
        simp [Spec.varBytes]
      omega
    rw [hsc, compact_length (by norm_num)]
    have hem : i'.witness.isEmpty = false := by rw [hw]; rfl
    rw [hem]
    simp only [Bool.not_true, Bool.false_eq_true, if_false]
    refine ⟨⟨?_, ?_⟩, trivial, fun h2 => ?_⟩ <;> omega

theorem inputs_sum {sel : List Unspent} {ins : List Spec.TxInput}
    (h : List.Forall₂ (fun (u : Unspent) (i : Spec.TxInput) =>
      4 * i.encode.length + (Spec.encodeStack i.witness).length ≤ u.vsize4) sel ins) :
    4 * (ins.flatMap Spec.TxInput.encode).length + (ins.flatMap fun i => Spec.encodeStack i.witness).length ≤
      (sel.map Unspent.vsize4).sum := by
  induction h with
  | nil => simp
  | cons hr _ ih =>
    simp only [List.flatMap_cons, List.length_append, List.map_cons, List.sum_cons]
    omega

/-- A completed transaction from coins of a contract: no input takes more than its coin is booked with. -/
theorem contract_shape {Amount : Type} (C : Crypto) (s : MultiSig) (hs : ContractLaws C s)
    (env : Env Amount) (hshuffle : ∀ l, (env.shuffle l).Perm l) (args : TxArgs Amount) (ask : Ask) (w : Wallet)
    (hw : w.signer = .multi s) (us : List Unspent) (hne : us ≠ []) (htx : ∀ u ∈ us, TxidOk u) (hd : Distinct us)
    (hown : ∀ u ∈ us, PaysContract C s u ∧ ContractFits C s u ∧ Booked s u)
    (others : List PrivKey) (hks : ∀ k ∈ s.key :: others, SignerLaws C s k)
    (hsig : ∀ k ∈ s.key :: others, ∀ data, (C.sign k.secret data).length ≤ 71)
    (hap : ∀ sel change fee t, Built C env args (.multi s) us sel change fee t → NoMixup C s (s.key :: others) us t)
    (hdiff : ((s.key :: others).map fun k => k.publicKey C).Nodup) (hm : ((s.key :: others).length : Int) = s.m)
    (r r' : Str) (h : (w.createTransaction C env args ask (.given us)).2 = .ok r)
    (h' : cosign C s us others r = .ok r') :
    ∃ (sel : List Unspent) (change : Str) (fee : Int) (t : Spec.Tx), t.WF ∧ r' = bytesToHex t.encode ∧
      Built C env args (.multi s) us sel change fee t ∧
      List.Forall₂ (fun (u : Unspent) (i : Spec.TxInput) =>
        4 * i.encode.length + (Spec.encodeStack i.witness).length ≤ u.vsize4 + (if i.witness.isEmpty then 1 else 0) ∧
        4 * i.encode.length ≤ u.vsize4) sel t.inputs ∧
      List.Forall₂ (fun (u : Unspent) (i : Spec.TxInput) => i.witness.isEmpty = !u.isSegwit) sel t.inputs ∧
      (2 ≤ s.m → List.Forall₂ (fun (u : Unspent) (i : Spec.TxInput) =>
        4 * i.encode.length + (Spec.encodeStack i.witness).length ≤ u.vsize4) sel t.inputs) := by
  obtain ⟨v, b, hv⟩ := created_can hshuffle hne htx h
  rw [hw] at hv
  have hcan := can_iff_pays_contract hs.toContractShape hv
  obtain ⟨sel, change, fee, t, h1, h2, h3, -, h5⟩ := create_contract_spends C s hs env hshuffle args ask w hw us hne htx hd
    (fun u hu _ => (hown u hu).2.1) others hks hap hdiff hm r r' h h'
  have hboth : ∀ (j : Nat) (u : Unspent) (i : Spec.TxInput), sel[j]? = some u → t.inputs[j]? = some i →
      (4 * i.encode.length + (Spec.encodeStack i.witness).length ≤ u.vsize4 + (if i.witness.isEmpty then 1 else 0) ∧
        4 * i.encode.length ≤ u.vsize4) ∧ i.witness.isEmpty = !u.isSegwit ∧
      (2 ≤ s.m → 4 * i.encode.length + (Spec.encodeStack i.witness).length ≤ u.vsize4) := by
    intro j u i hu hi
    have hmem := h2.selected.subset (List.mem_of_getElem? hu)
    have := h5 j u i hu hi
    rw [if_pos ((hcan u).mpr (hown u hmem).1)] at this
    obtain ⟨-, t₀, j₀, v₀, i₀, e, hv⟩ := this
    exact contract_weight hs (fun k hk => hks k (List.mem_reverse.mp hk)) (fun k hk => hsig k (List.mem_reverse.mp hk))
      ((((List.reverse_perm _).map _).nodup_iff).mpr hdiff) (by rw [List.length_reverse]; exact hm)
      (h1.input i (List.mem_of_getElem? hi)).txid e hv (hown u hmem).2.2
  have hkinds : List.Forall₂ (fun (u : Unspent) (i : Spec.TxInput) => i.witness.isEmpty = !u.isSegwit) sel t.inputs :=
    forall₂_iff_get.mpr ⟨h2.inputs.length_eq, fun j u i hu hi => (hboth j u i hu hi).2.1⟩
  have hany : t.inputs.any (fun i => !i.witness.isEmpty) = sel.any (fun u => decide (u.segwit = some true)) := by
    have e : ∀ u : Unspent, decide (u.segwit = some true) = u.isSegwit := by
      intro u
      unfold Unspent.isSegwit
      cases u.segwit with
      | none => rfl
      | some b => cases b <;> rfl
    simp only [e]
    clear hboth h5 h3 h2 h1
    generalize t.inputs = ins at hkinds
    induction hkinds with
    | nil => rfl
    | cons h _ ih => rw [List.any_cons, List.any_cons, ih, h, Bool.not_not]
  refine ⟨sel, change, fee, t, h1, ?_, h2,
    forall₂_iff_get.mpr ⟨h2.inputs.length_eq, fun j u i hu hi => (hboth j u i hu hi).1⟩, hkinds,
    fun h2m => forall₂_iff_get.mpr ⟨h2.inputs.length_eq, fun j u i hu hi => (hboth j u i hu hi).2.2 h2m⟩⟩
  rw [h3, ← hany]
  unfold Spec.Tx.encode
  have : t.inputs.all (fun i => i.witness.isEmpty) = !(t.inputs.any fun i => !i.witness.isEmpty) := by
    rw [List.not_any_eq_all_not]
    simp
  rw [this]
  cases t.inputs.any fun i => !i.witness.isEmpty <;> rfl

/-- C81. The holder of one key of a contract creates a transaction from coins of the contract with a fee rate
(satoshi per byte), and the other co-signers needed sign the text one after the other. What the completed
transaction leaves to the miners is at least the rate times its virtual size, but for the shortfall of
C76: at most 9/4 bytes, a quarter of a byte for every input without witness beside one with a witness, and two
bytes for every message output. There is no shortfall if all coins are used (`combine`, the default),
no message output has a script of more than 80 bytes, and the contract asks for two or more signatures or all inputs
are of the same kind. It takes: signatures of
at most 71 bytes (low-S DER), coins booked with the sizes that `get_unspents` gives (`C81_booked`), at
most 252 inputs and outputs and output scripts of at most 252 bytes. -/
theorem C81_fee_rate {Amount : Type} (C : Crypto) (s : MultiSig) (hs : ContractLaws C s)
    (env : Env Amount) (hshuffle : ∀ l, (env.shuffle l).Perm l) (args : TxArgs Amount) (ask : Ask) (w : Wallet)
    (hw : w.signer = .multi s) (us : List Unspent) (hne : us ≠ []) (htx : ∀ u ∈ us, TxidOk u) (hd : Distinct us)
    (hown : ∀ u ∈ us, PaysContract C s u ∧ ContractFits C s u ∧ Booked s u)
    (others : List PrivKey) (hks : ∀ k ∈ s.key :: others, SignerLaws C s k)
    (hsig : ∀ k ∈ s.key :: others, ∀ data, (C.sign k.secret data).length ≤ 71)
    (hap : ∀ sel change fee t, Built C env args (.multi s) us sel change fee t → NoMixup C s (s.key :: others) us t)
    (hdiff : ((s.key :: others).map fun k => k.publicKey C).Nodup) (hm : ((s.key :: others).length : Int) = s.m)
    (hrel : args.absoluteFee = false) (hrate : 0 ≤ askedFee env args)
    (r r' : Str) (h : (w.createTransaction C env args ask (.given us)).2 = .ok r)
    (h' : cosign C s us others r = .ok r') :
    ∃ (t : Spec.Tx) (sel : List Unspent) (fee : Int), t.WF ∧ r' = bytesToHex t.encode ∧ sel.Subperm us ∧
      List.Forall₂ (fun (u : Unspent) (i : Spec.TxInput) => u.txid = bytesToHex i.prevTxid.reverse ∧
        (i.prevIndex : Int) = u.txindex) sel t.inputs ∧
      (sel.map Unspent.amount).sum = (t.outputs.map fun o => (o.value : Int)).sum + fee ∧
      (t.inputs.length < 253 → t.outputs.length < 253 → (∀ o ∈ t.outputs, o.script.length < 253) →
        4 * (askedFee env args * t.vsize) ≤
          4 * fee + askedFee env args * (9 + bareInputs t + 8 * messageOutputs t : Nat) ∧
        (args.combine = true → (2 ≤ s.m ∨ (∀ i ∈ t.inputs, i.witness = []) ∨ ∀ i ∈ t.inputs, i.witness ≠ []) →
          (∀ o ∈ t.outputs, o.script.head? = some 0x6a → o.script.length ≤ 80) →
          askedFee env args * t.vsize ≤ fee)) := by
  obtain ⟨sel, change, fee, t, h1, hr, h2, hshape, hkinds, htight⟩ := contract_shape C s hs env hshuffle args ask w hw us hne
    htx hd hown others hks hsig hap hdiff hm r r' h h'
  refine ⟨t, sel, fee, h1, hr, h2.selected, h2.inputs.imp fun u i h => ⟨h.1, h.2.1⟩, h2.balanced, ?_⟩
  intro hin hout hsc
  obtain ⟨c1, c2⟩ := fee_core h2 hrel hrate hshape hkinds hin hout hsc
  refine ⟨c1, fun hcomb hkind => c2 hcomb ?_⟩
  rcases hkind with h2m | hk | hk
  · exact Or.inr (Or.inr (inputs_sum (htight h2m)))
  · exact Or.inl hk
  · exact Or.inr (Or.inl hk)

/-- C81. The coins that `get_unspents` finds for a contract are booked with these sizes. -/
theorem C81_booked (C : Crypto) (ask : Ask) (w w' : Wallet) (s : MultiSig) (hw : w.signer = .multi s) (hm : 0 ≤ s.m)
    (us : List Unspent) (h : w.getUnspents C ask = (w', .ok us)) : ∀ u ∈ us, Booked s u := by
  obtain ⟨address, segwit, l₁, l₂, us₁, us₂, v₁, v₂, -, -, -, -, -, hv, rfl, f1, f2, -⟩ := C52_refresh C ask w w' us h
  rw [hw] at hv f1 f2
  have hv := hv fun t ht => by injection ht with ht; subst ht; exact hm
  have e1 := congrArg Prod.fst hv
  have e2 := congrArg Prod.snd hv
  dsimp only at e1 e2
  have hne1 : (kindSizes (.multi s)).1 ≠ 0 := by unfold kindSizes; dsimp only; omega
  have hne2 : (kindSizes (.multi s)).2 ≠ 0 := by unfold kindSizes; dsimp only; omega
  have hfind : ∀ {name : Str} {v : Nat} {l us : List Unspent}, List.Forall₂ (Retyped name v) l us → ∀ u ∈ us,
      ∃ x, Retyped name v x u := by
    intro name v l us hf
    induction hf with
    | nil => simp
    | cons h _ ih =>
      intro u hu
      rcases List.mem_cons.mp hu with rfl | hu
      · exact ⟨_, h⟩
      · exact ih u hu
  intro u hu
  unfold Booked
  rcases List.mem_append.mp hu with hu | hu
  · obtain ⟨x, hx⟩ := hfind f1 u hu
    have hsg : u.isSegwit = false := by
      unfold Unspent.isSegwit
      rw [hx.segwit]
      show (Spec.kindOf "p2sh".toList).2.1.getD false = false
      decide
    rw [hx.size, hsg, if_neg Bool.false_ne_true, e1, if_pos hne1]
  · obtain ⟨x, hx⟩ := hfind f2 u hu
    have hsg : u.isSegwit = true := by
      unfold Unspent.isSegwit
      rw [hx.segwit]
      show (Spec.kindOf "np2wsh".toList).2.1.getD false = true
      decide
    rw [hx.size, hsg, if_pos rfl, e2, if_pos hne2]

/-! Samples. The 2-of-3 contract pays 20000 satoshi at one satoshi per byte from coins as `get_unspents` gives them;
key A creates, key C signs. -/

/-- A coin of a contract of the toy keys as `get_unspents` gives it. -/
def coinOf (s : MultiSig) (segwit : Bool) (amount : Int) (n : UInt8) : Unspent :=
  if segwit then
    mkUnspent amount 3 (bytesToHex (Spec.p2shScript (ripemd160 (sha256 (Spec.witnessScript 0 (sha256 s.redeemscript))))))
      (bytesToHex (List.replicate 32 n)) 1 "np2wsh".toList (kindSizes (.multi s)).2 none 4294967295
  else
    mkUnspent amount 3 (bytesToHex (Spec.p2shScript (ripemd160 (sha256 s.redeemscript))))
      (bytesToHex (List.replicate 32 n)) 1 "p2sh".toList (kindSizes (.multi s)).1 none 4294967295

/-- The hypotheses of `C81_fee_rate` (the laws of the contract and its signers are `contract_laws`, `contract_signer`
and `contract_noMixup`). -/
example :
    (∀ u ∈ [coinOf contract true 90000 1, coinOf contract false 60000 2], PaysContract crypto contract u ∧
      ContractFits crypto contract u ∧ Booked contract u) ∧
    Distinct [coinOf contract true 90000 1, coinOf contract false 60000 2] ∧
    0 ≤ askedFee envB (argsB true) ∧ (argsB true).absoluteFee = false := by
  refine ⟨?_, by unfold Distinct; decide +kernel, by decide, by decide⟩
  intro u hu
  rcases List.mem_cons.mp hu with rfl | hu
  · exact ⟨Or.inr ⟨rfl, rfl⟩, Or.inr ⟨by decide, rfl⟩, by unfold Booked; decide +kernel⟩
  · rw [List.mem_singleton] at hu
    subst hu
    exact ⟨Or.inl rfl, Or.inl ⟨by decide, rfl⟩, by unfold Booked; decide +kernel⟩

/-- Create with key A, sign with key C. -/
example : (match (contractWallet.createTransaction crypto envB (argsB true) noNetwork
      (.given [coinOf contract true 90000 1, coinOf contract false 60000 2])).2 with
    | .error e => .error e
    | .ok r => cosign crypto contract [coinOf contract true 90000 1, coinOf contract false 60000 2] [keyC] r :
      Py Str).toOption.isSome = true := by decide +kernel

/-- A 1-of-3 contract of the toy keys. -/
def contract13 : MultiSig := { contract with m := 1, redeemscript := 0x51 :: contract.redeemscript.drop 1 }

example : mkMultiSig crypto .main keyA (.list [.bytes (keyA.publicKey crypto), .bytes (keyB.publicKey crypto),
    .bytes (keyC.publicKey crypto)]) 1 = .ok contract13 := by decide +kernel

/-- C81 (violated: mixed coins of a contract that asks for one signature). With two P2SH coins and one nested
segwit coin of a 1-of-3 contract, and signatures of 71 bytes, the transaction pays less than the rate of one satoshi
per byte that is asked for: the estimate leaves out the empty witnesses and a byte before the redeem script. -/
theorem C81_mixed_underpaid : ∃ (r : Str) (t : Spec.Tx),
    ((newWallet (.multi contract13)).createTransaction crypto71 envB (argsB true) noNetwork
      (.given [coinOf contract13 true 60000 1, coinOf contract13 false 60000 2, coinOf contract13 false 60000 3])).2 =
        .ok r ∧
    r = bytesToHex t.encode ∧ t.inputs.length = 3 ∧
    180000 - (t.outputs.map fun o => (o.value : Int)).sum < 1 * (t.vsize : Int) := by
  have h : (match ((newWallet (.multi contract13)).createTransaction crypto71 envB (argsB true) noNetwork
      (.given [coinOf contract13 true 60000 1, coinOf contract13 false 60000 2, coinOf contract13 false 60000 3])).2 with
    | .error _ => false
    | .ok r =>
      match readTx r with
      | none => false
      | some t => decide (r = bytesToHex t.encode) && decide (t.inputs.length = 3) &&
          decide (180000 - (t.outputs.map fun o => (o.value : Int)).sum < 1 * (t.vsize : Int))) = true := by
    decide +kernel
  split at h
  · cases h
  · rename_i r hr
    split at h
    · cases h
    · rename_i t ht
      simp only [Bool.and_eq_true, decide_eq_true_eq] at h
      exact ⟨r, t, hr, h.1.1, h.1.2, h.2⟩

end Bit
