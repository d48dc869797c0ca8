import Verif.Props.KeyThreads
import Verif.Props.Create
import Mathlib.Data.List.Perm.Subperm
/-
C103: what the doubled list of two threads does to a payment.
-/
namespace Bit
open Concrete

theorem subperm_sum_le {l l' : List Unspent} (h : l.Subperm l') (h0 : ∀ u ∈ l', 0 ≤ u.amount) :
    (l.map Unspent.amount).sum ≤ (l'.map Unspent.amount).sum := by
  obtain ⟨p, hp, hs⟩ := h
  rw [← (hp.map Unspent.amount).sum_eq]
  clear hp
  induction hs with
  | slnil => simp
  | cons u _ ih =>
    have := h0 u (by simp)
    have := ih (fun v hv => h0 v (by simp [hv]))
    simp only [List.map_cons, List.sum_cons]; omega
  | cons_cons u _ ih =>
    have := ih (fun v hv => h0 v (by simp [hv]))
    simp only [List.map_cons, List.sum_cons]; omega

/-- C103 (a fault). A payment out of such a list is not limited to what there is: if the coins of the segwit address are
listed twice and the outputs with the fee need more than the coins really have, creating the transaction does not raise for
that reason, and in what is signed two inputs name the same coin. -/
theorem C103_overspent {Amount : Type} (C : Crypto) (env : Env Amount) (hshuffle : ∀ l, (env.shuffle l).Perm l)
    (args : TxArgs Amount) (ask : Ask) (w : Wallet) (l s : List Unspent) (hne : l ++ s ≠ [])
    (htx : ∀ u ∈ l ++ s, TxidOk u) (r : Str)
    (h : (w.createTransaction C env args ask (.given (l ++ s ++ s))).2 = .ok r) :
    ∃ (sel : List Unspent) (change : Str) (fee : Int) (t : Spec.Tx), t.WF ∧
      Built C env args w.signer (l ++ s ++ s) sel change fee t ∧
      signTransactionHex C w.signer
        (bytesToHex (if sel.any (fun u => u.segwit = some true) then t.encodeExtended else t.encodeLegacy))
        (signedCoins args.replaceByFee sel) = .ok r ∧
      ((∀ u ∈ l ++ s, 0 ≤ u.amount) →
        ((l ++ s).map Unspent.amount).sum < (t.outputs.map fun o => (o.value : Int)).sum + fee →
        ∃ a b : Nat, a < b ∧ ∃ i j : Spec.TxInput, t.inputs[a]? = some i ∧ t.inputs[b]? = some j ∧
          i.prevTxid = j.prevTxid ∧ i.prevIndex = j.prevIndex) := by
  have hmem : ∀ u, u ∈ l ++ s ++ s ↔ u ∈ l ++ s := by intro u; simp
  obtain ⟨sel, change, fee, t, h1, h2, -, -, h5⟩ := C63_unsigned C env hshuffle args ask w (l ++ s ++ s)
    (by intro hx; apply hne; rw [List.append_eq_nil_iff] at hx; exact hx.1) (fun u hu => htx u ((hmem u).mp hu)) r h
  refine ⟨sel, change, fee, t, h1, h2, h5, fun h0 hlt => ?_⟩
  have hdup : ¬ sel.Nodup := by
    intro hd
    have hsub : sel.Subperm (l ++ s) := List.subperm_of_subset hd (fun u hu => (hmem u).mp (h2.selected.subset hu))
    have := subperm_sum_le hsub h0
    rw [h2.balanced] at this
    omega
  rw [List.nodup_iff_getElem?_ne_getElem?] at hdup
  push Not at hdup
  obtain ⟨a, b, hab, hb, he⟩ := hdup
  have hf := h2.inputs
  have hlen := hf.length_eq
  have ha : a < sel.length := by omega
  refine ⟨a, b, hab, t.inputs[a], t.inputs[b], List.getElem?_eq_getElem (by omega), List.getElem?_eq_getElem (by omega), ?_⟩
  have fa := (List.forall₂_iff_get.mp hf).2 a ha (by omega)
  have fb := (List.forall₂_iff_get.mp hf).2 b hb (by omega)
  rw [List.getElem?_eq_getElem ha, List.getElem?_eq_getElem hb] at he
  have he := Option.some.inj he
  simp only [List.get_eq_getElem] at fa fb
  rw [he] at fa
  constructor
  · have := fa.1.symm.trans fb.1
    exact List.reverse_injective (bytesToHex_injective this)
  · have := fa.2.1.trans fb.2.1.symm
    exact_mod_cast this

/-- Two threads have left its coin twice in the list, and key B, which has one coin of 80000 satoshi, pays 100000. -/
example : ((newWallet (.single keyB)).createTransaction crypto envB { argsB true with outputs := [(addrA, 100000)] } noNetwork
    (.given ([] ++ [unspentB] ++ [unspentB]))).2.toOption.isSome = true := by
  decide +kernel

/-- The two threads: the services report nothing for the address of key B and one coin for its segwit address. Afterwards
it is listed twice. -/
example : ∃ schedule, ((KeyWorld.init [] 0).run (refreshUnspents ("p2pkh".toList, 592) ("np2wkh".toList, 364) (some []))
      schedule).list = [unspentB, unspentB] ∧
    ((KeyWorld.init [] 0).run (refreshUnspents ("p2pkh".toList, 592) ("np2wkh".toList, 364) (some []))
      schedule).balance = 160000 := by
  obtain ⟨s, -, -, -, h1, h2⟩ := C103_twice (refreshUnspents ("p2pkh".toList, 592) ("np2wkh".toList, 364) (some []))
    Unspent.amount rfl _ rfl (.ok (some [])) (.ok (some [unspentBDefault])) [] [unspentB] rfl (by decide +kernel) [] 0
  exact ⟨s, h1, h2⟩

/-- One after the other: the list has every coin once. -/
example :
    let R := refreshUnspents ("p2pkh".toList, 592) ("np2wkh".toList, 364) (some [])
    let call := fun i => (i, Except.ok (some [])) :: (i, .ok (some [])) :: List.replicate 5 (i, .ok (some [unspentBDefault]))
    ((KeyWorld.init [] 0).run R (call 0 ++ call 1)).list = [unspentB] ∧
    ((KeyWorld.init [] 0).run R (call 0 ++ call 1)).balance = 80000 := by
  decide +kernel

end Bit
