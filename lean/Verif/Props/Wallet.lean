import Verif.Model.Wallet
import Verif.Props.Unspent
import Verif.Props.SignMulti
import Verif.Props.Build
import Verif.Lemmas.JsonText
/-
C51 (offline signing) and C52 (balance and unspents of a key object).
-/
namespace Bit
open Concrete

/-! ## C52 -/

/-- `v` is the coin `u`, with kind `name` and its witness flag, and with the size `vsize4` (or, if that
is zero, the default size of the kind). -/
structure Retyped (name : Str) (vsize4 : Nat) (u v : Unspent) : Prop where
  amount : v.amount = u.amount
  confirmations : v.confirmations = u.confirmations
  script : v.script = u.script
  txid : v.txid = u.txid
  txindex : v.txindex = u.txindex
  sequence : v.sequence = u.sequence
  type : v.type = name
  segwit : v.segwit = (Spec.kindOf name).2.1
  size : v.vsize4 = if vsize4 ≠ 0 then vsize4 else (Spec.kindOf name).2.2

/-- The kinds of the unspents of the two addresses, with their sizes for a contract. -/
def legacyKind (C : Crypto) : Signer → Str
  | .single k => if (k.publicKey C).length = 33 then "p2pkh".toList else "p2pkh-uncompressed".toList
  | .multi _ => "p2sh".toList

def segwitKind : Signer → Str
  | .single _ => "np2wkh".toList
  | .multi _ => "np2wsh".toList

/-- Four times the sizes counted for an input of a contract: outpoint, sequence, the length prefix of the
input script and the input script, that is one byte, 74 bytes for each of the required signatures and
the redeem script with its length prefix; for a witness input the input script has 36 bytes with its
prefix and the rest counts a quarter. -/
def kindSizes : Signer → Nat × Nat
  | .single _ => (0, 0)
  | .multi s =>
    let r := s.redeemscript.length
    let n := 1 + s.m.toNat * 74 + (Spec.compact r).length + r
    (4 * (40 + (Spec.compact n).length + n), 4 * (36 + 40) + (1 + n))

theorem kinds_names {C : Crypto} {s : Signer} {a b : Str × Nat} (h : s.kinds C = .ok (a, b)) :
    a.1 = legacyKind C s ∧ b.1 = segwitKind s ∧
    ((∀ t, s = .multi t → 0 ≤ t.m) → (a.2, b.2) = kindSizes s) := by
  cases s with
  | single k =>
    injection h with h
    injection h with h1 h2
    subst h1; subst h2
    refine ⟨?_, rfl, fun _ => rfl⟩
    unfold legacyKind PrivKey.isCompressed
    by_cases hc : (k.publicKey C).length = 33 <;> simp [hc]
  | multi s =>
    unfold Signer.kinds at h
    dsimp only at h
    split at h
    · cases h
    · rename_i l hl
      split at h
      · cases h
      · rename_i l2 hl2
        injection h with h
        injection h with h1 h2
        subst h1; subst h2
        refine ⟨rfl, rfl, fun hm => ?_⟩
        have h0 := hm s rfl
        unfold kindSizes
        dsimp only
        have e1 := (intToVarint_ok hl).2
        unfold intToVarintInt at hl2
        rw [if_neg (by omega)] at hl2
        have e2 := (intToVarint_ok hl2).2
        have e3 : (1 + s.m * 74 + (l.length : Int) + (s.redeemscript.length : Int)).toNat =
            1 + s.m.toNat * 74 + (Spec.compact s.redeemscript.length).length + s.redeemscript.length := by
          rw [← e1]; omega
        rw [e3] at e2
        rw [← e2, ← e1]
        apply Prod.ext
        · dsimp only; omega
        · dsimp only; omega

theorem setType_retyped {name : Str} (hn : (Spec.kindOf name).1 = name) (v : Nat) (u : Unspent) :
    Retyped name v u (u.setType name v) := by
  unfold Unspent.setType
  rw [withType_spec]
  exact ⟨rfl, rfl, rfl, rfl, rfl, rfl, hn, rfl, rfl⟩

theorem legacyKind_name (C : Crypto) (s : Signer) : (Spec.kindOf (legacyKind C s)).1 = legacyKind C s := by
  cases s with
  | single k =>
    have h1 : (Spec.kindOf "p2pkh".toList).1 = "p2pkh".toList := by decide
    have h2 : (Spec.kindOf "p2pkh-uncompressed".toList).1 = "p2pkh-uncompressed".toList := by decide
    show (Spec.kindOf (if (k.publicKey C).length = 33 then "p2pkh".toList
      else "p2pkh-uncompressed".toList)).1 = _
    by_cases hc : (k.publicKey C).length = 33
    · simp only [legacyKind, hc, if_true]; exact h1
    · simp only [legacyKind, hc, if_false]; exact h2
  | multi s =>
    have h : (Spec.kindOf "p2sh".toList).1 = "p2sh".toList := by decide
    exact h

theorem segwitKind_name (s : Signer) : (Spec.kindOf (segwitKind s)).1 = segwitKind s := by
  have h1 : (Spec.kindOf "np2wkh".toList).1 = "np2wkh".toList := by decide
  have h2 : (Spec.kindOf "np2wsh".toList).1 = "np2wsh".toList := by decide
  cases s
  · exact h1
  · exact h2

theorem map_retyped {name : Str} (hn : (Spec.kindOf name).1 = name) (v : Nat) : ∀ us : List Unspent,
    List.Forall₂ (Retyped name v) us (us.map fun u => u.setType name v)
  | [] => .nil
  | u :: us => .cons (setType_retyped hn v u) (map_retyped hn v us)

theorem retyped_amounts {name : Str} {v : Nat} {us us' : List Unspent}
    (h : List.Forall₂ (Retyped name v) us us') : us'.map Unspent.amount = us.map Unspent.amount := by
  induction h with
  | nil => rfl
  | cons hu _ ih => rw [List.map_cons, List.map_cons, ih, hu.amount]

theorem retype_ok {kind : Str × Nat} {a : Py (Option (List Unspent))} {us : List Unspent}
    (h : retype kind a = .ok us) :
    ∃ l, a = .ok (some l) ∧ us = l.map fun u => u.setType kind.1 kind.2 := by
  unfold retype at h
  split at h
  · cases h
  · cases h
  · rename_i l
    injection h with h
    exact ⟨l, rfl, h.symm⟩

/-- C52. A successful refresh asks for the unspents of the legacy address and, if there is one, of the
segwit address; the stored list and the result are the answers in this order, each coin with the kind of
its address and otherwise unchanged; and the balance is the sum of all amounts in the answers. -/
theorem C52_refresh (C : Crypto) (ask : Ask) (w w' : Wallet) (us : List Unspent)
    (h : w.getUnspents C ask = (w', .ok us)) :
    ∃ (address : Str) (segwit : Option Str) (l₁ l₂ us₁ us₂ : List Unspent) (v₁ v₂ : Nat),
      w.signer.address C = .ok address ∧ w.signer.segwitAddress C = .ok segwit ∧
      ask address = .ok (some l₁) ∧
      (segwit = none → l₂ = []) ∧ (∀ a, segwit = some a → ask a = .ok (some l₂)) ∧
      ((∀ t, w.signer = .multi t → 0 ≤ t.m) → (v₁, v₂) = kindSizes w.signer) ∧
      us = us₁ ++ us₂ ∧ List.Forall₂ (Retyped (legacyKind C w.signer) v₁) l₁ us₁ ∧
      List.Forall₂ (Retyped (segwitKind w.signer) v₂) l₂ us₂ ∧
      w'.signer = w.signer ∧ w'.unspents = us ∧
      w'.balance = (l₁.map Unspent.amount).sum + (l₂.map Unspent.amount).sum ∧
      w'.balance = (w'.unspents.map Unspent.amount).sum := by
  unfold Wallet.getUnspents at h
  split at h
  · cases h
  · rename_i k1 k2 hk
    obtain ⟨n1, n2, n3⟩ := kinds_names hk
    split at h
    · cases h
    · rename_i address ha
      split at h
      · cases h
      · rename_i us₁ h1
        obtain ⟨l₁, hl₁, rfl⟩ := retype_ok h1
        have f1 : List.Forall₂ (Retyped (legacyKind C w.signer) k1.2) l₁
            (l₁.map fun u => u.setType k1.1 k1.2) := by
          rw [n1]; exact map_retyped (legacyKind_name C w.signer) _ _
        dsimp only at h
        split at h
        · cases h
        · rename_i hs
          injection h with hw hu
          injection hu with hu
          subst hw; subst hu
          refine ⟨address, none, l₁, [], _, [], k1.2, k2.2, ha, hs, hl₁, fun _ => rfl,
            fun a h => by (cases h), n3, (List.append_nil _).symm, f1, .nil, rfl, rfl, ?_, rfl⟩
          dsimp only
          rw [retyped_amounts f1, List.map_nil, List.sum_nil, Int.add_zero]
        · rename_i sa hs
          split at h
          · cases h
          · rename_i us₂ h2
            obtain ⟨l₂, hl₂, rfl⟩ := retype_ok h2
            have f2 : List.Forall₂ (Retyped (segwitKind w.signer) k2.2) l₂
                (l₂.map fun u => u.setType k2.1 k2.2) := by
              rw [n2]; exact map_retyped (segwitKind_name w.signer) _ _
            injection h with hw hu
            injection hu with hu
            subst hw; subst hu
            refine ⟨address, some sa, l₁, l₂, _, _, k1.2, k2.2, ha, hs, hl₁, fun h => by (cases h),
              ?_, n3, rfl, f1, f2, rfl, rfl, ?_, rfl⟩
            · intro a ha'
              injection ha' with ha'
              rw [← ha']; exact hl₂
            · dsimp only
              rw [List.map_append, retyped_amounts f1, retyped_amounts f2, List.sum_append]

/-- A call on a key object. -/
inductive WalletCall (Amount : Type)
  | refresh (ask : Ask)
  | create (env : Env Amount) (args : TxArgs Amount) (ask : Ask) (src : Source)

/-- The object after a call. -/
def Wallet.after {Amount : Type} (C : Crypto) (w : Wallet) : WalletCall Amount → Wallet
  | .refresh ask => (w.getUnspents C ask).1
  | .create env args ask src => (w.createTransaction C env args ask src).1

/-- The question for the segwit address, if it comes to it, is answered. -/
def SegwitAnswered (C : Crypto) (s : Signer) (ask : Ask) : Prop :=
  ∃ o, s.segwitAddress C = .ok o ∧ ∀ a, o = some a → ∃ us, ask a = .ok (some us)

/-- Calls after which the balance is still the sum of the unspents: the network answers the question for
the segwit address, and transactions consolidate. -/
def Harmless {Amount : Type} (C : Crypto) (s : Signer) : WalletCall Amount → Prop
  | .refresh ask => SegwitAnswered C s ask
  | .create env args ask _ => SegwitAnswered C s ask ∧ args.combine = true ∧
      ∀ l, (env.shuffle l).Perm l

theorem getUnspents_signer (C : Crypto) (ask : Ask) (w : Wallet) :
    (w.getUnspents C ask).1.signer = w.signer := by
  unfold Wallet.getUnspents
  repeat' (first | rfl | split | dsimp only)

theorem getUnspents_harmless {C : Crypto} {ask : Ask} {w : Wallet} (ha : SegwitAnswered C w.signer ask)
    (h : w.balance = (w.unspents.map Unspent.amount).sum) :
    (w.getUnspents C ask).1.balance = ((w.getUnspents C ask).1.unspents.map Unspent.amount).sum := by
  obtain ⟨o, ho, hans⟩ := ha
  unfold Wallet.getUnspents
  cases hk : w.signer.kinds C with
  | error e => exact h
  | ok k =>
    obtain ⟨k1, k2⟩ := k
    dsimp only
    cases hadr : w.signer.address C with
    | error e => exact h
    | ok a =>
      dsimp only
      cases hr : retype k1 (ask a) with
      | error e => exact h
      | ok us =>
        dsimp only
        rw [ho]
        cases o with
        | none => rfl
        | some sa =>
          obtain ⟨l, hl⟩ := hans sa rfl
          dsimp only
          rw [hl]
          rfl

theorem consolidate_all {flips : Nat → Bool} {shuffle : List Unspent → List Unspent}
    (hs : ∀ l, (shuffle l).Perm l) {target fee : Int} {sizes : List Nat} {minChange : Int}
    {absoluteFee : Bool} {us sel : List Unspent} {rem : Int} (hne : us ≠ [])
    (h : selectCoins flips shuffle target fee sizes minChange absoluteFee true us = .ok (sel, rem)) :
    sel = us := by
  rw [C35_consolidate _ _ hs _ _ _ _ _ _ hne] at h
  generalize (if absoluteFee then fee else feeFor fee sizes us) = f at h
  split at h
  · injection h with h
    injection h with h1 _
    exact h1.symm
  · cases h

theorem listAfter_consolidate {Amount : Type} {C : Crypto} {env : Env Amount} {args : TxArgs Amount}
    (hs : ∀ l, (env.shuffle l).Perm l) (hc : args.combine = true) (us : List Unspent) (d : Option Str) :
    (listAfter C env args us d).map Unspent.amount = us.map Unspent.amount := by
  unfold listAfter
  split
  · rfl
  · split
    · rfl
    · rename_i hne
      split
      · rfl
      · split
        · rfl
        · split
          · rfl
          · split
            · rfl
            · split
              · rfl
              · rename_i sel rem hsel
                rw [hc] at hsel
                have e := consolidate_all hs (by simpa using hne) hsel
                subst e
                exact optIn_map _ (fun u => (optIn_fields u).1) _ _

theorem source_harmless {C : Crypto} {ask : Ask} {w : Wallet} (ha : SegwitAnswered C w.signer ask)
    (h : w.balance = (w.unspents.map Unspent.amount).sum) (src : Source) :
    (w.source C ask src).1.signer = w.signer ∧
    (w.source C ask src).1.balance = ((w.source C ask src).1.unspents.map Unspent.amount).sum ∧
    ∀ us, (w.source C ask src).2.1 = .ok us → (w.source C ask src).2.2 = true →
      (w.source C ask src).1.unspents = us := by
  have key : ∀ us, (w.getUnspents C ask).2 = .ok us → (w.getUnspents C ask).1.unspents = us := by
    intro us hus
    obtain ⟨_, _, _, _, _, _, _, _, _, _, _, _, _, _, _, _, _, _, h, _⟩ :=
      C52_refresh C ask w (w.getUnspents C ask).1 us (by rw [← hus])
    exact h
  unfold Wallet.source
  cases src with
  | stored =>
    dsimp only
    split
    · exact ⟨getUnspents_signer C ask w, getUnspents_harmless ha h, fun us hus _ => key us hus⟩
    · exact ⟨rfl, h, fun us hus _ => by injection hus⟩
  | given l =>
    dsimp only
    split
    · exact ⟨getUnspents_signer C ask w, getUnspents_harmless ha h, fun us hus _ => key us hus⟩
    · exact ⟨rfl, h, fun us hus ho => by cases ho⟩

theorem create_harmless {Amount : Type} {C : Crypto} {env : Env Amount} {args : TxArgs Amount} {ask : Ask}
    {w : Wallet} (ha : SegwitAnswered C w.signer ask) (hc : args.combine = true)
    (hs : ∀ l, (env.shuffle l).Perm l)
    (h : w.balance = (w.unspents.map Unspent.amount).sum) (src : Source) :
    (w.createTransaction C env args ask src).1.signer = w.signer ∧
    (w.createTransaction C env args ask src).1.balance =
      ((w.createTransaction C env args ask src).1.unspents.map Unspent.amount).sum := by
  obtain ⟨hsig, hb, hown⟩ := source_harmless ha h src
  unfold Wallet.createTransaction
  generalize w.source C ask src = x at hsig hb hown
  obtain ⟨w1, got, own⟩ := x
  dsimp only at hsig hb hown ⊢
  cases got with
  | error e => exact ⟨hsig, hb⟩
  | ok us =>
    dsimp only
    cases hr : returnAddress C w1.signer us with
    | error e => exact ⟨hsig, hb⟩
    | ok d =>
      dsimp only
      have hafter : (if own = true then { w1 with unspents := listAfter C env args us d } else w1).signer =
          w.signer ∧ (if own = true then { w1 with unspents := listAfter C env args us d } else w1).balance =
          ((if own = true then { w1 with unspents := listAfter C env args us d } else w1).unspents.map
            Unspent.amount).sum := by
        cases own with
        | false => exact ⟨hsig, hb⟩
        | true =>
          refine ⟨hsig, ?_⟩
          have e := hown us rfl rfl
          simp only [if_true]
          rw [listAfter_consolidate hs hc, ← e]
          exact hb
      cases sanitizeArgs C env args us d _ with
      | error e => exact hafter
      | ok r => exact hafter

/-- C52. In every history of refreshes and consolidating transactions in which the network answers for
the segwit address, the balance is the sum of the stored unspents after each call. -/
theorem C52_balance_is_sum {Amount : Type} (C : Crypto) (s : Signer) (calls : List (WalletCall Amount))
    (hcalls : ∀ c ∈ calls, Harmless C s c) :
    (calls.foldl (Wallet.after C) (newWallet s)).balance =
      ((calls.foldl (Wallet.after C) (newWallet s)).unspents.map Unspent.amount).sum := by
  have key : ∀ (calls : List (WalletCall Amount)) (w : Wallet), (∀ c ∈ calls, Harmless C w.signer c) →
      w.balance = (w.unspents.map Unspent.amount).sum →
      (calls.foldl (Wallet.after C) w).balance =
        ((calls.foldl (Wallet.after C) w).unspents.map Unspent.amount).sum := by
    intro calls
    induction calls with
    | nil => intro w _ h; exact h
    | cons c calls ih =>
      intro w hc h
      have hc0 := hc c List.mem_cons_self
      have hstep : (w.after C c).signer = w.signer ∧
          (w.after C c).balance = ((w.after C c).unspents.map Unspent.amount).sum := by
        cases c with
        | refresh ask => exact ⟨getUnspents_signer C ask w, getUnspents_harmless hc0 h⟩
        | create env args ask src => exact create_harmless hc0.1 hc0.2.1 hc0.2.2 h src
      refine ih _ ?_ hstep.2
      intro c' hc'
      rw [hstep.1]
      exact hc c' (List.mem_cons_of_mem _ hc')
  exact key calls (newWallet s) hcalls rfl

/-- C52. Whatever is called, the balance changes only by a completed refresh, whose answers it then
sums up. -/
theorem C52_balance_changes {Amount : Type} (C : Crypto) (w : Wallet) (c : WalletCall Amount) :
    (w.after C c).balance = w.balance ∨
    ∃ ask w' us, w.getUnspents C ask = (w', .ok us) ∧
      (w.after C c).balance = (us.map Unspent.amount).sum := by
  have hg : ∀ ask, (w.getUnspents C ask).1.balance = w.balance ∨
      ∃ w' us, w.getUnspents C ask = (w', .ok us) ∧
        (w.getUnspents C ask).1.balance = (us.map Unspent.amount).sum := by
    intro ask
    cases hr : w.getUnspents C ask with
    | mk w' r =>
      cases r with
      | ok us =>
        obtain ⟨_, _, _, _, _, _, _, _, _, _, _, _, _, _, _, _, _, _, h1, _, h2⟩ := C52_refresh C ask w w' us hr
        exact Or.inr ⟨w', us, rfl, by rw [← h1]; exact h2⟩
      | error e =>
        left
        unfold Wallet.getUnspents at hr
        repeat' (first | (injection hr with hr _; subst hr; rfl) | (cases hr) | split at hr | dsimp only at hr)
  have hsrc : ∀ ask src, (w.source C ask src).1.balance = w.balance ∨
      ∃ w' us, w.getUnspents C ask = (w', .ok us) ∧
        (w.source C ask src).1.balance = (us.map Unspent.amount).sum := by
    intro ask src
    unfold Wallet.source
    cases src with
    | stored =>
      dsimp only
      split
      · exact hg ask
      · exact Or.inl rfl
    | given l =>
      dsimp only
      split
      · exact hg ask
      · exact Or.inl rfl
  cases c with
  | refresh ask =>
    rcases hg ask with h | ⟨w', us, h1, h2⟩
    · exact Or.inl h
    · exact Or.inr ⟨ask, w', us, h1, h2⟩
  | create env args ask src =>
    have e : (w.after C (.create env args ask src)).balance = (w.source C ask src).1.balance := by
      show (w.createTransaction C env args ask src).1.balance = _
      unfold Wallet.createTransaction
      generalize w.source C ask src = x
      obtain ⟨w1, got, own⟩ := x
      dsimp only
      cases got with
      | error e => rfl
      | ok us =>
        dsimp only
        cases returnAddress C w1.signer us with
        | error e => rfl
        | ok d =>
          dsimp only
          cases sanitizeArgs C env args us d _ <;> cases own <;> rfl
    rw [e]
    rcases hsrc ask src with h | ⟨w', us, h1, h2⟩
    · exact Or.inl h
    · exact Or.inr ⟨ask, w', us, h1, h2⟩

/-! Samples: key B of `Props/Sign`, whose legacy address has 70000 and 5000 satoshi and whose segwit
address has 80000. -/

def plain (amount : Int) : Unspent :=
  mkUnspent amount 3 (bytesToHex (scriptP2PKH keyB)) (bytesToHex (List.replicate 32 7)) 1 "p2pkh".toList 0
    none 4294967295

/-- The network's answer; `segwit` is the answer for the segwit address. -/
def askB (segwit : Py (Option (List Unspent))) : Ask := fun a =>
  if (Signer.single keyB).address crypto = .ok a then .ok (some [plain 70000, plain 5000]) else segwit

def envB : Env Int :=
  { conv := fun n => .ok n, feeCached := 1, flips := fun _ => true, shuffle := id }

def argsB (combine : Bool) : TxArgs Int :=
  { outputs := [(addrA, 20000)], fee := some 1, absoluteFee := false, leftover := none, combine := combine
    message := none, messageIsHex := false, replaceByFee := false }

example : (newWallet (.single keyB)).getUnspents crypto (askB (.ok (some [unspentBDefault]))) =
    ({ signer := .single keyB, unspents := [plain 70000, plain 5000, unspentB], balance := 155000 },
      .ok [plain 70000, plain 5000, unspentB]) := by decide +kernel

example : Harmless crypto (.single keyB) (.create envB (argsB true) (askB (.ok (some [unspentBDefault]))) .stored) := by
  refine ⟨⟨(Signer.single keyB).segwitAddress crypto |>.toOption |>.getD none, by decide +kernel, ?_⟩, rfl,
    fun l => List.Perm.refl l⟩
  intro a h
  refine ⟨[unspentBDefault], ?_⟩
  unfold askB
  rw [if_neg]
  intro e
  have : (Signer.single keyB).address crypto ≠
      .ok (((Signer.single keyB).segwitAddress crypto |>.toOption |>.getD none).getD []) := by decide +kernel
  rw [h] at this
  exact this e

/-- C52 (limitation). A transaction without consolidation leaves only the coins it spent in the stored
list and does not change the balance. -/
theorem C52_spent_list : ∃ (w : Wallet) (env : Env Int) (args : TxArgs Int) (ask : Ask),
    args.combine = false ∧ w.balance = (w.unspents.map Unspent.amount).sum ∧
    let w' := (w.createTransaction crypto env args ask .stored).1
    w'.balance = 155000 ∧ w'.unspents.map Unspent.amount = [70000] := by
  refine ⟨((newWallet (.single keyB)).getUnspents crypto (askB (.ok (some [unspentBDefault])))).1, envB,
    argsB false, askB (.error .connectionError), rfl, by decide +kernel, by decide +kernel⟩

/-- C52 (limitation). A refresh that fails at the second address raises, but leaves the coins of the
first address in the list and the balance as it was. -/
theorem C52_half_refresh : ∃ (w : Wallet) (ask : Ask),
    w.balance = (w.unspents.map Unspent.amount).sum ∧
    let r := w.getUnspents crypto ask
    r.2 = .error .connectionError ∧ r.1.balance = 0 ∧ r.1.unspents.map Unspent.amount = [70000, 5000] := by
  refine ⟨newWallet (.single keyB), askB (.error .connectionError), by decide +kernel, by decide +kernel⟩

/-! ## C51 -/

theorem jsonOutputs_strs : ∀ outs : List (Str × Int),
    jsonOutputs (outs.map fun o => (.str o.1, o.2)) = .ok (jsonPairs outs)
  | [] => rfl
  | o :: outs => by
    rw [List.map_cons, jsonOutputs, jsonOutputs_strs outs]
    rfl

theorem fromJsons_roundtrip (readFloat : Str → PyFloat) (hr : Spec.ReadsQuarters readFloat) (floats : Unspent → Bool) :
    ∀ us : List Unspent, (∀ u ∈ us, Spec.Consistent u ∧ u.vsize4 < 2 ^ 50) →
    pyMap Unspent.fromJson (us.map fun u => u.toJson readFloat (floats u)) = .ok us
  | [], _ => rfl
  | u :: us, h => by
    rw [List.map_cons, pyMap, fromJson_toJson readFloat hr (h u List.mem_cons_self).2,
      C50_from_dict u (h u List.mem_cons_self).1 _ (fun _ _ => rfl),
      fromJsons_roundtrip readFloat hr floats us fun v hv => h v (List.mem_cons_of_mem _ hv)]

theorem vsize4_optIn (u : Unspent) : u.optInForRBF.vsize4 = u.vsize4 := (optIn_fields u).2.1

theorem consistent_optIn {u : Unspent} (h : Spec.Consistent u) : Spec.Consistent u.optInForRBF := by
  obtain ⟨_, h1, h2, _, _, _, h3, _⟩ := optIn_fields u
  refine ⟨?_, ?_⟩
  · rw [h3, h2]; exact h.kind
  · rw [h1]; exact h.size

theorem selectCoins_mem {flips : Nat → Bool} {shuffle : List Unspent → List Unspent}
    (hs : ∀ l, (shuffle l).Perm l) {target fee : Int} {sizes : List Nat} {minChange : Int}
    {absoluteFee consolidate : Bool} {us sel : List Unspent} {rem : Int}
    (h : selectCoins flips shuffle target fee sizes minChange absoluteFee consolidate us = .ok (sel, rem)) :
    ∀ u ∈ sel, u ∈ us := by
  rcases selectCoins_cases flips shuffle hs target fee sizes minChange absoluteFee consolidate us with
    ⟨s, h1, -, -, h2, -⟩ | ⟨pre, post, h1, -, h2, -⟩ | ⟨h1, -⟩
  · rw [h1] at h
    injection h with h
    injection h with h _
    subst h
    exact fun u hu => h2.subset hu
  · rw [h2] at h
    injection h with h
    injection h with h _
    subst h
    intro u hu
    have hu' : u ∈ (if consolidate then us else shuffle us) := by
      rw [h1]; exact List.mem_append_left _ hu
    cases consolidate with
    | true => exact hu'
    | false => exact (hs us).mem_iff.mp hu'
  · rw [h1] at h; cases h

/-- C51. Preparing without the key and signing the text later makes the same transaction as creating it directly.
The unspents are given and consistent (`C50_consistent`: as the library makes them), their sizes are below 2 ^ 48
bytes and some of them may be floats, there is no message,
the network is the key's, and the change goes to the same place: an explicit leftover address, or the
address of the preparation is the key's address for change. Then if the preparation fails, so does the direct
creation, with the same exception; if it gives a text, signing the text and creating directly both give the
same text or both fail. No questions are put to the network. -/
theorem C51_offline {Amount : Type} (C : Crypto) (readFloat : Str → PyFloat)
    (hfloat : Spec.ReadsQuarters readFloat) (floats : Unspent → Bool) (env : Env Amount) (args : TxArgs Amount)
    (hshuffle : ∀ l, (env.shuffle l).Perm l) (w : Wallet) (us : List Unspent) (hne : us ≠ [])
    (hus : ∀ u ∈ us, Spec.Consistent u ∧ u.vsize4 < 2 ^ 50) (hmsg : args.message = none) (address : Str) (default : Option Str)
    (hret : returnAddress C w.signer us = .ok default)
    (hchange : default = some address ∨ ∃ l, args.leftover = some l ∧ l ≠ [])
    (ask ask' ask'' : Ask) :
    (∀ e, prepareTransaction C readFloat floats env args ask w.signer.net address us = .error e →
      w.createTransaction C env args ask' (.given us) = (w, .error e)) ∧
    (∀ d, prepareTransaction C readFloat floats env args ask w.signer.net address us = .ok d →
      (∀ tx, w.createTransaction C env args ask' (.given us) = (w, .ok tx) ↔
        w.signTransaction C readFloat ask'' d none = (w, .ok tx)) ∧
      ((∃ e, (w.createTransaction C env args ask' (.given us)).2 = .error e) ↔
        ∃ e, (w.signTransaction C readFloat ask'' d none).2 = .error e)) := by
  have hempty : us.isEmpty = false := by simpa using hne
  have hlo : leftoverOf args default = leftoverOf args (some address) := by
    rcases hchange with h | ⟨l, h1, h2⟩
    · rw [h]
    · unfold leftoverOf
      rw [h1]
      have : l.isEmpty = false := by simpa using h2
      simp [this]
  have hsame : sanitizeArgs C env args us default w.signer.net =
      sanitizeArgs C env args us (some address) w.signer.net := by
    unfold sanitizeArgs
    rw [hlo]
  have hcreate : w.createTransaction C env args ask' (.given us) =
      match sanitizeArgs C env args us (some address) w.signer.net with
      | .error e => (w, .error e)
      | .ok (us, outs) => (w, createNewTransaction C w.signer us outs) := by
    have hsrc : w.source C ask' (.given us) = (w, .ok us, false) := by
      unfold Wallet.source
      simp [hempty]
    unfold Wallet.createTransaction
    rw [hsrc]
    dsimp only
    rw [hret]
    dsimp only
    rw [hsame]
    cases sanitizeArgs C env args us (some address) w.signer.net <;> rfl
  have hprep : prepareTransaction C readFloat floats env args ask w.signer.net address us =
      match sanitizeArgs C env args us (some address) w.signer.net with
      | .error e => .error e
      | .ok (us, outs) =>
        match jsonOutputs outs with
        | .error e => .error e
        | .ok outs => .ok (preparedData readFloat floats us outs).dumps := by
    unfold prepareTransaction
    simp only [hempty]
    rfl
  cases hs : sanitizeArgs C env args us (some address) w.signer.net with
  | error e =>
    rw [hs] at hcreate hprep
    refine ⟨fun e' he => ?_, fun d hd => ?_⟩
    · rw [hprep] at he
      simp only [Except.error.injEq] at he
      rw [hcreate, he]
    · rw [hprep] at hd; cases hd
  | ok r =>
    obtain ⟨us', outs⟩ := r
    rw [hs] at hcreate hprep
    dsimp only at hcreate hprep
    unfold sanitizeArgs at hs
    obtain ⟨pays, chunks, sizes, lo, lsize, sel, rem, h1, h2, h3, h4, h5, h6, h7, h8, h9, h10⟩ :=
      sanitize_ok hs
    rw [hmsg] at h3
    have hchunks : chunks = [] := by
      unfold messageChunks at h3
      dsimp only at h3
      injection h3 with h3
      exact h3.symm
    rw [hchunks, List.map_nil, List.append_nil] at h10
    generalize (if rem > 0 then pays ++ [(lo, rem)] else pays) = os at h10
    rw [h10, jsonOutputs_strs] at hprep
    dsimp only at hprep
    have hcons : ∀ u ∈ us', Spec.Consistent u ∧ u.vsize4 < 2 ^ 50 := by
      have hsel : ∀ u ∈ sel, Spec.Consistent u ∧ u.vsize4 < 2 ^ 50 := fun u hu => hus u (selectCoins_mem hshuffle h7 u hu)
      rw [h8]
      split
      · intro u hu
        obtain ⟨v, hv, rfl⟩ := List.mem_map.mp hu
        exact ⟨consistent_optIn (hsel v hv).1, by rw [vsize4_optIn]; exact (hsel v hv).2⟩
      · exact hsel
    refine ⟨fun e he => ?_, fun d hd => ?_⟩
    · rw [hprep] at he; cases he
    · rw [hprep] at hd
      injection hd with hd
      subst hd
      have hload : jsonLoads readFloat (preparedData readFloat floats us' (jsonPairs os)).dumps =
          .ok (preparedData readFloat floats us' (jsonPairs os)) := by
        have := loads_dumps readFloat
          (preparedData_readable readFloat floats hfloat us' (fun u hu => (hcons u hu).2) os) [] []
          (fun c hc => by cases hc) (fun c hc => by cases hc)
        rwa [List.nil_append, List.append_nil] at this
      have hbrace : '{' ∈ (preparedData readFloat floats us' (jsonPairs os)).dumps := by
        unfold preparedData
        rw [Json.dumps]
        exact List.mem_cons_self
      generalize htext : (preparedData readFloat floats us' (jsonPairs os)).dumps = text at hload hbrace ⊢
      have h1' : (preparedData readFloat floats us' (jsonPairs os)).get "unspents".toList =
          .ok (.arr (us'.map fun u => u.toJson readFloat (floats u))) := rfl
      have h2' : (preparedData readFloat floats us' (jsonPairs os)).get "outputs".toList =
          .ok (.arr (jsonPairs os)) := rfl
      have hsign : w.signTransaction C readFloat ask'' text none =
          match createNewTransaction C w.signer us' outs with
          | .ok tx => (w, .ok tx)
          | .error _ => w.signFallback C ask'' text us' := by
        unfold Wallet.signTransaction
        rw [hload]
        dsimp only
        rw [h1', h2']
        simp only [Except.bind, Json.items]
        rw [fromJsons_roundtrip readFloat hfloat floats us' hcons, pyMap_outputs]
        dsimp only
        rw [h10]
        cases createNewTransaction C w.signer us' (os.map fun o => (.str o.1, o.2)) <;> rfl
      rw [hcreate, hsign]
      cases hc : createNewTransaction C w.signer us' outs with
      | ok tx => exact ⟨fun tx' => Iff.rfl, by simp⟩
      | error e =>
        have hfail : ∃ e, (w.signFallback C ask'' text us').2 =
            .error e := by
          obtain ⟨e', he'⟩ := hexToBytes_brace hbrace
          unfold Wallet.signFallback signTransactionHex
          rw [deserializeHex_error he']
          dsimp only
          split
          · exact ⟨_, rfl⟩
          · exact ⟨_, rfl⟩
        refine ⟨fun tx => ⟨fun h => by simp at h, fun h => ?_⟩, ⟨fun _ => hfail, fun _ => ⟨e, rfl⟩⟩⟩
        obtain ⟨e', he'⟩ := hfail
        dsimp only at h
        rw [h] at he'
        cases he'

theorem isSome_ok {α : Type} {x : Py α} (h : x.toOption.isSome = true) : ∃ a, x = .ok a := by
  cases x with
  | error e => cases h
  | ok a => exact ⟨a, rfl⟩

/-- The addresses of key B. -/
def legacyB : Str := ((Signer.single keyB).address crypto).toOption.getD []
def segwitB : Str := (((Signer.single keyB).segwitAddress crypto).toOption.getD none).getD []

def noNetwork : Ask := fun _ => .error .connectionError

/-- Sample floats: as exact as their text. -/
def exactFloat (s : Str) : PyFloat := ⟨(Dec.parse s).toOption.getD ⟨false, 0, 0⟩, s⟩

theorem exactFloat_quarters : Spec.ReadsQuarters exactFloat where
  repr := fun _ _ => rfl
  exact := fun v _ => by
    obtain ⟨d, h1, h2⟩ := parse_number (.inl (quarterText_denotes v))
    unfold exactFloat
    rw [h1]
    exact h2

/-- All sizes are ints where possible. -/
def noFloats : Unspent → Bool := fun _ => false

/-- The text signed from data prepared for the address. -/
def preparedAndSigned (args : TxArgs Int) (ask : Ask) (address : Str) (us : List Unspent) : Py Str :=
  match prepareTransaction crypto exactFloat noFloats envB args ask .main address us with
  | .error e => .error e
  | .ok text => ((newWallet (.single keyB)).signTransaction crypto exactFloat noNetwork text none).2

/-- The text created directly. -/
def createdDirectly (args : TxArgs Int) (ask : Ask) (us : List Unspent) : Py Str :=
  ((newWallet (.single keyB)).createTransaction crypto envB args ask (.given us)).2

/-- The sample meets the hypotheses of `C51_offline` and is signed. -/
example : returnAddress crypto (.single keyB) [plain 70000, unspentB] = .ok (some segwitB) ∧
    (preparedAndSigned (argsB true) noNetwork segwitB [plain 70000, unspentB]).toOption.isSome = true ∧
    preparedAndSigned (argsB true) noNetwork segwitB [plain 70000, unspentB] =
      createdDirectly (argsB true) noNetwork [plain 70000, unspentB] := by
  decide +kernel

example : ∀ u ∈ [plain 70000, unspentB], Spec.Consistent u ∧ u.vsize4 < 2 ^ 50 := by
  intro u hu
  rcases List.mem_cons.mp hu with rfl | hu
  · exact ⟨C50_consistent _ _ _ _ _ _ _ _ _ [], by decide⟩
  · rw [List.mem_singleton] at hu
    subst hu
    exact ⟨C50_consistent _ _ _ _ _ _ _ _ _ [], by decide⟩

/-- C51 (limitation). With a message the preparation raises `TypeError`, the direct creation does not. -/
theorem C51_message_not_prepared : ∃ (args : TxArgs Int) (us : List Unspent) (tx : Str),
    args.message = some (.str (str "hello")) ∧
    prepareTransaction crypto exactFloat noFloats envB args noNetwork .main legacyB us = .error .typeError ∧
    createdDirectly args noNetwork us = .ok tx := by
  obtain ⟨tx, htx⟩ := isSome_ok (x := createdDirectly
    { argsB true with message := some (.str (str "hello")) } noNetwork [plain 70000]) (by decide +kernel)
  exact ⟨_, _, tx, rfl, by decide +kernel, htx⟩

/-- C51 (limitation). Prepared for the legacy address, with segwit unspents and no leftover address, the
change goes to the legacy address; created directly it goes to the segwit address. -/
theorem C51_change_differs : ∃ (us : List Unspent) (tx tx' : Str),
    preparedAndSigned (argsB true) noNetwork legacyB us = .ok tx ∧
    createdDirectly (argsB true) noNetwork us = .ok tx' ∧ tx ≠ tx' := by
  obtain ⟨tx, htx⟩ := isSome_ok (x := preparedAndSigned (argsB true) noNetwork legacyB [unspentB])
    (by decide +kernel)
  obtain ⟨tx', htx'⟩ := isSome_ok (x := createdDirectly (argsB true) noNetwork [unspentB])
    (by decide +kernel)
  refine ⟨_, tx, tx', htx, htx', fun e => ?_⟩
  have h : preparedAndSigned (argsB true) noNetwork legacyB [unspentB] ≠
      createdDirectly (argsB true) noNetwork [unspentB] := by decide +kernel
  rw [htx, htx', e] at h
  exact h rfl

/-- C51 (limitation). Unspents which the preparation itself fetches for a segwit address keep the type
they come with, here the default; what is then signed differs from what is created directly from the
same answers. (By `C45_wrong_type_not_spent` it does not spend them.) -/
theorem C51_fetched_type : ∃ (ask : Ask) (us : List Unspent) (outs : List Json) (tx tx' : Str),
    prepareTransaction crypto exactFloat noFloats envB (argsB true) ask .main segwitB [] =
      .ok (preparedData exactFloat noFloats us outs).dumps ∧
    (∀ u ∈ us, u.type = "p2pkh".toList) ∧
    preparedAndSigned (argsB true) ask segwitB [] = .ok tx ∧
    createdDirectly (argsB true) ask [] = .ok tx' ∧ tx ≠ tx' := by
  let ask : Ask := fun a => if a = segwitB then .ok (some [unspentBDefault]) else .ok (some [])
  obtain ⟨r, hr⟩ := isSome_ok (x := sanitizeArgs crypto envB (argsB true) [unspentBDefault] (some segwitB) .main)
    (by decide +kernel)
  obtain ⟨us, outs⟩ := r
  have hus : us = [unspentBDefault] := by
    have h : (sanitizeArgs crypto envB (argsB true) [unspentBDefault] (some segwitB) .main).toOption.map Prod.fst =
        some [unspentBDefault] := by decide +kernel
    rw [hr] at h
    exact Option.some.inj h
  have houts : ∃ os, jsonOutputs outs = .ok os := by
    have h : ((sanitizeArgs crypto envB (argsB true) [unspentBDefault] (some segwitB) .main).toOption.bind
        fun r => (jsonOutputs r.2).toOption.map fun _ => ()).isSome = true := by decide +kernel
    rw [hr] at h
    cases hj : jsonOutputs outs with
    | ok os => exact ⟨os, rfl⟩
    | error e =>
      simp only [Except.toOption, Option.bind_some] at h
      rw [hj] at h
      cases h
  obtain ⟨os, hos⟩ := houts
  have hd : prepareTransaction crypto exactFloat noFloats envB (argsB true) ask .main segwitB [] =
      .ok (preparedData exactFloat noFloats us os).dumps := by
    have hask : ask segwitB = .ok (some [unspentBDefault]) := if_pos rfl
    unfold prepareTransaction
    rw [if_pos (by rfl), hask]
    dsimp only
    rw [hr]
    dsimp only
    rw [hos]
  obtain ⟨tx, htx⟩ := isSome_ok (x := preparedAndSigned (argsB true) ask segwitB []) (by decide +kernel)
  obtain ⟨tx', htx'⟩ := isSome_ok (x := createdDirectly (argsB true) ask []) (by decide +kernel)
  refine ⟨ask, us, os, tx, tx', hd, ?_, htx, htx', fun e => ?_⟩
  · rw [hus]
    decide +kernel
  · have h : preparedAndSigned (argsB true) ask segwitB [] ≠ createdDirectly (argsB true) ask [] := by
      decide +kernel
    rw [htx, htx', e] at h
    exact h rfl

end Bit
