import Verif.Model.Sharing
import Verif.Props.Wallet
import Verif.Props.Create
import Verif.Lemmas.Errors
/-
Objects and values: the functions on objects do to the contents what the functions on values do.
-/
namespace Bit

section
variable (coin : Nat → Unspent)

theorem refBranchAndBound_map (flips : Nat → Bool) (tries : Nat) (fee target4 range4 : Int) (rest : List Nat) :
    ∀ (selected : List Nat) (eff4 : Int) (used : Nat),
    branchAndBound flips tries fee target4 range4 (rest.map coin) (selected.map coin) eff4 used =
      ((refBranchAndBound coin flips tries fee target4 range4 rest selected eff4 used).1.map coin,
       (refBranchAndBound coin flips tries fee target4 range4 rest selected eff4 used).2) := by
  induction rest with
  | nil =>
    intro selected eff4 used
    unfold branchAndBound refBranchAndBound
    dsimp only [List.map_nil]
    split
    · rfl
    · split
      · rfl
      · split <;> rfl
  | cons u rest ih =>
    intro selected eff4 used
    unfold branchAndBound refBranchAndBound
    dsimp only [List.map_cons]
    split
    · rfl
    · split
      · rfl
      · split
        · rfl
        · have e : selected.map coin ++ [coin u] = (selected ++ [u]).map coin := by simp
          simp only [List.map_cons]
          rw [e]
          split
          · rw [ih]
            dsimp only
            by_cases h : (refBranchAndBound coin flips tries fee target4 range4 rest (selected ++ [u])
                (eff4 + 4 * (coin u).amount - fee * (coin u).vsize4) (used + 1)).1 = []
            · rw [if_neg (by rw [h]; simp), if_neg (by simp [h]), ih]
            · rw [if_pos (by simpa using h), if_pos h]
          · rw [ih]
            dsimp only
            by_cases h : (refBranchAndBound coin flips tries fee target4 range4 rest selected eff4 (used + 1)).1 = []
            · rw [if_neg (by rw [h]; simp), if_neg (by simp [h]), ih]
            · rw [if_pos (by simpa using h), if_pos h]

theorem refDrawLoop_map (target fee : Int) (outputSize : List Nat) (minChange : Int) (absoluteFee consolidate : Bool)
    (rest : List Nat) : ∀ selected : List Nat,
    drawLoop target fee outputSize minChange absoluteFee consolidate (rest.map coin) (selected.map coin) =
      (refDrawLoop coin target fee outputSize minChange absoluteFee consolidate rest selected).map
        fun r => (r.1.map coin, r.2) := by
  induction rest with
  | nil =>
    intro selected
    unfold drawLoop refDrawLoop
    dsimp only [List.map_nil]
    cases selected <;> rfl
  | cons u rest ih =>
    intro selected
    unfold drawLoop refDrawLoop
    dsimp only [List.map_cons]
    have e : selected.map coin ++ [coin u] = (selected ++ [u]).map coin := by simp
    simp only [List.map_cons]
    rw [e, List.length_map]
    split
    · rfl
    · exact ih _

theorem insertSorted_map (x : Nat) (l : List Nat) :
    insertSorted (fun u v : Unspent => v.amount ≤ u.amount) (coin x) (l.map coin) =
      (insertSorted (fun u v => (coin v).amount ≤ (coin u).amount) x l).map coin := by
  induction l with
  | nil => rfl
  | cons y l ih =>
    simp only [List.map_cons, insertSorted]
    split
    · rfl
    · rw [ih]; rfl

theorem pySorted_map (l : List Nat) :
    pySorted (fun u v : Unspent => v.amount ≤ u.amount) (l.map coin) =
      (pySorted (fun u v => (coin v).amount ≤ (coin u).amount) l).map coin := by
  induction l with
  | nil => rfl
  | cons x l ih =>
    simp only [List.map_cons, pySorted]
    rw [ih, insertSorted_map]

theorem refSelectCoins_map (flips : Nat → Bool) (shuffle : List Nat → List Nat) (shuffle' : List Unspent → List Unspent)
    (target fee : Int) (outputSize : List Nat) (minChange : Int) (absoluteFee consolidate : Bool) (l : List Nat)
    (hs : shuffle' (l.map coin) = (shuffle l).map coin) :
    selectCoins flips shuffle' target fee outputSize minChange absoluteFee consolidate (l.map coin) =
      (refSelectCoins coin flips shuffle target fee outputSize minChange absoluteFee consolidate l).map
        fun r => (r.1.map coin, r.2) := by
  unfold selectCoins refSelectCoins
  dsimp only
  have hb := refBranchAndBound_map coin flips bnbTries fee
    (4 * (target + (8 + outputSize.dropLast.sum + 1 : Nat) * fee)) (4 * (148 * fee + 34 * fee))
    (pySorted (fun u v => (coin v).amount ≤ (coin u).amount) l) [] 0 0
  rw [List.map_nil] at hb
  rw [pySorted_map, hb]
  have hd : ∀ l : List Nat, drawLoop target fee outputSize minChange absoluteFee consolidate (l.map coin) [] = _ :=
    fun l => refDrawLoop_map coin target fee outputSize minChange absoluteFee consolidate l []
  by_cases hc : ¬ consolidate = true ∧ ¬ absoluteFee = true
  · rw [if_pos hc, if_pos hc]
    dsimp only
    by_cases he : (refBranchAndBound coin flips bnbTries fee
        (4 * (target + (8 + outputSize.dropLast.sum + 1 : Nat) * fee)) (4 * (148 * fee + 34 * fee))
        (pySorted (fun u v => (coin v).amount ≤ (coin u).amount) l) [] 0 0).1 = []
    · rw [if_pos (by rw [he]; rfl), if_pos he, if_neg hc.1, if_neg hc.1, hs]
      exact hd _
    · rw [if_neg (by simpa using he), if_neg he]
      rfl
  · rw [if_neg hc, if_neg hc, if_pos rfl, if_pos rfl]
    split
    · exact hd _
    · rw [hs]; exact hd _

theorem refBranchAndBound_sub (flips : Nat → Bool) (tries : Nat) (fee target4 range4 : Int) (rest : List Nat) :
    ∀ (selected : List Nat) (eff4 : Int) (used : Nat),
    (refBranchAndBound coin flips tries fee target4 range4 rest selected eff4 used).1 = [] ∨
    ∃ sub, sub.Sublist rest ∧
      (refBranchAndBound coin flips tries fee target4 range4 rest selected eff4 used).1 = selected ++ sub := by
  induction rest with
  | nil =>
    intro selected eff4 used
    unfold refBranchAndBound
    dsimp only
    split
    · exact .inl rfl
    · split
      · exact .inr ⟨[], .slnil, by simp⟩
      · split <;> exact .inl rfl
  | cons u rest ih =>
    intro selected eff4 used
    have hin : ∀ e n, (refBranchAndBound coin flips tries fee target4 range4 rest (selected ++ [u]) e n).1 = [] ∨
        ∃ sub, sub.Sublist (u :: rest) ∧
          (refBranchAndBound coin flips tries fee target4 range4 rest (selected ++ [u]) e n).1 = selected ++ sub := by
      intro e n
      rcases ih (selected ++ [u]) e n with h | ⟨sub, h1, h2⟩
      · exact .inl h
      · exact .inr ⟨u :: sub, h1.cons_cons u, by rw [h2]; simp⟩
    have hout : ∀ e n, (refBranchAndBound coin flips tries fee target4 range4 rest selected e n).1 = [] ∨
        ∃ sub, sub.Sublist (u :: rest) ∧
          (refBranchAndBound coin flips tries fee target4 range4 rest selected e n).1 = selected ++ sub := by
      intro e n
      rcases ih selected e n with h | ⟨sub, h1, h2⟩
      · exact .inl h
      · exact .inr ⟨sub, h1.cons u, h2⟩
    unfold refBranchAndBound
    dsimp only
    split
    · exact .inl rfl
    · split
      · exact .inr ⟨[], List.nil_sublist _, by simp⟩
      · split
        · exact .inl rfl
        · split
          · split
            · exact hin _ _
            · exact hout _ _
          · split
            · exact hout _ _
            · exact hin _ _

theorem refDrawLoop_sub {target fee : Int} {outputSize : List Nat} {minChange : Int} {absoluteFee consolidate : Bool}
    (rest : List Nat) : ∀ {selected : List Nat} {r : List Nat × Int},
    refDrawLoop coin target fee outputSize minChange absoluteFee consolidate rest selected = .ok r →
      ∃ pre, pre.Sublist rest ∧ pre ≠ [] ∧ r.1 = selected ++ pre := by
  induction rest with
  | nil =>
    intro selected r h
    unfold refDrawLoop at h
    split at h <;> cases h
  | cons u rest ih =>
    intro selected r h
    unfold refDrawLoop at h
    dsimp only at h
    split at h
    · cases h
      exact ⟨[u], (List.nil_sublist _).cons_cons u, by simp, rfl⟩
    · obtain ⟨pre, h1, h2, h3⟩ := ih h
      exact ⟨u :: pre, h1.cons_cons u, by simp, by rw [h3]; simp⟩

theorem refSelectCoins_sub {flips : Nat → Bool} {shuffle : List Nat → List Nat} (hs : ∀ l, (shuffle l).Perm l)
    {target fee : Int} {outputSize : List Nat} {minChange : Int} {absoluteFee consolidate : Bool} {l sel : List Nat}
    {change : Int}
    (h : refSelectCoins coin flips shuffle target fee outputSize minChange absoluteFee consolidate l = .ok (sel, change)) :
    sel ≠ [] ∧ sel.Subperm l := by
  unfold refSelectCoins at h
  dsimp only at h
  generalize hg : (if ¬ consolidate = true ∧ ¬ absoluteFee = true then
      (refBranchAndBound coin flips bnbTries fee (4 * (target + (8 + outputSize.dropLast.sum + 1 : Nat) * fee))
        (4 * (148 * fee + 34 * fee)) (pySorted (fun u v => (coin v).amount ≤ (coin u).amount) l) [] 0 0).1
    else []) = found at h
  by_cases hne : found = []
  · rw [if_pos hne] at h
    obtain ⟨pre, h1, h2, h3⟩ := refDrawLoop_sub coin _ h
    dsimp only at h3
    rw [List.nil_append] at h3
    subst h3
    refine ⟨h2, ?_⟩
    split at h1
    · exact h1.subperm
    · exact h1.subperm.trans (hs l).subperm
  · rw [if_neg hne] at h
    cases h
    refine ⟨hne, ?_⟩
    split at hg
    · rcases refBranchAndBound_sub coin flips bnbTries fee
        (4 * (target + (8 + outputSize.dropLast.sum + 1 : Nat) * fee)) (4 * (148 * fee + 34 * fee))
        (pySorted (fun u v => (coin v).amount ≤ (coin u).amount) l) [] 0 0 with h | ⟨sub, h1, h2⟩
      · exact absurd (hg.symm.trans h) hne
      · rw [← hg, h2, List.nil_append]
        exact h1.subperm.trans (pySorted_perm _ l).subperm
    · exact absurd hg.symm hne

end

namespace Session
variable {Amount : Type}

/-- The values of a call on objects: for the list `l` the shuffle acts as the one on the objects. -/
def valueEnv (env : RefEnv Amount) (coin : Nat → Unspent) (l : List Nat) : Env Amount where
  conv := env.conv
  feeCached := env.feeCached
  flips := env.flips
  shuffle := fun us => if us = l.map coin then (env.shuffle l).map coin else us

theorem valueEnv_perm (env : RefEnv Amount) (hs : ∀ l, (env.shuffle l).Perm l) (coin : Nat → Unspent) (l : List Nat)
    (us : List Unspent) : ((valueEnv env coin l).shuffle us).Perm us := by
  unfold valueEnv
  dsimp only
  split
  · rename_i h
    rw [h]
    exact (hs l).map coin
  · exact List.Perm.refl _

/-- What `sanitize` does to the objects: nothing, or the list holds the selection, whose unspents may be changed. -/
inductive Sanitized (args : TxArgs Amount) (s : Session) (l : Nat) : Session → Prop
  | same : Sanitized args s l s
  | plain (sel : List Nat) (h : args.replaceByFee = false) (hne : sel ≠ []) (hsub : sel.Subperm (s.list l)) :
    Sanitized args s l (s.setList l sel)
  | rbf (sel : List Nat) (h : args.replaceByFee = true) (hne : sel ≠ []) (hsub : sel.Subperm (s.list l)) :
    Sanitized args s l ((s.setList l sel).optIn sel)

theorem setList_self (s : Session) (l : Nat) (refs : List Nat) : (s.setList l refs).list l = refs := by
  unfold setList; simp

theorem contents_setList (s : Session) (l : Nat) (refs : List Nat) :
    (s.setList l refs).contents l = refs.map s.coin := by
  unfold contents
  rw [setList_self]
  rfl

theorem contents_optIn (s : Session) (l : Nat) :
    (s.optIn (s.list l)).contents l = (s.contents l).map Unspent.optInForRBF := by
  unfold contents optIn
  dsimp only
  rw [List.map_map]
  refine List.map_congr_left fun r hr => ?_
  rw [if_pos hr]
  rfl

theorem isEmpty_contents (s : Session) (l : Nat) : (s.contents l).isEmpty = (s.list l).isEmpty := by
  unfold contents
  cases s.list l <;> rfl

/-- `sanitize` on objects against `sanitize_tx_data` on values. -/
theorem sanitize_spec (C : Crypto) (env : RefEnv Amount) (hs : ∀ l, (env.shuffle l).Perm l) (args : TxArgs Amount)
    (s : Session) (l : Nat) (leftover : Option Str) (version : Net) :
    Sanitized args s l (s.sanitize C env args l leftover version).1 ∧
    sanitizeTxData C env.conv env.flips (valueEnv env s.coin (s.list l)).shuffle (s.contents l) args.outputs
        (feeOf env args) leftover args.combine args.message args.absoluteFee 0 version args.messageIsHex
        args.replaceByFee =
      (s.sanitize C env args l leftover version).2.map
        (fun outs => ((s.sanitize C env args l leftover version).1.contents l, outs)) ∧
    (∀ e, (s.sanitize C env args l leftover version).2 = .error e → e = .insufficientFunds →
      (s.sanitize C env args l leftover version).1 = s) ∧
    (∀ outs, (s.sanitize C env args l leftover version).2 = .ok outs →
      ∃ sel, sel ≠ [] ∧ sel.Subperm (s.list l) ∧ (s.sanitize C env args l leftover version).1.list l = sel) := by
  unfold sanitize sanitizeTxData
  cases h1 : convertOutputs env.conv args.outputs with
  | error e => exact ⟨.same, rfl, fun _ _ _ => rfl, fun _ h => by cases h⟩
  | ok outputs =>
    dsimp only
    rw [isEmpty_contents]
    by_cases h2 : (s.list l).isEmpty = true
    · rw [if_pos h2, if_pos h2]
      exact ⟨.same, rfl, fun _ _ _ => rfl, fun _ h => by cases h⟩
    · rw [if_neg h2, if_neg h2]
      cases h3 : messageChunks args.message args.messageIsHex with
      | error e => exact ⟨.same, rfl, fun _ _ _ => rfl, fun _ h => by cases h⟩
      | ok chunks =>
        dsimp only
        cases h4 : outputSizes C outputs with
        | error e => exact ⟨.same, rfl, fun _ _ _ => rfl, fun _ h => by cases h⟩
        | ok sizes =>
          dsimp only
          cases leftover with
          | none => exact ⟨.same, rfl, fun _ _ _ => rfl, fun _ h => by cases h⟩
          | some leftover =>
            dsimp only
            cases h5 : outputSizeOf C leftover with
            | error e => exact ⟨.same, rfl, fun _ _ _ => rfl, fun _ h => by cases h⟩
            | ok leftoverSize =>
              dsimp only
              have hsel := refSelectCoins_map s.coin env.flips env.shuffle (valueEnv env s.coin (s.list l)).shuffle
                (outputs.map Prod.snd).sum (feeOf env args)
                (sizes ++ [chunks.length * (80 + 9)] ++ [leftoverSize]) 0 args.absoluteFee args.combine (s.list l)
                (by unfold valueEnv; dsimp only; rw [if_pos rfl])
              unfold contents
              rw [hsel]
              cases h6 : refSelectCoins s.coin env.flips env.shuffle (outputs.map Prod.snd).sum (feeOf env args)
                (sizes ++ [chunks.length * (80 + 9)] ++ [leftoverSize]) 0 args.absoluteFee args.combine (s.list l) with
              | error e => exact ⟨.same, rfl, fun _ _ _ => rfl, fun _ h => by cases h⟩
              | ok r =>
                obtain ⟨sel, remaining⟩ := r
                obtain ⟨hne, hsub⟩ := refSelectCoins_sub s.coin hs h6
                dsimp only [Except.map]
                rw [setList_self]
                have hstate : Sanitized args s l
                    (if args.replaceByFee = true then (s.setList l sel).optIn sel else s.setList l sel) := by
                  cases hr : args.replaceByFee with
                  | true => rw [if_pos rfl]; exact .rbf sel hr hne hsub
                  | false => rw [if_neg (by decide)]; exact .plain sel hr hne hsub
                have hcont : ∀ x : Session, x = (if args.replaceByFee = true then (s.setList l sel).optIn sel else s.setList l sel) →
                    (x.list l).map x.coin =
                      if args.replaceByFee = true then (sel.map s.coin).map Unspent.optInForRBF else sel.map s.coin := by
                  rintro x rfl
                  cases args.replaceByFee with
                  | true =>
                    rw [if_pos rfl, if_pos rfl]
                    have := contents_optIn (s.setList l sel) l
                    rw [setList_self, contents_setList] at this
                    exact this
                  | false =>
                    rw [if_neg (by decide), if_neg (by decide)]
                    exact contents_setList s l sel
                have hlist : (if args.replaceByFee = true then (s.setList l sel).optIn sel else s.setList l sel).list l = sel := by
                  cases args.replaceByFee with
                  | true => rw [if_pos rfl]; exact setList_self s l sel
                  | false => rw [if_neg (by decide)]; exact setList_self s l sel
                generalize (if args.replaceByFee = true then (s.setList l sel).optIn sel else s.setList l sel) = s' at *
                cases h7 : checkVersions C version
                  (if remaining > 0 then outputs ++ [(leftover, remaining)] else outputs) with
                | error e =>
                  refine ⟨hstate, rfl, fun e' he hi => ?_, fun _ h => by cases h⟩
                  cases he
                  have hp := plain_checkVersions C version _ _ h7
                  rw [hi] at hp
                  exact absurd hp (by decide)
                | ok u =>
                  refine ⟨hstate, ?_, fun _ h _ => (by cases h), fun _ _ => ⟨sel, hne, hsub, hlist⟩⟩
                  dsimp only
                  rw [hcont s' rfl]

/-! ### Refresh -/

/-- The key object as a value. -/
def wallet (s : Session) (k : Nat) : Wallet :=
  { signer := (s.key k).signer, unspents := s.contents (s.key k).list, balance := (s.key k).balance }

theorem alloc_old (s : Session) (us : List Unspent) {r : Nat} (h : r < s.coins) : (s.alloc us).coin r = s.coin r := by
  unfold alloc
  dsimp only
  rw [dif_neg (by omega)]

theorem alloc_new (s : Session) (us : List Unspent) :
    (List.range' s.coins us.length).map (s.alloc us).coin = us := by
  apply List.ext_getElem
  · simp
  · intro i h1 h2
    simp only [List.getElem_map, List.getElem_range', alloc, Nat.one_mul]
    rw [dif_pos (by omega)]
    congr 1
    omega

theorem alloc_range (s : Session) (us : List Unspent) {r : Nat} (h : r ∈ List.range' s.coins us.length) :
    s.coins ≤ r ∧ r < (s.alloc us).coins := by
  rw [List.mem_range'_1] at h
  exact h

/-- What a refresh of key `k` may do to the objects. -/
structure Refreshed (k : Nat) (s s' : Session) : Prop where
  coins : s.coins ≤ s'.coins
  coin : ∀ r < s.coins, s'.coin r = s.coin r
  lists : ∀ l ≠ (s.key k).list, s'.list l = s.list l
  keys : ∀ j ≠ k, s'.key j = s.key j
  signer : (s'.key k).signer = (s.key k).signer
  own : (s'.key k).list = (s.key k).list
  fresh : s'.list (s.key k).list = s.list (s.key k).list ∨
    ∀ r ∈ s'.list (s.key k).list, s.coins ≤ r ∧ r < s'.coins

theorem Refreshed.refl (k : Nat) (s : Session) : Refreshed k s s :=
  ⟨le_refl _, fun _ _ => rfl, fun _ _ => rfl, fun _ _ => rfl, rfl, rfl, .inl rfl⟩

theorem Refreshed.setKey {k : Nat} {s s' : Session} (h : Refreshed k s s') (b : Int) :
    Refreshed k s (s'.setKey k { s.key k with balance := b }) := by
  refine ⟨h.coins, h.coin, h.lists, ?_, ?_, ?_, h.fresh⟩
  · intro j hj
    show (if j = k then _ else s'.key j) = _
    rw [if_neg hj]
    exact h.keys j hj
  · show (if k = k then _ else s'.key k).signer = _
    rw [if_pos rfl]
  · show (if k = k then _ else s'.key k).list = _
    rw [if_pos rfl]

theorem setKey_key (s : Session) (k : Nat) (o : KeyObj) : (s.setKey k o).key k = o := by
  show (if k = k then _ else s.key k) = _
  rw [if_pos rfl]

theorem setKey_contents (s : Session) (k : Nat) (o : KeyObj) (l : Nat) : (s.setKey k o).contents l = s.contents l := rfl

/-- A refresh on objects is the refresh on values, and the result is the list of the key. -/
theorem getUnspents_spec (C : Crypto) (ask : Ask) (s : Session) (k : Nat) :
    (s.getUnspents C ask k).1.wallet k = ((s.wallet k).getUnspents C ask).1 ∧
    (s.getUnspents C ask k).2.map (s.getUnspents C ask k).1.contents = ((s.wallet k).getUnspents C ask).2 ∧
    (∀ l, (s.getUnspents C ask k).2 = .ok l → l = (s.key k).list ∧
      ∀ r ∈ (s.getUnspents C ask k).1.list l, s.coins ≤ r ∧ r < (s.getUnspents C ask k).1.coins) ∧
    Refreshed k s (s.getUnspents C ask k).1 := by
  have hsig : (s.wallet k).signer = (s.key k).signer := rfl
  unfold getUnspents Wallet.getUnspents
  rw [hsig]
  dsimp only
  cases h1 : (s.key k).signer.kinds C with
  | error e => exact ⟨rfl, rfl, fun _ h => (by cases h), .refl k s⟩
  | ok kinds =>
    obtain ⟨legacy, segwit⟩ := kinds
    dsimp only
    cases h2 : (s.key k).signer.address C with
    | error e => exact ⟨rfl, rfl, fun _ h => (by cases h), .refl k s⟩
    | ok address =>
      dsimp only
      cases h3 : retype legacy (ask address) with
      | error e => exact ⟨rfl, rfl, fun _ h => (by cases h), .refl k s⟩
      | ok us =>
        dsimp only
        generalize hs₁ : (s.alloc us).setList (s.key k).list (List.range' s.coins us.length) = s₁
        have e1 : s₁.contents (s.key k).list = us := by
          rw [← hs₁, contents_setList, alloc_new]
        have hl1 : s₁.list (s.key k).list = List.range' s.coins us.length := by
          rw [← hs₁, setList_self]
        have hc1 : s₁.coins = s.coins + us.length := by rw [← hs₁]; rfl
        have r1 : Refreshed k s s₁ := by
          rw [← hs₁]
          refine ⟨?_, fun r hr => alloc_old s us hr, ?_, fun _ _ => rfl, rfl, rfl, .inr ?_⟩
          · show s.coins ≤ s.coins + us.length
            omega
          · intro l hl
            show (if l = (s.key k).list then _ else s.list l) = _
            rw [if_neg hl]
          · rw [setList_self]
            exact fun r hr => alloc_range s us hr
        have hk1 : s₁.key k = s.key k := by rw [← hs₁]; rfl
        have w1 : s₁.wallet k = { s.wallet k with unspents := us } := by
          unfold wallet
          rw [hk1, e1]
        cases h4 : (s.key k).signer.segwitAddress C with
        | error e => exact ⟨w1, rfl, fun _ h => (by cases h), r1⟩
        | ok sa =>
          cases sa with
          | none =>
            refine ⟨?_, ?_, ?_, r1.setKey _⟩
            · unfold wallet
              rw [setKey_key, setKey_contents]
              dsimp only
              rw [e1]
            · show Except.ok _ = _
              rw [setKey_contents, e1]
            · rintro l h
              cases h
              refine ⟨rfl, fun r hr => ?_⟩
              have hr : r ∈ s₁.list (s.key k).list := hr
              rw [hl1] at hr
              exact List.mem_range'_1.mp hr |>.imp_right fun h => by
                show r < s₁.coins
                omega
          | some address' =>
            dsimp only
            cases h5 : retype segwit (ask address') with
            | error e => exact ⟨w1, rfl, fun _ h => (by cases h), r1⟩
            | ok us' =>
              dsimp only
              generalize hs₂ : (s₁.alloc us').setList (s.key k).list
                (s₁.list (s.key k).list ++ List.range' s₁.coins us'.length) = s₂
              have e2 : s₂.contents (s.key k).list = us ++ us' := by
                rw [← hs₂, contents_setList, List.map_append, alloc_new]
                congr 1
                rw [← e1]
                refine List.map_congr_left fun r hr => alloc_old s₁ us' ?_
                rw [hl1] at hr
                have := List.mem_range'_1.mp hr
                omega
              have hl2 : s₂.list (s.key k).list = List.range' s.coins us.length ++ List.range' s₁.coins us'.length := by
                rw [← hs₂, setList_self, hl1]
              have hc2 : s₂.coins = s₁.coins + us'.length := by rw [← hs₂]; rfl
              have hfresh : ∀ r ∈ s₂.list (s.key k).list, s.coins ≤ r ∧ r < s₂.coins := by
                intro r hr
                rw [hl2, List.mem_append, List.mem_range'_1, List.mem_range'_1] at hr
                omega
              have r2 : Refreshed k s s₂ := by
                refine ⟨by omega, ?_, ?_, ?_, ?_, ?_, .inr hfresh⟩
                · intro r hr
                  rw [← hs₂]
                  show (s₁.alloc us').coin r = _
                  rw [alloc_old _ _ (by omega)]
                  exact r1.coin r hr
                · intro l hl
                  rw [← hs₂]
                  show (if l = (s.key k).list then _ else s₁.list l) = _
                  rw [if_neg hl]
                  exact r1.lists l hl
                · intro j hj
                  rw [← hs₂]
                  exact r1.keys j hj
                · rw [← hs₂]
                  exact r1.signer
                · rw [← hs₂]
                  exact r1.own
              refine ⟨?_, ?_, ?_, r2.setKey _⟩
              · unfold wallet
                rw [setKey_key, setKey_contents]
                dsimp only
                rw [e2]
              · show Except.ok _ = _
                rw [setKey_contents, e2]
              · rintro l h
                cases h
                exact ⟨rfl, hfresh⟩

/-! ### Creating a transaction -/

/-- Creating a transaction from given values. -/
def valueResult (C : Crypto) (env : Env Amount) (args : TxArgs Amount) (signer : Signer) (us : List Unspent) : Py Str :=
  match returnAddress C signer us with
  | .error e => .error e
  | .ok default =>
    match sanitizeArgs C env args us default signer.net with
    | .error e => .error e
    | .ok (us, outs) => createNewTransaction C signer us outs

/-- Creating a transaction from a list object. -/
def finish (C : Crypto) (env : RefEnv Amount) (args : TxArgs Amount) (s : Session) (k l : Nat) : Session × Py Str :=
  match returnAddress C (s.key k).signer (s.contents l) with
  | .error e => (s, .error e)
  | .ok default =>
    match s.sanitize C env args l (leftoverOf args default) (s.key k).signer.net with
    | (s, .error e) => (s, .error e)
    | (s, .ok outs) => (s, createNewTransaction C (s.key k).signer (s.contents l) outs)

theorem create_eq (C : Crypto) (env : RefEnv Amount) (args : TxArgs Amount) (ask : Ask) (s : Session) (k : Nat)
    (given : Option Nat) : s.create C env args ask k given =
      match s.source C ask k given with
      | (s, .error e) => (s, .error e)
      | (s, .ok l) => finish C env args s k l := rfl

theorem getUnspents_signer (C : Crypto) (ask : Ask) (w : Wallet) : (w.getUnspents C ask).1.signer = w.signer := by
  unfold Wallet.getUnspents
  repeat' ((try dsimp only); split)
  all_goals rfl

theorem source_signer (C : Crypto) (ask : Ask) (w : Wallet) (src : Source) :
    (w.source C ask src).1.signer = w.signer := by
  unfold Wallet.source
  split
  · split
    · exact getUnspents_signer C ask w
    · rfl
  · split
    · exact getUnspents_signer C ask w
    · rfl

theorem wallet_result (C : Crypto) (env : Env Amount) (args : TxArgs Amount) (ask : Ask) (w : Wallet) (src : Source) :
    (w.createTransaction C env args ask src).2 =
      match (w.source C ask src).2.1 with
      | .error e => .error e
      | .ok us => valueResult C env args w.signer us := by
  have hs := source_signer C ask w src
  unfold Wallet.createTransaction valueResult
  generalize w.source C ask src = x at hs ⊢
  obtain ⟨w', got, own⟩ := x
  dsimp only at hs ⊢
  cases got with
  | error e => rfl
  | ok us =>
    dsimp only
    rw [hs]
    cases returnAddress C w.signer us with
    | error e => rfl
    | ok default =>
      dsimp only
      cases sanitizeArgs C env args us default w.signer.net with
      | error e => rfl
      | ok p => rfl

theorem Sanitized.keys {args : TxArgs Amount} {s s' : Session} {l : Nat} (h : Sanitized args s l s') :
    s'.key = s.key ∧ s'.coins = s.coins ∧ (∀ x ≠ l, s'.list x = s.list x) ∧ (s'.list l).Subperm (s.list l) ∧
    (s.list l ≠ [] → s'.list l ≠ []) ∧
    (args.replaceByFee = false → s'.coin = s.coin) ∧
    ∀ r, s'.coin r = s.coin r ∨ (r ∈ s'.list l ∧ args.replaceByFee = true ∧ s'.coin r = (s.coin r).optInForRBF) := by
  have hset : ∀ (sel : List Nat) (x : Nat), x ≠ l → (s.setList l sel).list x = s.list x := by
    intro sel x hx
    show (if x = l then sel else s.list x) = _
    rw [if_neg hx]
  cases h with
  | same => exact ⟨rfl, rfl, fun _ _ => rfl, List.Subperm.refl _, id, fun _ => rfl, fun _ => .inl rfl⟩
  | plain sel hr hne hsub =>
    refine ⟨rfl, rfl, fun x hx => hset sel x hx, ?_, fun _ => ?_, fun _ => rfl, fun _ => .inl rfl⟩
    · rw [setList_self]; exact hsub
    · rw [setList_self]; exact hne
  | rbf sel hr hne hsub =>
    have hl : ((s.setList l sel).optIn sel).list l = sel := setList_self s l sel
    refine ⟨rfl, rfl, fun x hx => hset sel x hx, ?_, fun _ => ?_, fun h => absurd (hr.symm.trans h) (by decide), ?_⟩
    · rw [hl]; exact hsub
    · rw [hl]; exact hne
    · intro r
      rw [hl]
      show (if r ∈ sel then (s.coin r).optInForRBF else s.coin r) = _ ∨ _ ∧ _ ∧
        (if r ∈ sel then (s.coin r).optInForRBF else s.coin r) = _
      by_cases hm : r ∈ sel
      · rw [if_pos hm]
        exact .inr ⟨hm, hr, rfl⟩
      · rw [if_neg hm]
        exact .inl rfl

/-- Creating a transaction on objects against values. -/
theorem finish_spec (C : Crypto) (env : RefEnv Amount) (hs : ∀ l, (env.shuffle l).Perm l) (args : TxArgs Amount)
    (s : Session) (k l : Nat) :
    (finish C env args s k l).2 =
      valueResult C (valueEnv env s.coin (s.list l)) args (s.key k).signer (s.contents l) ∧
    Sanitized args s l (finish C env args s k l).1 ∧
    ((finish C env args s k l).2 = .error .insufficientFunds → (finish C env args s k l).1 = s) ∧
    ∀ r, (finish C env args s k l).2 = .ok r → ∃ default outs,
      returnAddress C (s.key k).signer (s.contents l) = .ok default ∧
      sanitizeArgs C (valueEnv env s.coin (s.list l)) args (s.contents l) default (s.key k).signer.net =
        .ok ((finish C env args s k l).1.contents l, outs) ∧
      createNewTransaction C (s.key k).signer ((finish C env args s k l).1.contents l) outs = .ok r := by
  unfold finish valueResult
  cases h1 : returnAddress C (s.key k).signer (s.contents l) with
  | error e => exact ⟨rfl, .same, fun _ => rfl, fun _ h => (by cases h)⟩
  | ok default =>
    dsimp only
    obtain ⟨p1, p2, p3, p4⟩ := sanitize_spec C env hs args s l (leftoverOf args default) (s.key k).signer.net
    have hv : sanitizeArgs C (valueEnv env s.coin (s.list l)) args (s.contents l) default (s.key k).signer.net = _ := p2
    generalize s.sanitize C env args l (leftoverOf args default) (s.key k).signer.net = x at *
    obtain ⟨s', res⟩ := x
    dsimp only at *
    have hk : s'.key = s.key := p1.keys.1
    rw [hv]
    cases res with
    | error e =>
      refine ⟨rfl, p1, fun h => ?_, fun _ h => (by cases h)⟩
      injection h with h
      exact p3 e rfl h
    | ok outs =>
      dsimp only [Except.map]
      rw [hk]
      refine ⟨rfl, p1, fun h => ?_, fun r h => ⟨default, outs, rfl, hv, h⟩⟩
      have hp := plain_createNew C (s.key k).signer (s'.contents l) outs _ h
      exact absurd hp (by decide)

/-- The two ways to get the list. -/
theorem source_cases (C : Crypto) (ask : Ask) (s : Session) (k : Nat) (given : Option Nat) :
    (∃ l, given = some l ∧ s.list l ≠ [] ∧ s.source C ask k given = (s, .ok l)) ∨
    ((given = none ∨ ∃ l, given = some l ∧ s.list l = []) ∧ s.source C ask k given = s.getUnspents C ask k) := by
  unfold source
  cases given with
  | none => exact .inr ⟨.inl rfl, rfl⟩
  | some l =>
    dsimp only
    by_cases h : s.list l = []
    · rw [if_pos (by rw [h]; rfl)]
      exact .inr ⟨.inr ⟨l, rfl, h⟩, rfl⟩
    · rw [if_neg (by simpa using h)]
      exact .inl ⟨l, rfl, h, rfl⟩

end Session
end Bit
