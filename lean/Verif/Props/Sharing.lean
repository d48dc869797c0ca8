import Verif.Lemmas.Sharing
import Verif.Spec.Sharing
/-
C85: what calls do to the lists and unspents they are given.
-/
namespace Bit
open Concrete

/-! ## C85 -/

open Session
variable {Amount : Type}

/-- The contents of the list given as `unspents`; `None` counts as empty. -/
def Session.argument (s : Session) (given : Option Nat) : List Unspent :=
  match given with
  | none => []
  | some l => s.contents l

theorem argument_given {s : Session} {l : Nat} (h : s.list l ≠ []) : s.contents l ≠ [] := by
  unfold contents
  simpa using h

theorem argument_empty {s : Session} {given : Option Nat} (h : given = none ∨ ∃ l, given = some l ∧ s.list l = []) :
    s.argument given = [] := by
  rcases h with rfl | ⟨l, rfl, h⟩
  · rfl
  · show s.contents l = []
    unfold contents
    rw [h]
    rfl

/-- C85. What `create_transaction` returns depends on the contents of the objects only: it is the result for the values,
for some outcome of the random choices. (All theorems on values thus hold for objects.) -/
theorem C85_result (C : Crypto) (env : RefEnv Amount) (hs : ∀ l, (env.shuffle l).Perm l) (args : TxArgs Amount)
    (ask : Ask) (s : Session) (k : Nat) (given : Option Nat) :
    ∃ env' : Env Amount, env'.conv = env.conv ∧ env'.feeCached = env.feeCached ∧ env'.flips = env.flips ∧
      (∀ us, (env'.shuffle us).Perm us) ∧
      (s.create C env args ask k given).2 =
        ((s.wallet k).createTransaction C env' args ask (.given (s.argument given))).2 := by
  rcases source_cases C ask s k given with ⟨l, rfl, hne, hsrc⟩ | ⟨hg, hsrc⟩
  · refine ⟨valueEnv env s.coin (s.list l), rfl, rfl, rfl, valueEnv_perm env hs _ _, ?_⟩
    rw [create_eq, hsrc, wallet_result]
    dsimp only
    have : (s.wallet k).source C ask (.given (s.argument (some l))) = (s.wallet k, .ok (s.contents l), false) := by
      unfold Wallet.source
      dsimp only
      rw [show s.argument (some l) = s.contents l from rfl,
        if_neg (show ¬ (s.contents l).isEmpty = true by simpa using argument_given hne)]
    rw [this]
    exact (finish_spec C env hs args s k l).1
  · obtain ⟨g1, g2, g3, g4⟩ := getUnspents_spec C ask s k
    generalize hx : s.getUnspents C ask k = x at *
    obtain ⟨s', res⟩ := x
    dsimp only at g1 g2 g3 g4
    have hv : (s.wallet k).source C ask (.given (s.argument given)) =
        (((s.wallet k).getUnspents C ask).1, ((s.wallet k).getUnspents C ask).2, true) := by
      rw [argument_empty hg]
      rfl
    cases res with
    | error e =>
      refine ⟨⟨env.conv, env.feeCached, env.flips, id⟩, rfl, rfl, rfl, fun us => List.Perm.refl us, ?_⟩
      rw [create_eq, hsrc, wallet_result, hv]
      dsimp only
      rw [← g2]
      rfl
    | ok l =>
      refine ⟨valueEnv env s'.coin (s'.list l), rfl, rfl, rfl, valueEnv_perm env hs _ _, ?_⟩
      rw [create_eq, hsrc, wallet_result, hv]
      dsimp only
      rw [← g2]
      dsimp only [Except.map]
      rw [(finish_spec C env hs args s' k l).1, g4.signer]
      rfl

theorem kept_refl (u : Unspent) : Spec.Kept u u := ⟨rfl, rfl, rfl, rfl, rfl, rfl, rfl, rfl, .inl rfl⟩

theorem kept_optIn (u : Unspent) : Spec.Kept u u.optInForRBF := by
  obtain ⟨h1, h2, h3, h4, h5, h6, h7, h8, h9⟩ := optIn_fields u
  exact ⟨h1, h8, h6, h4, h5, h7, h2, h3, .inr h9⟩

theorem kept_trans {u v w : Unspent} (h1 : Spec.Kept u v) (h2 : Spec.Kept v w) : Spec.Kept u w := by
  obtain ⟨a1, a2, a3, a4, a5, a6, a7, a8, a9⟩ := h1
  obtain ⟨b1, b2, b3, b4, b5, b6, b7, b8, b9⟩ := h2
  exact ⟨b1.trans a1, b2.trans a2, b3.trans a3, b4.trans a4, b5.trans a5, b6.trans a6, b7.trans a7, b8.trans a8,
    by omega⟩

/-- What a call with the list `l` leaves behind. -/
structure Session.Frame (rbf : Bool) (s : Session) (l : Nat) (s' : Session) : Prop where
  /-- no key changes (in particular no balance) and no other list -/
  keys : s'.key = s.key
  lists : ∀ x ≠ l, s'.list x = s.list x
  /-- the list itself keeps some of its entries, each at most as often as before -/
  list : s'.list l ≠ [] ∧ (s'.list l).Subperm (s.list l)
  /-- only with `replace_by_fee`, and only for entries that are still in the list, the sequence number may be lowered -/
  coins : ∀ r, s'.coin r = s.coin r ∨ (rbf = true ∧ r ∈ s'.list l ∧ Spec.Kept (s.coin r) (s'.coin r))

theorem frame_of {args : TxArgs Amount} {s s' : Session} {l : Nat} (hne : s.list l ≠ []) (h : Sanitized args s l s') :
    Frame args.replaceByFee s l s' := by
  obtain ⟨h1, -, h3, h4, h5, -, h7⟩ := h.keys
  refine ⟨h1, h3, ⟨h5 hne, h4⟩, fun r => ?_⟩
  rcases h7 r with h | ⟨a, b, c⟩
  · exact .inl h
  · exact .inr ⟨b, a, by rw [c]; exact kept_optIn _⟩

/-- C85. A call of `create_transaction` with a nonempty list of unspents, successful or not, changes nothing but this
list and, with `replace_by_fee`, the sequence numbers of the unspents left in it. -/
theorem C85_frame (C : Crypto) (env : RefEnv Amount) (hs : ∀ l, (env.shuffle l).Perm l) (args : TxArgs Amount)
    (ask : Ask) (s : Session) (k l : Nat) (hne : s.list l ≠ []) :
    Frame args.replaceByFee s l (s.create C env args ask k (some l)).1 := by
  rcases source_cases C ask s k (some l) with ⟨l', h, -, hsrc⟩ | ⟨hg, -⟩
  · cases h
    rw [create_eq, hsrc]
    exact frame_of hne (finish_spec C env hs args s k l).2.1
  · rcases hg with h | ⟨l', h, h'⟩
    · cases h
    · cases h
      exact absurd h' hne

/-- C85. The same for `prepare_transaction`. -/
theorem C85_frame_prepare (C : Crypto) (env : RefEnv Amount) (hs : ∀ l, (env.shuffle l).Perm l) (args : TxArgs Amount)
    (s : Session) (net : Net) (address : Str) (l : Nat) (hne : s.list l ≠ []) :
    Frame args.replaceByFee s l (s.prepare C env args net address (some l)) := by
  unfold prepare
  dsimp only
  rw [if_neg (by simpa using hne)]
  exact frame_of hne (sanitize_spec C env hs args s l _ net).1

/-- C85. After `InsufficientFunds` from a nonempty list everything is as before, so that the call may be repeated with
other arguments. -/
theorem C85_insufficient (C : Crypto) (env : RefEnv Amount) (hs : ∀ l, (env.shuffle l).Perm l) (args : TxArgs Amount)
    (ask : Ask) (s : Session) (k l : Nat) (hne : s.list l ≠ [])
    (h : (s.create C env args ask k (some l)).2 = .error .insufficientFunds) :
    (s.create C env args ask k (some l)).1 = s := by
  rcases source_cases C ask s k (some l) with ⟨l', h', -, hsrc⟩ | ⟨hg, -⟩
  · cases h'
    rw [create_eq, hsrc] at h ⊢
    exact (finish_spec C env hs args s k l).2.2.1 h
  · rcases hg with h' | ⟨l', h', h''⟩
    · cases h'
    · cases h'
      exact absurd h'' hne

/-- The list used by a call: the given one, or the one of the key if none or an empty one is given. -/
def Session.used (s : Session) (k : Nat) (given : Option Nat) : Nat :=
  match given with
  | none => (s.key k).list
  | some l => if s.list l = [] then (s.key k).list else l

theorem create_ok {C : Crypto} {env : RefEnv Amount} {args : TxArgs Amount}
    {ask : Ask} {s : Session} {k : Nat} {given : Option Nat} {text : Str}
    (h : (s.create C env args ask k given).2 = .ok text) :
    ∃ s₁ sel, s₁.contents (s.used k given) = sel ∧ (s₁.key k).signer = (s.key k).signer ∧
      (∀ r < s.coins, s₁.coin r = s.coin r) ∧ s.coins ≤ s₁.coins ∧
      s.create C env args ask k given = finish C env args s₁ k (s.used k given) := by
  rcases source_cases C ask s k given with ⟨l, rfl, hne, hsrc⟩ | ⟨hg, hsrc⟩
  · have hu : s.used k (some l) = l := by
      unfold used
      dsimp only
      rw [if_neg hne]
    rw [hu]
    exact ⟨s, _, rfl, rfl, fun _ _ => rfl, le_refl _, by rw [create_eq, hsrc]⟩
  · have hu : s.used k given = (s.key k).list := by
      unfold used
      rcases hg with rfl | ⟨l, rfl, hl⟩
      · rfl
      · dsimp only
        rw [if_pos hl]
    rw [hu]
    obtain ⟨g1, g2, g3, g4⟩ := getUnspents_spec C ask s k
    rw [create_eq, hsrc] at h
    rw [create_eq, hsrc]
    generalize hx : s.getUnspents C ask k = x at *
    obtain ⟨s', res⟩ := x
    dsimp only at g1 g2 g3 g4 h
    cases res with
    | error e => cases h
    | ok l =>
      obtain ⟨rfl, -⟩ := g3 l rfl
      exact ⟨s', _, rfl, g4.signer, g4.coin, g4.coins, rfl⟩

/-- C85. After a successful `create_transaction` the list it used (the given one, or the one of the key) holds exactly
the coins that the transaction spends, in the order of the inputs and with the sequence numbers of the inputs: there is an
unsigned transaction with these inputs, and what is returned is the result of signing it (which keeps outpoints and
sequence numbers, C44). -/
theorem C85_spent (C : Crypto) (env : RefEnv Amount) (hs : ∀ l, (env.shuffle l).Perm l) (args : TxArgs Amount)
    (ask : Ask) (s : Session) (k : Nat) (given : Option Nat) (text : Str)
    (h : (s.create C env args ask k given).2 = .ok text) :
    let after := (s.create C env args ask k given).1.contents (s.used k given)
    (∀ u ∈ after, TxidOk u) →
    ∃ t : Spec.Tx, t.WF ∧ List.Forall₂ Spec.InputOf after t.inputs ∧ (∀ i ∈ t.inputs, i.script = [] ∧ i.witness = []) ∧
      signTransactionHex C (s.key k).signer
        (bytesToHex (if after.any Unspent.isSegwit then t.encodeExtended else t.encodeLegacy)) after = .ok text := by
  intro after htx
  obtain ⟨s₁, sel, -, hsig, -, -, hc⟩ := create_ok h
  have hafter : after = (finish C env args s₁ k (s.used k given)).1.contents (s.used k given) := by rw [← hc]
  rw [hc] at h
  obtain ⟨-, -, -, hf⟩ := finish_spec C env hs args s₁ k (s.used k given)
  obtain ⟨default, outs, f1, f2, f3⟩ := hf text h
  rw [← hafter] at f2 f3
  obtain ⟨sel', h4, h5⟩ := sanitizeArgs_rbf f2
  obtain ⟨hsel, -⟩ := C41_unchanged C _ _ _ (valueEnv_perm env hs s₁.coin (s₁.list (s.used k given))) _ args.outputs
    _ _ _ _ _ _ _ _ sel' outs h4
  have hne : after ≠ [] := by
    rw [h5, ← List.length_pos_iff, signedCoins_length, List.length_pos_iff]
    exact hsel
  obtain ⟨t, d1, -, -, d4, d5, -, -, d8⟩ := create_unsigned hne htx f3
  rw [hsig] at d8
  exact ⟨t, d1, d4.imp fun u i h => ⟨h.txid, h.index, h.sequence⟩, d5, d8⟩

/-- C85, for a private key: the returned text is the wire format of a transaction whose inputs are, in order, the coins in
the list after the call, with their sequence numbers. -/
theorem C85_spent_key (C : Crypto) (env : RefEnv Amount) (hs : ∀ l, (env.shuffle l).Perm l) (args : TxArgs Amount)
    (ask : Ask) (s : Session) (k : Nat) (key : PrivKey) (hk : KeyLaws C key) (hsig : (s.key k).signer = .single key)
    (given : Option Nat) (text : Str) (h : (s.create C env args ask k given).2 = .ok text) :
    let after := (s.create C env args ask k given).1.contents (s.used k given)
    (∀ u ∈ after, TxidOk u) →
    ∃ t : Spec.Tx, t.WF ∧ List.Forall₂ Spec.InputOf after t.inputs ∧
      text = bytesToHex (if after.any Unspent.isSegwit then t.encodeExtended else t.encodeLegacy) := by
  intro after htx
  obtain ⟨t, h1, h2, -, h4⟩ := C85_spent C env hs args ask s k given text h htx
  rw [hsig] at h4
  have hw : after.any Unspent.isSegwit = true ∨ ∀ u ∈ after, u.isSegwit = false := by
    cases hb : after.any Unspent.isSegwit with
    | true => exact .inl rfl
    | false =>
      right
      intro u hu
      simpa using List.any_eq_false.mp hb u hu
  obtain ⟨-, hr⟩ := (single_sign_hex hk h1 hw).mp h4
  have hsk := signedTx_skeleton C key after t
  refine ⟨_, signedTx_wf hk h1, ?_, hr⟩
  rw [forall₂_iff_get] at h2 ⊢
  refine ⟨?_, ?_⟩
  · rw [skeleton_length hsk]; exact h2.1
  · intro j a b ha hb
    have hj : j < t.inputs.length := by
      rw [← skeleton_length hsk]
      exact (List.getElem?_eq_some_iff.mp hb).1
    have hb0 : t.inputs[j]? = some t.inputs[j] := List.getElem?_eq_getElem hj
    obtain ⟨e1, e2, e3⟩ := skeleton_get hsk hb0 hb
    obtain ⟨g1, g2, g3⟩ := h2.2 j a _ ha hb0
    exact ⟨by rw [e1]; exact g1, by rw [e2]; exact g2, by rw [e3]; exact g3⟩

/-- C85. `get_unspents` returns the list of the key itself, filled with new unspents. It changes no unspent that exists, no
other list and no other key; key object and result are those of the refresh on values (C52), also if it fails. -/
theorem C85_refresh (C : Crypto) (ask : Ask) (s : Session) (k : Nat) :
    let s' := (s.getUnspents C ask k).1
    (∀ l, (s.getUnspents C ask k).2 = .ok l → l = (s.key k).list ∧ ∀ r ∈ s'.list l, s.coins ≤ r) ∧
    s'.wallet k = ((s.wallet k).getUnspents C ask).1 ∧
    (s.getUnspents C ask k).2.map s'.contents = ((s.wallet k).getUnspents C ask).2 ∧
    (∀ r < s.coins, s'.coin r = s.coin r) ∧ (∀ l ≠ (s.key k).list, s'.list l = s.list l) ∧
    (∀ j ≠ k, s'.key j = s.key j) ∧ (s'.key k).signer = (s.key k).signer ∧ (s'.key k).list = (s.key k).list := by
  obtain ⟨g1, g2, g3, g4⟩ := getUnspents_spec C ask s k
  exact ⟨fun l h => ⟨(g3 l h).1, fun r hr => ((g3 l h).2 r hr).1⟩, g1, g2, g4.coin, g4.lists, g4.keys, g4.signer, g4.own⟩

/-- The shuffles in a step are shuffles. -/
def Session.Step.Fair : Session.Step Amount → Prop
  | .create _ env _ _ _ => ∀ l, (env.shuffle l).Perm l
  | .prepare _ _ env _ _ => ∀ l, (env.shuffle l).Perm l
  | _ => True

/-- The step does not ask for replaceability. -/
def Session.Step.NoRbf : Session.Step Amount → Prop
  | .create _ _ args _ _ => args.replaceByFee = false
  | .prepare _ _ _ args _ => args.replaceByFee = false
  | _ => True

theorem sanitized_kept {args : TxArgs Amount} {s s' : Session} {l : Nat} (h : Sanitized args s l s') (r : Nat) :
    Spec.Kept (s.coin r) (s'.coin r) := by
  obtain ⟨-, -, -, -, -, -, h7⟩ := h.keys
  rcases h7 r with h | ⟨-, -, h⟩
  · rw [h]; exact kept_refl _
  · rw [h]; exact kept_optIn _

theorem step_kept (C : Crypto) (s : Session) (c : Session.Step Amount) (hf : c.Fair) :
    s.coins ≤ (s.step C c).coins ∧ (∀ r < s.coins, Spec.Kept (s.coin r) ((s.step C c).coin r)) ∧
    (c.NoRbf → ∀ r < s.coins, (s.step C c).coin r = s.coin r) := by
  cases c with
  | newCoin u =>
    have h : ∀ r < s.coins, (s.alloc [u]).coin r = s.coin r := fun r hr => alloc_old s [u] hr
    refine ⟨Nat.le_add_right _ _, fun r hr => ?_, fun _ => h⟩
    show Spec.Kept _ ((s.alloc [u]).coin r)
    rw [h r hr]
    exact kept_refl _
  | newList l refs => exact ⟨le_refl _, fun r _ => kept_refl _, fun _ r _ => rfl⟩
  | assign k l => exact ⟨le_refl _, fun r _ => kept_refl _, fun _ r _ => rfl⟩
  | refresh k ask =>
    obtain ⟨-, -, -, g⟩ := getUnspents_spec C ask s k
    refine ⟨g.coins, fun r hr => ?_, fun _ => g.coin⟩
    show Spec.Kept _ ((s.getUnspents C ask k).1.coin r)
    rw [g.coin r hr]
    exact kept_refl _
  | prepare net address env args l =>
    have h : s.prepare C env args net address l = s ∨
        ∃ l', Sanitized args s l' (s.prepare C env args net address l) := by
      unfold prepare
      split
      · exact .inl rfl
      · rename_i l
        split
        · exact .inl rfl
        · exact .inr ⟨l, (sanitize_spec C env hf args s l _ net).1⟩
    show s.coins ≤ (s.prepare C env args net address l).coins ∧ (∀ r < s.coins, Spec.Kept _
      ((s.prepare C env args net address l).coin r)) ∧ (args.replaceByFee = false → ∀ r < s.coins,
      (s.prepare C env args net address l).coin r = _)
    rcases h with h | ⟨l', h⟩
    · rw [h]
      exact ⟨le_refl _, fun r _ => kept_refl _, fun _ r _ => rfl⟩
    · refine ⟨h.keys.2.1.ge, fun r _ => sanitized_kept h r, fun hr r _ => ?_⟩
      rw [h.keys.2.2.2.2.2.1 hr]
  | create k env args ask given =>
    show s.coins ≤ (s.create C env args ask k given).1.coins ∧ (∀ r < s.coins, Spec.Kept _
      ((s.create C env args ask k given).1.coin r)) ∧ (args.replaceByFee = false → ∀ r < s.coins,
      (s.create C env args ask k given).1.coin r = _)
    have hfin : ∀ s₁ : Session, s.coins ≤ s₁.coins → (∀ r < s.coins, s₁.coin r = s.coin r) → ∀ l,
        s.coins ≤ (finish C env args s₁ k l).1.coins ∧ (∀ r < s.coins, Spec.Kept (s.coin r)
        ((finish C env args s₁ k l).1.coin r)) ∧ (args.replaceByFee = false → ∀ r < s.coins,
        (finish C env args s₁ k l).1.coin r = s.coin r) := by
      intro s₁ h1 h2 l
      obtain ⟨-, h, -, -⟩ := finish_spec C env hf args s₁ k l
      refine ⟨by rw [h.keys.2.1]; exact h1, fun r hr => ?_, fun hr r hc => ?_⟩
      · rw [← h2 r hr]; exact sanitized_kept h r
      · rw [h.keys.2.2.2.2.2.1 hr]; exact h2 r hc
    rw [create_eq]
    rcases source_cases C ask s k given with ⟨l, rfl, hne, hsrc⟩ | ⟨hg, hsrc⟩
    · rw [hsrc]
      exact hfin s (le_refl _) (fun _ _ => rfl) l
    · obtain ⟨-, -, -, g⟩ := getUnspents_spec C ask s k
      rw [hsrc]
      generalize s.getUnspents C ask k = x at *
      obtain ⟨s', res⟩ := x
      dsimp only at g
      cases res with
      | error e =>
        refine ⟨g.coins, fun r hr => ?_, fun _ => g.coin⟩
        dsimp only
        rw [g.coin r hr]
        exact kept_refl _
      | ok l => exact hfin s' g.coins g.coin l

/-- C85. Whatever a program does with keys, lists and unspents, an unspent object keeps all its fields, except that its
sequence number may be lowered to 0xfffffffd; and it keeps that too unless some call asks for replaceability. -/
theorem C85_history (C : Crypto) (cs : List (Session.Step Amount)) : ∀ (s : Session), (∀ c ∈ cs, c.Fair) →
    s.coins ≤ (s.run C cs).coins ∧ (∀ r < s.coins, Spec.Kept (s.coin r) ((s.run C cs).coin r)) ∧
    ((∀ c ∈ cs, c.NoRbf) → ∀ r < s.coins, (s.run C cs).coin r = s.coin r) := by
  induction cs with
  | nil => exact fun s _ => ⟨le_refl _, fun r _ => kept_refl _, fun _ r _ => rfl⟩
  | cons c cs ih =>
    intro s hf
    obtain ⟨a1, a2, a3⟩ := step_kept C s c (hf c List.mem_cons_self)
    obtain ⟨b1, b2, b3⟩ := ih (s.step C c) fun d hd => hf d (List.mem_cons_of_mem _ hd)
    refine ⟨le_trans a1 b1, fun r hr => kept_trans (a2 r hr) (b2 r (lt_of_lt_of_le hr a1)), fun hn r hr => ?_⟩
    exact (b3 (fun d hd => hn d (List.mem_cons_of_mem _ hd)) r (lt_of_lt_of_le hr a1)).trans
      (a3 (hn c List.mem_cons_self) r hr)

/-- C85. Replaceability sticks: if a transaction with `replace_by_fee` spends an unspent object, then every transaction
that any key makes later from that object, with or without `replace_by_fee`, has an input for it that signals
replaceability. -/
theorem C85_signals (C : Crypto) (s : Session) (k l : Nat) (env : RefEnv Amount) (hs : ∀ l, (env.shuffle l).Perm l)
    (args : TxArgs Amount) (ask : Ask) (hr : args.replaceByFee = true) (text : Str) (hne : s.list l ≠ [])
    (h : (s.create C env args ask k (some l)).2 = .ok text) (c : Nat) (hc : c < s.coins)
    (hm : c ∈ (s.create C env args ask k (some l)).1.list l)
    (cs : List (Session.Step Amount)) (hf : ∀ c ∈ cs, c.Fair)
    (k' : Nat) (given : Option Nat) (env' : RefEnv Amount) (hs' : ∀ l, (env'.shuffle l).Perm l) (args' : TxArgs Amount)
    (ask' : Ask) (text' : Str) :
    let s' := (s.create C env args ask k (some l)).1.run C cs
    let r' := s'.create C env' args' ask' k' given
    r'.2 = .ok text' → c ∈ r'.1.list (s'.used k' given) → (∀ u ∈ r'.1.contents (s'.used k' given), TxidOk u) →
    ∃ t : Spec.Tx, t.WF ∧ List.Forall₂ Spec.InputOf (r'.1.contents (s'.used k' given)) t.inputs ∧
      signTransactionHex C (s'.key k').signer (bytesToHex (if (r'.1.contents (s'.used k' given)).any Unspent.isSegwit
        then t.encodeExtended else t.encodeLegacy)) (r'.1.contents (s'.used k' given)) = .ok text' ∧
      ∃ i ∈ t.inputs, (s.coin c).txid = bytesToHex i.prevTxid.reverse ∧ (i.prevIndex : Int) = (s.coin c).txindex ∧
        i.sequence ≤ 0xfffffffd := by
  intro s' r' h' hm' htx
  obtain ⟨t, t1, t2, -, t4⟩ := C85_spent C env' hs' args' ask' s' k' given text' h' htx
  refine ⟨t, t1, t2, t4, ?_⟩
  -- the unspent after the first call
  have hfirst : ((s.create C env args ask k (some l)).1.coin c).sequence ≤ 0xfffffffd ∧
      Spec.Kept (s.coin c) ((s.create C env args ask k (some l)).1.coin c) ∧
      s.coins ≤ (s.create C env args ask k (some l)).1.coins := by
    rcases source_cases C ask s k (some l) with ⟨l', hl, -, hsrc⟩ | ⟨hg, -⟩
    · cases hl
      rw [create_eq, hsrc] at h hm ⊢
      dsimp only at h hm ⊢
      obtain ⟨-, hsan, -, hok⟩ := finish_spec C env hs args s k l
      refine ⟨?_, sanitized_kept hsan c, hsan.keys.2.1.ge⟩
      obtain ⟨default, outs, -, f2, -⟩ := hok text h
      obtain ⟨sel, -, hsel⟩ := sanitizeArgs_rbf f2
      have hmem : (finish C env args s k l).1.coin c ∈ (finish C env args s k l).1.contents l :=
        List.mem_map_of_mem hm
      rw [hsel, hr] at hmem
      unfold signedCoins at hmem
      rw [if_pos rfl] at hmem
      obtain ⟨u, -, hu⟩ := List.mem_map.mp hmem
      rw [← hu, (optIn_fields u).2.2.2.2.2.2.2.2]
      omega
    · rcases hg with h' | ⟨l', h', h''⟩
      · cases h'
      · cases h'
        exact absurd h'' hne
  obtain ⟨f1, f2, f3⟩ := hfirst
  obtain ⟨g1, g2, -⟩ := C85_history C cs (s.create C env args ask k (some l)).1 hf
  have g2 := g2 c (lt_of_lt_of_le hc f3)
  have hlast : Spec.Kept (s'.coin c) (r'.1.coin c) :=
    (step_kept C s' (.create k' env' args' ask' given) hs').2.1 c (lt_of_lt_of_le hc (le_trans f3 g1))
  have hall := kept_trans f2 (kept_trans g2 hlast)
  have hseq : (r'.1.coin c).sequence ≤ 0xfffffffd := by
    have e1 := g2.sequence
    have e2 := hlast.sequence
    have e3 : s'.coin c = (Session.run C (s.create C env args ask k (some l)).1 cs).coin c := rfl
    rw [e3] at e2
    omega
  obtain ⟨i, hi, hio⟩ := forall₂_left t2 (List.mem_map_of_mem hm' : r'.1.coin c ∈ r'.1.contents (s'.used k' given))
  refine ⟨i, hi, ?_, ?_, ?_⟩
  · rw [← hall.txid]; exact hio.txid
  · rw [← hall.txindex]; exact hio.index
  · have := hio.sequence
    omega

/-! Samples: key B with its own list 0, which is empty; the unspents of 70000, 5000 and 80000 satoshi are objects 0, 1
and 2, which are in list 1; list 2 holds the first one only. -/

def sessionB : Session :=
  { coin := fun r => if r = 0 then plain 70000 else if r = 1 then plain 5000 else unspentB
    coins := 3
    list := fun l => if l = 1 then [0, 1, 2] else if l = 2 then [0] else []
    key := fun _ => { signer := .single keyB, list := 0, balance := 0 } }

def refEnvB : RefEnv Int := { conv := fun n => .ok n, feeCached := 1, flips := fun _ => true, shuffle := id }

def payB (amount : Int) (combine rbf : Bool) : TxArgs Int :=
  { argsB combine with outputs := [(addrA, amount)], replaceByFee := rbf }

/-- A call with list `l`. -/
def callB (s : Session) (args : TxArgs Int) (l : Option Nat) : Session × Py Str :=
  s.create crypto refEnvB args (askB (.ok (some [unspentBDefault]))) 0 l

-- the hypotheses of C85_frame, C85_spent_key and C85_signals
example : sessionB.list 1 ≠ [] ∧ (callB sessionB (payB 20000 false true) (some 1)).2.toOption.isSome = true ∧
    (callB sessionB (payB 20000 false true) (some 1)).1.list 1 = [0] ∧
    sessionB.used 0 (some 1) = 1 ∧ sessionB.used 0 (some 3) = 0 ∧ sessionB.used 0 none = 0 ∧
    ((callB sessionB (payB 20000 false true) (some 1)).1.contents 1).map Unspent.sequence = [0xfffffffd] ∧
    (callB sessionB (payB 20000 true true) (some 1)).1.list 1 = [0, 1, 2] ∧
    (callB sessionB (payB 20000 true false) none).1.list 0 = [3, 4, 5] ∧
    (callB sessionB (payB 20000 true false) none).2 = (callB sessionB (payB 20000 true false) (some 1)).2 := by
  decide +kernel

example : ∀ l : List Nat, (refEnvB.shuffle l).Perm l := fun l => List.Perm.refl l

example : ∀ u ∈ (callB sessionB (payB 20000 false true) (some 1)).1.contents 1, TxidOk u := by
  have h : (callB sessionB (payB 20000 false true) (some 1)).1.contents 1 = [(plain 70000).optInForRBF] := by
    decide +kernel
  rw [h]
  intro u hu
  rw [List.mem_singleton.mp hu]
  exact ⟨List.replicate 32 7, by decide, by decide +kernel⟩

-- the hypothesis of C85_insufficient
example : (callB sessionB (payB 200000 true true) (some 1)).2 = .error .insufficientFunds := by decide +kernel

-- a refresh: new objects in the list of the key
example : let r := sessionB.getUnspents crypto (askB (.ok (some [unspentBDefault]))) 0
    r.2 = .ok 0 ∧ r.1.list 0 = [3, 4, 5] ∧ (r.1.key 0).balance = 155000 ∧ r.1.list 1 = [0, 1, 2] := by decide +kernel

/-- C85 (limitation). Replaceability is written into the unspents: a transaction made without `replace_by_fee`, from
another list that shares an unspent, is another one after a call with `replace_by_fee` than before. -/
theorem C85_sticky : ∃ (s : Session) (env : RefEnv Int) (args args' : TxArgs Int) (ask : Ask) (k l l' : Nat) (tx tx' : Str),
    l ≠ l' ∧ args.replaceByFee = true ∧ args'.replaceByFee = false ∧
    (s.create crypto env args' ask k (some l')).2 = .ok tx ∧
    ((s.create crypto env args ask k (some l)).1.create crypto env args' ask k (some l')).2 = .ok tx' ∧ tx ≠ tx' := by
  obtain ⟨tx, h1⟩ := isSome_ok (x := (callB sessionB (payB 20000 true false) (some 2)).2) (by decide +kernel)
  obtain ⟨tx', h2⟩ := isSome_ok (x := (callB (callB sessionB (payB 20000 false true) (some 1)).1
    (payB 20000 true false) (some 2)).2) (by decide +kernel)
  refine ⟨sessionB, refEnvB, payB 20000 false true, payB 20000 true false, _, 0, 1, 2, tx, tx', by decide, rfl, rfl, h1, h2,
    ?_⟩
  intro e
  have : (callB sessionB (payB 20000 true false) (some 2)).2 ≠ (callB (callB sessionB (payB 20000 false true) (some 1)).1
    (payB 20000 true false) (some 2)).2 := by decide +kernel
  exact this (by rw [h1, h2, e])

/-- C85 (limitation). Making a transaction without consolidation drops the other unspents from the caller's list: a
payment that the list could make before fails afterwards, even though the first transaction is never sent. -/
theorem C85_truncated : ∃ (s : Session) (env : RefEnv Int) (args args' : TxArgs Int) (ask : Ask) (k l : Nat) (tx tx' : Str),
    (s.create crypto env args ask k (some l)).2 = .ok tx ∧
    (s.create crypto env args' ask k (some l)).2 = .ok tx' ∧
    ((s.create crypto env args ask k (some l)).1.create crypto env args' ask k (some l)).2 = .error .insufficientFunds := by
  obtain ⟨tx, h1⟩ := isSome_ok (x := (callB sessionB (payB 20000 false false) (some 1)).2) (by decide +kernel)
  obtain ⟨tx', h2⟩ := isSome_ok (x := (callB sessionB (payB 90000 true false) (some 1)).2) (by decide +kernel)
  exact ⟨sessionB, refEnvB, payB 20000 false false, payB 90000 true false, _, 0, 1, tx, tx', h1, h2, by decide +kernel⟩

/-- C85 (limitation). The list returned by `get_unspents` is changed by later calls of the key that do not mention it. -/
theorem C85_alias : ∃ (s : Session) (env : RefEnv Int) (args : TxArgs Int) (ask : Ask) (k l : Nat),
    (s.getUnspents crypto ask k).2 = .ok l ∧
    ((s.getUnspents crypto ask k).1.contents l).map Unspent.amount = [70000, 5000, 80000] ∧
    (((s.getUnspents crypto ask k).1.create crypto env args ask k none).1.contents l).map Unspent.amount = [70000] :=
  ⟨sessionB, refEnvB, payB 20000 false false, askB (.ok (some [unspentBDefault])), 0, 0, by decide +kernel⟩

end Bit
