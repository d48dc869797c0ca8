import Verif.Lemmas.Errors
import Verif.Props.Create
/-
C86: the exceptions of `create_transaction`.
-/
namespace Bit
open Concrete
variable {Amount : Type}

/-! ## C86 -/

/-- The bytes of the message: UTF-8 for a text, unless `message_is_hex` is set. -/
def messageLength (message : Option Dest) (messageIsHex : Bool) : Nat :=
  match message with
  | none => 0
  | some (.str m) => if messageIsHex then m.length else (utf8 m).length
  | some (.bytes b) => b.length

/-- What the cost of a call depends on: the amounts of the payments in satoshi, the scripts of their addresses, and the
script of the address for change, which is the given one, or the one of the key (or contract), the segwit one if any coin is
segwit. -/
structure Cost (C : Crypto) (env : Env Amount) (args : TxArgs Amount) (s : Signer) (us : List Unspent)
    (amounts : List Int) (scripts : List Bytes) (changeScript : Bytes) : Prop where
  amounts : List.Forall₂ (fun o a => env.conv o.2 = .ok a) args.outputs amounts
  scripts : List.Forall₂ (fun o b => addressToScriptpubkey C o.1 = .ok (some b)) args.outputs scripts
  change : ∃ change, addressToScriptpubkey C change = .ok (some changeScript) ∧
    match args.leftover with
    | some (c :: l) => change = c :: l
    | _ => if us.any (fun u => u.segwit = some true) then s.segwitAddress C = .ok (some change)
      else s.address C = .ok change

/-- What all coins together have to pay: the payments and the fee, which is the given one or the rate times the size
estimate for all coins, the payments, one message output for every 80 bytes, and a change output. -/
def needed (env : Env Amount) (args : TxArgs Amount) (us : List Unspent) (amounts : List Int) (scripts : List Bytes)
    (changeScript : Bytes) : Int :=
  amounts.sum + if args.absoluteFee then askedFee env args else
    feeFor (askedFee env args)
      (sizesOf scripts ((messageLength args.message args.messageIsHex + 79) / 80) changeScript) us

theorem chunkAux_count {α : Type} : ∀ (f : Nat) (l : List α), l.length ≤ f →
    (chunkAux 80 f l).length = (l.length + 79) / 80 := by
  intro f
  induction f with
  | zero =>
    intro l hl
    have : l.length = 0 := by omega
    rw [this]
    rfl
  | succ f ih =>
    intro l hl
    rw [chunkAux]
    cases l with
    | nil => simp
    | cons a l =>
      rw [if_neg (by simp), List.length_cons, ih _ (by simp only [List.length_drop, List.length_cons] at hl ⊢; omega)]
      simp only [List.length_drop, List.length_cons]
      omega

theorem messageChunks_count {message : Option Dest} {hex : Bool} {chunks : List Dest}
    (h : messageChunks message hex = .ok chunks) : chunks.length = (messageLength message hex + 79) / 80 := by
  have hc : ∀ {α : Type} (l : List α), (chunkData l 80).length = (l.length + 79) / 80 :=
    fun l => chunkAux_count _ l (le_refl _)
  unfold messageChunks at h
  unfold messageLength
  split at h
  · cases h; simp
  · rename_i m
    dsimp only
    split at h
    · rename_i hm
      have : m = [] := by simpa using hm
      subst this
      cases h
      split <;> simp [utf8]
    · split at h
      · rename_i hh
        cases h
        rw [if_pos hh, List.length_map, hc]
      · rename_i hh
        cases h
        rw [if_neg hh, List.length_map, hc]
  · rename_i m
    dsimp only
    split at h
    · rename_i hm
      have : m = [] := by simpa using hm
      subst this
      cases h
      simp
    · split at h
      · cases h
        rw [List.length_map, hc]
      · cases h

theorem convertOutputs_error {conv : Amount → Py Int} {e : PyErr} : ∀ {os : List (Str × Amount)},
    convertOutputs conv os = .error e → ∃ o ∈ os, conv o.2 = .error e
  | [], h => by cases h
  | (d, a) :: os, h => by
    rw [convertOutputs] at h
    split at h
    · rename_i e' he
      cases h
      exact ⟨_, List.mem_cons_self, he⟩
    · split at h
      · rename_i he
        cases h
        obtain ⟨o, ho, h'⟩ := convertOutputs_error he
        exact ⟨o, List.mem_cons_of_mem _ ho, h'⟩
      · cases h

theorem convertOutputs_iff {conv : Amount → Py Int} : ∀ {os : List (Str × Amount)} {pays : List (Str × Int)},
    convertOutputs conv os = .ok pays ↔ List.Forall₂ (fun o p => p.1 = o.1 ∧ conv o.2 = .ok p.2) os pays
  | [], pays => by
    constructor
    · intro h; cases h; exact .nil
    · intro h; cases h; rfl
  | (d, a) :: os, pays => by
    rw [convertOutputs]
    cases h1 : conv a with
    | error e =>
      constructor
      · intro h; cases h
      · intro h
        cases h with
        | cons h _ => rw [h1] at h; cases h.2
    | ok n =>
      dsimp only
      cases h2 : convertOutputs conv os with
      | error e =>
        constructor
        · intro h; cases h
        · intro h
          cases h with
          | cons _ h =>
            rw [convertOutputs_iff.mpr h] at h2
            cases h2
      | ok ps =>
        constructor
        · intro h
          cases h
          exact .cons ⟨rfl, h1⟩ (convertOutputs_iff.mp h2)
        · intro h
          cases h with
          | @cons _ p _ ps' h h' =>
            have := convertOutputs_iff.mpr h'
            rw [h2] at this
            cases this
            obtain ⟨e1, e2⟩ := h
            rw [h1] at e2
            cases e2
            show Except.ok ((d, p.2) :: ps) = _
            have e1 : p.1 = d := e1
            rw [← e1]

theorem outputSizes_of {C : Crypto} : ∀ {pays : List (Str × Int)} {scripts : List Bytes},
    List.Forall₂ (fun p s => addressToScriptpubkey C p.1 = .ok (some s)) pays scripts →
    outputSizes C pays = .ok (scripts.map fun s => s.length + 9)
  | _, _, .nil => rfl
  | _, _, .cons (a := p) h h' => by
    rw [outputSizes]
    unfold outputSizeOf
    rw [h]
    dsimp only
    rw [outputSizes_of h']
    rfl

theorem leftover_default {C : Crypto} {args : TxArgs Amount} {s : Signer} {us : List Unspent} {default : Option Str}
    (h : returnAddress C s us = .ok default) {change : Str} (hl : leftoverOf args default = some change) :
    match args.leftover with
    | some (c :: l) => change = c :: l
    | _ => if us.any (fun u => u.segwit = some true) then s.segwitAddress C = .ok (some change)
      else s.address C = .ok change := by
  have hfin : default = some change → (if us.any (fun u => decide (u.segwit = some true)) then
      s.segwitAddress C = .ok (some change) else s.address C = .ok change) := by
    rintro rfl
    unfold returnAddress at h
    split
    · rename_i ha
      rwa [if_pos ha] at h
    · rename_i ha
      rw [if_neg ha] at h
      split at h
      · cases h
      · rename_i a ha'
        injection h with h
        injection h with h
        rw [ha', h]
  unfold leftoverOf at hl
  cases ha : args.leftover with
  | none => rw [ha] at hl; exact hfin hl
  | some l =>
    rw [ha] at hl
    cases l with
    | nil => exact hfin hl
    | cons c l =>
      simp only [List.isEmpty_cons, Bool.false_eq_true, if_false, Option.some.injEq] at hl
      exact hl.symm

/-- Coin selection fails only with `InsufficientFunds`, and only if all coins together do not pay. -/
theorem select_error {flips : Nat → Bool} {shuffle : List Unspent → List Unspent} (hshuffle : ∀ l, (shuffle l).Perm l)
    {target fee : Int} {sizes : List Nat} {absoluteFee combine : Bool} {us : List Unspent} (hne : us ≠ []) {e : PyErr}
    (h : selectCoins flips shuffle target fee sizes 0 absoluteFee combine us = .error e) :
    e = .insufficientFunds ∧
    (us.map Unspent.amount).sum < target + (if absoluteFee then fee else feeFor fee sizes us) := by
  cases combine with
  | true =>
    rw [C35_consolidate flips shuffle hshuffle target fee sizes 0 absoluteFee us hne] at h
    generalize (if absoluteFee = true then fee else feeFor fee sizes us) = f at h ⊢
    split at h
    · cases h
    · rename_i hc
      cases h
      exact ⟨rfl, by omega⟩
  | false =>
    obtain ⟨h1, -, h3⟩ := C36_insufficient flips shuffle hshuffle target fee sizes 0 absoluteFee us hne e h
    exact ⟨h1, by omega⟩

theorem snds {conv : Amount → Py Int} {os : List (Str × Amount)} {pays : List (Str × Int)}
    (h : List.Forall₂ (fun o p => p.1 = o.1 ∧ conv o.2 = .ok p.2) os pays) :
    List.Forall₂ (fun o a => conv o.2 = .ok a) os (pays.map Prod.snd) := by
  induction h with
  | nil => exact .nil
  | cons h _ ih => exact .cons h.2 ih

theorem forall₂_address {os : List (Str × Amount)} {pays : List (Str × Int)} {conv : Amount → Py Int}
    (h : List.Forall₂ (fun o p => p.1 = o.1 ∧ conv o.2 = .ok p.2) os pays) (R : Str → Bytes → Prop) :
    ∀ bs, List.Forall₂ (fun o b => R o.1 b) os bs ↔ List.Forall₂ (fun p b => R p.1 b) pays bs := by
  induction h with
  | nil =>
    intro bs
    constructor <;> intro h <;> cases h <;> exact .nil
  | cons h _ ih =>
    intro bs
    constructor
    · intro h'
      cases h' with
      | cons a b => exact .cons (by rw [h.1]; exact a) ((ih _).mp b)
    · intro h'
      cases h' with
      | cons a b => exact .cons (by rw [← h.1]; exact a) ((ih _).mpr b)

/-- C86. If `create_transaction` with explicit unspents fails, then with an exception of the conversion of an amount, or
with `ValueError`, `TypeError`, `IndexError`, `OverflowError` or `AttributeError`, or with `InsufficientFunds`; the last only
if the coins together are worth less than the payments and the fee for spending all of them. -/
theorem C86_errors (C : Crypto) (env : Env Amount) (hshuffle : ∀ l, (env.shuffle l).Perm l) (args : TxArgs Amount)
    (ask : Ask) (w : Wallet) (us : List Unspent) (hne : us ≠ []) (e : PyErr)
    (h : (w.createTransaction C env args ask (.given us)).2 = .error e) :
    (∃ o ∈ args.outputs, env.conv o.2 = .error e) ∨
    e ∈ [.valueError, .typeError, .indexError, .overflowError, .attributeError] ∨
    (e = .insufficientFunds ∧ ∃ amounts scripts changeScript,
      Cost C env args w.signer us amounts scripts changeScript ∧
      (us.map Unspent.amount).sum < needed env args us amounts scripts changeScript) := by
  have hsrc : w.source C ask (.given us) = (w, .ok us, false) := by
    unfold Wallet.source
    dsimp only
    rw [if_neg (by simpa using hne)]
  unfold Wallet.createTransaction at h
  rw [hsrc] at h
  dsimp only at h
  cases h1 : returnAddress C w.signer us with
  | error e' =>
    rw [h1] at h
    cases h
    exact .inr (.inl (plain_returnAddress C w.signer us _ h1))
  | ok default =>
    rw [h1] at h
    dsimp only at h
    cases h2 : sanitizeArgs C env args us default w.signer.net with
    | ok p =>
      rw [h2] at h
      exact .inr (.inl (plain_createNew _ _ _ _ _ h))
    | error e' =>
      rw [h2] at h
      cases h
      unfold sanitizeArgs sanitizeTxData at h2
      cases h3 : convertOutputs env.conv args.outputs with
      | error e' =>
        rw [h3] at h2
        cases h2
        exact .inl (convertOutputs_error h3)
      | ok pays =>
        rw [h3] at h2
        dsimp only at h2
        rw [if_neg (by simpa using hne)] at h2
        cases h4 : messageChunks args.message args.messageIsHex with
        | error e' =>
          rw [h4] at h2
          cases h2
          exact .inr (.inl (plain_messageChunks _ _ _ h4))
        | ok chunks =>
          rw [h4] at h2
          dsimp only at h2
          cases h5 : outputSizes C pays with
          | error e' =>
            rw [h5] at h2
            cases h2
            exact .inr (.inl (plain_outputSizes _ _ _ h5))
          | ok sizes =>
            rw [h5] at h2
            dsimp only at h2
            cases h6 : leftoverOf args default with
            | none =>
              rw [h6] at h2
              cases h2
              exact .inr (.inl (by decide))
            | some change =>
              rw [h6] at h2
              dsimp only at h2
              cases h7 : outputSizeOf C change with
              | error e' =>
                rw [h7] at h2
                cases h2
                exact .inr (.inl (plain_outputSizeOf _ _ _ h7))
              | ok lsize =>
                rw [h7] at h2
                dsimp only at h2
                cases h8 : selectCoins env.flips env.shuffle (pays.map Prod.snd).sum (feeOf env args)
                    (sizes ++ [chunks.length * (80 + 9)] ++ [lsize]) 0 args.absoluteFee args.combine us with
                | error e' =>
                  rw [h8] at h2
                  cases h2
                  right; right
                  obtain ⟨rfl, hlt⟩ := select_error hshuffle hne h8
                  obtain ⟨scripts, hs, rfl⟩ := outputSizes_ok h5
                  obtain ⟨cscript, hcs, rfl⟩ := outputSizeOf_ok h7
                  have hp := convertOutputs_iff.mp h3
                  refine ⟨rfl, pays.map Prod.snd, scripts, cscript,
                    ⟨snds hp, (forall₂_address hp (fun a b => addressToScriptpubkey C a = .ok (some b)) _).mpr hs,
                      change, hcs, leftover_default h1 h6⟩, ?_⟩
                  unfold needed
                  rw [← feeOf_asked, ← messageChunks_count h4]
                  have e1 : (scripts.map fun s => s.length + 9) ++ [chunks.length * (80 + 9)] ++ [cscript.length + 9]
                      = sizesOf scripts chunks.length cscript := by
                    unfold sizesOf; rw [Nat.mul_comm]
                  rw [e1] at hlt
                  exact hlt
                | ok r =>
                  rw [h8] at h2
                  obtain ⟨sel, rem⟩ := r
                  dsimp only at h2
                  cases h9 : checkVersions C w.signer.net
                      (if rem > 0 then pays ++ [(change, rem)] else pays) with
                  | error e' =>
                    rw [h9] at h2
                    cases h2
                    exact .inr (.inl (plain_checkVersions _ _ _ _ h9))
                  | ok u =>
                    rw [h9] at h2
                    cases h2

/-- C86. With consolidation the converse holds: if amounts, addresses and message are in order, and the coins are worth
less than the payments and the fee for spending all of them, `InsufficientFunds` is raised. -/
theorem C86_refused (C : Crypto) (env : Env Amount) (hshuffle : ∀ l, (env.shuffle l).Perm l) (args : TxArgs Amount)
    (ask : Ask) (w : Wallet) (us : List Unspent) (hne : us ≠ []) (hall : args.combine = true)
    (ha : ∃ a, w.signer.address C = .ok a) (hsa : ∃ a, w.signer.segwitAddress C = .ok a)
    (hm : ∀ b, args.message = some (.bytes b) → b = [] ∨ args.messageIsHex = true)
    (amounts : List Int) (scripts : List Bytes) (changeScript : Bytes)
    (hc : Cost C env args w.signer us amounts scripts changeScript)
    (h : (us.map Unspent.amount).sum < needed env args us amounts scripts changeScript) :
    (w.createTransaction C env args ask (.given us)).2 = .error .insufficientFunds := by
  have hsrc : w.source C ask (.given us) = (w, .ok us, false) := by
    unfold Wallet.source
    dsimp only
    rw [if_neg (by simpa using hne)]
  unfold Wallet.createTransaction
  rw [hsrc]
  dsimp only
  obtain ⟨default, h1⟩ : ∃ d, returnAddress C w.signer us = .ok d := by
    obtain ⟨a, ha⟩ := ha
    unfold returnAddress
    split
    · exact hsa
    · rw [ha]; exact ⟨_, rfl⟩
  rw [h1]
  dsimp only
  have hs : sanitizeArgs C env args us default w.signer.net = .error .insufficientFunds := by
    unfold sanitizeArgs sanitizeTxData
    obtain ⟨pays, hp, hps⟩ : ∃ pays : List (Str × Int),
        List.Forall₂ (fun o p => p.1 = o.1 ∧ env.conv o.2 = .ok p.2) args.outputs pays ∧ pays.map Prod.snd = amounts := by
      have := hc.amounts
      generalize args.outputs = os at this
      clear hc h
      induction this with
      | nil => exact ⟨[], .nil, rfl⟩
      | @cons o a _ _ hoa _ ih =>
        obtain ⟨pays, h1, h2⟩ := ih
        exact ⟨(o.1, a) :: pays, .cons ⟨rfl, hoa⟩ h1, by rw [List.map_cons, h2]⟩
    rw [convertOutputs_iff.mpr hp]
    dsimp only
    rw [if_neg (by simpa using hne)]
    obtain ⟨chunks, h4⟩ : ∃ c, messageChunks args.message args.messageIsHex = .ok c := by
      unfold messageChunks
      split
      · exact ⟨_, rfl⟩
      · split
        · exact ⟨_, rfl⟩
        · split <;> exact ⟨_, rfl⟩
      · rename_i b hb
        split
        · exact ⟨_, rfl⟩
        · rename_i hne
          rw [if_pos ((hm b hb).resolve_left (by simpa using hne))]; exact ⟨_, rfl⟩
    rw [h4]
    dsimp only
    rw [outputSizes_of ((forall₂_address hp (fun a b => addressToScriptpubkey C a = .ok (some b)) _).mp hc.scripts)]
    dsimp only
    obtain ⟨change, hcs, hch⟩ := hc.change
    have h6 : leftoverOf args default = some change := by
      have hdef : (if us.any (fun u => decide (u.segwit = some true)) then w.signer.segwitAddress C = .ok (some change)
          else w.signer.address C = .ok change) → default = some change := by
        intro hd
        unfold returnAddress at h1
        split at hd
        · rename_i hx
          rw [if_pos hx, hd] at h1
          cases h1; rfl
        · rename_i hx
          rw [if_neg hx, hd] at h1
          cases h1; rfl
      unfold leftoverOf
      cases hl : args.leftover with
      | none => rw [hl] at hch; exact hdef hch
      | some l =>
        rw [hl] at hch
        cases l with
        | nil => exact hdef hch
        | cons c l =>
          have hch : change = c :: l := hch
          subst hch
          rfl
    rw [h6]
    dsimp only
    unfold outputSizeOf
    rw [hcs]
    dsimp only
    have e1 : (scripts.map fun s => s.length + 9) ++ [chunks.length * (80 + 9)] ++ [changeScript.length + 9]
        = sizesOf scripts chunks.length changeScript := by
      unfold sizesOf; rw [Nat.mul_comm]
    unfold needed at h
    rw [← feeOf_asked, ← messageChunks_count h4] at h
    rw [e1, hall, C35_consolidate env.flips env.shuffle hshuffle _ _ _ 0 args.absoluteFee us hne, hps, if_neg (by omega)]
  rw [hs]

theorem forall₂_functional {α β : Type} {R : α → β → Prop} (hR : ∀ a b b', R a b → R a b' → b = b') :
    ∀ {l : List α} {bs bs' : List β}, List.Forall₂ R l bs → List.Forall₂ R l bs' → bs = bs'
  | _, _, _, .nil, .nil => rfl
  | _, _, _, .cons h t, .cons h' t' => by rw [hR _ _ _ h h', forall₂_functional hR t t']

theorem Cost.unique {C : Crypto} {env : Env Amount} {args : TxArgs Amount} {s : Signer} {us : List Unspent}
    {amounts amounts' : List Int} {scripts scripts' : List Bytes} {c c' : Bytes}
    (h : Cost C env args s us amounts scripts c) (h' : Cost C env args s us amounts' scripts' c') :
    amounts = amounts' ∧ scripts = scripts' ∧ c = c' := by
  refine ⟨forall₂_functional ?_ h.amounts h'.amounts, forall₂_functional ?_ h.scripts h'.scripts, ?_⟩
  · intro a b b' h1 h2
    rw [h1] at h2
    cases h2; rfl
  · intro a b b' h1 h2
    rw [h1] at h2
    cases h2; rfl
  · obtain ⟨a, h1, h2⟩ := h.change
    obtain ⟨a', h1', h2'⟩ := h'.change
    have default : ∀ {x x' : Str},
        (if us.any (fun u => u.segwit = some true) then s.segwitAddress C = .ok (some x) else s.address C = .ok x) →
        (if us.any (fun u => u.segwit = some true) then s.segwitAddress C = .ok (some x') else s.address C = .ok x') →
        x = x' := by
      intro x x' g g'
      split at g
      · rename_i hs
        rw [if_pos hs, g] at g'
        cases g'; rfl
      · rename_i hs
        rw [if_neg hs, g] at g'
        cases g'; rfl
    have : a = a' := by
      cases hl : args.leftover with
      | none =>
        rw [hl] at h2 h2'
        exact default h2 h2'
      | some l =>
        rw [hl] at h2 h2'
        cases l with
        | nil => exact default h2 h2'
        | cons _ _ => exact Eq.trans h2 (Eq.symm h2')
    subst this
    rw [h1] at h1'
    cases h1'; rfl

/-- C86. Coins that are worth the payments and the fee for spending all of them are never refused as insufficient, with
consolidation or without. -/
theorem C86_paid (C : Crypto) (env : Env Amount) (hshuffle : ∀ l, (env.shuffle l).Perm l) (args : TxArgs Amount)
    (ask : Ask) (w : Wallet) (us : List Unspent) (hne : us ≠ [])
    (hconv : ∀ o ∈ args.outputs, env.conv o.2 ≠ .error .insufficientFunds)
    (amounts : List Int) (scripts : List Bytes) (changeScript : Bytes)
    (hc : Cost C env args w.signer us amounts scripts changeScript)
    (h : needed env args us amounts scripts changeScript ≤ (us.map Unspent.amount).sum) :
    (w.createTransaction C env args ask (.given us)).2 ≠ .error .insufficientFunds := by
  intro he
  rcases C86_errors C env hshuffle args ask w us hne _ he with ⟨o, ho, h1⟩ | h1 | ⟨_, as, ss, c, h1, h2⟩
  · exact hconv o ho h1
  · simp at h1
  · obtain ⟨rfl, rfl, rfl⟩ := hc.unique h1
    omega

-- 150000 satoshi cannot pay 149990 and the fee
example : ∃ amounts scripts changeScript,
    Cost crypto envB { argsB true with outputs := [(addrA, 149990)] } (.single keyB) [plain 70000, unspentB] amounts scripts
      changeScript ∧
    (([plain 70000, unspentB] : List Unspent).map Unspent.amount).sum <
      needed envB { argsB true with outputs := [(addrA, 149990)] } [plain 70000, unspentB] amounts scripts changeScript := by
  refine ⟨[149990], [((addressToScriptpubkey crypto addrA).toOption.getD none).getD []],
    ((addressToScriptpubkey crypto segwitB).toOption.getD none).getD [], ⟨.cons rfl .nil, .cons ?_ .nil, segwitB, ?_, ?_⟩, ?_⟩
  · decide +kernel
  · decide +kernel
  · show (if _ then _ else _)
    rw [if_pos (by decide +kernel)]
    decide +kernel
  · decide +kernel

example : ((newWallet (.single keyB)).createTransaction crypto envB { argsB true with outputs := [(addrA, 149990)] } noNetwork
      (.given [plain 70000, unspentB])).2 = .error .insufficientFunds ∧
    (∃ a, (Signer.single keyB).address crypto = .ok a) ∧ (∃ a, (Signer.single keyB).segwitAddress crypto = .ok a) :=
  ⟨by decide +kernel, ⟨legacyB, by decide +kernel⟩, ⟨some segwitB, by decide +kernel⟩⟩

end Bit
