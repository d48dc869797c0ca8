import Verif.Props.Paging
import Verif.Props.Services
import Verif.Props.Send
/-
C68: what the network layer reports is true, or it raises.
-/
namespace Bit
open Bit.Spec (At name Gives Answers AnswersUnchecked Account Coin Output window decimal Truthful)

/-! ## One service after the other -/

theorem Spec.Gives.weaken {α : Type} {up : Bool} {r : Py α} {P : α → Prop} (h : Gives up r P) : Gives false r P := by
  rcases h with h | ⟨-, h⟩
  · exact .inl h
  · exact .inr ⟨rfl, h⟩

theorem Spec.Gives.imp {α : Type} {up : Bool} {r : Py α} {P Q : α → Prop} (h : Gives up r P) (hpq : ∀ x, P x → Q x) :
    Gives up r Q := by
  rcases h with ⟨x, h, hx⟩ | h
  · exact .inl ⟨x, h, hpq x hx⟩
  · exact .inr h

theorem firstAnswer_gives {α : Type} {P : α → Prop} (ignored : PyErr → Bool) (outcomes : List (Py α))
    (h : ∀ r ∈ outcomes, Gives false r P) : Gives false (firstAnswer ignored outcomes).2 P := by
  induction outcomes with
  | nil => exact .inr ⟨rfl, _, rfl⟩
  | cons o os ih =>
    rcases h o List.mem_cons_self with ⟨x, rfl, hx⟩ | ⟨-, e, rfl⟩
    · exact .inl ⟨x, rfl, hx⟩
    · unfold firstAnswer
      split
      · exact ih fun r hr => h r (List.mem_cons_of_mem _ hr)
      · exact .inr ⟨rfl, e, rfl⟩

/-- If the first service gives a value when it is up, so does the query. -/
theorem firstAnswer_up {α : Type} {P : α → Prop} (ignored : PyErr → Bool) {up : Bool} (o : Py α) (os : List (Py α))
    (h0 : Gives up o P) (h : ∀ r ∈ os, Gives false r P) : Gives up (firstAnswer ignored (o :: os)).2 P := by
  cases up with
  | true =>
    rcases h0 with ⟨x, rfl, hx⟩ | ⟨hu, -⟩
    · exact .inl ⟨x, rfl, hx⟩
    · cases hu
  | false =>
    refine firstAnswer_gives ignored _ fun r hr => ?_
    rcases List.mem_cons.1 hr with rfl | hr
    · exact h0
    · exact h r hr

theorem firstFinished_gives {α : Type} {P : α → Prop} (ignored : PyErr → Bool) (outcomes : List (Option (Py α)))
    (h : ∀ o ∈ outcomes, ∃ r, o = some r ∧ Gives false r P) :
    ∃ r, firstFinished ignored outcomes = some r ∧ Gives false r P := by
  induction outcomes with
  | nil => exact ⟨_, rfl, .inr ⟨rfl, _, rfl⟩⟩
  | cons o os ih =>
    obtain ⟨r, rfl, hr⟩ := h o List.mem_cons_self
    rcases hr with ⟨x, rfl, hx⟩ | ⟨-, e, rfl⟩
    · exact ⟨_, rfl, .inl ⟨x, rfl, hx⟩⟩
    · unfold firstFinished
      split
      · exact ih fun r hr => h r (List.mem_cons_of_mem _ hr)
      · exact ⟨_, rfl, .inr ⟨rfl, e, rfl⟩⟩

theorem firstFinished_up {α : Type} {P : α → Prop} (ignored : PyErr → Bool) {up : Bool} (o : Option (Py α))
    (os : List (Option (Py α))) (h0 : ∃ r, o = some r ∧ Gives up r P)
    (h : ∀ o ∈ os, ∃ r, o = some r ∧ Gives false r P) :
    ∃ r, firstFinished ignored (o :: os) = some r ∧ Gives up r P := by
  obtain ⟨r, rfl, h0⟩ := h0
  cases up with
  | true =>
    rcases h0 with ⟨x, rfl, hx⟩ | ⟨hu, -⟩
    · exact ⟨_, rfl, .inl ⟨x, rfl, hx⟩⟩
    · cases hu
  | false =>
    refine firstFinished_gives ignored _ fun o ho => ?_
    rcases List.mem_cons.1 ho with rfl | ho
    · exact ⟨r, rfl, h0⟩
    · exact h o ho

/-! ## Balances -/

theorem answers_int {up : Bool} {r : Py Reply} {keys : List Str} {n : Int}
    (h : Answers up Spec.NotOk r fun j => At j keys (.int n)) :
    Gives up (r >>= fun r => okJson r >>= fun j => j.path keys >>= Json.asInt) (· = n) :=
  (answers_okJson h fun j hj => .inl (by rw [hj.path]; rfl)).gives rfl

/-- The balance from Blockchair. -/
theorem C68_blockchair_balance {up : Bool} {web : Web} {net : Net} {address : Str} {a : Account}
    (h : Spec.Blockchair up web net address a) : Gives up (blockchairBalance web net address) (· = a.total) := by
  have h := h.balance
  rw [← blockchairUrl_eq] at h
  exact answers_int h

theorem sum_filter_split {α : Type} (f : α → Nat) (p q : α → Bool) (l : List α) (h : ∀ x ∈ l, q x = !p x) :
    ((l.filter p).map f).sum + ((l.filter q).map f).sum = (l.map f).sum := by
  induction l with
  | nil => rfl
  | cons x l ih =>
    have ih := ih fun y hy => h y (List.mem_cons_of_mem _ hy)
    have hx := h x List.mem_cons_self
    cases hp : p x with
    | true =>
      rw [hp] at hx
      simp [hp, hx]
      omega
    | false =>
      rw [hp] at hx
      simp [hp, hx]
      omega

/-- What was received and not spent is what the unspent coins are worth. -/
theorem funded_minus_spent (a : Account) :
    a.sum (fun o => o.coin.height.isSome) + a.sum (fun o => o.coin.height.isNone) =
      a.sum (fun o => o.spent = some true) + a.sum (fun o => o.spent = some false) + a.total := by
  unfold Spec.Account.sum Spec.Account.total Spec.Account.coins
  rw [sum_filter_split (fun o : Output => o.coin.value) _ _ a.outputs (fun o _ => by cases o.coin.height <;> rfl),
    List.map_map]
  induction a.outputs with
  | nil => rfl
  | cons o l ih =>
    rcases o with ⟨c, _ | _ | _⟩ <;> simp at ih ⊢ <;> omega

/-- The balance from Blockstream: received minus spent, confirmed or not. -/
theorem C68_blockstream_balance {up : Bool} {web : Web} {net : Net} {address : Str} {a : Account}
    (h : Spec.Blockstream up web net address a) : Gives up (blockstreamBalance web net address) (· = a.total) := by
  have h := h.balance
  rw [← blockstreamUrl_eq] at h
  refine Good.gives (x := (a.total : Int)) ?_ rfl
  unfold blockstreamBalance
  refine answers_okJson h fun j ⟨h1, h2, h3, h4⟩ => .inl ?_
  rw [show j.path ["chain_stats".toList, "funded_txo_sum".toList] = _ from h1.path, ok_bind, asInt_int, ok_bind,
    show j.path ["mempool_stats".toList, "funded_txo_sum".toList] = _ from h2.path, ok_bind, asInt_int, ok_bind,
    show j.path ["chain_stats".toList, "spent_txo_sum".toList] = _ from h3.path, ok_bind, asInt_int, ok_bind,
    show j.path ["mempool_stats".toList, "spent_txo_sum".toList] = _ from h4.path, ok_bind, asInt_int, ok_bind]
  have := funded_minus_spent a
  congr 1
  omega

/-- The balance from Bitcore. -/
theorem C68_bitcore_balance {up : Bool} {web : Web} {net : Net} {address : Str} {a : Account}
    (h : Spec.Bitcore up web net address a) : Gives up (bitcoreBalance web net address) (· = a.total) := by
  have h := h.balance
  rw [← bitcoreUrl_eq] at h
  refine Good.gives (x := (a.total : Int)) ?_ rfl
  unfold bitcoreBalance
  rcases h with ⟨text, j, h, hj⟩ | ⟨hu, ⟨e, h⟩ | ⟨reply, h, hs⟩⟩
  · left
    rw [show web (.get (bitcoreAddress net address ++ "/balance".toList) []) = _ from h]
    show (j.get "balance".toList >>= Json.asInt) = _
    rw [show j.get "balance".toList = _ from hj.get]
    rfl
  · exact .inr ⟨hu, e, by rw [show web (.get (bitcoreAddress net address ++ "/balance".toList) []) = _ from h]; rfl⟩
  · right
    rw [show web (.get (bitcoreAddress net address ++ "/balance".toList) []) = _ from h, ok_bind]
    unfold raiseForStatus
    rcases hs with hs | ⟨hs, e, he⟩
    · rw [if_pos hs]
      exact ⟨hu, _, rfl⟩
    · rw [if_neg (by omega), he]
      exact ⟨hu, e, rfl⟩

/-- The balance from Smartbit. -/
theorem C68_smartbit_balance {up : Bool} {web : Web} {net : Net} {address : Str} {a : Account}
    (h : Spec.Smartbit up web net address a) : Gives up (smartbitBalance web net address) (· = a.total) := by
  have h := h.balance
  rw [← smartbitUrl_eq] at h
  exact answers_int h

/-- The balance from Blockchain.info. -/
theorem C68_blockchain_balance {up : Bool} {web : Web} {address : Str} {a : Account}
    (h : Spec.Blockchain up web address a) : Gives up (blockchainBalance web address) (· = a.total) := by
  have h := h.balance
  rw [← blockchainUrl_eq] at h
  refine Good.gives (x := (a.total : Int)) ?_ rfl
  unfold blockchainBalance
  refine answers_okJson h fun j hj => .inl ?_
  rw [show j.get "final_balance".toList = _ from hj.get]
  rfl

/-- C68. The balance: if the services tell the truth about the address whenever they answer, the query gives the
value of all unspent coins, whichever services fail; or it raises. If they all answer it does not raise. -/
theorem C68_balance {up : Bool} {o : Outside} {net : Net} {address : Str} {a : Account}
    (h : Truthful up o.web net address a) {lists : Lists} (hl : lists net = initialLists net) :
    Gives up (networkBalance o lists net address) (· = a.total) := by
  have key : ∀ s ∈ initialLists net .balance, Gives up (serviceBalance o net address s) (· = a.total) := by
    intro s hs
    cases s with
    | blockchair => exact C68_blockchair_balance h.blockchair
    | blockstream => exact C68_blockstream_balance h.blockstream
    | bitcore => exact C68_bitcore_balance h.bitcore
    | smartbit => exact C68_smartbit_balance h.smartbit
    | blockchain =>
      cases net with
      | main => exact C68_blockchain_balance (h.blockchain rfl)
      | test => exact absurd hs (by decide)
    | node n => cases net <;> exact absurd hs (by simp [initialLists])
  have rest : ∀ l : List Service, (∀ s ∈ l, s ∈ initialLists net .balance) →
      ∀ r ∈ l.map (serviceBalance o net address), Gives false r (· = (a.total : Int)) := by
    intro l hl r hr
    obtain ⟨s, hs, rfl⟩ := List.mem_map.1 hr
    exact (key s (hl s hs)).weaken
  unfold networkBalance ask
  rw [hl]
  cases net with
  | main => exact firstAnswer_up _ _ _ (key .blockchair (by decide)) (rest [_, _, _, _] (by decide))
  | test => exact firstAnswer_up _ _ _ (key .blockchair (by decide)) (rest [_, _, _] (by decide))

/-! ## Transactions -/

/-- C68. The transactions: if the services tell the truth about the address whenever they answer, the query gives the
ids of all its transactions, each once, whichever services fail; or it raises. On the test network it may give those of
the confirmed ones only. If all services answer it gives them all. -/
theorem C68_transactions {up : Bool} {o : Outside} {net : Net} {address : Str} {a : Account}
    (h : Truthful up o.web net address a) {lists : Lists} (hl : lists net = initialLists net) (fuel : Nat)
    (hfuel : a.history.length ≤ fuel) :
    ∃ r, networkTransactions o lists net fuel address = some r ∧
      Gives up r fun txs => txs.Perm a.history ∨ up = false ∧ net = .test ∧ txs.Perm a.confirmed := by
  have hlen : a.confirmed.length ≤ fuel := by
    unfold Spec.Account.history at hfuel
    rw [List.length_append] at hfuel
    omega
  have weak : ∀ {r : Py (List Str)} {txs : List Str} {u : Bool} {P : List Str → Prop}, Gives u r (· = txs) → P txs →
      Gives u r P := fun h hp => h.imp fun x hx => by rw [hx]; exact hp
  let P : List Str → Prop := fun txs => txs.Perm a.history ∨ up = false ∧ net = .test ∧ txs.Perm a.confirmed
  have first : ∃ r, serviceTransactions o net fuel address .blockchair = some r ∧ Gives up r P := by
    obtain ⟨coins, txs, -, h2, h3⟩ := h.blockchair.pages
    exact ⟨_, rfl, weak (C62_blockchair_transactions h3) (.inl h2)⟩
  have key : up = false → ∀ s ∈ initialLists net .transactions,
      ∃ r, serviceTransactions o net fuel address s = some r ∧ Gives false r P := by
    intro hup s hs
    cases s with
    | blockchair =>
      obtain ⟨r, h1, h2⟩ := first
      exact ⟨r, h1, h2.weaken⟩
    | blockstream =>
      obtain ⟨confirmed, hc, hchain⟩ := h.blockstream.chain
      obtain ⟨unconfirmed, hu, hmem⟩ := h.blockstream.mempool
      cases net with
      | main =>
        obtain ⟨r, h1, h2⟩ := C62_blockstream_transactions hmem hchain fuel (by rw [hc.length_eq]; exact hlen)
        refine ⟨r, h1, ?_⟩
        split at h2
        · exact weak h2.weaken (.inl (hc.append hu))
        · rcases h2 with h2 | ⟨-, h2⟩
          · exact .inr ⟨rfl, _, h2⟩
          · exact .inr ⟨rfl, h2⟩
      | test =>
        obtain ⟨r, h1, h2⟩ := C62_blockstream_test_confirmed_only hchain fuel (by rw [hc.length_eq]; exact hlen)
        exact ⟨r, h1, weak h2.weaken (.inr ⟨hup, rfl, hc⟩)⟩
    | bitcore => cases net <;> exact absurd hs (by decide)
    | smartbit =>
      obtain ⟨txs, link, h1, h2⟩ := h.smartbit.txs
      obtain ⟨r, h3, h4⟩ := C62_smartbit_transactions h2 fuel (by rw [h1.length_eq]; exact hfuel)
      exact ⟨r, h3, weak h4.weaken (.inl h1)⟩
    | blockchain =>
      cases net with
      | main =>
        obtain ⟨txs, h1, h2⟩ := (h.blockchain rfl).txs
        exact ⟨_, rfl, weak (C62_blockchain_transactions h2).weaken (.inl h1)⟩
      | test => exact absurd hs (by decide)
    | node n => cases net <;> exact absurd hs (by simp [initialLists])
  unfold networkTransactions
  rw [hl]
  cases up with
  | true =>
    obtain ⟨r, h1, h2⟩ := first
    rcases h2 with ⟨x, rfl, hx⟩ | ⟨hu, -⟩
    · refine ⟨.ok x, ?_, .inl ⟨x, rfl, hx⟩⟩
      cases net with
      | main => show firstFinished networkIgnored (serviceTransactions o .main fuel address .blockchair :: _) = _; rw [h1]; rfl
      | test => show firstFinished networkIgnored (serviceTransactions o .test fuel address .blockchair :: _) = _; rw [h1]; rfl
    · cases hu
  | false =>
    refine firstFinished_gives _ _ fun x hx => ?_
    obtain ⟨s, hs, rfl⟩ := List.mem_map.1 hx
    exact key rfl s hs

/-! ## Unspents -/

theorem Spec.Account.Lists.of_perm {a : Account} {coins l : List Coin} {us : List Unspent} (h : coins.Perm a.coins)
    (hl : l.Perm coins) (hu : List.Forall₂ a.Describes l us) : a.Lists us := ⟨l, hl.trans h, hu⟩

/-- C68. The unspents: if the services tell the truth about the address whenever they answer, the query gives exactly
the unspent coins, each once, whichever services fail; or it raises. If they all answer it does not raise. The
address stands for the script of the account (or cannot be parsed), and the decimal context has a precision that is enough for the amounts. -/
theorem C68_unspent (C : Crypto) {prec : Nat} (hp : 1 ≤ prec) {up : Bool} {o : Outside} {net : Net} {address : Str}
    {a : Account} (h : Truthful up o.web net address a) (hscript : Gives up (scriptHex C address) (· = a.script))
    (hv : ∀ c ∈ a.coins, c.value < 10 ^ prec) {lists : Lists} (hl : lists net = initialLists net) (fuel : Nat)
    (hfuel : a.coins.length ≤ fuel) :
    ∃ r, networkUnspent C prec o lists net fuel address = some r ∧ Gives up r fun l => ∃ us, l = some us ∧ a.Lists us := by
  have some_of : ∀ {u : Bool} {r : Py (List Unspent)}, Gives u r a.Lists →
      Gives u (someList r) fun l => ∃ us, l = some us ∧ a.Lists us := by
    intro u r h
    rcases h with ⟨x, rfl, hx⟩ | ⟨hu, e, rfl⟩
    · exact .inl ⟨_, rfl, x, rfl, hx⟩
    · exact .inr ⟨hu, e, rfl⟩
  have first : ∃ r, serviceUnspent C prec o net fuel address .blockstream = some r ∧
      Gives up r fun l => ∃ us, l = some us ∧ a.Lists us := by
    obtain ⟨coins, hc, hu⟩ := h.blockstream.utxo
    cases net with
    | main =>
      exact ⟨_, rfl, some_of ((C62_blockstream_unspent C h.blockstream.tip hu hscript).imp
        fun us ⟨⟨l, h1, h2⟩, _⟩ => .of_perm hc h1 h2)⟩
    | test =>
      exact ⟨_, rfl, some_of ((C62_blockstream_test_unspent C h.blockstream.tip hu hscript).imp
        fun us h2 => .of_perm hc (.refl _) h2)⟩
  have key : ∀ s ∈ initialLists net .unspent, ∃ r, serviceUnspent C prec o net fuel address s = some r ∧
      Gives false r fun l => ∃ us, l = some us ∧ a.Lists us := by
    intro s hs
    cases s with
    | blockchair =>
      obtain ⟨coins, txs, h1, -, h3⟩ := h.blockchair.pages
      exact ⟨_, rfl, (C62_blockchair_unspent h3).weaken.imp fun l ⟨us, h4, h5⟩ => ⟨us, h4, .of_perm h1 (.refl _) h5⟩⟩
    | blockstream =>
      obtain ⟨r, h1, h2⟩ := first
      exact ⟨r, h1, h2.weaken⟩
    | bitcore =>
      obtain ⟨coins, h1, h2⟩ := h.bitcore.pages
      obtain ⟨r, h3, h4⟩ := C62_bitcore_unspent hp h2
        (fun c hc => hv c.1 (h1.mem_iff.1 (List.mem_map_of_mem hc))) fuel
        (by have := h1.length_eq; rw [List.length_map] at this; omega)
      refine ⟨someList r, ?_, some_of (h4.weaken.imp fun us h5 => .of_perm h1 (.refl _) h5)⟩
      show (bitcoreUnspent prec o.web net address fuel).map someList = _
      rw [h3]
      rfl
    | smartbit =>
      obtain ⟨coins, link, h1, h2⟩ := h.smartbit.utxo
      obtain ⟨r, h3, h4⟩ := C62_smartbit_unspent hp h2 (fun c hc => hv c (h1.mem_iff.1 hc)) fuel
        (by rw [h1.length_eq]; exact hfuel)
      refine ⟨someList r, ?_, some_of (h4.weaken.imp fun us h5 => .of_perm h1 (.refl _) h5)⟩
      show (smartbitUnspent prec o.web net address fuel).map someList = _
      rw [h3]
      rfl
    | blockchain =>
      cases net with
      | main =>
        obtain ⟨coins, h1, h2⟩ := (h.blockchain rfl).utxo
        have h3 := C62_blockchain_unspent h2
        refine ⟨_, rfl, some_of ?_⟩
        split at h3
        · exact h3.weaken.imp fun us h5 => .of_perm h1 (List.reverse_perm _) h5
        · rcases h3 with h3 | ⟨-, h3⟩
          · exact .inr ⟨rfl, _, h3⟩
          · exact .inr ⟨rfl, h3⟩
      | test => exact absurd hs (by decide)
    | node n => cases net <;> exact absurd hs (by simp [initialLists])
  have rest : ∀ l : List Service, (∀ s ∈ l, s ∈ initialLists net .unspent) → ∀ x ∈ l.map (serviceUnspent C prec o net fuel address),
      ∃ r, x = some r ∧ Gives false r fun l => ∃ us, l = some us ∧ a.Lists us := by
    intro l hl x hx
    obtain ⟨s, hs, rfl⟩ := List.mem_map.1 hx
    exact key s (hl s hs)
  unfold networkUnspent
  rw [hl]
  cases net with
  | main => exact firstFinished_up _ _ _ first (rest [_, _, _, _] (by decide))
  | test => exact firstFinished_up _ _ _ first (rest [_, _, _] (by decide))

theorem lists_amount {a : Account} {us : List Unspent} (h : a.Lists us) : (us.map Unspent.amount).sum = a.total := by
  obtain ⟨coins, h1, h2⟩ := h
  have e : (us.map Unspent.amount).sum = ((coins.map Coin.value).sum : Nat) := by
    clear h1
    induction h2 with
    | nil => rfl
    | cons h _ ih =>
      rw [List.map_cons, List.map_cons, List.sum_cons, List.sum_cons, ih, h.1]
      push_cast
      rfl
  rw [e, (h1.map Coin.value).sum_eq]
  rfl

/-- C68. The balance and the unspents agree, even if they come from different services at different times: the
balance is the sum of the amounts. -/
theorem C68_balance_is_sum (C : Crypto) {prec : Nat} (hp : 1 ≤ prec) {o o' : Outside} {net : Net} {address : Str}
    {a : Account} (h : Truthful false o.web net address a) (h' : Truthful false o'.web net address a)
    (hscript : Gives false (scriptHex C address) (· = a.script))
    (hv : ∀ c ∈ a.coins, c.value < 10 ^ prec) {lists : Lists} (hl : lists net = initialLists net) (fuel : Nat)
    (hfuel : a.coins.length ≤ fuel) {b : Int} (hb : networkBalance o lists net address = .ok b)
    {us : List Unspent} (hu : networkUnspent C prec o' lists net fuel address = some (.ok (some us))) :
    b = (us.map Unspent.amount).sum := by
  rcases C68_balance h hl with ⟨x, h1, h2⟩ | ⟨-, e, h1⟩
  · obtain ⟨r, h3, h4⟩ := C68_unspent C hp h' hscript hv hl fuel hfuel
    rw [hu] at h3
    cases h3
    rcases h4 with ⟨x', h5, us', h6, h7⟩ | ⟨-, e, h5⟩
    · cases h5
      cases h6
      rw [hb] at h1
      cases h1
      rw [lists_amount h7]
      exact h2
    · cases h5
  · rw [hb] at h1
    cases h1

/-! ## The wallet over the services -/

/-- `get_unspent` of the network object, as the wallet uses it: `outside address` is the world at the time when it is
asked for that address. If the query does not end within `fuel` rounds, nothing is said. -/
def AsksWeb (C : Crypto) (prec : Nat) (outside : Str → Outside) (lists : Lists) (net : Net) (fuel : Nat) (ask : Ask) :
    Prop := ∀ address r, networkUnspent C prec (outside address) lists net fuel address = some r → ask address = r

/-- The services tell the truth about an address. -/
structure Known (C : Crypto) (prec : Nat) (outside : Str → Outside) (net : Net) (fuel : Nat) (address : Str) (a : Account) :
    Prop where
  truthful : Truthful false (outside address).web net address a
  script : Gives false (scriptHex C address) (· = a.script)
  values : ∀ c ∈ a.coins, c.value < 10 ^ prec
  rounds : a.coins.length ≤ fuel

theorem Known.lists {C : Crypto} {prec : Nat} (hp : 1 ≤ prec) {outside : Str → Outside} {net : Net} {fuel : Nat}
    {address : Str} {a : Account} (h : Known C prec outside net fuel address a) {lists : Lists}
    (hl : lists net = initialLists net) {ask : Ask} (hask : AsksWeb C prec outside lists net fuel ask)
    {l : List Unspent} (hr : ask address = .ok (some l)) : a.Lists l := by
  obtain ⟨r, h1, h2⟩ := C68_unspent C hp h.truthful h.script h.values hl fuel h.rounds
  have := hask address r h1
  rw [hr] at this
  subst this
  rcases h2 with ⟨x, h2, us, rfl, h3⟩ | ⟨-, e, h2⟩
  · cases h2
    exact h3
  · cases h2

theorem lists_retyped {a : Account} {l us : List Unspent} {kind : Str} {v : Nat} (h : a.Lists l)
    (hr : List.Forall₂ (Retyped kind v) l us) : a.Lists us := by
  obtain ⟨coins, h1, h2⟩ := h
  refine ⟨coins, h1, ?_⟩
  clear h1
  induction h2 generalizing us with
  | nil => cases hr; exact .nil
  | cons hc _ ih =>
    cases hr with
    | cons hu hr =>
      refine .cons ?_ (ih hr)
      obtain ⟨e1, e2, e3, e4, e5, e6⟩ := hc
      exact ⟨hu.amount.trans e1, hu.confirmations.trans e2, hu.script.trans e3, hu.txid.trans e4, hu.txindex.trans e5,
        hu.sequence.trans e6⟩

/-- C68. A refresh of a key or contract over the services: if it succeeds, the stored unspents are exactly the coins of
its two addresses, and the balance is what they are worth. -/
theorem C68_refresh (C : Crypto) {prec : Nat} (hp : 1 ≤ prec) {outside : Str → Outside} {lists : Lists} {fuel : Nat}
    {ask : Ask} {w w' : Wallet} (hl : lists w.signer.net = initialLists w.signer.net)
    (hask : AsksWeb C prec outside lists w.signer.net fuel ask) (accounts : Str → Account)
    (hk : ∀ address, w.signer.address C = .ok address ∨ w.signer.segwitAddress C = .ok (some address) →
      Known C prec outside w.signer.net fuel address (accounts address))
    {us : List Unspent} (h : w.getUnspents C ask = (w', .ok us)) :
    ∃ (address : Str) (segwit : Option Str) (us₁ us₂ : List Unspent),
      w.signer.address C = .ok address ∧ w.signer.segwitAddress C = .ok segwit ∧
      w'.unspents = us ∧ us = us₁ ++ us₂ ∧ (accounts address).Lists us₁ ∧
      match segwit with
      | none => us₂ = [] ∧ w'.balance = (accounts address).total
      | some s => (accounts s).Lists us₂ ∧ w'.balance = (accounts address).total + (accounts s).total := by
  obtain ⟨a, seg, l₁, l₂, us₁, us₂, v₁, v₂, h1, h2, h3, h4, h5, -, h6, h7, h8, -, h9, -, h11⟩ := C52_refresh C ask w w' us h
  have k1 := lists_retyped ((hk a (.inl h1)).lists hp hl hask h3) h7
  refine ⟨a, seg, us₁, us₂, h1, h2, h9, h6, k1, ?_⟩
  rw [h9, h6, List.map_append, List.sum_append, lists_amount k1] at h11
  cases seg with
  | none =>
    have : us₂ = [] := by
      have := h4 rfl
      subst this
      cases h8
      rfl
    subst this
    exact ⟨rfl, by simpa using h11⟩
  | some s =>
    have k2 := lists_retyped ((hk s (.inr h2)).lists hp hl hask (h5 s rfl)) h8
    rw [lists_amount k2] at h11
    exact ⟨k2, h11⟩

/-! ## `send` over the services -/

/-- What the chain has for a key: the accounts of its legacy address and of its segwit address. Transaction ids are of
32 bytes, and no outpoint is there twice. -/
structure KeyAccounts (C : Crypto) (k : PrivKey) (legacy segwit : Account) : Prop where
  script : legacy.script = bytesToHex (Spec.p2pkhScript (C.ripemd160 (C.sha256 (k.publicKey C))))
  segwitScript : segwit.script = bytesToHex (Spec.p2shScript
    (C.ripemd160 (C.sha256 (Spec.witnessScript 0 (C.ripemd160 (C.sha256 (k.publicKey C)))))))
  txids : ∀ c ∈ legacy.coins ++ segwit.coins, ∃ b : Bytes, b.length = 32 ∧ c.txid = bytesToHex b
  distinct : ((legacy.coins ++ segwit.coins).map fun c => (c.txid, c.index)).Nodup

/-- The services tell the truth about the account of an address, which is not too large. -/
structure Served (prec : Nat) (outside : Str → Outside) (net : Net) (fuel : Nat) (address : Str) (a : Account) :
    Prop where
  truthful : Truthful false (outside address).web net address a
  values : ∀ c ∈ a.coins, c.value < 10 ^ prec
  rounds : a.coins.length ≤ fuel

theorem legacy_script {C : Crypto} {k : PrivKey} (hk : KeyLaws C k) {address : Str} (h : k.address C = .ok address) :
    Gives false (scriptHex C address) (· = bytesToHex (Spec.p2pkhScript (C.ripemd160 (C.sha256 (k.publicKey C))))) := by
  obtain ⟨a, h1, -, h3, h4⟩ := C17_p2pkh_address C hk.hash hk.zero (k.publicKey C) k.net hk.pub'
  have : a = address := Except.ok.inj (h1.symm.trans h)
  subst this
  unfold scriptHex
  by_cases hb : bech32Decode a = none
  · rw [(h3 hb).2]; exact .inl ⟨_, rfl, rfl⟩
  · rw [(h4 hb).2]; exact .inr ⟨rfl, _, rfl⟩

theorem segwit_script {C : Crypto} {k : PrivKey} (hk : KeyLaws C k) {address : Str}
    (h : k.segwitAddress C = .ok (some address)) :
    Gives false (scriptHex C address) (· = bytesToHex (Spec.p2shScript
      (C.ripemd160 (C.sha256 (Spec.witnessScript 0 (C.ripemd160 (C.sha256 (k.publicKey C)))))))) := by
  have hp := hk.pub
  cases hc : k.compressed with
  | false =>
    rw [hc] at hp
    have : k.segwitAddress C = .ok none := by
      unfold PrivKey.segwitAddress PrivKey.isCompressed
      rw [hp]; rfl
    rw [this] at h
    cases h
  | true =>
    rw [hc] at hp
    obtain ⟨a, h', e1, rfl, -, e3, e4⟩ := (C18_segwit_address C hk.hash (k.publicKey C) k.net).2 hp
    have hs : k.segwitAddress C = .ok (some a) := by
      unfold PrivKey.segwitAddress PrivKey.isCompressed
      rw [hp, e1]; rfl
    have : a = address := by
      rw [h] at hs
      cases hs
      rfl
    subst this
    have hh : (C.ripemd160 (C.sha256 (k.publicKey C))).length = 20 := hk.hash.ripemd160_length _
    have ew : Spec.witnessScript 0 (C.ripemd160 (C.sha256 (k.publicKey C))) =
        [0x00, 0x14] ++ C.ripemd160 (C.sha256 (k.publicKey C)) := by
      unfold Spec.witnessScript
      rw [hh]; rfl
    unfold scriptHex
    by_cases hb : bech32Decode a = none
    · rw [(e3 hb).2, ew]; exact .inl ⟨_, rfl, rfl⟩
    · rw [(e4 hb).2]; exact .inr ⟨rfl, _, rfl⟩

theorem lists_mem {a : Account} {us : List Unspent} (h : a.Lists us) {u : Unspent} (hu : u ∈ us) :
    ∃ c ∈ a.coins, a.Describes c u := by
  obtain ⟨coins, h1, h2⟩ := h
  obtain ⟨c, hc, hd⟩ := forall₂_right h2 hu
  exact ⟨c, h1.subset hc, hd⟩

theorem lists_outpoints {a : Account} {us : List Unspent} (h : a.Lists us) :
    (us.map fun u => (u.txid, u.txindex)).Perm (a.coins.map fun c => (c.txid, (c.index : Int))) := by
  obtain ⟨coins, h1, h2⟩ := h
  have e : (us.map fun u => (u.txid, u.txindex)) = coins.map fun c => (c.txid, (c.index : Int)) := by
    clear h1
    induction h2 with
    | nil => rfl
    | cons h _ ih =>
      rw [List.map_cons, List.map_cons, ih, h.2.2.2.1, h.2.2.2.2.1]
  rw [e]
  exact h1.map _

theorem outpoints_nodup {l : List Coin} (h : (l.map fun c => (c.txid, c.index)).Nodup) :
    (l.map fun c => (c.txid, (c.index : Int))).Nodup := by
  have : (l.map fun c => (c.txid, (c.index : Int))) =
      (l.map fun c => (c.txid, c.index)).map fun p => (p.1, (p.2 : Int)) := by
    rw [List.map_map]; rfl
  rw [this]
  refine h.map ?_
  rintro ⟨a, b⟩ ⟨c, d⟩ he
  simp only [Prod.mk.injEq, Int.natCast_inj] at he
  rw [he.1, he.2]

/-- C68, from the coins on the chain to the transaction on the network. A key without stored coins sends: its coins are
fetched from the services, which tell the truth or fail, and the transaction is given to the services of the network. If `send`
returns, then what it returned is the id of a transaction that a service accepted, that pays what was asked for, and each
of whose inputs spends an unspent coin of the key on the chain and is accepted by the script interpreter for
the script and value that this coin really has. The sequence numbers are final, or signal replaceability if this was
asked for. -/
theorem C68_send {Amount : Type} (C : Crypto) (k : PrivKey) (hk : KeyLaws C k) {legacy segwit : Account}
    (hacc : KeyAccounts C k legacy segwit) {prec : Nat} (hp : 1 ≤ prec) (outside : Str → Outside) (fuel : Nat)
    (hlegacy : ∀ address, k.address C = .ok address → Served prec outside k.net fuel address legacy)
    (hsegwit : ∀ address, k.segwitAddress C = .ok (some address) → Served prec outside k.net fuel address segwit)
    (lists : Lists) (hl : lists k.net = initialLists k.net) (ask : Ask)
    (hask : AsksWeb C prec outside lists k.net fuel ask) (later : Outside) (env : Env Amount)
    (hshuffle : ∀ l, (env.shuffle l).Perm l) (args : TxArgs Amount) (w : Wallet) (hw : w.signer = .single k)
    (hempty : w.unspents = []) (id : Str)
    (h : (w.send C env args ask lists (servicePush later k.net) .stored).2.2 = .ok id) :
    ∃ (t : Spec.Tx) (us₁ us₂ sel : List Unspent) (change : Str) (fee : Int),
      legacy.Lists us₁ ∧ (us₂ = [] ∨ segwit.Lists us₂) ∧
      SentBy C (servicePush later k.net) (initialLists k.net .broadcast) t
        (w.send C env args ask lists (servicePush later k.net) .stored).2.1 id ∧
      Built C env args (.single k) (us₁ ++ us₂) sel change fee t ∧
      ∀ (j : Nat) (i : Spec.TxInput), t.inputs[j]? = some i →
        ∃ (a : Account) (c : Coin) (script : Bytes), (a = legacy ∨ a = segwit) ∧ c ∈ a.coins ∧
          c.txid = bytesToHex i.prevTxid.reverse ∧ c.index = i.prevIndex ∧ a.script = bytesToHex script ∧
          i.sequence = (if args.replaceByFee then 0xfffffffd else 0xffffffff) ∧
          Spec.accepts C.hashing t j i script c.value = true := by
  have hnet : w.signer.net = k.net := by rw [hw]; rfl
  have k1 : ∀ address, k.address C = .ok address → Known C prec outside k.net fuel address legacy := fun address ha =>
    ⟨(hlegacy address ha).truthful, by rw [hacc.script]; exact legacy_script hk ha, (hlegacy address ha).values,
      (hlegacy address ha).rounds⟩
  have k2 : ∀ address, k.segwitAddress C = .ok (some address) → Known C prec outside k.net fuel address segwit :=
    fun address ha =>
    ⟨(hsegwit address ha).truthful, by rw [hacc.segwitScript]; exact segwit_script hk ha, (hsegwit address ha).values,
      (hsegwit address ha).rounds⟩
  have ht : TrueAnswers C k ask := by
    constructor
    · intro a l ha hr u hu
      obtain ⟨c, -, hd⟩ := lists_mem ((k1 a ha).lists hp hl hask hr) hu
      rw [hd.2.2.1, hacc.script]
    · intro a l ha hr u hu
      obtain ⟨c, -, hd⟩ := lists_mem ((k2 a ha).lists hp hl hask hr) hu
      rw [hd.2.2.1, hacc.segwitScript]
  rcases hg : w.getUnspents C ask with ⟨w', r⟩
  cases r with
  | error e =>
    exfalso
    have hsrc : w.source C ask .stored = (w', .error e, true) := by
      unfold Wallet.source
      dsimp only
      rw [hempty, if_pos List.isEmpty_nil, hg]
    unfold Wallet.send Wallet.createTransaction at h
    rw [hsrc] at h
    cases h
  | ok us =>
    obtain ⟨a, seg, l₁, l₂, us₁, us₂, v₁, v₂, h1, h2, h3, h4, h5, -, rfl, h7, h8, -⟩ := C52_refresh C ask w w' us hg
    rw [hw] at h1 h2
    have g1 : legacy.Lists us₁ := lists_retyped ((k1 a h1).lists hp hl hask h3) h7
    have g2 : us₂ = [] ∨ segwit.Lists us₂ := by
      cases seg with
      | none =>
        left
        rw [h4 rfl] at h8
        cases h8
        rfl
      | some a' => exact .inr (lists_retyped ((k2 a' h2).lists hp hl hask (h5 a' rfl)) h8)
    have hfrom : ∀ u ∈ us₁ ++ us₂, ∃ (a : Account) (c : Coin), (a = legacy ∨ a = segwit) ∧ c ∈ a.coins ∧
        a.Describes c u := by
      intro u hu
      rcases List.mem_append.1 hu with hu | hu
      · obtain ⟨c, hc, hd⟩ := lists_mem g1 hu
        exact ⟨legacy, c, .inl rfl, hc, hd⟩
      · rcases g2 with rfl | g2
        · cases hu
        · obtain ⟨c, hc, hd⟩ := lists_mem g2 hu
          exact ⟨segwit, c, .inr rfl, hc, hd⟩
    have htx : ∀ u ∈ us₁ ++ us₂, TxidOk u := by
      intro u hu
      obtain ⟨a, c, ha, hc, hd⟩ := hfrom u hu
      obtain ⟨b, hb, e⟩ := hacc.txids c (by
        rcases ha with rfl | rfl
        · exact List.mem_append_left _ hc
        · exact List.mem_append_right _ hc)
      exact ⟨b, hb, hd.2.2.2.1.trans e⟩
    have hdist : Distinct (us₁ ++ us₂) := by
      have hn := outpoints_nodup hacc.distinct
      rw [List.map_append] at hn
      unfold Distinct
      rw [List.map_append]
      rcases g2 with rfl | g2
      · rw [List.map_nil, List.append_nil]
        exact (lists_outpoints g1).nodup_iff.2 (List.nodup_append.1 hn).1
      · exact ((lists_outpoints g1).append (lists_outpoints g2)).nodup_iff.2 hn
    obtain ⟨t, sel, change, fee, e1, e2, e3⟩ := C65_sent_fetched C k hk env hshuffle args ask ht lists
      (servicePush later k.net) w hw hempty (us₁ ++ us₂) (by rw [hg]) htx hdist id h
    refine ⟨t, us₁, us₂, sel, change, fee, g1, g2, by rw [← hl]; exact e1, e2, ?_⟩
    intro j i hi
    have hlen := e2.inputs.length_eq
    have hj : j < sel.length := by
      have := (List.getElem?_eq_some_iff.1 hi).1
      omega
    obtain ⟨script, hs, hacc'⟩ := e3 j sel[j] i (List.getElem?_eq_getElem hj) hi
    obtain ⟨a, c, ha, hc, hd⟩ := hfrom sel[j] (e2.selected.subset (List.getElem_mem hj))
    have htake := List.forall₂_iff_get.1 e2.inputs |>.2 j hj (by omega)
    have hii : t.inputs.get ⟨j, by omega⟩ = i := by
      have := List.getElem?_eq_some_iff.1 hi
      simpa using this.2
    rw [hii] at htake
    refine ⟨a, c, script, ha, hc, ?_, ?_, ?_, ?_, ?_⟩
    · rw [← hd.2.2.2.1]; exact htake.1
    · have := htake.2.1
      rw [show (sel.get ⟨j, hj⟩).txindex = _ from hd.2.2.2.2.1] at this
      exact_mod_cast this.symm
    · rw [← hd.2.2.1]; exact hs
    · have := htake.2.2
      rw [show (sel.get ⟨j, hj⟩).sequence = _ from hd.2.2.2.2.2] at this
      cases hr : args.replaceByFee <;> rw [hr] at this
      · exact Int.ofNat_inj.1 this
      · exact Int.ofNat_inj.1 this
    · rw [show c.value = sel[j].amount.toNat by rw [hd.1]; rfl]
      exact hacc'

/-- C68. The balance of a key or contract as text, in a bitcoin unit: it is the exact number of units of what the coins
of its two addresses on the chain are worth. -/
theorem C68_get_balance (C : Crypto) {prec : Nat} (hp : 9 ≤ prec) {outside : Str → Outside} {lists : Lists} {fuel : Nat}
    {ask : Ask} {w w' : Wallet} (hl : lists w.signer.net = initialLists w.signer.net)
    (hask : AsksWeb C prec outside lists w.signer.net fuel ask) (accounts : Str → Account)
    (hk : ∀ address, w.signer.address C = .ok address ∨ w.signer.segwitAddress C = .ok (some address) →
      Known C prec outside w.signer.net fuel address (accounts address))
    (limit now : Int) (answers : List (Py Int)) (unit : Str) (n : Nat) (hu : (unit, n) ∈ bitcoinUnits)
    (caches caches' : RateCaches)
    (hcache : (caches unit).satoshis = none ∨ (caches unit).satoshis = some ((10 ^ n : Nat) : Int))
    (hsmall : w'.balance < 10 ^ prec) {text : Str}
    (h : w.getBalance C ask prec limit now answers unit caches = (w', caches', .ok text)) :
    ∃ (address : Str) (segwit : Option Str), w.signer.address C = .ok address ∧ w.signer.segwitAddress C = .ok segwit ∧
      Spec.Denotes text (((accounts address).total + (segwit.map fun s => (accounts s).total).getD 0 : Nat) / 10 ^ n) := by
  rcases hg : w.getUnspents C ask with ⟨w₁, r⟩
  cases r with
  | error e =>
    unfold Wallet.getBalance at h
    rw [hg] at h
    cases h
  | ok us =>
    have hw : w₁ = w' := by
      unfold Wallet.getBalance at h
      rw [hg] at h
      exact congrArg Prod.fst h
    subst hw
    obtain ⟨address, segwit, us₁, us₂, h1, h2, h3, h4, h5, h6⟩ := C68_refresh C (by omega) hl hask accounts hk hg
    have hb : w₁.balance = ((accounts address).total + (segwit.map fun s => (accounts s).total).getD 0 : Nat) := by
      cases segwit with
      | none => exact h6.2
      | some s => push_cast; exact h6.2
    have hsum : (us.map Unspent.amount).sum =
        ((accounts address).total + (segwit.map fun s => (accounts s).total).getD 0 : Nat) := by
      obtain ⟨_, _, _, _, _, _, _, _, -, -, -, -, -, -, -, -, -, -, h9, -, h11⟩ := C52_refresh C ask w w₁ us hg
      rw [← hb, h11, h9]
    rw [hb] at hsmall
    obtain ⟨_, _, _, _, text', -, -, -, -, -, -, -, -, h8, h9⟩ := C66_get_balance C ask prec hp limit now answers unit n hu
      caches hcache w w₁ us hg _ hsum (by exact_mod_cast hsmall)
    rw [h] at h8
    cases h8
    exact ⟨address, segwit, h1, h2, h9⟩

/-- C68. The transaction history of a key or contract over the services: if the call returns, the ids are those of all
transactions of its two addresses; on the test network perhaps of the confirmed ones only. -/
theorem C68_history (C : Crypto) {outside : Str → Outside} {lists : Lists} {fuel : Nat} {s : Signer}
    (hl : lists s.net = initialLists s.net) {ask : Str → Py (List Str)}
    (hask : ∀ address r, networkTransactions (outside address) lists s.net fuel address = some r → ask address = r)
    (accounts : Str → Account)
    (hk : ∀ address, s.address C = .ok address ∨ s.segwitAddress C = .ok (some address) →
      Truthful false (outside address).web s.net address (accounts address) ∧ (accounts address).history.length ≤ fuel)
    {stored kept r : List Str} (h : s.getTransactions C ask stored = (kept, .ok r)) :
    kept = r ∧ ∃ (address : Str) (segwit : Option Str) (l₁ l₂ : List Str),
      s.address C = .ok address ∧ s.segwitAddress C = .ok segwit ∧ r = l₁ ++ l₂ ∧
      (l₁.Perm (accounts address).history ∨ s.net = .test ∧ l₁.Perm (accounts address).confirmed) ∧
      match segwit with
      | none => l₂ = []
      | some a => l₂.Perm (accounts a).history ∨ s.net = .test ∧ l₂.Perm (accounts a).confirmed := by
  obtain ⟨hkept, address, segwit, l₁, l₂, h1, h2, h3, h4, h5, h6⟩ := C67_transactions C ask s stored kept r h
  have key : ∀ a l, (s.address C = .ok a ∨ s.segwitAddress C = .ok (some a)) → ask a = .ok l →
      l.Perm (accounts a).history ∨ s.net = .test ∧ l.Perm (accounts a).confirmed := by
    intro a l ha hr
    obtain ⟨t1, t2⟩ := hk a ha
    obtain ⟨r, g1, g2⟩ := C68_transactions t1 hl fuel t2
    have := hask a r g1
    rw [hr] at this
    subst this
    rcases g2 with ⟨x, g2, g3⟩ | ⟨-, e, g2⟩
    · cases g2
      rcases g3 with g3 | ⟨-, g3⟩
      · exact .inl g3
      · exact .inr g3
    · cases g2
  refine ⟨hkept, address, segwit, l₁, l₂, h1, h2, h6, key address l₁ (.inl h1) h3, ?_⟩
  cases segwit with
  | none => exact h4 rfl
  | some a => exact key a l₂ (.inr h2) (h5 a rfl)

/-! ## Cases -/

open Concrete in
/-- The hypotheses of C62 and C68 on the services are met for every account whose confirmed transactions have different
ids, whichever requests fail. -/
example (a : Account) (net : Net) (address : Str) (hn : a.confirmed.Nodup) (he : [] ∉ a.confirmed) (down : Request → Bool) :
    Truthful true (server a net address) net address a ∧
    Truthful false (failing (server a net address) down) net address a :=
  ⟨server_truthful a net address hn he, failing_server a net address hn he down⟩

open Concrete

/-- The two addresses of a key: an unspent coin and a spent one each. -/
def coinsB : Account :=
  ⟨700000, bytesToHex (Spec.p2pkhScript (crypto.ripemd160 (crypto.sha256 (keyB.publicKey crypto)))),
    [⟨⟨bytesToHex (List.replicate 32 7), 0, 70000, some 699990⟩, none⟩,
     ⟨⟨bytesToHex (List.replicate 32 8), 2, 500, some 600000⟩, some true⟩],
    [bytesToHex (List.replicate 32 7), bytesToHex (List.replicate 32 8)], []⟩

def nestedB : Account :=
  ⟨700000, bytesToHex (Spec.p2shScript
    (crypto.ripemd160 (crypto.sha256 (Spec.witnessScript 0 (crypto.ripemd160 (crypto.sha256 (keyB.publicKey crypto))))))),
    [⟨⟨bytesToHex (List.replicate 32 9), 1, 80000, none⟩, none⟩,
     ⟨⟨bytesToHex (List.replicate 32 10), 0, 900, some 650000⟩, some false⟩],
    [bytesToHex (List.replicate 32 10)], [bytesToHex (List.replicate 32 9)]⟩

def accountsB (address : Str) : Account := if keyB.address crypto = .ok address then coinsB else nestedB

/-- Blockstream, which is asked first for the unspents, is down. -/
def outsideB (address : Str) : Outside :=
  ⟨failing (server (accountsB address) .main address) fun r =>
    match r with
    | .get url _ => isTo "https://blocks" url
    | _ => false, fun _ _ _ => .error .requestsTimeout⟩

def askWebB : Ask := fun address =>
  match networkUnspent crypto 28 (outsideB address) initialLists .main 3 address with
  | some r => r
  | none => .error .requestsConnection

/-- Blockchair refuses the transaction, all others take it. -/
def laterB : Outside :=
  ⟨fun r => .ok ⟨match r with
    | .post url _ => if isTo "https://api.bl" url then 400 else 200
    | _ => 200, [], .error .valueError⟩, fun _ _ _ => .error .requestsTimeout⟩

theorem askWebB_asks : AsksWeb crypto 28 outsideB initialLists .main 3 askWebB := by
  intro address r h
  unfold askWebB
  rw [h]

theorem served_B (address : Str) : Served 28 outsideB .main 3 address (accountsB address) := by
  have h : (accountsB address).confirmed.Nodup ∧ [] ∉ (accountsB address).confirmed ∧
      (∀ c ∈ (accountsB address).coins, c.value < 10 ^ 28) ∧ (accountsB address).coins.length ≤ 3 := by
    unfold accountsB
    split
    · decide +kernel
    · decide +kernel
  exact ⟨failing_server _ _ _ h.1 h.2.1 _, h.2.2.1, h.2.2.2⟩

/-- The hypotheses of C68 for this key and these servers. -/
example : KeyLaws crypto keyB ∧ KeyAccounts crypto keyB coinsB nestedB ∧
    (∀ address, keyB.address crypto = .ok address → Served 28 outsideB .main 3 address coinsB) ∧
    (∀ address, keyB.segwitAddress crypto = .ok (some address) → Served 28 outsideB .main 3 address nestedB) ∧
    AsksWeb crypto 28 outsideB initialLists .main 3 askWebB := by
  refine ⟨toy_laws keyB (by decide), ⟨rfl, rfl, ?_, by decide +kernel⟩, fun address h => ?_, fun address h => ?_, askWebB_asks⟩
  · intro c hc
    have : coinsB.coins ++ nestedB.coins = [⟨bytesToHex (List.replicate 32 7), 0, 70000, some 699990⟩,
      ⟨bytesToHex (List.replicate 32 9), 1, 80000, none⟩] := rfl
    rw [this] at hc
    rcases List.mem_cons.1 hc with rfl | hc
    · exact ⟨_, List.length_replicate, rfl⟩
    · rw [List.mem_singleton] at hc
      subst hc
      exact ⟨_, List.length_replicate, rfl⟩
  · have := served_B address
    unfold accountsB at this
    rwa [if_pos h] at this
  · have hne : keyB.address crypto ≠ .ok address := by
      intro h'
      have : keyB.segwitAddress crypto ≠ (keyB.address crypto).map some := by decide +kernel
      rw [h', h] at this
      exact this rfl
    have := served_B address
    unfold accountsB at this
    rwa [if_neg hne] at this

/-- And `send` returns: the transaction was refused by the first service and taken by the second. -/
example : (((newWallet (.single keyB)).send crypto envB (argsB true) askWebB initialLists (servicePush laterB .main)
      .stored).2.1.map Prod.fst = [.blockchair, .blockstream]) ∧
    ((newWallet (.single keyB)).send crypto envB (argsB true) askWebB initialLists (servicePush laterB .main)
      .stored).2.2.toOption.isSome = true := by decide +kernel

/-- The balance is that of both addresses. -/
example : ((newWallet (.single keyB)).getBalance crypto askWebB 28 60 0 [] "mbtc".toList (fun _ => ⟨none, 0⟩)).2.2 =
    .ok "1.5".toList := by decide +kernel

end Bit
