import Verif.Model.Build
import Verif.Props.CoinSelect
import Verif.Props.Address
import Verif.Lemmas.Tx
import Mathlib.Data.List.Forall2
/-
Properties of preparing transaction data and of building outputs (C37 to C41).
-/
namespace Bit
open Concrete

/-! ### inversion lemmas -/

theorem convertOutputs_ok {Amount : Type} {conv : Amount → Py Int} : ∀ {outputs : List (Str × Amount)}
    {pays : List (Str × Int)}, convertOutputs conv outputs = .ok pays →
    List.Forall₂ (fun o p => p.1 = o.1 ∧ conv o.2 = .ok p.2) outputs pays
  | [], pays, h => by
    injection h with h; subst h; exact .nil
  | (d, a) :: outputs, pays, h => by
    rw [convertOutputs] at h
    split at h
    · cases h
    · rename_i n hn
      split at h
      · cases h
      · rename_i os hos
        injection h with h; subst h
        exact .cons ⟨rfl, hn⟩ (convertOutputs_ok hos)

theorem outputSizeOf_ok {C : Crypto} {d : Str} {n : Nat} (h : outputSizeOf C d = .ok n) :
    ∃ s, addressToScriptpubkey C d = .ok (some s) ∧ n = s.length + 9 := by
  unfold outputSizeOf at h
  split at h
  · cases h
  · cases h
  · rename_i s hs
    injection h with h
    exact ⟨s, hs, h.symm⟩

theorem outputSizes_ok {C : Crypto} : ∀ {pays : List (Str × Int)} {sizes : List Nat},
    outputSizes C pays = .ok sizes →
    ∃ scripts : List Bytes, List.Forall₂ (fun p s => addressToScriptpubkey C p.1 = .ok (some s)) pays scripts ∧
      sizes = scripts.map fun s => s.length + 9
  | [], sizes, h => by
    injection h with h; subst h; exact ⟨[], .nil, rfl⟩
  | (d, a) :: pays, sizes, h => by
    rw [outputSizes] at h
    split at h
    · cases h
    · rename_i n hn
      split at h
      · cases h
      · rename_i ns hns
        injection h with h; subst h
        obtain ⟨s, hs, rfl⟩ := outputSizeOf_ok hn
        obtain ⟨ss, hss, rfl⟩ := outputSizes_ok hns
        exact ⟨s :: ss, .cons hs hss, rfl⟩

theorem checkVersions_ok {C : Crypto} {version : Net} : ∀ {l : List (Str × Int)},
    checkVersions C version l = .ok () → ∀ p ∈ l, getVersion C p.1 = .ok version
  | [], _, p, hp => by cases hp
  | (d, a) :: l, h, p, hp => by
    rw [checkVersions] at h
    split at h
    · cases h
    · rename_i vs hvs
      split at h
      · cases h
      · rename_i hv
        have hv : vs = version := by simpa using hv
        subst hv
        rcases List.mem_cons.mp hp with rfl | hp
        · exact hvs
        · exact checkVersions_ok h p hp

/-- What a successful call computed. -/
theorem sanitize_ok {Amount : Type} {C : Crypto} {conv : Amount → Py Int} {flips : Nat → Bool}
    {shuffle : List Unspent → List Unspent} {unspents : List Unspent} {outputs : List (Str × Amount)}
    {fee : Int} {leftover : Option Str} {combine : Bool} {message : Option Dest} {absoluteFee : Bool}
    {minChange : Int} {version : Net} {messageIsHex replaceByFee : Bool} {us : List Unspent}
    {outs : List (Dest × Int)}
    (h : sanitizeTxData C conv flips shuffle unspents outputs fee leftover combine message absoluteFee
      minChange version messageIsHex replaceByFee = .ok (us, outs)) :
    ∃ pays chunks sizes lo lsize sel remaining,
      convertOutputs conv outputs = .ok pays ∧ unspents ≠ [] ∧
      messageChunks message messageIsHex = .ok chunks ∧ outputSizes C pays = .ok sizes ∧
      leftover = some lo ∧ outputSizeOf C lo = .ok lsize ∧
      selectCoins flips shuffle (pays.map Prod.snd).sum fee
        (sizes ++ [chunks.length * (80 + 9)] ++ [lsize]) minChange absoluteFee combine unspents
        = .ok (sel, remaining) ∧
      us = (if replaceByFee then sel.map Unspent.optInForRBF else sel) ∧
      checkVersions C version (if remaining > 0 then pays ++ [(lo, remaining)] else pays) = .ok () ∧
      outs = (if remaining > 0 then pays ++ [(lo, remaining)] else pays).map (fun o => (.str o.1, o.2))
        ++ chunks.map (fun c => (c, 0)) := by
  unfold sanitizeTxData at h
  cases h1 : convertOutputs conv outputs with
  | error e => rw [h1] at h; cases h
  | ok pays =>
    rw [h1] at h
    dsimp only at h
    split at h
    · cases h
    · rename_i hne
      cases h2 : messageChunks message messageIsHex with
      | error e => rw [h2] at h; cases h
      | ok chunks =>
        rw [h2] at h
        dsimp only at h
        cases h3 : outputSizes C pays with
        | error e => rw [h3] at h; cases h
        | ok sizes =>
          rw [h3] at h
          dsimp only at h
          cases h4 : leftover with
          | none => rw [h4] at h; cases h
          | some lo =>
            rw [h4] at h
            dsimp only at h
            cases h5 : outputSizeOf C lo with
            | error e => rw [h5] at h; cases h
            | ok lsize =>
              rw [h5] at h
              dsimp only at h
              cases h6 : selectCoins flips shuffle (pays.map Prod.snd).sum fee
                  (sizes ++ [chunks.length * (80 + 9)] ++ [lsize]) minChange absoluteFee combine unspents with
              | error e => rw [h6] at h; cases h
              | ok r =>
                obtain ⟨sel, remaining⟩ := r
                rw [h6] at h
                dsimp only at h
                cases h7 : checkVersions C version
                    (if remaining > 0 then pays ++ [(lo, remaining)] else pays) with
                | error e => rw [h7] at h; cases h
                | ok u =>
                  rw [h7] at h
                  injection h with h
                  injection h with ha hb
                  exact ⟨pays, chunks, sizes, lo, lsize, sel, remaining, rfl, by simpa using hne, rfl,
                    h3, rfl, h5, h6, ha.symm, h7, hb.symm⟩

theorem optIn_fields (u : Unspent) : u.optInForRBF.amount = u.amount ∧ u.optInForRBF.vsize4 = u.vsize4 ∧
    u.optInForRBF.segwit = u.segwit ∧ u.optInForRBF.txid = u.txid ∧ u.optInForRBF.txindex = u.txindex ∧
    u.optInForRBF.script = u.script ∧ u.optInForRBF.type = u.type ∧
    u.optInForRBF.confirmations = u.confirmations ∧
    u.optInForRBF.sequence = min u.sequence 4294967293 := by
  unfold Unspent.optInForRBF
  split
  · refine ⟨rfl, rfl, rfl, rfl, rfl, rfl, rfl, rfl, ?_⟩
    dsimp only; omega
  · refine ⟨rfl, rfl, rfl, rfl, rfl, rfl, rfl, rfl, ?_⟩
    omega

theorem optIn_map {β : Type} (f : Unspent → β) (hf : ∀ u : Unspent, f u.optInForRBF = f u)
    (b : Bool) (sel : List Unspent) :
    (if b then sel.map Unspent.optInForRBF else sel).map f = sel.map f := by
  cases b
  · rfl
  · simp [Function.comp_def, hf]

/-! ## C37 -/

/-- The sizes used for the fee: one entry per payment, one for all messages, one for change. -/
def sizesOf (scripts : List Bytes) (messages : Nat) (changeScript : Bytes) : List Nat :=
  (scripts.map fun s => s.length + 9) ++ [89 * messages] ++ [changeScript.length + 9]

/-- C37. On success the outputs are the requested payments in order with their converted amounts, then
at most one change output to the leftover address with a positive amount, then the messages with
amount zero; and the selected inputs are worth exactly the outputs plus the fee. For an absolute fee
it is the given fee; for a fee rate it is the estimate for the selected coins, or, without change, a
perfect match. -/
theorem C37_outputs {Amount : Type} (C : Crypto) (conv : Amount → Py Int) (flips : Nat → Bool)
    (shuffle : List Unspent → List Unspent) (hshuffle : ∀ l, (shuffle l).Perm l)
    (unspents : List Unspent) (outputs : List (Str × Amount)) (feeArg : Int) (leftover : Option Str)
    (combine : Bool) (message : Option Dest) (absoluteFee : Bool) (minChange : Int)
    (hmin : 0 ≤ minChange) (version : Net) (messageIsHex replaceByFee : Bool) (us : List Unspent)
    (outs : List (Dest × Int))
    (h : sanitizeTxData C conv flips shuffle unspents outputs feeArg leftover combine message
      absoluteFee minChange version messageIsHex replaceByFee = .ok (us, outs)) :
    ∃ (pays changes : List (Str × Int)) (chunks : List Dest) (lo : Str) (fee : Int)
      (scripts : List Bytes) (loScript : Bytes),
      List.Forall₂ (fun o p => p.1 = o.1 ∧ conv o.2 = .ok p.2) outputs pays ∧
      leftover = some lo ∧ (changes = [] ∨ ∃ c, 0 < c ∧ changes = [(lo, c)]) ∧
      messageChunks message messageIsHex = .ok chunks ∧
      outs = (pays ++ changes).map (fun p => (.str p.1, p.2)) ++ chunks.map (fun c => (c, 0)) ∧
      (us.map Unspent.amount).sum = (outs.map Prod.snd).sum + fee ∧
      List.Forall₂ (fun p s => addressToScriptpubkey C p.1 = .ok (some s)) pays scripts ∧
      addressToScriptpubkey C lo = .ok (some loScript) ∧
      (absoluteFee = true → fee = feeArg) ∧
      (absoluteFee = false → fee = feeFor feeArg (sizesOf scripts chunks.length loScript) us ∨
        (combine = false ∧ changes = [] ∧
          PerfectMatch (pays.map Prod.snd).sum feeArg (sizesOf scripts chunks.length loScript) us)) := by
  obtain ⟨pays, chunks, sizes, lo, lsize, sel, rem, h1, h2, h3, h4, h5, h6, h7, h8, h9, h10⟩ :=
    sanitize_ok h
  obtain ⟨scripts, hscripts, rfl⟩ := outputSizes_ok h4
  obtain ⟨loScript, hlo, rfl⟩ := outputSizeOf_ok h6
  have hsz : (scripts.map fun s => s.length + 9) ++ [chunks.length * (80 + 9)] ++ [loScript.length + 9]
      = sizesOf scripts chunks.length loScript := by
    unfold sizesOf; rw [Nat.mul_comm]
  rw [hsz] at h7
  have hus : (us.map Unspent.amount).sum = (sel.map Unspent.amount).sum := by
    rw [h8, optIn_map _ (fun u => (optIn_fields u).1)]
  have hff : feeFor feeArg (sizesOf scripts chunks.length loScript) us =
      feeFor feeArg (sizesOf scripts chunks.length loScript) sel := by
    unfold feeFor
    have hl : us.length = sel.length := by rw [h8]; cases replaceByFee <;> simp
    have hv := optIn_map Unspent.vsize4 (fun u => (optIn_fields u).2.1) replaceByFee sel
    have ha : (us.any fun u => decide (u.segwit = some true)) =
        sel.any fun u => decide (u.segwit = some true) := by
      rw [h8]
      cases replaceByFee
      · rfl
      · simp [List.any_map, Function.comp_def, (optIn_fields _).2.2.1]
    rw [hl, ha, h8, hv]
  have hpm : PerfectMatch (pays.map Prod.snd).sum feeArg (sizesOf scripts chunks.length loScript) sel →
      PerfectMatch (pays.map Prod.snd).sum feeArg (sizesOf scripts chunks.length loScript) us := by
    intro hp
    have he : (us.map fun u => 4 * u.amount - feeArg * u.vsize4) =
        sel.map fun u => 4 * u.amount - feeArg * u.vsize4 := by
      rw [h8]
      exact optIn_map (fun u => 4 * u.amount - feeArg * u.vsize4)
        (fun u => by simp [(optIn_fields u).1, (optIn_fields u).2.1]) replaceByFee sel
    refine ⟨?_, by rw [he]; exact hp.lower, by rw [he]; exact hp.upper⟩
    rw [h8]
    have := hp.nonempty
    cases replaceByFee <;> simpa using this
  have hsum0 : (outs.map Prod.snd).sum = (pays.map Prod.snd).sum + (if rem > 0 then rem else 0) := by
    rw [h10, List.map_append, List.sum_append, List.map_map, List.map_map]
    have : (chunks.map (Prod.snd ∘ fun c => ((c, 0) : Dest × Int))).sum = 0 := by
      simp [Function.comp_def]
    rw [this]
    split
    · simp [Function.comp_def]
    · simp [Function.comp_def]
  have hrem0 : 0 ≤ rem ∧ ((sel.map Unspent.amount).sum = (pays.map Prod.snd).sum + rem +
      ((sel.map Unspent.amount).sum - (pays.map Prod.snd).sum - rem)) := by
    refine ⟨?_, by ring⟩
    rcases selectCoins_cases flips shuffle hshuffle _ feeArg _ minChange absoluteFee combine unspents with
      ⟨s, e, -⟩ | ⟨pre, post, -, -, e, h4', -⟩ | ⟨e, -⟩
    · rw [h7] at e; injection e with e; injection e with _ e; omega
    · rw [h7] at e; injection e with e; injection e with _ e; omega
    · rw [h7] at e; cases e
  refine ⟨pays, if rem > 0 then [(lo, rem)] else [], chunks, lo,
    (sel.map Unspent.amount).sum - (pays.map Prod.snd).sum - rem, scripts, loScript,
    convertOutputs_ok h1, h5, ?_, h3, ?_, ?_, hscripts, hlo, ?_, ?_⟩
  · split
    · rename_i hp; exact Or.inr ⟨rem, hp, rfl⟩
    · exact Or.inl rfl
  · rw [h10]
    split <;> simp
  · rw [hus, hsum0]
    split
    · ring
    · have : rem = 0 := by omega
      subst this; ring
  · intro ha
    subst ha
    have := (C32_absolute_fee flips shuffle hshuffle _ feeArg _ minChange combine unspents sel rem h7).1
    omega
  · intro ha
    subst ha
    rcases selectCoins_cases flips shuffle hshuffle _ feeArg _ minChange false combine unspents with
      ⟨s, e, -, hc, -, hp⟩ | ⟨pre, post, -, -, e, -⟩ | ⟨e, -⟩
    · rw [h7] at e; injection e with e; injection e with e1 e2
      right
      subst e1; subst e2
      exact ⟨hc, by simp, hpm hp⟩
    · rw [h7] at e; injection e with e; injection e with e1 e2
      left
      subst e1
      rw [hff, e2, remainder, drawFee_relative]; ring
    · rw [h7] at e; cases e

/-! ## C38 -/

theorem forall₂_fst {Amount : Type} {conv : Amount → Py Int} {outputs : List (Str × Amount)}
    {pays : List (Str × Int)}
    (h : List.Forall₂ (fun o p => p.1 = o.1 ∧ conv o.2 = .ok p.2) outputs pays) :
    ∀ o ∈ outputs, ∃ p ∈ pays, p.1 = o.1 := by
  induction h with
  | nil => intro o ho; cases ho
  | cons hab _ ih =>
    intro o ho
    rcases List.mem_cons.mp ho with rfl | ho
    · exact ⟨_, List.mem_cons_self, hab.1⟩
    · obtain ⟨p, hp, e⟩ := ih o ho
      exact ⟨p, List.mem_cons_of_mem _ hp, e⟩

/-- C38. Preparing transaction data succeeds only if every destination belongs to the network spent
from, and so does the leftover address if it receives change: every address paid does. (Outputs of nothing may be pieces
of a message.) -/
theorem C38_same_network {Amount : Type} (C : Crypto) (conv : Amount → Py Int) (flips : Nat → Bool)
    (shuffle : List Unspent → List Unspent) (unspents : List Unspent) (outputs : List (Str × Amount))
    (feeArg : Int) (leftover : Option Str) (combine : Bool) (message : Option Dest) (absoluteFee : Bool)
    (minChange : Int) (version : Net) (messageIsHex replaceByFee : Bool) (us : List Unspent)
    (outs : List (Dest × Int))
    (h : sanitizeTxData C conv flips shuffle unspents outputs feeArg leftover combine message
      absoluteFee minChange version messageIsHex replaceByFee = .ok (us, outs)) :
    (∀ o ∈ outputs, getVersion C o.1 = .ok version) ∧
    ∀ s n, (Dest.str s, n) ∈ outs → message = none ∨ n ≠ 0 → getVersion C s = .ok version := by
  obtain ⟨pays, chunks, sizes, lo, lsize, sel, rem, h1, h2, h3, h4, h5, h6, h7, h8, h9, h10⟩ :=
    sanitize_ok h
  have hall := checkVersions_ok h9
  constructor
  · intro o ho
    have hf := convertOutputs_ok h1
    have := forall₂_fst hf o ho
    obtain ⟨p, hp, e⟩ := this
    rw [← e]
    apply hall
    split
    · exact List.mem_append_left _ hp
    · exact hp
  · intro s n hs hm
    rw [h10] at hs
    rcases List.mem_append.mp hs with hs | hs
    · simp only [List.mem_map, Prod.mk.injEq, Dest.str.injEq] at hs
      obtain ⟨p, hp, e1, e2⟩ := hs
      rw [← e1]
      exact hall p hp
    · obtain ⟨c, hc, e⟩ := List.mem_map.mp hs
      rcases hm with rfl | hm
      · injection h3 with h3
        subst h3
        cases hc
      · exact absurd (Prod.mk.inj e).2.symm hm

/-- C38. One destination of the other network, or of none, and nothing is returned. -/
theorem C38_refused {Amount : Type} (C : Crypto) (conv : Amount → Py Int) (flips : Nat → Bool)
    (shuffle : List Unspent → List Unspent) (unspents : List Unspent) (outputs : List (Str × Amount))
    (feeArg : Int) (leftover : Option Str) (combine : Bool) (message : Option Dest) (absoluteFee : Bool)
    (minChange : Int) (version : Net) (messageIsHex replaceByFee : Bool) (dest : Str) (amount : Amount)
    (hmem : (dest, amount) ∈ outputs) (hother : getVersion C dest ≠ .ok version) :
    ∃ e, sanitizeTxData C conv flips shuffle unspents outputs feeArg leftover combine message
      absoluteFee minChange version messageIsHex replaceByFee = .error e := by
  cases h : sanitizeTxData C conv flips shuffle unspents outputs feeArg leftover combine message
      absoluteFee minChange version messageIsHex replaceByFee with
  | error e => exact ⟨e, rfl⟩
  | ok r =>
    exact absurd ((C38_same_network C conv flips shuffle unspents outputs feeArg leftover combine message
      absoluteFee minChange version messageIsHex replaceByFee r.1 r.2 h).1 _ hmem) hother

/-! Samples: an unsigned payment of 25000 satoshi from `coins3`, with a message. -/

def addrA : Str := str "1BvBMSEYstWetqTFn5Au4m4GFg7xJaNVN2"
def addrB : Str := str "bc1qw508d6qejxtdg4y5r3zarvary0c5xw7kv8f3t4"
def addrT : Str := str "mipcBbFg9gMiCh81Kj8tqqdgoZub1ZJRfn"

def samplePrepared (outputs : List (Str × Int)) (message : Option Dest) (rbf : Bool) :=
  sanitizeTxData crypto (fun n : Int => .ok n) (fun _ => true) List.reverse coins3 outputs 1
    (some addrB) false message false 0 .main false rbf

example : samplePrepared [(addrA, 20000), (addrB, 5000)] (some (.str (str "hé"))) false =
    .ok ([coin 20000, coin 50000],
      [(.str addrA, 20000), (.str addrB, 5000), (.str addrB, 44509), (.bytes [0x68, 0xc3, 0xa9], 0)]) := by
  decide +kernel

/-- a testnet address among the destinations: refused -/
example : samplePrepared [(addrA, 20000), (addrT, 5000)] none false = .error .valueError ∧
    getVersion crypto addrT ≠ .ok .main := by
  decide +kernel

/-! ## C39 -/

theorem chunkAux_props {α : Type} {size : Nat} (hs : 0 < size) : ∀ (f : Nat) (l : List α), l.length ≤ f →
    (chunkAux size f l).flatten = l ∧ (∀ c ∈ chunkAux size f l, c ≠ [] ∧ c.length ≤ size) ∧
    (∀ c ∈ (chunkAux size f l).dropLast, c.length = size) := by
  intro f
  induction f with
  | zero =>
    intro l hl
    have : l = [] := List.length_eq_zero_iff.mp (by omega)
    subst this
    simp [chunkAux]
  | succ f ih =>
    intro l hl
    by_cases he : l = []
    · subst he; simp [chunkAux]
    · have hle : l.isEmpty = false := by simpa using he
      have hpos : 0 < l.length := List.length_pos_iff.mpr he
      obtain ⟨h1, h2, h3⟩ := ih (l.drop size) (by rw [List.length_drop]; omega)
      have e : chunkAux size (f + 1) l = l.take size :: chunkAux size f (l.drop size) := by
        rw [chunkAux, hle]; rfl
      rw [e]
      refine ⟨?_, ?_, ?_⟩
      · rw [List.flatten_cons, h1, List.take_append_drop]
      · intro c hc
        rcases List.mem_cons.mp hc with rfl | hc
        · refine ⟨?_, by rw [List.length_take]; omega⟩
          intro h0
          have := congrArg List.length h0
          rw [List.length_take, List.length_nil] at this
          omega
        · exact h2 c hc
      · intro c hc
        cases hr : chunkAux size f (l.drop size) with
        | nil => rw [hr] at hc; simp at hc
        | cons d ds =>
          rw [hr] at hc h3
          rw [List.dropLast_cons_cons] at hc
          rcases List.mem_cons.mp hc with rfl | hc
          · rw [List.length_take]
            have : l.drop size ≠ [] := by
              intro h0
              rw [hr, h0] at h1
              have hd := (h2 d (by rw [hr]; exact List.mem_cons_self)).1
              simp at h1
              exact hd h1.1
            have := List.length_pos_iff.mpr this
            rw [List.length_drop] at this
            omega
          · exact h3 c hc

/-- C39. A text message is cut into nonempty chunks of at most 80 bytes, all but the last of exactly
80, whose concatenation decodes, as UTF-8, to the message. -/
theorem C39_message_chunks (message : Str) (hne : message ≠ []) :
    ∃ chunks : List Bytes, messageChunks (some (.str message)) false = .ok (chunks.map .bytes) ∧
      chunks.flatten.toByteArray.utf8Decode? = some message.toArray ∧
      (∀ c ∈ chunks, c ≠ [] ∧ c.length ≤ 80) ∧ (∀ c ∈ chunks.dropLast, c.length = 80) := by
  obtain ⟨h1, h2, h3⟩ := chunkAux_props (by decide : 0 < 80) (utf8 message).length (utf8 message) (le_refl _)
  refine ⟨chunkData (utf8 message) 80, ?_, ?_, h2, h3⟩
  · unfold messageChunks
    have : message.isEmpty = false := by simpa using hne
    simp [this]
  · rw [show (chunkData (utf8 message) 80).flatten = utf8 message from h1]
    exact List.utf8Decode?_utf8Encode

example : messageChunks (some (.str (List.replicate 41 'é'))) false =
    .ok [.bytes ((List.replicate 40 [0xc3, 0xa9]).flatten), .bytes [0xc3, 0xa9]] := by
  decide +kernel

/-- The pieces of a message: none if there is no message; those of a text, joined, decode as UTF-8 to it;
those of bytes (which take `message_is_hex`), joined, are the bytes; no piece is empty or longer than 80
bytes and all but the last have exactly 80. -/
structure MessagePieces (message : Option Dest) (messageIsHex : Bool) (pieces : List Bytes) : Prop where
  small : ∀ c ∈ pieces, c ≠ [] ∧ c.length ≤ 80
  full : ∀ c ∈ pieces.dropLast, c.length = 80
  none : message = none → pieces = []
  text : ∀ m, message = some (.str m) → pieces.flatten.toByteArray.utf8Decode? = some m.toArray ∧
    (m ≠ [] → messageIsHex = false)
  bytes : ∀ b, message = some (.bytes b) → pieces.flatten = b ∧ (b ≠ [] → messageIsHex = true)

/-- C39. A message given as bytes with `message_is_hex` is cut into nonempty chunks of at most 80 bytes,
all but the last of exactly 80, which joined are the message. -/
theorem C39_bytes_chunks (message : Bytes) :
    ∃ chunks : List Bytes, messageChunks (some (.bytes message)) true = .ok (chunks.map .bytes) ∧
      chunks.flatten = message ∧ (∀ c ∈ chunks, c ≠ [] ∧ c.length ≤ 80) ∧
      (∀ c ∈ chunks.dropLast, c.length = 80) := by
  obtain ⟨h1, h2, h3⟩ := chunkAux_props (by decide : 0 < 80) message.length message (le_refl _)
  refine ⟨chunkData message 80, ?_, h1, h2, h3⟩
  unfold messageChunks
  dsimp only
  split
  · rename_i he
    have : message = [] := by simpa using he
    subst this
    rfl
  · rfl

example : messageChunks (some (.bytes (List.replicate 161 7))) true =
    .ok [.bytes (List.replicate 80 7), .bytes (List.replicate 80 7), .bytes [7]] := by
  decide +kernel

/-- C39. Without `message_is_hex` bytes are refused. -/
theorem C39_bytes_need_flag (message : Bytes) (hne : message ≠ []) :
    messageChunks (some (.bytes message)) false = .error .attributeError := by
  unfold messageChunks
  have : message.isEmpty = false := by simpa using hne
  simp [this]

/-- If all the chunks are bytes, they are the pieces of the message. -/
theorem messagePieces_of {message : Option Dest} {messageIsHex : Bool} {chunks : List Dest}
    (h : messageChunks message messageIsHex = .ok chunks) (hb : ∀ c ∈ chunks, ∃ b, c = .bytes b) :
    ∃ pieces : List Bytes, chunks = pieces.map .bytes ∧ MessagePieces message messageIsHex pieces := by
  have nil : ∀ m : Option Dest, (∀ s, m = some (.str s) → s = []) → (∀ b, m = some (.bytes b) → b = []) →
      MessagePieces m messageIsHex [] := by
    intro m h1 h2
    refine ⟨by simp, by simp, fun _ => rfl, ?_, ?_⟩
    · intro s hs
      rw [h1 s hs]
      exact ⟨by simp, fun h => absurd rfl h⟩
    · intro b hb'
      rw [h2 b hb']
      exact ⟨rfl, fun h => absurd rfl h⟩
  match message, h with
  | none, h =>
    injection h with h
    subst h
    exact ⟨[], rfl, nil _ (by simp) (by simp)⟩
  | some (.str m), h =>
    by_cases hm : m = []
    · subst hm
      injection h with h
      subst h
      exact ⟨[], rfl, nil _ (by simp) (by simp)⟩
    · cases messageIsHex with
      | false =>
        obtain ⟨pieces, p1, p2, p3, p4⟩ := C39_message_chunks m hm
        rw [p1] at h
        injection h with h
        refine ⟨pieces, h.symm, p3, p4, by simp, ?_, by simp⟩
        rintro s hs
        simp only [Option.some.injEq, Dest.str.injEq] at hs
        subst hs
        exact ⟨p2, fun _ => rfl⟩
      | true =>
        exfalso
        unfold messageChunks at h
        have hm' : m.isEmpty = false := by simpa using hm
        simp only [hm', Bool.false_eq_true, if_false, if_true, Except.ok.injEq] at h
        subst h
        obtain ⟨h1, h2, -⟩ := chunkAux_props (by decide : 0 < 80) m.length m (le_refl _)
        change (chunkData m 80).flatten = m at h1
        cases hc : chunkData m 80 with
        | nil => rw [hc] at h1; exact hm h1.symm
        | cons c cs =>
          rw [hc] at hb
          obtain ⟨b, e⟩ := hb (.str c) (by simp)
          cases e
  | some (.bytes m), h =>
    by_cases hm : m = []
    · subst hm
      injection h with h
      subst h
      exact ⟨[], rfl, nil _ (by simp) (by simp)⟩
    · cases messageIsHex with
      | false =>
        rw [C39_bytes_need_flag m hm] at h
        cases h
      | true =>
        obtain ⟨pieces, p1, p2, p3, p4⟩ := C39_bytes_chunks m
        rw [p1] at h
        injection h with h
        refine ⟨pieces, h.symm, p3, p4, by simp, by simp, ?_⟩
        rintro s hs
        simp only [Option.some.injEq, Dest.bytes.injEq] at hs
        subst hs
        exact ⟨p2, fun _ => rfl⟩

/-- The output made of a message chunk. -/
theorem constructOutput_message (C : Crypto) (chunk : Bytes) (h : chunk.length ≤ 80) :
    ∃ l, constructOutput C (.bytes chunk) 0 = .ok ⟨[0, 0, 0, 0, 0, 0, 0, 0], l,
      0x6a :: UInt8.ofNat chunk.length :: chunk⟩ := by
  unfold constructOutput
  rw [if_neg (by decide)]
  dsimp only
  rw [toBytesLE_ok (by norm_num; omega), leBytes_one (by omega)]
  dsimp only [mkTxOut]
  rw [show ([0x6a] ++ [UInt8.ofNat chunk.length] ++ chunk : Bytes) =
    0x6a :: UInt8.ofNat chunk.length :: chunk from rfl]
  rw [intToVarint_compact (by simp; omega)]
  exact ⟨_, rfl⟩

/-- C39. A chunk of at most 75 bytes becomes a zero amount output with the script `OP_RETURN` and one
push of the chunk. -/
theorem C39_short_chunk (C : Crypto) (chunk : Bytes) (h : chunk.length ≤ 75) :
    ∃ l push, constructOutput C (.bytes chunk) 0 = .ok ⟨[0, 0, 0, 0, 0, 0, 0, 0], l, 0x6a :: push⟩ ∧
      Spec.parsePush push = some (chunk, []) := by
  obtain ⟨l, hl⟩ := constructOutput_message C chunk (by omega)
  refine ⟨l, _, hl, ?_⟩
  rw [Spec.parsePush]
  have hn : (UInt8.ofNat chunk.length).toNat = chunk.length := by
    rw [UInt8.toNat_ofNat']; omega
  rw [if_pos (by omega), hn, Spec.splitOff, if_pos (le_refl _)]
  simp

theorem splitOff_length {n : Nat} {s d r : List UInt8} (h : Spec.splitOff n s = some (d, r)) :
    d.length ≤ s.length ∧ r.length ≤ s.length - n := by
  unfold Spec.splitOff at h
  split at h
  · simp only [Option.some.injEq, Prod.mk.injEq] at h
    obtain ⟨rfl, rfl⟩ := h
    simp
  · cases h

/-- C39 (violated). A chunk of 76 to 80 bytes, as every message of more than 75 bytes has, becomes a
script in which the bytes after `OP_RETURN` are not a push of the chunk: the length byte is read as
`OP_PUSHDATA1`, `OP_PUSHDATA2`, `OP_PUSHDATA4` or as no push at all. -/
theorem C39_long_chunk_not_pushed (C : Crypto) (chunk : Bytes) (h1 : 76 ≤ chunk.length)
    (h2 : chunk.length ≤ 80) :
    ∃ l script, constructOutput C (.bytes chunk) 0 = .ok ⟨[0, 0, 0, 0, 0, 0, 0, 0], l, 0x6a :: script⟩ ∧
      ∀ rest, Spec.parsePush script ≠ some (chunk, rest) := by
  obtain ⟨l, hl⟩ := constructOutput_message C chunk (by omega)
  refine ⟨l, _, hl, ?_⟩
  intro rest hp
  rw [Spec.parsePush] at hp
  have hn : (UInt8.ofNat chunk.length).toNat = chunk.length := by
    rw [UInt8.toNat_ofNat']; omega
  rw [if_neg (by omega)] at hp
  have key : ∀ k, 0 < k → ((Spec.splitOff k chunk).bind fun x => Spec.splitOff (Spec.leValue x.1) x.2)
      ≠ some (chunk, rest) := by
    intro k hk he
    cases hs : Spec.splitOff k chunk with
    | none => rw [hs] at he; cases he
    | some x =>
      rw [hs] at he
      have a := (splitOff_length (d := x.1) (r := x.2) hs).2
      have b := (splitOff_length (show Spec.splitOff (Spec.leValue x.1) x.2 = some (chunk, rest) from he)).1
      omega
  split at hp
  · exact key 1 (by decide) hp
  · split at hp
    · exact key 2 (by decide) hp
    · split at hp
      · exact key 4 (by decide) hp
      · cases hp

/-! ## C40 -/

/-- C40. If building succeeds then there is one output per request, in order, with the exact amount
in 8 bytes little-endian; a nonzero amount goes to the script of its address, and zero amounts only
occur with message bytes, which give an `OP_RETURN` script. -/
theorem C40_exact (C : Crypto) : ∀ (requests : List (Dest × Int)) (outs : List TxOut),
    constructOutputs C requests = .ok outs →
    List.Forall₂ (fun r o => o.amount.length = 8 ∧ (Spec.leValue o.amount : Int) = r.2 ∧
      (r.2 ≠ 0 → ∃ a, r.1 = .str a ∧ addressToScriptpubkey C a = .ok (some o.scriptPubkey)) ∧
      (r.2 = 0 → ∃ b, r.1 = .bytes b ∧ o.scriptPubkey = 0x6a :: UInt8.ofNat b.length :: b))
      requests outs
  | [], outs, h => by
    injection h with h; subst h; exact .nil
  | (d, n) :: requests, outs, h => by
    rw [constructOutputs] at h
    split at h
    · cases h
    · rename_i o ho
      split at h
      · cases h
      · rename_i os hos
        injection h with h; subst h
        refine .cons ?_ (C40_exact C requests os hos)
        unfold constructOutput at ho
        split at ho
        · rename_i hn
          split at ho
          · cases ho
          · rename_i a
            split at ho
            · cases ho
            · rename_i script hscript
              split at ho
              · cases ho
              · rename_i amt hamt
                split at ho
                · cases ho
                · rename_i sc
                  unfold mkTxOut at ho
                  split at ho
                  · cases ho
                  · injection ho with ho; subst ho
                    obtain ⟨h1, h2, h3⟩ := toBytesLE_eq_ok hamt
                    refine ⟨by rw [h3, leBytes_length], ?_, fun _ => ⟨a, rfl, hscript⟩, fun h => absurd h hn⟩
                    dsimp only
                    rw [leValue_eq, h3, leNat_leBytes_of_lt (by omega)]
                    omega
        · rename_i hn
          have hn : n = 0 := by simpa using hn
          subst hn
          split at ho
          · split at ho <;> cases ho
          · rename_i b
            split at ho
            · cases ho
            · rename_i lb hlb
              unfold mkTxOut at ho
              split at ho
              · cases ho
              · injection ho with ho; subst ho
                refine ⟨rfl, rfl, fun h => absurd rfl h, fun _ => ⟨b, rfl, ?_⟩⟩
                obtain ⟨h1, h2, h3⟩ := toBytesLE_eq_ok hlb
                dsimp only
                rw [h3, Int.toNat_natCast, leBytes_one (by omega)]
                rfl

/-- C40. Amounts below zero or of 2^64 and more are refused with `OverflowError`, whatever the
recognised destination; a zero amount to an address is refused too. -/
theorem C40_refused (C : Crypto) (address : Str) :
    (∀ script n, addressToScriptpubkey C address = .ok script → (n < 0 ∨ 2 ^ 64 ≤ n) →
      constructOutput C (.str address) n = .error .overflowError) ∧
    (address.length < 256 → constructOutput C (.str address) 0 = .error .typeError) := by
  constructor
  · intro script n hs hn
    unfold constructOutput
    rw [if_pos (by rintro rfl; omega)]
    dsimp only
    rw [hs, toBytesLE_overflow (by rcases hn with h | h; exact Or.inl h; right; norm_num; omega)]
  · intro hl
    unfold constructOutput
    rw [if_neg (by decide)]
    dsimp only
    rw [toBytesLE_ok (by norm_num; omega)]

example : constructOutputs crypto [(.str addrB, 5000), (.bytes [0x68, 0x69], 0)] =
    .ok [⟨hex "8813000000000000", [22], hex "0014751e76e8199196d454941c45d1b3a323f1433bd6"⟩,
      ⟨hex "0000000000000000", [4], hex "6a026869"⟩] ∧
    constructOutput crypto (.str addrB) (-1) = .error .overflowError ∧
    constructOutput crypto (.str addrB) (2 ^ 64) = .error .overflowError := by
  decide +kernel

/-! ## C41 -/

/-- C41. Asking for replace-by-fee changes nothing but the sequence numbers of the selected inputs:
each becomes the smaller of the given one and `0xfffffffd`. -/
theorem C41_replace_by_fee {Amount : Type} (C : Crypto) (conv : Amount → Py Int) (flips : Nat → Bool)
    (shuffle : List Unspent → List Unspent) (unspents : List Unspent) (outputs : List (Str × Amount))
    (feeArg : Int) (leftover : Option Str) (combine : Bool) (message : Option Dest) (absoluteFee : Bool)
    (minChange : Int) (version : Net) (messageIsHex : Bool) :
    sanitizeTxData C conv flips shuffle unspents outputs feeArg leftover combine message
        absoluteFee minChange version messageIsHex true =
      (sanitizeTxData C conv flips shuffle unspents outputs feeArg leftover combine message
        absoluteFee minChange version messageIsHex false).map fun (us, outs) =>
          (us.map fun u => { u with sequence := min u.sequence 0xfffffffd }, outs) := by
  have ho : Unspent.optInForRBF = fun u => { u with sequence := min u.sequence 0xfffffffd } := by
    funext u
    have := optIn_fields u
    cases u
    cases h : Unspent.optInForRBF _
    simp_all
  unfold sanitizeTxData
  rw [ho]
  cases convertOutputs conv outputs with
  | error e => rfl
  | ok pays =>
    dsimp only
    split
    · rfl
    · cases messageChunks message messageIsHex with
      | error e => rfl
      | ok chunks =>
        cases outputSizes C pays with
        | error e => rfl
        | ok sizes =>
          cases leftover with
          | none => rfl
          | some lo =>
            dsimp only
            cases outputSizeOf C lo with
            | error e => rfl
            | ok lsize =>
              dsimp only
              cases selectCoins flips shuffle (pays.map Prod.snd).sum feeArg
                (sizes ++ [chunks.length * (80 + 9)] ++ [lsize]) minChange absoluteFee combine unspents with
              | error e => rfl
              | ok r =>
                dsimp only
                cases checkVersions C version (if r.2 > 0 then pays ++ [(lo, r.2)] else pays) with
                | error e => rfl
                | ok u => rfl

/-- C41. Without it the selected inputs are unchanged elements of the given list; so their sequence
numbers are untouched. -/
theorem C41_unchanged {Amount : Type} (C : Crypto) (conv : Amount → Py Int) (flips : Nat → Bool)
    (shuffle : List Unspent → List Unspent) (hshuffle : ∀ l, (shuffle l).Perm l)
    (unspents : List Unspent) (outputs : List (Str × Amount))
    (feeArg : Int) (leftover : Option Str) (combine : Bool) (message : Option Dest) (absoluteFee : Bool)
    (minChange : Int) (version : Net) (messageIsHex : Bool) (us : List Unspent)
    (outs : List (Dest × Int))
    (h : sanitizeTxData C conv flips shuffle unspents outputs feeArg leftover combine message
      absoluteFee minChange version messageIsHex false = .ok (us, outs)) :
    us ≠ [] ∧ us.Subperm unspents := by
  obtain ⟨pays, chunks, sizes, lo, lsize, sel, rem, h1, h2, h3, h4, h5, h6, h7, h8, h9, h10⟩ :=
    sanitize_ok h
  have := C30_subcollection flips shuffle hshuffle _ _ _ _ _ _ _ _ _ h7
  rw [h8]
  exact ⟨this.1, this.2.1⟩

example : samplePrepared [(addrA, 25000)] none true =
    .ok ([{ coin 20000 with sequence := 4294967293 }, { coin 50000 with sequence := 4294967293 }],
      [(.str addrA, 25000), (.str addrB, 44629)]) := by
  decide +kernel

end Bit
