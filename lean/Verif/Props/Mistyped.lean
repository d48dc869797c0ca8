import Verif.Props.Bech32Errors
import Verif.Props.Build
import Verif.Model.Send
import Verif.Props.Send
/-
Payments to a mistyped segwit address (C105): what the checksum of the address (C09) means for somebody who
makes a transaction.
-/
namespace Bit
open Concrete

/-- The prefixes of segwit addresses. -/
def KnownPrefix (hrp : Str) : Prop := hrp = str "bc" ∨ hrp = str "tb" ∨ hrp = str "bcrt"

/-- `typed` is the address with prefix `hrp` and rest `rest`, written with at least one and at most `n` characters after the
separator replaced by any other characters. -/
def Mistyped (n : Nat) (hrp rest typed : Str) : Prop :=
  ∃ rest', typed = hrp ++ '1' :: rest' ∧ rest'.length = rest.length ∧ rest' ≠ rest ∧
    _root_.Spec.hamming rest rest' ≤ n

/-- The text is a Base58Check text (its last four bytes match the digest) with the version byte of an address. -/
def LegacyText (C : Crypto) (s : Str) : Prop :=
  ∃ version payload, b58decodeCheck C s = .ok (version :: payload) ∧
    (version = 0x00 ∨ version = 0x05 ∨ version = 0x6f ∨ version = 0xc4)

private theorem charset_mem {l : List Nat} : ∀ {t : Str}, charsetText l = .ok t →
    ∀ c ∈ t, c ∈ _root_.Spec.bech32Chars := by
  induction l with
  | nil => intro t h; cases h; simp
  | cons d l ih =>
    intro t h
    unfold charsetText at h
    cases hc : bech32Charset[d]? with
    | none => rw [hc] at h; cases h
    | some c =>
      rw [hc] at h
      dsimp only at h
      cases hl : charsetText l with
      | error e => rw [hl] at h; cases h
      | ok cs =>
        rw [hl] at h
        cases h
        intro x hx
        rcases List.mem_cons.1 hx with rfl | hx
        · have : x ∈ bech32Charset := List.mem_of_getElem? hc
          have e : bech32Charset = _root_.Spec.bech32Chars := by decide
          rwa [e] at this
        · exact ih hl x hx

theorem decode_form {s h : Str} {data : List Nat} (hd : bech32Decode s = some (h, data)) :
    (∃ t, s.map Char.toLower = h ++ '1' :: t ∧ ∀ c ∈ t, c ∈ _root_.Spec.bech32Chars) ∧
      (s.map Char.toLower = s ∨ s.map Char.toUpper = s) := by
  constructor
  · obtain ⟨henc, _⟩ := C06_bech32_canonical hd
    unfold bech32Encode at henc
    cases hc : charsetText (data ++ bech32CreateChecksum h data) with
    | error e => rw [hc] at henc; cases henc
    | ok cs => rw [hc] at henc; exact ⟨cs, (Except.ok.inj henc).symm, charset_mem hc⟩
  · unfold bech32Decode at hd
    split at hd
    · cases hd
    · rename_i hn
      simp only [Bool.or_eq_true, Bool.and_eq_true, bne_iff_ne, not_or, not_and_or, not_not] at hn
      exact hn.2

/-- A text beginning with a known prefix in small letters that decodes with a known prefix: that prefix, and the rest is over the
alphabet. -/
theorem decode_known {hrp h t : Str} {data : List Nat} (hk : KnownPrefix hrp) (hk' : KnownPrefix h)
    (hd : bech32Decode (hrp ++ '1' :: t) = some (h, data)) :
    h = hrp ∧ ∀ c ∈ t, c ∈ _root_.Spec.bech32Chars := by
  obtain ⟨⟨cs, h1, h2⟩, h3⟩ := decode_form hd
  have hl : (hrp ++ '1' :: t).map Char.toLower = hrp ++ '1' :: t := by
    rcases h3 with h3 | h3
    · exact h3
    · exfalso
      rcases hk with rfl | rfl | rfl <;> simp [str] at h3
  rw [hl] at h1
  rcases hk with rfl | rfl | rfl <;> rcases hk' with rfl | rfl | rfl <;> simp [str] at h1 ⊢ <;>
    (subst h1; exact h2)

/-- C105. Up to four wrong characters in a segwit address of whatever network, and it is neither recognised as an address of any
network nor is there a script for it, unless it is a Base58Check text. -/
theorem C105_unreadable (C : Crypto) (hrp rest typed : Str) (data : List Nat) (hk : KnownPrefix hrp)
    (hvalid : bech32Decode (hrp ++ '1' :: rest) = some (hrp, data)) (hm : Mistyped 4 hrp rest typed)
    (h58 : ¬ LegacyText C typed) :
    getVersion C typed = .error .valueError ∧ addressToScriptpubkey C typed = .error .valueError := by
  obtain ⟨rest', rfl, hlen, hne, hdist⟩ := hm
  refine C20_unrecognised_refused C _ (fun p hp => ?_) fun h d hd => ?_
  · cases p with
    | nil => simp
    | cons v p =>
      by_contra hc
      refine h58 ⟨v, p, hp, ?_⟩
      simp only [List.head?_cons, ne_eq, Option.some.injEq] at hc
      tauto
  by_contra hc
  have hk' : KnownPrefix h := by
    unfold KnownPrefix
    by_contra hn
    simp only [not_or] at hn
    exact hc hn
  obtain ⟨_, ht'⟩ := decode_known hk hk' hd
  obtain ⟨_, ht⟩ := decode_known hk hk hvalid
  rw [C09_four_errors_detected hrp rest rest' _ hvalid ht ht' hlen hne hdist] at hd
  cases hd

private theorem head_between {d : Bytes} {k n : Nat} {x : UInt8} {b : Bytes} (hx : x ≠ 0) (hd : d = x :: b)
    (h1 : n * 256 ^ k ≤ beNat d) (h2 : beNat d < (n + 1) * 256 ^ k) (hn : 0 < n) (hn' : n < 256) :
    b.length = k ∧ x.toNat = n := by
  subst hd
  rw [beNat_cons] at h1 h2
  have hb := beNat_lt b
  have hx0 : 0 < x.toNat := Nat.pos_of_ne_zero fun h => hx (u8_toNat_inj (by simpa using h))
  have hx1 : x.toNat < 256 := x.toNat_lt
  have hlen : b.length = k := by
    rcases Nat.lt_trichotomy b.length k with h | h | h
    · exfalso
      have : 256 ^ (b.length + 1) ≤ 256 ^ k := Nat.pow_le_pow_right (by decide) h
      rw [Nat.pow_succ] at this
      have e1 : x.toNat * 256 ^ b.length ≤ 255 * 256 ^ b.length := Nat.mul_le_mul_right _ (by omega)
      have e2 : 1 * 256 ^ k ≤ n * 256 ^ k := Nat.mul_le_mul_right _ hn
      omega
    · exact h
    · exfalso
      have : 256 ^ (k + 1) ≤ 256 ^ b.length := Nat.pow_le_pow_right (by decide) h
      rw [Nat.pow_succ] at this
      have e1 : 1 * 256 ^ b.length ≤ x.toNat * 256 ^ b.length := Nat.mul_le_mul_right _ hx0
      have e2 : (n + 1) * 256 ^ k ≤ 256 * 256 ^ k := Nat.mul_le_mul_right _ (by omega)
      omega
  refine ⟨hlen, ?_⟩
  rw [hlen] at h1 h2 hb
  have p1 : x.toNat * 256 ^ k < (n + 1) * 256 ^ k := by omega
  have p2 : n * 256 ^ k < (x.toNat + 1) * 256 ^ k := by rw [Nat.add_mul]; omega
  have q1 := Nat.lt_of_mul_lt_mul_right p1
  have q2 := Nat.lt_of_mul_lt_mul_right p2
  omega

private theorem legacy_head {C : Crypto} {c : Char} {pre rest : Str} {a k n : Nat} (hc : c ≠ '1')
    (ha : b58Num 0 (c :: pre) = .ok a) (h1 : n * 256 ^ k ≤ a * 58 ^ rest.length)
    (h2 : (a + 1) * 58 ^ rest.length ≤ (n + 1) * 256 ^ k) (hn : 0 < n) (hn' : n < 256) (hk : 4 ≤ k)
    {v : UInt8} {p : Bytes} (hd : b58decodeCheck C (c :: pre ++ rest) = .ok (v :: p)) : v.toNat = n := by
  unfold b58decodeCheck b58decode at hd
  rw [b58Num_append, ha] at hd
  dsimp only at hd
  cases hr : b58Num 0 rest with
  | error e =>
    have : b58Num a rest = .error .valueError := by
      cases ht : b58Num a rest with
      | error e => rw [b58Num_err ht]
      | ok m =>
        have q := (b58Num_ok_iff rest a).1 ⟨m, ht⟩
        obtain ⟨m', hm'⟩ := (b58Num_ok_iff rest 0).2 q
        rw [hr] at hm'
        cases hm'
    rw [this] at hd
    cases hd
  | ok m =>
    rw [b58Num_shift a hr] at hd
    dsimp only at hd
    rw [show countLeading '1' (c :: pre ++ rest) = 0 from countLeading_cons_ne _ hc] at hd
    simp only [List.replicate_zero, List.nil_append] at hd
    have hm := b58Num_lt hr
    have hv0 : a * 58 ^ rest.length + m ≠ 0 := by
      have : 0 < n * 256 ^ k := Nat.mul_pos hn (by positivity)
      omega
    obtain ⟨x, b, hx, hb⟩ := intToUnknownBytes_head hv0
    have hval := beNat_intToUnknownBytes (a * 58 ^ rest.length + m)
    rw [Nat.add_mul] at h2
    obtain ⟨hl, hxn⟩ := head_between (k := k) (n := n) hx hb (by rw [hval]; omega) (by rw [hval]; omega) hn hn'
    rw [hb] at hd
    split at hd
    · have e := Except.ok.inj hd
      unfold dropLast' at e
      rw [show (x :: b).length - 4 = (k - 4) + 1 by simp [hl]; omega, List.take_succ_cons] at e
      rw [← (List.cons.inj e).1, hxn]
    · cases hd

/-- C105. A text as long as the segwit address of a key (on the test networks also that of a script) and beginning like one is never
a Base58Check text with the version byte of an address, whatever the digest function. -/
theorem C105_never_legacy (C : Crypto) (hrp rest : Str) (hk : KnownPrefix hrp)
    (hlen : rest.length = 39 ∨ (rest.length = 59 ∧ hrp ≠ str "bc")) : ¬ LegacyText C (hrp ++ '1' :: rest) := by
  rintro ⟨v, p, hd, hv⟩
  have key : v.toNat = 0x27 ∨ v.toNat = 0x3a ∨ v.toNat = 0x08 ∨ v.toNat = 0x02 ∨ v.toNat = 0x47 := by
    rcases hk with rfl | rfl | rfl
    · rcases hlen with hl | ⟨hl, hne⟩
      · exact .inl (legacy_head (C := C) (c := 'b') (pre := ['c', '1']) (rest := rest) (k := 30) (by decide) (a := 116406)
          rfl (by rw [hl]; decide) (by rw [hl]; decide) (by decide) (by decide) (by decide) hd)
      · exact absurd rfl hne
    · rcases hlen with hl | ⟨hl, _⟩
      · exact .inr (.inl (legacy_head (C := C) (c := 't') (pre := ['b', '1']) (rest := rest) (k := 30) (by decide) (a := 173536)
          rfl (by rw [hl]; decide) (by rw [hl]; decide) (by decide) (by decide) (by decide) hd))
      · exact .inr (.inr (.inl (legacy_head (C := C) (c := 't') (pre := ['b', '1']) (rest := rest) (k := 45) (by decide) (a := 173536)
          rfl (by rw [hl]; decide) (by rw [hl]; decide) (by decide) (by decide) (by decide) hd)))
    · rcases hlen with hl | ⟨hl, _⟩
      · exact .inr (.inr (.inr (.inl (legacy_head (C := C) (c := 'b') (pre := ['c', 'r', 't', '1']) (rest := rest) (k := 32)
          (by decide) (a := 391757578) rfl (by rw [hl]; decide) (by rw [hl]; decide) (by decide) (by decide) (by decide) hd))))
      · exact .inr (.inr (.inr (.inr (legacy_head (C := C) (c := 'b') (pre := ['c', 'r', 't', '1']) (rest := rest) (k := 46)
          (by decide) (a := 391757578) rfl (by rw [hl]; decide) (by rw [hl]; decide) (by decide) (by decide) (by decide) hd))))
  rcases hv with rfl | rfl | rfl | rfl <;> revert key <;> decide

private theorem sanitize_refuses {Amount : Type} (C : Crypto) (env : Env Amount) (args : TxArgs Amount)
    (us : List Unspent) (default : Option Str) (net : Net) (typed : Str)
    (hpaid : (∃ amount, (typed, amount) ∈ args.outputs) ∨ args.leftover = some typed) (hne : typed ≠ [])
    (h1 : getVersion C typed = .error .valueError)
    (h2 : addressToScriptpubkey C typed = .error .valueError) :
    ∃ e, sanitizeArgs C env args us default net = .error e := by
  unfold sanitizeArgs
  rcases hpaid with ⟨amount, hmem⟩ | hl
  · exact C38_refused C env.conv env.flips env.shuffle us args.outputs _ _ args.combine args.message
      args.absoluteFee 0 net args.messageIsHex args.replaceByFee typed amount hmem (by rw [h1]; nofun)
  · have hlo : leftoverOf args default = some typed := by
      unfold leftoverOf
      rw [hl]
      cases typed with
      | nil => exact absurd rfl hne
      | cons a l => rfl
    rw [hlo]
    cases h : sanitizeTxData C env.conv env.flips env.shuffle us args.outputs (feeOf env args) (some typed)
        args.combine args.message args.absoluteFee 0 net args.messageIsHex args.replaceByFee with
    | error e => exact ⟨e, rfl⟩
    | ok r =>
      obtain ⟨pays, chunks, sizes, lo, lsize, sel, remaining, _, _, _, _, e1, e2, _⟩ := sanitize_ok h
      cases e1
      unfold outputSizeOf at e2
      rw [h2] at e2
      cases e2

/-- C105. No transaction is made, by whichever wallet and from whichever coins, if one of the destinations or the address for the
change is a segwit address with up to four wrong characters; and `send` hands nothing to any service. -/
theorem C105_not_paid {Amount : Type} (C : Crypto) (env : Env Amount) (args : TxArgs Amount) (ask : Ask)
    (lists : Lists) (push : Service → Str → Py Bool) (w : Wallet) (src : Source)
    (hrp rest typed : Str) (data : List Nat) (hk : KnownPrefix hrp)
    (hvalid : bech32Decode (hrp ++ '1' :: rest) = some (hrp, data)) (hm : Mistyped 4 hrp rest typed)
    (h58 : ¬ LegacyText C typed)
    (hpaid : (∃ amount, (typed, amount) ∈ args.outputs) ∨ args.leftover = some typed) :
    (∃ e, (w.createTransaction C env args ask src).2 = .error e) ∧
      (w.send C env args ask lists push src).2.1 = [] ∧
      ∃ e, (w.send C env args ask lists push src).2.2 = .error e := by
  obtain ⟨h1, h2⟩ := C105_unreadable C hrp rest typed data hk hvalid hm h58
  have hne : typed ≠ [] := by
    obtain ⟨rest', rfl, _⟩ := hm
    simp
  have key : ∃ e, (w.createTransaction C env args ask src).2 = .error e := by
    unfold Wallet.createTransaction
    rcases w.source C ask src with ⟨w1, got, own⟩
    dsimp only
    cases got with
    | error e => exact ⟨e, rfl⟩
    | ok us =>
      dsimp only
      cases returnAddress C w1.signer us with
      | error e => exact ⟨e, rfl⟩
      | ok default =>
        dsimp only
        obtain ⟨e, he⟩ := sanitize_refuses C env args us default w1.signer.net typed hpaid hne h1 h2
        rw [he]
        exact ⟨e, rfl⟩
  refine ⟨key, ?_⟩
  obtain ⟨e, he⟩ := key
  unfold Wallet.send
  rcases hc : w.createTransaction C env args ask src with ⟨w', r⟩
  rw [hc] at he
  dsimp only at he
  subst he
  exact ⟨rfl, e, rfl⟩

/-- C105. The same for `prepare_transaction`, the half of the work that is done on a computer without the key. -/
theorem C105_not_prepared {Amount : Type} (C : Crypto) (readFloat : Str → PyFloat) (floats : Unspent → Bool) (env : Env Amount)
    (args : TxArgs Amount) (ask : Ask) (net : Net) (address : Str) (unspents : List Unspent)
    (hrp rest typed : Str) (data : List Nat) (hk : KnownPrefix hrp)
    (hvalid : bech32Decode (hrp ++ '1' :: rest) = some (hrp, data)) (hm : Mistyped 4 hrp rest typed)
    (h58 : ¬ LegacyText C typed)
    (hpaid : (∃ amount, (typed, amount) ∈ args.outputs) ∨ args.leftover = some typed) :
    ∃ e, prepareTransaction C readFloat floats env args ask net address unspents = .error e := by
  obtain ⟨h1, h2⟩ := C105_unreadable C hrp rest typed data hk hvalid hm h58
  have hne : typed ≠ [] := by
    obtain ⟨rest', rfl, _⟩ := hm
    simp
  unfold prepareTransaction
  generalize (if unspents.isEmpty then _ else _ : Py (List Unspent)) = got
  dsimp only
  cases got with
  | error e => exact ⟨e, rfl⟩
  | ok us =>
    dsimp only
    obtain ⟨e, he⟩ := sanitize_refuses C env args us (some address) net typed hpaid hne h1 h2
    rw [he]
    exact ⟨e, rfl⟩

/-! Samples: `addrB` typed with four wrong characters, one of them not of the alphabet. -/

def typedB : Str := str "bc" ++ '1' :: str "qw508d6qejxtdg4y5r3zarvary0c5xw7kv8bB4t"

theorem typedB_mistyped : Mistyped 4 (str "bc") (str "qw508d6qejxtdg4y5r3zarvary0c5xw7kv8f3t4") typedB :=
  ⟨str "qw508d6qejxtdg4y5r3zarvary0c5xw7kv8bB4t", rfl, by decide +kernel, by decide +kernel, by decide +kernel⟩

theorem addrB_valid : bech32Decode (str "bc" ++ '1' :: str "qw508d6qejxtdg4y5r3zarvary0c5xw7kv8f3t4") =
    some (str "bc", [0, 14, 20, 15, 7, 13, 26, 0, 25, 18, 6, 11, 13, 8, 21, 4, 20, 3, 17, 2, 29, 3, 12, 29, 3, 4, 15, 24,
      20, 6, 14, 30, 22]) := by decide +kernel

def argsTyped (dest : Str) (leftover : Option Str) : TxArgs Int :=
  { outputs := [(addrA, 20000), (dest, 5000)], fee := some 1, absoluteFee := false, leftover := leftover, combine := true
    message := none, messageIsHex := false, replaceByFee := false }

def sendTyped (dest : Str) (leftover : Option Str) : List (Service × Str) × Py Str :=
  ((newWallet (.single keyB)).send crypto envB (argsTyped dest leftover) (askB (.ok (some [unspentBDefault]))) initialLists
    (pushB (.ok true) (.ok true)) .stored).2

/-- With the address as it is meant, to be paid and for the change, the transaction is made and sent. -/
example : (sendTyped addrB (some addrB)).2.toOption.isSome = true ∧ (sendTyped addrB (some addrB)).1.length = 1 := by
  decide +kernel

/-- With the wrong one, as a destination beside a right one, it is not. -/
example : (sendTyped typedB none).1 = [] ∧ ∃ e, (sendTyped typedB none).2 = .error e := by
  unfold sendTyped
  exact (C105_not_paid crypto envB (argsTyped typedB none) (askB (.ok (some [unspentBDefault]))) initialLists
    (pushB (.ok true) (.ok true)) (newWallet (.single keyB)) .stored (str "bc") _ typedB _ (.inl rfl) addrB_valid typedB_mistyped
    (C105_never_legacy crypto (str "bc") (str "qw508d6qejxtdg4y5r3zarvary0c5xw7kv8bB4t") (.inl rfl) (.inl (by decide +kernel)))
    (.inl ⟨5000, by simp [argsTyped]⟩)).2

/-- Nor as the address for the change. -/
example : (sendTyped addrB (some typedB)).1 = [] ∧ ∃ e, (sendTyped addrB (some typedB)).2 = .error e := by
  unfold sendTyped
  exact (C105_not_paid crypto envB (argsTyped addrB (some typedB)) (askB (.ok (some [unspentBDefault]))) initialLists
    (pushB (.ok true) (.ok true)) (newWallet (.single keyB)) .stored (str "bc") _ typedB _ (.inl rfl) addrB_valid typedB_mistyped
    (C105_never_legacy crypto (str "bc") (str "qw508d6qejxtdg4y5r3zarvary0c5xw7kv8bB4t") (.inl rfl) (.inl (by decide +kernel)))
    (.inr rfl)).2

/-- For C105_not_prepared. -/
example : ∃ e, prepareTransaction crypto exactFloat (fun _ => false) envB (argsTyped typedB none) (fun _ => .ok none) .main addrA
    [unspentBDefault] = .error e :=
  C105_not_prepared crypto exactFloat (fun _ => false) envB (argsTyped typedB none) (fun _ => .ok none) .main addrA
    [unspentBDefault] (str "bc") _ typedB _ (.inl rfl) addrB_valid typedB_mistyped
    (C105_never_legacy crypto (str "bc") (str "qw508d6qejxtdg4y5r3zarvary0c5xw7kv8bB4t") (.inl rfl) (.inl (by decide +kernel)))
    (.inl ⟨5000, by simp [argsTyped]⟩)

end Bit
