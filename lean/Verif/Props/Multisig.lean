import Verif.Model.Keys
import Verif.Spec.Script
import Verif.Lemmas.Utils
import Verif.Props.Address
import Mathlib.Data.List.Perm.Basic
import Mathlib.Data.List.Basic
import Verif.Lemmas.Sort
/-
C21-C23: multi-signature contracts.
-/
namespace Bit
open Concrete

/-! ## C21 -/

/-- the pushes of the keys -/
def keyPushes (keys : List Bytes) : Bytes := keys.flatMap fun k => UInt8.ofNat k.length :: k

theorem redeemLoop_eq : ∀ (keys : List Bytes) (acc : Bytes),
    redeemLoop keys acc =
      if ∀ k ∈ keys, k.length = 33 ∨ k.length = 65 then .ok (acc ++ keyPushes keys)
      else .error .valueError := by
  intro keys
  induction keys with
  | nil => intro acc; simp [redeemLoop, keyPushes]
  | cons k keys ih =>
    intro acc
    unfold redeemLoop
    by_cases hk : k.length = 33 ∨ k.length = 65
    · rw [if_neg (by omega)]
      have hp : scriptPush k.length = .ok [UInt8.ofNat k.length] := by
        unfold scriptPush
        rw [if_pos (by omega), intToUnknownBytes_lt256 (by omega)]
      rw [hp]
      simp only [ih, List.forall_mem_cons, hk, true_and]
      split
      · simp [keyPushes]
      · rfl
    · rw [if_pos (by omega), if_neg]
      intro h; exact hk (h k (by simp))

theorem keyPushes_length (keys : List Bytes) :
    (keyPushes keys).length = (keys.map fun k => k.length + 1).sum := by
  simp [keyPushes, List.length_flatMap]

theorem sum_ge (keys : List Bytes) (h : ∀ k ∈ keys, k.length = 33 ∨ k.length = 65) :
    34 * keys.length ≤ (keys.map fun k => k.length + 1).sum := by
  induction keys with
  | nil => simp
  | cons k keys ih =>
    have h1 := h k (by simp)
    have h2 := ih fun k hk => h k (by simp [hk])
    simp only [List.length_cons, List.map_cons, List.sum_cons]
    omega

/-- For `m ≥ -80` (the sum `m + 80` is not negative): the exact outcome. -/
theorem redeemscript_cases (keys : List Bytes) (m : Int) (hm : -80 ≤ m) (hm2 : m ≤ 175) :
    multisigToRedeemscript keys m =
      if m ≤ keys.length ∧ (∀ k ∈ keys, k.length = 33 ∨ k.length = 65) ∧
          3 + (keys.map fun k => k.length + 1).sum ≤ 520 then
        .ok (UInt8.ofNat (m + 80).toNat :: (keyPushes keys ++ [UInt8.ofNat (keys.length + 80), 0xae]))
      else .error .valueError := by
  unfold multisigToRedeemscript
  by_cases h1 : m > keys.length
  · rw [if_pos h1, if_neg (by omega)]
  rw [if_neg h1]
  have hs : intToUnknownBytesInt (m + 80) = .ok [UInt8.ofNat (m + 80).toNat] := by
    unfold intToUnknownBytesInt
    rw [if_neg (by omega), intToUnknownBytes_lt256 (by omega)]
  rw [hs]
  simp only [redeemLoop_eq]
  by_cases h2 : ∀ k ∈ keys, k.length = 33 ∨ k.length = 65
  · rw [if_pos h2]
    simp only
    have hge := sum_ge keys h2
    have hlen : ([UInt8.ofNat (m + 80).toNat] ++ keyPushes keys ++
        (intToUnknownBytes (keys.length + 80) ++ [0xae])).length =
        2 + (keys.map fun k => k.length + 1).sum + (intToUnknownBytes (keys.length + 80)).length := by
      simp only [List.length_append, keyPushes_length, List.length_singleton]; omega
    by_cases h3 : 3 + (keys.map fun k => k.length + 1).sum ≤ 520
    · have hn : keys.length + 80 < 256 := by omega
      rw [intToUnknownBytes_lt256 hn] at hlen ⊢
      rw [if_neg (by rw [hlen]; simp; omega), if_pos ⟨by omega, h2, h3⟩]
      simp
    · have : 1 ≤ (intToUnknownBytes (keys.length + 80)).length := by
        rw [intToUnknownBytes_length]; exact unkLen_pos _
      rw [if_pos (by rw [hlen]; omega), if_neg (by tauto)]
  · rw [if_neg h2, if_neg (by tauto)]

/-- A huge `m` needs more keys than fit. -/
theorem redeemscript_big (keys : List Bytes) (m : Int) (hm : 175 < m) :
    multisigToRedeemscript keys m = .error .valueError := by
  unfold multisigToRedeemscript
  by_cases h1 : m > keys.length
  · rw [if_pos h1]
  rw [if_neg h1]
  unfold intToUnknownBytesInt
  rw [if_neg (by omega)]
  simp only [redeemLoop_eq]
  by_cases h2 : ∀ k ∈ keys, k.length = 33 ∨ k.length = 65
  · rw [if_pos h2]
    have hge := sum_ge keys h2
    simp only
    rw [if_pos]
    simp only [List.length_append, keyPushes_length]
    omega
  · rw [if_neg h2]

theorem parsePush_key (k rest : Bytes) (hk : k.length = 33 ∨ k.length = 65) :
    Spec.parsePush (UInt8.ofNat k.length :: (k ++ rest)) = some (k, rest) := by
  have h : (UInt8.ofNat k.length).toNat = k.length := u8_ofNat_toNat _ (by omega)
  rw [Spec.parsePush, h, if_pos (by omega)]
  exact splitOff_append k rest

theorem parsePushes_keys : ∀ (keys : List Bytes) (rest : Bytes) (fuel : Nat),
    (∀ k ∈ keys, k.length = 33 ∨ k.length = 65) → keys.length < fuel →
    Spec.parsePush rest = none →
    Spec.parsePushes fuel (keyPushes keys ++ rest) = (keys, rest) := by
  intro keys
  induction keys with
  | nil =>
    intro rest fuel _ hf hr
    cases fuel with
    | zero => simp at hf
    | succ f =>
      simp only [keyPushes, List.flatMap_nil, List.nil_append]
      rw [Spec.parsePushes, hr]
  | cons k keys ih =>
    intro rest fuel h hf hr
    cases fuel with
    | zero => simp at hf
    | succ f =>
      have hk := h k (by simp)
      have : keyPushes (k :: keys) ++ rest = UInt8.ofNat k.length :: (k ++ (keyPushes keys ++ rest)) := by
        simp [keyPushes]
      rw [this, Spec.parsePushes, parsePush_key _ _ hk]
      simp only
      rw [ih rest f (fun k hk => h k (by simp [hk])) (by simpa using hf) hr]

/-- C21. Asking for an `m`-of-`n` contract with `m ≥ 1` either raises ValueError or gives a script
that parses as exactly `m`, the given keys in the given order, `n` and OP_CHECKMULTISIG. It succeeds
exactly if `m ≤ n`, every key has 33 or 65 bytes and the script fits in 520 bytes; then `n ≤ 15`. -/
theorem C21_redeemscript (keys : List Bytes) (m : Int) (hm : 1 ≤ m) :
    ((∃ r, multisigToRedeemscript keys m = .ok r) ↔
      m ≤ keys.length ∧ (∀ k ∈ keys, k.length = 33 ∨ k.length = 65) ∧
        3 + (keys.map fun k => k.length + 1).sum ≤ 520) ∧
    (∀ r, multisigToRedeemscript keys m = .ok r →
      Spec.parseMultisig r = some (m.toNat, keys, keys.length) ∧ r.length ≤ 520 ∧
        keys.length ≤ 15) ∧
    (∀ e, multisigToRedeemscript keys m = .error e → e = .valueError) := by
  by_cases hbig : m ≤ 175
  · rw [redeemscript_cases keys m (by omega) hbig]
    by_cases h : m ≤ keys.length ∧ (∀ k ∈ keys, k.length = 33 ∨ k.length = 65) ∧
          3 + (keys.map fun k => k.length + 1).sum ≤ 520
    · rw [if_pos h]
      obtain ⟨h1, h2, h3⟩ := h
      have hge := sum_ge keys h2
      have hn : keys.length ≤ 15 := by omega
      refine ⟨⟨fun _ => ⟨h1, h2, h3⟩, fun _ => ⟨_, rfl⟩⟩, ?_, ?_⟩
      · rintro r hr
        rw [← Except.ok.inj hr]
        have e1 : (UInt8.ofNat (m + 80).toNat).toNat = (m + 80).toNat := u8_ofNat_toNat _ (by omega)
        have e2 : (UInt8.ofNat (keys.length + 80)).toNat = keys.length + 80 :=
          u8_ofNat_toNat _ (by omega)
        refine ⟨?_, ?_, hn⟩
        · have hs1 : Spec.smallInt (UInt8.ofNat (m + 80).toNat) = some m.toNat := by
            unfold Spec.smallInt
            rw [e1, if_pos (by omega)]
            congr 1; omega
          have hs2 : Spec.smallInt (UInt8.ofNat (keys.length + 80)) = some keys.length := by
            unfold Spec.smallInt
            rw [e2, if_pos (by omega)]
            congr 1
          have hp : Spec.parsePush [UInt8.ofNat (keys.length + 80), 0xae] = none := by
            rw [Spec.parsePush, e2, if_neg (by omega)]
            have n1 : UInt8.ofNat (keys.length + 80) ≠ 0x4c := by
              intro h; have := congrArg UInt8.toNat h; rw [e2] at this; simp at this
            have n2 : UInt8.ofNat (keys.length + 80) ≠ 0x4d := by
              intro h; have := congrArg UInt8.toNat h; rw [e2] at this; simp at this
            have n3 : UInt8.ofNat (keys.length + 80) ≠ 0x4e := by
              intro h; have := congrArg UInt8.toNat h; rw [e2] at this; simp at this
            rw [if_neg n1, if_neg n2, if_neg n3]
          rw [Spec.parseMultisig, hs1, parsePushes_keys keys _ _ h2 (by
            simp only [List.length_append, keyPushes_length, List.length_cons, List.length_nil]
            omega) hp]
          simp only []
          rw [hs2]
          simp
        · simp only [List.length_cons, List.length_append, keyPushes_length, List.length_nil]
          omega
      · intro e he; cases he
    · rw [if_neg h]
      refine ⟨⟨fun ⟨r, hr⟩ => (by cases hr), fun h' => absurd h' h⟩, ?_, ?_⟩
      · intro r hr; cases hr
      · intro e he; exact (Except.error.inj he).symm
  · rw [redeemscript_big keys m (by omega)]
    refine ⟨⟨fun ⟨r, hr⟩ => (by cases hr), ?_⟩, fun r hr => (by cases hr), ?_⟩
    · rintro ⟨h1, h2, h3⟩
      have hge := sum_ge keys h2
      omega
    · intro e he; exact (Except.error.inj he).symm

/-- a 2-of-3 contract -/
example : ∃ r, multisigToRedeemscript [2 :: List.replicate 32 1, 3 :: List.replicate 32 2,
    4 :: List.replicate 64 3] 2 = .ok r :=
  (C21_redeemscript _ 2 (by decide)).1.mpr (by decide)

/-- C21. `m` is not checked from below: 0 is accepted and written as the opcode 50 (OP_RESERVED,
which is not a number), so the script does not parse as a multisig script; and `m ≤ -81` raises
OverflowError. -/
theorem C21_nonpositive_m (keys : List Bytes) (m : Int) (hm : m ≤ 0)
    (hk : ∀ k ∈ keys, k.length = 33 ∨ k.length = 65)
    (hs : 3 + (keys.map fun k => k.length + 1).sum ≤ 520) :
    (-80 ≤ m → ∃ r, multisigToRedeemscript keys m = .ok r ∧ Spec.parseMultisig r = none) ∧
    (m < -80 → multisigToRedeemscript keys m = .error .overflowError) := by
  constructor
  · intro h
    rw [redeemscript_cases keys m h (by omega), if_pos ⟨by omega, hk, hs⟩]
    refine ⟨_, rfl, ?_⟩
    have e1 : (UInt8.ofNat (m + 80).toNat).toNat = (m + 80).toNat := u8_ofNat_toNat _ (by omega)
    have hs1 : Spec.smallInt (UInt8.ofNat (m + 80).toNat) = none := by
      unfold Spec.smallInt
      rw [e1, if_neg (by omega)]
    rw [Spec.parseMultisig, hs1]
  · intro h
    unfold multisigToRedeemscript intToUnknownBytesInt
    rw [if_neg (by omega), if_pos (by omega)]

/-! ## C22 -/

theorem lexLe_total {α : Type} (f : α → Nat) : ∀ a b : List α, (lexLe f a b || lexLe f b a) = true := by
  intro a
  induction a with
  | nil => intro b; simp [lexLe]
  | cons x a ih =>
    intro b
    cases b with
    | nil => simp [lexLe]
    | cons y b =>
      unfold lexLe
      by_cases h1 : f x < f y
      · simp [h1]
      · by_cases h2 : f y < f x
        · simp [h1, h2]
        · simp only [h1, h2, if_false]; exact ih b

theorem lexLe_trans {α : Type} (f : α → Nat) : ∀ a b c : List α,
    lexLe f a b = true → lexLe f b c = true → lexLe f a c = true := by
  intro a
  induction a with
  | nil => intro b c _ _; simp [lexLe]
  | cons x a ih =>
    intro b c hab hbc
    cases b with
    | nil => simp [lexLe] at hab
    | cons y b =>
      cases c with
      | nil => simp [lexLe] at hbc
      | cons z c =>
        unfold lexLe at hab hbc ⊢
        split_ifs at hab hbc ⊢ <;> first | omega | trivial | exact ih b c hab hbc

theorem lexLe_antisymm {α : Type} {f : α → Nat} (hf : Function.Injective f) : ∀ a b : List α,
    lexLe f a b = true → lexLe f b a = true → a = b := by
  intro a
  induction a with
  | nil =>
    intro b _ h2
    cases b with
    | nil => rfl
    | cons y b => simp [lexLe] at h2
  | cons x a ih =>
    intro b h1 h2
    cases b with
    | nil => simp [lexLe] at h1
    | cons y b =>
      unfold lexLe at h1 h2
      split_ifs at h1 h2 with g1 g2 g3
      · omega
      · have : x = y := hf (by omega)
        rw [this, ih b h1 h2]

theorem toNat_injective : Function.Injective UInt8.toNat := fun _ _ h => u8_toNat_inj h
theorem charToNat_injective : Function.Injective Char.toNat := fun _ _ h => Char.toNat_inj.mp h

/-- Sorting forgets the order. -/
theorem pySorted_perm_eq {α : Type} {f : α → Nat} (hf : Function.Injective f) {l l' : List (List α)}
    (h : l.Perm l') : pySorted (lexLe f) l = pySorted (lexLe f) l' := by
  apply List.Perm.eq_of_pairwise (le := fun a b => lexLe f a b = true)
  · intro a b _ _ h1 h2; exact lexLe_antisymm hf a b h1 h2
  · exact pySorted_pairwise (lexLe_trans f) (lexLe_total f) l
  · exact pySorted_pairwise (lexLe_trans f) (lexLe_total f) l'
  · exact (pySorted_perm _ l).trans (h.trans (pySorted_perm _ l').symm)

theorem allBytes_map (bs : List Bytes) : allBytes (bs.map .bytes) = some bs := by
  induction bs with
  | nil => rfl
  | cons b bs ih => simp [allBytes, ih]

theorem allBytes_some {l : List PubArg} {bs : List Bytes} (h : allBytes l = some bs) :
    l = bs.map .bytes := by
  induction l generalizing bs with
  | nil => simp [allBytes] at h; subst h; rfl
  | cons x l ih =>
    cases x with
    | bytes b =>
      simp only [allBytes, Option.map_eq_some_iff] at h
      obtain ⟨bs', h1, rfl⟩ := h
      rw [ih h1]; rfl
    | hex s => simp [allBytes] at h

theorem allHex_map (ss : List Str) : allHex (ss.map .hex) = some ss := by
  induction ss with
  | nil => rfl
  | cons b bs ih => simp [allHex, ih]

theorem allHex_some {l : List PubArg} {ss : List Str} (h : allHex l = some ss) :
    l = ss.map .hex := by
  induction l generalizing ss with
  | nil => simp [allHex] at h; subst h; rfl
  | cons x l ih =>
    cases x with
    | hex b =>
      simp only [allHex, Option.map_eq_some_iff] at h
      obtain ⟨bs', h1, rfl⟩ := h
      rw [ih h1]; rfl
    | bytes s => simp [allHex] at h

theorem allBytes_none {l : List PubArg} : allBytes l = none ↔ ∃ s, .hex s ∈ l := by
  induction l with
  | nil => simp [allBytes]
  | cons x l ih => cases x <;> simp [allBytes, ih]

theorem allHex_none {l : List PubArg} : allHex l = none ↔ ∃ s, .bytes s ∈ l := by
  induction l with
  | nil => simp [allHex]
  | cons x l ih => cases x <;> simp [allHex, ih]

theorem perm_of_map_perm {α β : Type} {f : α → β} (hf : Function.Injective f) {l l' : List α}
    (h : (l.map f).Perm (l'.map f)) : l.Perm l' := (List.map_perm_map_iff hf).mp h

theorem sortedArgs_perm {l l' : List PubArg} (h : l.Perm l') : sortedArgs l = sortedArgs l' := by
  unfold sortedArgs
  cases hb : allBytes l with
  | some bs =>
    cases hb' : allBytes l' with
    | some bs' =>
      have := h
      rw [allBytes_some hb, allBytes_some hb'] at this
      have hp := perm_of_map_perm (f := PubArg.bytes) (by intro a b h; cases h; rfl) this
      simp only
      rw [pySorted_perm_eq toNat_injective hp]
    | none =>
      obtain ⟨s, hs⟩ := allBytes_none.mp hb'
      rw [allBytes_none.mpr ⟨s, h.mem_iff.mpr hs⟩] at hb; cases hb
  | none =>
    obtain ⟨s, hs⟩ := allBytes_none.mp hb
    have hb' : allBytes l' = none := allBytes_none.mpr ⟨s, h.mem_iff.mp hs⟩
    rw [hb']
    simp only
    cases hh : allHex l with
    | some ss =>
      cases hh' : allHex l' with
      | some ss' =>
        have := h
        rw [allHex_some hh, allHex_some hh'] at this
        have hp := perm_of_map_perm (f := PubArg.hex) (by intro a b h; cases h; rfl) this
        simp only
        rw [pySorted_perm_eq charToNat_injective hp]
      | none =>
        obtain ⟨s, hs⟩ := allHex_none.mp hh'
        rw [allHex_none.mpr ⟨s, h.mem_iff.mpr hs⟩] at hh; cases hh
    | none =>
      obtain ⟨s, hs⟩ := allHex_none.mp hh
      rw [allHex_none.mpr ⟨s, h.mem_iff.mp hs⟩]

/-- C22. Two iteration orders of the same set of public keys give the same contract object (or the
same exception): same key list, redeem script and therefore addresses. -/
theorem C22_set_order (C : Crypto) (net : Net) (key : PrivKey) (l l' : List PubArg) (m : Int)
    (h : l.Perm l') : mkMultiSig C net key (.set l) m = mkMultiSig C net key (.set l') m := by
  unfold mkMultiSig
  simp only [PubArgs.elems, PubArgs.ordered, h.mem_iff, sortedArgs_perm h]
  congr

/-- C22. The keys of the contract are the members of the set in increasing order, each as often as
it was given. -/
theorem C22_set_sorted (C : Crypto) (net : Net) (key : PrivKey) (bs : List Bytes) (m : Int)
    (s : MultiSig) (h : mkMultiSig C net key (.set (bs.map .bytes)) m = .ok s) :
    s.publicKeys.Perm bs ∧
      s.publicKeys.Pairwise (fun a b => lexLe UInt8.toNat a b = true) := by
  have hargs : ∀ l : List Bytes, argsToBytes (l.map .bytes) = .ok l := by
    intro l
    induction l with
    | nil => rfl
    | cons b l ih => simp [argsToBytes, ih]
  unfold mkMultiSig at h
  split_ifs at h
  simp only [PubArgs.ordered, sortedArgs, allBytes_map, hargs] at h
  split at h
  · cases h
  · rw [← Except.ok.inj h]
    exact ⟨pySorted_perm _ _,
      pySorted_pairwise (lexLe_trans _) (lexLe_total _) bs⟩

theorem lexLe_hex : ∀ a b : Bytes, lexLe Char.toNat (bytesToHex a) (bytesToHex b) = lexLe UInt8.toNat a b := by
  have hd : ∀ i j : Fin 16, ((hexDigit i.val).toNat < (hexDigit j.val).toNat ↔ i.val < j.val) := by
    decide
  intro a
  induction a with
  | nil => intro b; simp [bytesToHex, lexLe]
  | cons x a ih =>
    intro b
    cases b with
    | nil => simp [bytesToHex, lexLe]
    | cons y b =>
      have hx := u8_lt x
      have hy := u8_lt y
      have d1 := hd ⟨x.toNat / 16, by omega⟩ ⟨y.toNat / 16, by omega⟩
      have d2 := hd ⟨y.toNat / 16, by omega⟩ ⟨x.toNat / 16, by omega⟩
      have d3 := hd ⟨x.toNat % 16, by omega⟩ ⟨y.toNat % 16, by omega⟩
      have d4 := hd ⟨y.toNat % 16, by omega⟩ ⟨x.toNat % 16, by omega⟩
      simp only at d1 d2 d3 d4
      simp only [bytesToHex, lexLe, d1, d2, d3, d4, ih]
      split_ifs <;> first | rfl | omega

theorem pySorted_hex (bs : List Bytes) :
    pySorted (lexLe Char.toNat) (bs.map bytesToHex)
      = (pySorted (lexLe UInt8.toNat) bs).map bytesToHex := by
  apply List.Perm.eq_of_pairwise (le := fun a b => lexLe Char.toNat a b = true)
  · intro a b _ _ h1 h2; exact lexLe_antisymm charToNat_injective a b h1 h2
  · exact pySorted_pairwise (lexLe_trans _) (lexLe_total _) _
  · rw [List.pairwise_map]
    exact (pySorted_pairwise (lexLe_trans UInt8.toNat) (lexLe_total UInt8.toNat) bs).imp
      (fun {a b} h => by rw [lexLe_hex]; exact h)
  · exact (pySorted_perm _ _).trans ((pySorted_perm _ bs).map bytesToHex).symm

theorem argsToBytes_bytes (l : List Bytes) : argsToBytes (l.map .bytes) = .ok l := by
  induction l with
  | nil => rfl
  | cons b l ih => simp [argsToBytes, ih]

theorem argsToBytes_hex (l : List Bytes) :
    argsToBytes (l.map fun b => .hex (bytesToHex b)) = .ok l := by
  induction l with
  | nil => rfl
  | cons b l ih => simp [argsToBytes, hexToBytes_bytesToHex, ih]

theorem bytesToHex_injective {a b : Bytes} (h : bytesToHex a = bytesToHex b) : a = b := by
  have h1 := hexToBytes_bytesToHex a
  rw [h, hexToBytes_bytesToHex] at h1
  exact (Except.ok.inj h1).symm

/-- C22. Keys given as bytes and the same keys given as lower-case hexadecimal text make the same
contract, for lists and for sets. -/
theorem C22_bytes_or_hex (C : Crypto) (net : Net) (key : PrivKey) (bs : List Bytes) (m : Int) :
    mkMultiSig C net key (.list (bs.map .bytes)) m =
      mkMultiSig C net key (.list (bs.map fun b => .hex (bytesToHex b))) m ∧
    mkMultiSig C net key (.set (bs.map .bytes)) m =
      mkMultiSig C net key (.set (bs.map fun b => .hex (bytesToHex b))) m := by
  have hmem : ∀ p : Bytes, (¬ (PubArg.hex (bytesToHex p) ∈ bs.map PubArg.bytes) ∧
      ¬ (PubArg.bytes p ∈ bs.map PubArg.bytes)) ↔
      (¬ (PubArg.hex (bytesToHex p) ∈ bs.map fun b => PubArg.hex (bytesToHex b)) ∧
      ¬ (PubArg.bytes p ∈ bs.map fun b => PubArg.hex (bytesToHex b))) := by
    intro p
    simp only [List.mem_map, reduceCtorEq, and_false, exists_false, not_false_eq_true, true_and,
      and_true, PubArg.bytes.injEq, exists_eq_right, PubArg.hex.injEq]
    constructor
    · rintro h ⟨b, hb, he⟩; exact h (bytesToHex_injective he ▸ hb)
    · intro h hp; exact h ⟨p, hp, rfl⟩
  have hex_eq : (bs.map fun b => PubArg.hex (bytesToHex b)) = (bs.map bytesToHex).map .hex := by
    simp
  have hsortB : sortedArgs (bs.map .bytes) =
      .ok ((pySorted (lexLe UInt8.toNat) bs).map .bytes) := by
    simp only [sortedArgs, allBytes_map]
  by_cases hnil : bs = []
  · subst hnil; exact ⟨rfl, rfl⟩
  have hsortH : sortedArgs (bs.map fun b => .hex (bytesToHex b)) =
      .ok ((pySorted (lexLe UInt8.toNat) bs).map fun b => .hex (bytesToHex b)) := by
    have hn : allBytes (bs.map fun b => .hex (bytesToHex b)) = none := by
      rw [allBytes_none]
      obtain ⟨b, hb⟩ := List.exists_mem_of_ne_nil bs hnil
      exact ⟨bytesToHex b, List.mem_map.mpr ⟨b, hb, rfl⟩⟩
    unfold sortedArgs
    rw [hn, hex_eq, allHex_map]
    simp only [pySorted_hex, List.map_map]
    rfl
  constructor
  · unfold mkMultiSig
    simp only [PubArgs.elems, hmem, PubArgs.ordered, argsToBytes_bytes, argsToBytes_hex]
  · unfold mkMultiSig
    simp only [PubArgs.elems, hmem, PubArgs.ordered, hsortB, hsortH, argsToBytes_bytes,
      argsToBytes_hex]

/-- a 1-of-2 contract with two different iteration orders -/
example : (∃ s, mkMultiSig crypto .main ⟨.main, List.replicate 32 7, true⟩
      (.set [.bytes (2 :: List.replicate 32 9), .bytes (2 :: List.replicate 32 7)]) 1 = .ok s ∧
      s.publicKeys = [2 :: List.replicate 32 7, 2 :: List.replicate 32 9]) ∧
    mkMultiSig crypto .main ⟨.main, List.replicate 32 7, true⟩
      (.set [.bytes (2 :: List.replicate 32 9), .bytes (2 :: List.replicate 32 7)]) 1 =
    mkMultiSig crypto .main ⟨.main, List.replicate 32 7, true⟩
      (.set [.hex (bytesToHex (2 :: List.replicate 32 7)),
        .hex (bytesToHex (2 :: List.replicate 32 9))]) 1 := by
  refine ⟨⟨MultiSig.mk .main ⟨.main, List.replicate 32 7, true⟩
    [2 :: List.replicate 32 7, 2 :: List.replicate 32 9] 1
    (0x51 :: (keyPushes [2 :: List.replicate 32 7, 2 :: List.replicate 32 9]
      ++ [0x52, 0xae])) true, by decide +kernel, rfl⟩, by decide +kernel⟩

/-! ## C23 -/

/-- C23. A contract object exists only if the private key is of the class's network and its public
key is one of the keys of the contract; the redeem script is the one of C21 for these keys. -/
theorem C23_construction (C : Crypto) (net : Net) (key : PrivKey) (keys : PubArgs) (m : Int)
    (s : MultiSig) (h : mkMultiSig C net key keys m = .ok s) :
    key.net = net ∧ s.net = net ∧ s.key = key ∧ s.m = m ∧ key.publicKey C ∈ s.publicKeys ∧
      s.publicKeys.length = keys.elems.length ∧
      multisigToRedeemscript s.publicKeys m = .ok s.redeemscript ∧
      (s.isCompressed = true ↔ ∀ k ∈ s.publicKeys, k.length = 33) := by
  unfold mkMultiSig at h
  split_ifs at h with h1 h2
  have hmem : .hex (bytesToHex (key.publicKey C)) ∈ keys.elems ∨
      .bytes (key.publicKey C) ∈ keys.elems := by tauto
  cases ho : keys.ordered with
  | error e => rw [ho] at h; cases h
  | ok args =>
    rw [ho] at h
    simp only at h
    have hperm : args.Perm keys.elems := by
      cases keys with
      | list l => simp only [PubArgs.ordered, Except.ok.injEq] at ho; rw [← ho]; exact List.Perm.refl _
      | set l =>
        simp only [PubArgs.ordered, sortedArgs] at ho
        cases hb : allBytes l with
        | some bs =>
          rw [hb] at ho
          rw [← Except.ok.inj ho]
          show List.Perm _ l
          rw [allBytes_some hb]
          exact (pySorted_perm _ _).map _
        | none =>
          rw [hb] at ho
          simp only at ho
          cases hh : allHex l with
          | some ss =>
            rw [hh] at ho
            rw [← Except.ok.inj ho]
            show List.Perm _ l
            rw [allHex_some hh]
            exact (pySorted_perm _ _).map _
          | none => rw [hh] at ho; cases ho
    cases hb : argsToBytes args with
    | error e => rw [hb] at h; cases h
    | ok pubs =>
      rw [hb] at h
      simp only at h
      have hconv : ∀ (args : List PubArg) (pubs : List Bytes), argsToBytes args = .ok pubs →
          pubs.length = args.length ∧ (∀ b, .bytes b ∈ args → b ∈ pubs) ∧
          (∀ b, .hex (bytesToHex b) ∈ args → b ∈ pubs) := by
        intro args
        induction args with
        | nil => intro pubs h; simp [argsToBytes] at h; subst h; simp
        | cons x args ih =>
          intro pubs h
          cases x with
          | bytes b =>
            simp only [argsToBytes] at h
            cases hr : argsToBytes args with
            | error e => rw [hr] at h; cases h
            | ok bs =>
              rw [hr] at h
              obtain ⟨i1, i2, i3⟩ := ih bs hr
              rw [← Except.ok.inj h]
              refine ⟨by simp [i1], ?_, ?_⟩
              · intro c hc
                rcases List.mem_cons.mp hc with hc | hc
                · cases hc; simp
                · simp [i2 c hc]
              · intro c hc
                rcases List.mem_cons.mp hc with hc | hc
                · cases hc
                · simp [i3 c hc]
          | hex t =>
            simp only [argsToBytes] at h
            cases ht : hexToBytes t with
            | error e => rw [ht] at h; cases h
            | ok b =>
              rw [ht] at h
              simp only at h
              cases hr : argsToBytes args with
              | error e => rw [hr] at h; cases h
              | ok bs =>
                rw [hr] at h
                obtain ⟨i1, i2, i3⟩ := ih bs hr
                rw [← Except.ok.inj h]
                refine ⟨by simp [i1], ?_, ?_⟩
                · intro c hc
                  rcases List.mem_cons.mp hc with hc | hc
                  · cases hc
                  · simp [i2 c hc]
                · intro c hc
                  rcases List.mem_cons.mp hc with hc | hc
                  · simp only [PubArg.hex.injEq] at hc
                    rw [← hc, hexToBytes_bytesToHex] at ht
                    rw [Except.ok.inj ht]; simp
                  · simp [i3 c hc]
      obtain ⟨c1, c2, c3⟩ := hconv args pubs hb
      cases hr : multisigToRedeemscript pubs m with
      | error e => rw [hr] at h; cases h
      | ok r =>
        rw [hr] at h
        rw [← Except.ok.inj h]
        refine ⟨by simpa using h1, rfl, rfl, rfl, ?_, ?_, hr, ?_⟩
        · rcases hmem with hm | hm
          · exact c3 _ (hperm.mem_iff.mpr hm)
          · exact c2 _ (hperm.mem_iff.mpr hm)
        · show pubs.length = _
          rw [c1, hperm.length_eq]
        · simp

/-- C23. A key of the other network class is a TypeError, a key that is not listed a ValueError. -/
theorem C23_refusals (C : Crypto) (net : Net) (key : PrivKey) (keys : PubArgs) (m : Int) :
    (key.net ≠ net → mkMultiSig C net key keys m = .error .typeError) ∧
    (key.net = net → .bytes (key.publicKey C) ∉ keys.elems →
      .hex (bytesToHex (key.publicKey C)) ∉ keys.elems →
      mkMultiSig C net key keys m = .error .valueError) := by
  unfold mkMultiSig
  constructor
  · intro h; rw [if_pos h]
  · intro h h1 h2; rw [if_neg (by simpa using h), if_pos ⟨h2, h1⟩]

theorem p2sh_address_pays (C : Crypto) (hC : C.HashLengths) (net : Net) (h : Bytes)
    (hl : h.length = 20) (hb : bech32Decode (b58encodeCheck C (scriptHashByte net :: h)) = none) :
    getVersion C (b58encodeCheck C (scriptHashByte net :: h)) = .ok net ∧
    addressToScriptpubkey C (b58encodeCheck C (scriptHashByte net :: h)) =
      .ok (some (Spec.p2shScript h)) := by
  have hr : b58decodeCheck C (b58encodeCheck C (scriptHashByte net :: h)) =
      .ok (scriptHashByte net :: h) :=
    C03_b58check_roundtrip C hC _ ⟨scriptHashByte net, by simp, by cases net <;> decide⟩
  have hg := getVersion_b58 hr (by cases net <;> simp [scriptHashByte]) hb
  have hn : versionNet (scriptHashByte net) = net := by cases net <;> decide
  rw [hn] at hg
  exact ⟨hg, script_p2sh hr hl (by cases net <;> simp [scriptHashByte]) hg⟩

/-- C23. Both addresses of a contract belong to its network and pay to the hash of its redeem script
(directly, or through the version 0 witness program with the script's SHA-256). The nested address
exists exactly for contracts of compressed keys. The condition on `bech32Decode` is the
look-alike case of C17. -/
theorem C23_addresses (C : Crypto) (hC : C.HashLengths) (net : Net) (key : PrivKey) (keys : PubArgs)
    (m : Int) (s : MultiSig) (h : mkMultiSig C net key keys m = .ok s) :
    (∃ a, s.address C = .ok a ∧ (bech32Decode a = none → getVersion C a = .ok net ∧
      addressToScriptpubkey C a =
        .ok (some (Spec.p2shScript (C.ripemd160 (C.sha256 s.redeemscript)))))) ∧
    (s.segwitAddress C = .ok none ↔ ∃ k ∈ s.publicKeys, k.length ≠ 33) ∧
    ((∀ k ∈ s.publicKeys, k.length = 33) → ∃ a, s.segwitAddress C = .ok (some a) ∧
      (bech32Decode a = none → getVersion C a = .ok net ∧
      addressToScriptpubkey C a = .ok (some (Spec.p2shScript
        (C.ripemd160 (C.sha256 ([0x00, 0x20] ++ C.sha256 s.redeemscript))))))) := by
  obtain ⟨_, hnet, _, hm, _, _, hr, hc⟩ := C23_construction C net key keys m s h
  rw [← hm] at hr
  refine ⟨⟨b58encodeCheck C (scriptHashByte s.net :: C.hash160 s.redeemscript), ?_, ?_⟩, ?_, ?_⟩
  · unfold MultiSig.address multisigToAddress; rw [hr]
  · intro hb
    have := p2sh_address_pays C hC s.net _ (hC.ripemd160_length _) hb
    rw [hnet] at this ⊢
    exact this
  · unfold MultiSig.segwitAddress multisigToSegwitAddress
    rw [hr]
    by_cases hcc : s.isCompressed = true
    · rw [if_pos hcc]
      have := hc.mp hcc
      simp only [Except.ok.injEq, reduceCtorEq, false_iff, not_exists, not_and, not_not]
      exact this
    · rw [if_neg hcc]
      simp only [true_iff]
      by_contra hx
      apply hcc
      rw [hc]
      intro k hk
      by_contra hne
      exact hx ⟨k, hk, hne⟩
  · intro hall
    refine ⟨b58encodeCheck C (scriptHashByte s.net :: C.hash160 (0x00 :: 0x20 :: C.sha256 s.redeemscript)),
      ?_, ?_⟩
    · unfold MultiSig.segwitAddress multisigToSegwitAddress
      rw [if_pos (hc.mpr hall), hr]
    · intro hb
      have := p2sh_address_pays C hC s.net _ (hC.ripemd160_length _) hb
      rw [hnet] at this ⊢
      exact this

end Bit
