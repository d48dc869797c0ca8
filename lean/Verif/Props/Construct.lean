import Verif.Props.Multisig
import Verif.Lemmas.JsonText
/-
C23: exactly when a contract object is made, and with which exception it is refused.
-/
namespace Bit
open Concrete

/-- The public key that an argument stands for: itself, or the bytes of its digits. -/
def PubArg.Means : PubArg → Bytes → Prop
  | .bytes b, k => b = k
  | .hex s, k => hexToBytes s = .ok k

/-- The keys are given as a set that has both texts and bytes, which cannot be sorted. -/
def PubArgs.Mixed : PubArgs → Prop
  | .list _ => False
  | .set l => (∃ s, .hex s ∈ l) ∧ ∃ b, .bytes b ∈ l

theorem argsToBytes_means {l : List PubArg} {bs : List Bytes} :
    argsToBytes l = .ok bs ↔ List.Forall₂ PubArg.Means l bs := by
  induction l generalizing bs with
  | nil => simp [argsToBytes, eq_comm]
  | cons x l ih =>
    rw [List.forall₂_cons_left_iff]
    cases x with
    | bytes b =>
      simp only [argsToBytes]
      cases hr : argsToBytes l with
      | error e =>
        simp only [reduceCtorEq, false_iff]
        rintro ⟨c, cs, _, h, _⟩
        rw [← ih, hr] at h; cases h
      | ok cs =>
        simp only [Except.ok.injEq]
        constructor
        · intro h; exact ⟨b, cs, rfl, ih.mp hr, h.symm⟩
        · rintro ⟨c, ds, h1, h2, h3⟩
          rw [← ih, hr] at h2
          rw [h3, Except.ok.inj h2, show b = c from h1]
    | hex s =>
      simp only [argsToBytes]
      cases hs : hexToBytes s with
      | error e =>
        simp only [reduceCtorEq, false_iff]
        rintro ⟨c, cs, h, _⟩
        have : hexToBytes s = .ok c := h
        rw [hs] at this; cases this
      | ok b =>
        simp only
        cases hr : argsToBytes l with
        | error e =>
          simp only [reduceCtorEq, false_iff]
          rintro ⟨c, cs, _, h, _⟩
          rw [← ih, hr] at h; cases h
        | ok cs =>
          simp only [Except.ok.injEq]
          constructor
          · intro h; exact ⟨b, cs, hs, ih.mp hr, h.symm⟩
          · rintro ⟨c, ds, h1, h2, h3⟩
            rw [← ih, hr] at h2
            have h1 : hexToBytes s = .ok c := h1
            rw [hs] at h1
            rw [h3, Except.ok.inj h2, Except.ok.inj h1]

theorem argsToBytes_error {l : List PubArg} {e : PyErr} (h : argsToBytes l = .error e) : e = .valueError := by
  induction l with
  | nil => simp [argsToBytes] at h
  | cons x l ih =>
    cases x with
    | bytes b =>
      simp only [argsToBytes] at h
      cases hr : argsToBytes l with
      | error e' => rw [hr] at h ih; exact ih h
      | ok cs => rw [hr] at h; cases h
    | hex s =>
      simp only [argsToBytes] at h
      cases hs : hexToBytes s with
      | error e' => rw [hs] at h; rw [← Except.error.inj h]; exact hexToBytes_error hs
      | ok b =>
        rw [hs] at h
        simp only at h
        cases hr : argsToBytes l with
        | error e' => rw [hr] at h ih; exact ih h
        | ok cs => rw [hr] at h; cases h

theorem ordered_mixed {keys : PubArgs} (h : keys.Mixed) : keys.ordered = .error .typeError := by
  cases keys with
  | list l => exact h.elim
  | set l =>
    simp only [PubArgs.ordered, sortedArgs]
    rw [allBytes_none.mpr h.1, allHex_none.mpr h.2]

theorem ordered_perm {keys : PubArgs} (h : ¬ keys.Mixed) :
    ∃ l, keys.ordered = .ok l ∧ l.Perm keys.elems := by
  cases keys with
  | list l => exact ⟨l, rfl, List.Perm.refl _⟩
  | set l =>
    simp only [PubArgs.ordered, sortedArgs, PubArgs.elems]
    cases hb : allBytes l with
    | some bs => exact ⟨_, rfl, by rw [allBytes_some hb]; exact (pySorted_perm _ _).map _⟩
    | none =>
      cases hh : allHex l with
      | some ss => exact ⟨_, rfl, by rw [allHex_some hh]; exact (pySorted_perm _ _).map _⟩
      | none => exact absurd ⟨allBytes_none.mp hb, allHex_none.mp hh⟩ h

/-- C23. Exactly when a contract object is made (for `m ≥ 1`): the private key is of the class's network
and its public key is given as bytes or as lower-case text, a set is not a mixture of texts and bytes, and
the arguments stand for keys of 33 or 65 bytes, at least `m` of them, that fit in a script of 520 bytes.
Otherwise the exception is TypeError for a private key of the other class and for a mixed set, and
ValueError in all other cases. -/
theorem C23_exactly (C : Crypto) (net : Net) (key : PrivKey) (keys : PubArgs) (m : Int) (hm : 1 ≤ m) :
    ((∃ s, mkMultiSig C net key keys m = .ok s) ↔
      key.net = net ∧
      (.bytes (key.publicKey C) ∈ keys.elems ∨ .hex (bytesToHex (key.publicKey C)) ∈ keys.elems) ∧
      ¬ keys.Mixed ∧
      ∃ pubs, List.Forall₂ PubArg.Means keys.elems pubs ∧ m ≤ pubs.length ∧
        (∀ k ∈ pubs, k.length = 33 ∨ k.length = 65) ∧ 3 + (pubs.map fun k => k.length + 1).sum ≤ 520) ∧
    (∀ e, mkMultiSig C net key keys m = .error e → e = .typeError ∨ e = .valueError) ∧
    (mkMultiSig C net key keys m = .error .typeError ↔
      key.net ≠ net ∨
      ((.bytes (key.publicKey C) ∈ keys.elems ∨ .hex (bytesToHex (key.publicKey C)) ∈ keys.elems) ∧
        keys.Mixed)) := by
  by_cases hn : key.net = net
  swap
  · have := (C23_refusals C net key keys m).1 hn
    simp [this, hn]
  by_cases hk : .bytes (key.publicKey C) ∈ keys.elems ∨ .hex (bytesToHex (key.publicKey C)) ∈ keys.elems
  swap
  · have := (C23_refusals C net key keys m).2 hn (fun h => hk (.inl h)) (fun h => hk (.inr h))
    simp only [this, hk]
    simp [hn]
  have e1 : mkMultiSig C net key keys m = (match keys.ordered with
    | .error e => .error e
    | .ok args =>
      match argsToBytes args with
      | .error e => .error e
      | .ok pubs =>
        match multisigToRedeemscript pubs m with
        | .error e => .error e
        | .ok r => .ok { net := net, key := key, publicKeys := pubs, m := m, redeemscript := r,
                         isCompressed := pubs.all (fun p => p.length = 33) } : Py MultiSig) := by
    unfold mkMultiSig
    rw [if_neg (by simpa using hn), if_neg (by tauto)]
    rfl
  rw [e1]
  simp only [hn, hk, true_and, ne_eq, not_true_eq_false, false_or]
  by_cases hx : keys.Mixed
  · rw [ordered_mixed hx]
    simp [hx]
  obtain ⟨args, ho, hp⟩ := ordered_perm hx
  rw [ho]
  simp only [hx, not_false_eq_true, true_and, iff_false]
  cases hb : argsToBytes args with
  | error e =>
    have he := argsToBytes_error hb
    subst he
    refine ⟨⟨fun h => ?_, ?_⟩, by intro e h; cases h; exact .inr rfl, by simp⟩
    · obtain ⟨s, hs⟩ := h
      cases hs
    rintro ⟨pubs, hf, _⟩
    obtain ⟨l, h1, _⟩ := List.perm_comp_forall₂ hp hf
    rw [← argsToBytes_means, hb] at h1
    cases h1
  | ok pubs =>
    simp only
    have hf := argsToBytes_means.mp hb
    obtain ⟨c1, -, c3⟩ := C21_redeemscript pubs m hm
    have key1 : (∃ r, multisigToRedeemscript pubs m = .ok r) ↔
        ∃ pubs, List.Forall₂ PubArg.Means keys.elems pubs ∧ m ≤ pubs.length ∧
        (∀ k ∈ pubs, k.length = 33 ∨ k.length = 65) ∧ 3 + (pubs.map fun k => k.length + 1).sum ≤ 520 := by
      rw [c1]
      constructor
      · rintro ⟨h1, h2, h3⟩
        obtain ⟨l, k1, k2⟩ := List.perm_comp_forall₂ hp.symm hf
        refine ⟨l, k1, by rw [k2.length_eq]; exact h1, fun k hk => h2 k (k2.mem_iff.mp hk), ?_⟩
        rw [(k2.map _).sum_eq]; exact h3
      · rintro ⟨l, k1, h1, h2, h3⟩
        obtain ⟨l', k3, k2⟩ := List.perm_comp_forall₂ hp k1
        rw [← argsToBytes_means, hb] at k3
        rw [← Except.ok.inj k3] at k2
        refine ⟨by rw [k2.length_eq]; exact h1, fun k hk => h2 k (k2.mem_iff.mp hk), ?_⟩
        rw [(k2.map _).sum_eq]; exact h3
    rw [← key1]
    cases hr : multisigToRedeemscript pubs m with
    | error e =>
      have := c3 e hr
      subst this
      simp
    | ok r => simp

/-- A key given as text and another as bytes: a contract if they are a list, TypeError if they are a set. -/
example :
    (∃ s, mkMultiSig crypto .main ⟨.main, List.replicate 32 7, true⟩
      (.list [.hex (bytesToHex (2 :: List.replicate 32 7)), .bytes (2 :: List.replicate 32 9)]) 2 = .ok s) ∧
    mkMultiSig crypto .main ⟨.main, List.replicate 32 7, true⟩
      (.set [.hex (bytesToHex (2 :: List.replicate 32 7)), .bytes (2 :: List.replicate 32 9)]) 2 =
        .error .typeError := by
  refine ⟨⟨MultiSig.mk .main ⟨.main, List.replicate 32 7, true⟩
    [2 :: List.replicate 32 7, 2 :: List.replicate 32 9] 2
    (0x52 :: (keyPushes [2 :: List.replicate 32 7, 2 :: List.replicate 32 9]
      ++ [0x52, 0xae])) true, by decide +kernel⟩, by decide +kernel⟩

end Bit
