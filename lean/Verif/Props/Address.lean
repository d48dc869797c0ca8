import Verif.Model.Format
import Verif.Spec.Script
import Verif.Lemmas.Format
import Verif.Props.Base58
import Verif.Props.Bech32
import Verif.Concrete.Crypto
/-
C17-C20: addresses and the output scripts they stand for.
-/
namespace Bit
open Concrete

/-! ### the first character of an address -/

theorem base58Value_cons {c : Char} {t : Str} {v : Nat}
    (h : Spec.base58Value (c :: t) = some v) :
    ∃ d r, Spec.base58Digit c = some d ∧ v = d * 58 ^ t.length + r ∧ r < 58 ^ t.length := by
  have hlt : ∀ (t : Str) (r : Nat), Spec.base58Value t = some r → r < 58 ^ t.length := by
    intro t
    induction t with
    | nil => intro r h; simp [Spec.base58Value] at h; subst h; simp
    | cons c t ih =>
      intro r h
      simp only [Spec.base58Value, Option.bind_eq_bind, Option.bind_eq_some_iff,
        Option.pure_def, Option.some.injEq] at h
      obtain ⟨d, hd, w, hw, rfl⟩ := h
      have hd58 : d < 58 := by
        rw [base58Digit_eq] at hd
        exact (b58Index_some hd).1
      have := ih w hw
      rw [List.length_cons, pow_succ]
      have : d * 58 ^ t.length + 58 ^ t.length ≤ 58 * 58 ^ t.length := by
        rw [← Nat.succ_mul]; exact Nat.mul_le_mul_right _ hd58
      omega
  simp only [Spec.base58Value, Option.bind_eq_bind, Option.bind_eq_some_iff,
    Option.pure_def, Option.some.injEq] at h
  obtain ⟨d, hd, w, hw, rfl⟩ := h
  exact ⟨d, w, hd, rfl, hlt t w hw⟩

/-- A text that is nothing but `'1'`s decodes to zeros. -/
theorem ones_or_exists (s : Str) : s = List.replicate s.length '1' ∨ ∃ c ∈ s, c ≠ '1' := by
  by_cases h : ∃ c ∈ s, c ≠ '1'
  · exact Or.inr h
  · left
    refine List.eq_replicate_iff.mpr ⟨rfl, ?_⟩
    intro c hc
    by_contra hne
    exact h ⟨c, hc, hne⟩

/-- Base58 texts of 20 byte hashes with a known version byte do not begin with `b` or `t`. -/
theorem addr_head {C : Crypto} (hC : C.HashLengths) {s : Str} {v : UInt8} {h : Bytes}
    (hs : b58decodeCheck C s = .ok (v :: h)) (hl : h.length = 20)
    (hv : v = 0x00 ∨ v = 0x6f ∨ v = 0x05 ∨ v = 0xc4) :
    ∃ c t d, s = c :: t ∧ Spec.base58Digit c = some d ∧ (d = 0 ∨ d = 1 ∨ d = 2 ∨ d = 44 ∨ d = 45) := by
  have hd := (C03_b58check_accepts_iff C hC s (v :: h)).mp hs
  by_cases hv0 : v = 0
  · subst hv0
    cases s with
    | nil =>
      exfalso
      have e : b58decode [] = .ok [0] := by decide
      rw [e] at hd
      have := congrArg List.length (Except.ok.inj hd)
      simp [hl] at this
    | cons c t =>
      by_cases hc : c = '1'
      · subst hc; exact ⟨'1', t, 0, rfl, by decide, Or.inl rfl⟩
      · exfalso
        unfold b58decode at hd
        cases hn : b58Num 0 (c :: t) with
        | error e => rw [hn] at hd; cases hd
        | ok num =>
          rw [hn] at hd
          simp only [countLeading_cons_ne t hc, List.replicate_zero, List.nil_append,
            Except.ok.injEq] at hd
          by_cases h0 : num = 0
          · rw [h0, intToUnknownBytes_zero] at hd
            have := congrArg List.length hd
            simp [hl] at this
          · obtain ⟨x, xs, hx0, hx⟩ := intToUnknownBytes_head h0
            rw [hx] at hd
            simp only [List.cons_append, List.cons.injEq] at hd
            exact hx0 hd.1
  · have hne : ∃ c ∈ s, c ≠ '1' := by
      rcases ones_or_exists s with h1 | h1
      · exfalso
        rw [h1, b58decode_ones] at hd
        rw [List.replicate_succ] at hd
        simp only [Except.ok.injEq, List.cons_append, List.cons.injEq] at hd
        exact hv0 hd.1.symm
      · exact h1
    have hcan := C03_b58check_canonical C hC hs hne
    obtain ⟨c, t, he, hc, hval⟩ := C01_b58_value 0 v (h ++ C.checksum (v :: h)) hv0
    simp only [List.replicate_zero, List.nil_append] at he
    have hse : s = c :: t := by rw [← hcan, ← he]; rfl
    obtain ⟨d, r, hdig, hv', hr⟩ := base58Value_cons hval
    have hbv : Spec.bytesValue (v :: (h ++ C.checksum (v :: h))) =
        v.toNat * 256 ^ 24 + beNat (h ++ C.checksum (v :: h)) := by
      rw [bytesValue_eq, beNat_cons]; simp [checksum_len hC, hl]
    have hlt : beNat (h ++ C.checksum (v :: h)) < 256 ^ 24 := by
      have := beNat_lt (h ++ C.checksum (v :: h))
      simpa [checksum_len hC, hl] using this
    rw [hbv] at hv'
    generalize beNat (h ++ C.checksum (v :: h)) = w at hv' hlt
    have hlen := fun k h1 h2 => b58encodeCheck_length hC v h hv0 (k := k) h1 h2
    rw [hl, hcan, hse] at hlen
    refine ⟨c, t, d, hse, hdig, ?_⟩
    rcases hv with rfl | rfl | rfl | rfl
    · exact absurd rfl hv0
    · have hk := hlen 33 (by decide) (by decide)
      have ht : t.length = 33 := by simpa using hk
      rw [ht] at hv' hr
      have e : (0x6f : UInt8).toNat = 111 := rfl
      rw [e] at hv'
      norm_num at hv' hr hlt
      omega
    · have hk := hlen 33 (by decide) (by decide)
      have ht : t.length = 33 := by simpa using hk
      rw [ht] at hv' hr
      have e : (0x05 : UInt8).toNat = 5 := rfl
      rw [e] at hv'
      norm_num at hv' hr hlt
      omega
    · have hk := hlen 34 (by decide) (by decide)
      have ht : t.length = 34 := by simpa using hk
      rw [ht] at hv' hr
      have e : (0xc4 : UInt8).toNat = 196 := rfl
      rw [e] at hv'
      norm_num at hv' hr hlt
      omega

/-- Such a text is never a Bech32 text with one of the known prefixes. -/
theorem addr_not_known_hrp {C : Crypto} (hC : C.HashLengths) {s : Str} {v : UInt8} {h : Bytes}
    (hs : b58decodeCheck C s = .ok (v :: h)) (hl : h.length = 20)
    (hv : v = 0x00 ∨ v = 0x6f ∨ v = 0x05 ∨ v = 0xc4) {hrp : Str} {data : List Nat}
    (hb : bech32Decode s = some (hrp, data)) :
    hrp ≠ str "bc" ∧ hrp ≠ str "tb" ∧ hrp ≠ str "bcrt" := by
  obtain ⟨c, t, d, hse, hdig, hd⟩ := addr_head hC hs hl hv
  obtain ⟨henc, _⟩ := C06_bech32_canonical hb
  have hpre : ∃ cs, s.map Char.toLower = hrp ++ '1' :: cs := by
    unfold bech32Encode at henc
    cases hc : charsetText (data ++ bech32CreateChecksum hrp data) with
    | error e => rw [hc] at henc; cases henc
    | ok cs => rw [hc] at henc; exact ⟨cs, (Except.ok.inj henc).symm⟩
  obtain ⟨cs, hpre⟩ := hpre
  have hcc : c ∈ ['1', '2', '3', 'm', 'n'] := by
    rw [base58Digit_eq] at hdig
    have := (b58Index_some hdig).2
    rw [← this]
    rcases hd with rfl | rfl | rfl | rfl | rfl <;> decide
  have key : ∀ p : Str, (∃ x xs, p = x :: xs ∧ (x = 'b' ∨ x = 't')) → hrp ≠ p := by
    rintro p ⟨x, xs, rfl, hx⟩ rfl
    rw [hse, List.map_cons, List.cons_append, List.cons.injEq] at hpre
    have h1 := hpre.1
    have : ∀ c ∈ ['1', '2', '3', 'm', 'n'], c.toLower ≠ 'b' ∧ c.toLower ≠ 't' := by decide
    rcases hx with rfl | rfl
    · exact (this c hcc).1 h1
    · exact (this c hcc).2 h1
  exact ⟨key _ ⟨'b', ['c'], by decide, Or.inl rfl⟩, key _ ⟨'t', ['b'], by decide, Or.inr rfl⟩,
    key _ ⟨'b', ['c', 'r', 't'], by decide, Or.inl rfl⟩⟩

/-- The network of a version byte. -/
def versionNet (v : UInt8) : Net := if v = 0x00 ∨ v = 0x05 then .main else .test

theorem getVersion_b58 {C : Crypto} {s : Str} {v : UInt8} {h : Bytes}
    (hs : b58decodeCheck C s = .ok (v :: h)) (hv : v = 0x00 ∨ v = 0x6f ∨ v = 0x05 ∨ v = 0xc4)
    (hb : bech32Decode s = none) : getVersion C s = .ok (versionNet v) := by
  unfold getVersion
  rw [hb]
  simp only [hs, List.take_succ_cons, List.take_zero]
  rcases hv with rfl | rfl | rfl | rfl <;> simp <;> decide

theorem getVersion_shadow {C : Crypto} (hC : C.HashLengths) {s : Str} {v : UInt8} {h : Bytes}
    (hs : b58decodeCheck C s = .ok (v :: h)) (hl : h.length = 20)
    (hv : v = 0x00 ∨ v = 0x6f ∨ v = 0x05 ∨ v = 0xc4)
    (hb : bech32Decode s ≠ none) : getVersion C s = .error .valueError := by
  cases hd : bech32Decode s with
  | none => exact absurd hd hb
  | some r =>
    obtain ⟨hrp, data⟩ := r
    obtain ⟨h1, h2, h3⟩ := addr_not_known_hrp hC hs hl hv hd
    unfold getVersion
    rw [hd]
    have e1 : bech32MainVersionSet.contains hrp = false := by
      simp [bech32MainVersionSet]; exact h1
    have e2 : bech32TestVersionSet.contains hrp = false := by
      simp [bech32TestVersionSet]; exact ⟨h2, h3⟩
    simp only [e1, e2, Bool.false_eq_true, if_false]

theorem addressToPublicKeyHash_b58 {C : Crypto} {s : Str} {v : UInt8} {h : Bytes} {n : Net}
    (hs : b58decodeCheck C s = .ok (v :: h)) (hg : getVersion C s = .ok n) :
    addressToPublicKeyHash C s = .ok h := by
  unfold addressToPublicKeyHash
  rw [hg]; simp [hs]

theorem script_p2pkh {C : Crypto} {s : Str} {v : UInt8} {h : Bytes} {n : Net}
    (hs : b58decodeCheck C s = .ok (v :: h)) (hl : h.length = 20) (hv : v = 0x00 ∨ v = 0x6f)
    (hg : getVersion C s = .ok n) :
    addressToScriptpubkey C s = .ok (some (Spec.p2pkhScript h)) := by
  unfold addressToScriptpubkey
  rw [hg]
  simp only [hs, List.take_succ_cons, List.take_zero, List.cons.injEq, and_true]
  rw [if_pos hv, addressToPublicKeyHash_b58 hs hg]
  simp [Spec.p2pkhScript, hl]

theorem script_p2sh {C : Crypto} {s : Str} {v : UInt8} {h : Bytes} {n : Net}
    (hs : b58decodeCheck C s = .ok (v :: h)) (hl : h.length = 20) (hv : v = 0x05 ∨ v = 0xc4)
    (hg : getVersion C s = .ok n) :
    addressToScriptpubkey C s = .ok (some (Spec.p2shScript h)) := by
  unfold addressToScriptpubkey
  rw [hg]
  simp only [hs, List.take_succ_cons, List.take_zero, List.cons.injEq, and_true]
  rw [if_neg (by rcases hv with rfl | rfl <;> decide), if_pos hv, addressToPublicKeyHash_b58 hs hg]
  simp [Spec.p2shScript, hl]

theorem script_of_error {C : Crypto} {s : Str} {e : PyErr} (hg : getVersion C s = .error e) :
    addressToScriptpubkey C s = .error e := by
  unfold addressToScriptpubkey; rw [hg]

/-- The real SHA-256 does not map the all-zero payload to a zero checksum. -/
def ZeroPayloadOk (C : Crypto) : Prop :=
  (C.sha256 (C.sha256 (List.replicate 21 0))).take 4 ≠ [0, 0, 0, 0]

theorem crypto_zeroPayloadOk : ZeroPayloadOk crypto := by unfold ZeroPayloadOk; decide +kernel

theorem roundtrip_payload {C : Crypto} (hC : C.HashLengths) (hz : ZeroPayloadOk C) (v : UInt8)
    (h : Bytes) (hl : h.length = 20) : b58decodeCheck C (b58encodeCheck C (v :: h)) = .ok (v :: h) := by
  apply C03_b58check_roundtrip C hC
  by_contra hc
  have hall : ∀ x ∈ (v :: h) ++ (C.sha256 (C.sha256 (v :: h))).take 4, x = 0 := by
    intro x hx
    by_contra hne
    exact hc ⟨x, hx, hne⟩
  have h1 : (v :: h) = List.replicate 21 0 :=
    List.eq_replicate_iff.mpr ⟨by simp [hl], fun x hx => hall x (List.mem_append_left _ hx)⟩
  apply hz
  rw [← h1]
  have h2 : (C.sha256 (C.sha256 (v :: h))).take 4 = List.replicate 4 0 :=
    List.eq_replicate_iff.mpr ⟨by simp [hC.sha256_length],
      fun x hx => hall x (List.mem_append_right _ hx)⟩
  exact h2

/-! ## C17 -/

/-- C17. The address of a 33 or 65 byte public key carries the network's version byte and the
HASH160 of the key. It is recognised as an address of that network, and paying to it gives exactly
the P2PKH script of the key's hash, unless its text happens to be a valid Bech32 text as well, in
which case both calls raise ValueError (see `C17_bech32_lookalike_refused`). -/
theorem C17_p2pkh_address (C : Crypto) (hC : C.HashLengths) (hz : ZeroPayloadOk C) (key : Bytes)
    (net : Net) (hk : key.length = 33 ∨ key.length = 65) :
    ∃ a, publicKeyToAddress C key net = .ok a ∧
      b58decodeCheck C a = .ok ((match net with | .main => 0x00 | .test => 0x6f)
        :: C.ripemd160 (C.sha256 key)) ∧
      (bech32Decode a = none → getVersion C a = .ok net ∧
        addressToScriptpubkey C a = .ok (some (Spec.p2pkhScript (C.ripemd160 (C.sha256 key))))) ∧
      (bech32Decode a ≠ none → getVersion C a = .error .valueError ∧
        addressToScriptpubkey C a = .error .valueError) := by
  have hl : (C.ripemd160 (C.sha256 key)).length = 20 := hC.ripemd160_length _
  refine ⟨b58encodeCheck C (pubkeyHashByte net :: C.hash160 key), ?_, ?_, ?_, ?_⟩
  · unfold publicKeyToAddress
    rw [if_neg (by omega)]
  · have := roundtrip_payload hC hz (pubkeyHashByte net) _ hl
    cases net <;> exact this
  · intro hb
    have hr := roundtrip_payload hC hz (pubkeyHashByte net) _ hl
    have hg := getVersion_b58 hr (by cases net <;> simp [pubkeyHashByte]) hb
    have hn : versionNet (pubkeyHashByte net) = net := by cases net <;> decide
    rw [hn] at hg
    exact ⟨hg, script_p2pkh hr hl (by cases net <;> simp [pubkeyHashByte]) hg⟩
  · intro hb
    have hr := roundtrip_payload hC hz (pubkeyHashByte net) _ hl
    have hg := getVersion_shadow hC hr hl (by cases net <;> simp [pubkeyHashByte]) hb
    exact ⟨hg, script_of_error hg⟩

/-- A key of 33 bytes on both networks; its main network address is an ordinary one. -/
example : ∃ a, publicKeyToAddress crypto (2 :: List.replicate 32 7) .main = .ok a ∧
    bech32Decode a = none ∧ getVersion crypto a = .ok .main := by
  obtain ⟨a, h1, _, h3, _⟩ := C17_p2pkh_address crypto crypto_lengths crypto_zeroPayloadOk
    (2 :: List.replicate 32 7) .main (by decide)
  have hb : bech32Decode a = none := by
    have : ∀ a, publicKeyToAddress crypto (2 :: List.replicate 32 7) .main = .ok a →
        bech32Decode a = none := by
      intro a h
      have e : publicKeyToAddress crypto (2 :: List.replicate 32 7) .main
          = .ok (match publicKeyToAddress crypto (2 :: List.replicate 32 7) .main with
            | .ok a => a | .error _ => []) := by decide +kernel
      rw [e] at h
      rw [← Except.ok.inj h]
      decide +kernel
    exact this a h1
  exact ⟨a, h1, hb, (h3 hb).1⟩

/-- C17. A valid P2PKH or P2SH address given as text (any source) with an upper-case and a
lower-case letter is recognised and paid with its own hash. -/
theorem C17_mixed_case_paid (C : Crypto) (s : Str) (v : UInt8) (h : Bytes)
    (hs : b58decodeCheck C s = .ok (v :: h)) (hl : h.length = 20)
    (hu : ∃ c ∈ s, 65 ≤ c.toNat ∧ c.toNat ≤ 90) (hlow : ∃ c ∈ s, 97 ≤ c.toNat ∧ c.toNat ≤ 122) :
    (v = 0x00 → getVersion C s = .ok .main ∧
      addressToScriptpubkey C s = .ok (some (Spec.p2pkhScript h))) ∧
    (v = 0x6f → getVersion C s = .ok .test ∧
      addressToScriptpubkey C s = .ok (some (Spec.p2pkhScript h))) ∧
    (v = 0x05 → getVersion C s = .ok .main ∧
      addressToScriptpubkey C s = .ok (some (Spec.p2shScript h))) ∧
    (v = 0xc4 → getVersion C s = .ok .test ∧
      addressToScriptpubkey C s = .ok (some (Spec.p2shScript h))) := by
  have hb := C10_mixed_case_refused s hu hlow
  refine ⟨?_, ?_, ?_, ?_⟩ <;> rintro rfl
  · have hg := getVersion_b58 hs (by simp) hb
    exact ⟨hg, script_p2pkh hs hl (by simp) hg⟩
  · have hg := getVersion_b58 hs (by simp) hb
    exact ⟨hg, script_p2pkh hs hl (by simp) hg⟩
  · have hg := getVersion_b58 hs (by simp) hb
    exact ⟨hg, script_p2sh hs hl (by simp) hg⟩
  · have hg := getVersion_b58 hs (by simp) hb
    exact ⟨hg, script_p2sh hs hl (by simp) hg⟩

/-- tests/samples.py `BITCOIN_ADDRESS` -/
example : b58decodeCheck crypto (str "1ELReFsTCUY2mfaDTy32qxYiT49z786eFg")
    = .ok (0x00 :: hex "92461bde6283b461ece7ddf4dbf1e0a48bd113d8") := by decide +kernel

/-- C17, violation: this text is a valid main network P2PKH address (real SHA-256, 20 byte hash),
but it also is a valid Bech32 text with prefix `12`; the library refuses it with ValueError. -/
theorem C17_bech32_lookalike_refused :
    b58decodeCheck crypto (str "121263aef6aaz2uve75gsy99x8m8w8fcmf")
      = .ok (0x00 :: hex "0af9087c1e1e740368bdfa35c95ce7330df5e046") ∧
    getVersion crypto (str "121263aef6aaz2uve75gsy99x8m8w8fcmf") = .error .valueError ∧
    addressToScriptpubkey crypto (str "121263aef6aaz2uve75gsy99x8m8w8fcmf") = .error .valueError := by
  refine ⟨?_, ?_, ?_⟩ <;> decide +kernel

/-- C17. Other key lengths are refused. -/
theorem C17_key_length (C : Crypto) (key : Bytes) (net : Net) :
    publicKeyToAddress C key net = .error .valueError ↔ key.length ≠ 33 ∧ key.length ≠ 65 := by
  unfold publicKeyToAddress
  split
  · simpa using by assumption
  · rename_i h; simp; omega

/-! ## C18 -/

/-- C18. The P2SH-P2WPKH address of a compressed key: same statement with the P2SH script of the
HASH160 of the witness program `00 14 HASH160(key)`. Keys of another length are refused. -/
theorem C18_segwit_address (C : Crypto) (hC : C.HashLengths) (key : Bytes) (net : Net) :
    (key.length ≠ 33 → publicKeyToSegwitAddress C key net = .error .valueError) ∧
    (key.length = 33 → ∃ a h, publicKeyToSegwitAddress C key net = .ok a ∧
      h = C.ripemd160 (C.sha256 ([0x00, 0x14] ++ C.ripemd160 (C.sha256 key))) ∧
      b58decodeCheck C a = .ok ((match net with | .main => 0x05 | .test => 0xc4) :: h) ∧
      (bech32Decode a = none → getVersion C a = .ok net ∧
        addressToScriptpubkey C a = .ok (some (Spec.p2shScript h))) ∧
      (bech32Decode a ≠ none → getVersion C a = .error .valueError ∧
        addressToScriptpubkey C a = .error .valueError)) := by
  constructor
  · intro h; unfold publicKeyToSegwitAddress; rw [if_pos h]
  intro hk
  have hl : (C.hash160 (0x00 :: 0x14 :: C.hash160 key)).length = 20 := hC.ripemd160_length _
  have hr : b58decodeCheck C (b58encodeCheck C (scriptHashByte net ::
      C.hash160 (0x00 :: 0x14 :: C.hash160 key))) =
      .ok (scriptHashByte net :: C.hash160 (0x00 :: 0x14 :: C.hash160 key)) :=
    C03_b58check_roundtrip C hC _ ⟨scriptHashByte net, by simp, by cases net <;> decide⟩
  refine ⟨b58encodeCheck C (scriptHashByte net :: C.hash160 (0x00 :: 0x14 :: C.hash160 key)),
    C.hash160 (0x00 :: 0x14 :: C.hash160 key), ?_, rfl, ?_, ?_, ?_⟩
  · unfold publicKeyToSegwitAddress; rw [if_neg (by omega)]
  · cases net <;> exact hr
  · intro hb
    have hg := getVersion_b58 hr (by cases net <;> simp [scriptHashByte]) hb
    have hn : versionNet (scriptHashByte net) = net := by cases net <;> decide
    rw [hn] at hg
    exact ⟨hg, script_p2sh hr hl (by cases net <;> simp [scriptHashByte]) hg⟩
  · intro hb
    have hg := getVersion_shadow hC hr hl (by cases net <;> simp [scriptHashByte]) hb
    exact ⟨hg, script_of_error hg⟩

example : ∃ a, publicKeyToSegwitAddress crypto (2 :: List.replicate 32 7) .test = .ok a := by
  obtain ⟨a, _, h, _⟩ := (C18_segwit_address crypto crypto_lengths (2 :: List.replicate 32 7) .test).2
    (by decide)
  exact ⟨a, h⟩

/-! ## C19 -/

theorem pyBytes_ok : ∀ (l : List Nat), (∀ x ∈ l, x < 256) → pyBytes l = .ok (l.map UInt8.ofNat) := by
  intro l
  induction l with
  | nil => intro _; rfl
  | cons x l ih =>
    intro h
    rw [pyBytes, if_pos (h x (by simp)), ih fun y hy => h y (by simp [hy])]
    rfl

/-- The network of a Bech32 text depends on its prefix only. -/
theorem getVersion_bech32 (C : Crypto) {s hrp : Str} {data : List Nat}
    (hb : bech32Decode s = some (hrp, data)) :
    (hrp = str "bc" → getVersion C s = .ok .main) ∧
    ((hrp = str "tb" ∨ hrp = str "bcrt") → getVersion C s = .ok .test) ∧
    (hrp ≠ str "bc" ∧ hrp ≠ str "tb" ∧ hrp ≠ str "bcrt" → getVersion C s = .error .valueError) := by
  unfold getVersion
  rw [hb]
  refine ⟨?_, ?_, ?_⟩
  · rintro rfl
    have : bech32MainVersionSet.contains (str "bc") = true := by decide
    simp only [this, if_true]
  · rintro (rfl | rfl)
    · have e1 : bech32MainVersionSet.contains (str "tb") = false := by decide
      have e2 : bech32TestVersionSet.contains (str "tb") = true := by decide
      simp only [e1, e2, if_true, Bool.false_eq_true, if_false]
    · have e1 : bech32MainVersionSet.contains (str "bcrt") = false := by decide
      have e2 : bech32TestVersionSet.contains (str "bcrt") = true := by decide
      simp only [e1, e2, if_true, Bool.false_eq_true, if_false]
  · rintro ⟨h1, h2, h3⟩
    have e1 : bech32MainVersionSet.contains hrp = false := by
      simp [bech32MainVersionSet]; exact h1
    have e2 : bech32TestVersionSet.contains hrp = false := by
      simp [bech32TestVersionSet]; exact ⟨h2, h3⟩
    simp only [e1, e2, Bool.false_eq_true, if_false]

theorem segwitDecode_prefix {s : Str} {v : Nat} {prog : List Nat}
    (hd : segwitDecode s = some (v, prog)) :
    ∃ hrp data t, bech32Decode s = some (hrp, data) ∧ s.map Char.toLower = hrp ++ '1' :: t ∧
      (hrp = str "bc" ∨ hrp = str "tb" ∨ hrp = str "bcrt") := by
  unfold segwitDecode at hd
  cases hb : bech32Decode s with
  | none => rw [hb] at hd; cases hd
  | some r =>
    obtain ⟨hrp, data⟩ := r
    rw [hb] at hd
    obtain ⟨henc, _⟩ := C06_bech32_canonical hb
    have hpre : ∃ cs, s.map Char.toLower = hrp ++ '1' :: cs := by
      unfold bech32Encode at henc
      cases hc : charsetText (data ++ bech32CreateChecksum hrp data) with
      | error e => rw [hc] at henc; cases henc
      | ok cs => rw [hc] at henc; exact ⟨cs, (Except.ok.inj henc).symm⟩
    obtain ⟨cs, hpre⟩ := hpre
    refine ⟨hrp, data, cs, rfl, hpre, ?_⟩
    by_contra hc
    have e : bech32VersionSet.contains hrp = false := by
      simp only [not_or] at hc
      simp [bech32VersionSet, bech32MainVersionSet, bech32TestVersionSet]
      exact hc
    simp [-List.contains_eq_mem, e] at hd

/-- C19. A text that decodes as a segwit address belongs to the main network exactly if its prefix
is `bc`, otherwise to the test network; unless it also passes the Base58Check test, paying to it
gives the version opcode, the length byte and the program. -/
theorem C19_segwit_output (C : Crypto) (s : Str) (v : Nat) (prog : List Nat)
    (hd : segwitDecode s = some (v, prog)) :
    (∃ hrp t, s.map Char.toLower = hrp ++ '1' :: t ∧
      (hrp = str "bc" ∨ hrp = str "tb" ∨ hrp = str "bcrt") ∧
      getVersion C s = .ok (if hrp = str "bc" then .main else .test)) ∧
    ((∀ p, b58decodeCheck C s ≠ .ok p) →
      addressToScriptpubkey C s = .ok (some (Spec.witnessScript v (prog.map UInt8.ofNat)))) := by
  obtain ⟨hrp, data, t, hb, hpre, hh⟩ := segwitDecode_prefix hd
  obtain ⟨g1, g2, _⟩ := getVersion_bech32 C hb
  have hg : getVersion C s = .ok (if hrp = str "bc" then .main else .test) := by
    rcases hh with rfl | rfl | rfl
    · rw [if_pos rfl]; exact g1 rfl
    · rw [if_neg (by decide)]; exact g2 (Or.inl rfl)
    · rw [if_neg (by decide)]; exact g2 (Or.inr rfl)
  refine ⟨⟨hrp, t, hpre, hh, hg⟩, ?_⟩
  intro hno
  have herr := C03_b58check_refuses C s hno
  obtain ⟨_, _, _, _, hv, hl, hbytes, _⟩ := C08_segwit_canonical hd
  unfold addressToScriptpubkey
  rw [hg, herr]
  simp only [hd]
  unfold segwitScriptpubkey
  rw [pyBytes_ok]
  · simp only [List.map_cons, Spec.witnessScript, List.length_map, List.cons_append,
      List.nil_append]
    by_cases h0 : v = 0
    · simp [h0]
    · simp [h0, Nat.add_comm]
  · intro x hx
    simp only [List.mem_cons] at hx
    rcases hx with rfl | rfl | hx
    · split <;> omega
    · omega
    · exact hbytes x hx

/-- C19. In particular for texts with a character `0` or `l` (or any other character that Base58
does not have), such as every second real address. -/
theorem C19_segwit_output_not_base58 (C : Crypto) (s : Str) (v : Nat) (prog : List Nat)
    (hd : segwitDecode s = some (v, prog)) (hc : ∃ c ∈ s, Spec.base58Digit c = none) :
    addressToScriptpubkey C s = .ok (some (Spec.witnessScript v (prog.map UInt8.ofNat))) := by
  apply (C19_segwit_output C s v prog hd).2
  intro p hp
  have := (C02_b58decode_domain s).2 hc
  unfold b58decodeCheck at hp
  rw [this] at hp
  cases hp

/-- the P2WPKH address of BIP-173 -/
example : addressToScriptpubkey crypto (str "bc1qw508d6qejxtdg4y5r3zarvary0c5xw7kv8f3t4") =
    .ok (some (hex "0014751e76e8199196d454941c45d1b3a323f1433bd6")) := by
  have h : segwitDecode (str "bc1qw508d6qejxtdg4y5r3zarvary0c5xw7kv8f3t4") =
      some (0, (hex "751e76e8199196d454941c45d1b3a323f1433bd6").map UInt8.toNat) := by
    decide +kernel
  rw [C19_segwit_output_not_base58 crypto _ _ _ h ⟨'0', by decide, by decide⟩]
  decide +kernel

/-- C19 (limitation). The hypothesis cannot be dropped: with the real SHA-256, this valid version 0
mainnet address with a 20 byte program also passes the Base58Check test, so the code takes it for a
Base58 address of unknown version and gives no script at all (paying to it raises `TypeError`). -/
theorem C19_valid_address_unpayable :
    segwitDecode (str "bc1qrahtpdt33ztqc5n2xcp7ykc4twpsmde8ya7gx3") =
      some (0, (hex "1f6eb0b57188960c526a3603e25b155b830db727").map UInt8.toNat) ∧
    getVersion crypto (str "bc1qrahtpdt33ztqc5n2xcp7ykc4twpsmde8ya7gx3") = .ok .main ∧
    addressToScriptpubkey crypto (str "bc1qrahtpdt33ztqc5n2xcp7ykc4twpsmde8ya7gx3") = .ok none := by
  decide +kernel

/-! ## C20 -/

/-- C20. A text that is neither a Base58Check text with a known version byte nor a Bech32 text with
a known prefix is refused with ValueError, both by network detection and script construction. -/
theorem C20_unrecognised_refused (C : Crypto) (s : Str)
    (h58 : ∀ p, b58decodeCheck C s = .ok p →
      p.head? ≠ some 0x00 ∧ p.head? ≠ some 0x05 ∧ p.head? ≠ some 0x6f ∧ p.head? ≠ some 0xc4)
    (h32 : ∀ hrp data, bech32Decode s = some (hrp, data) →
      hrp ≠ str "bc" ∧ hrp ≠ str "tb" ∧ hrp ≠ str "bcrt") :
    getVersion C s = .error .valueError ∧ addressToScriptpubkey C s = .error .valueError := by
  have hg : getVersion C s = .error .valueError := by
    cases hb : bech32Decode s with
    | some r =>
      obtain ⟨hrp, data⟩ := r
      exact (getVersion_bech32 C hb).2.2 (h32 hrp data hb)
    | none =>
      cases hd : b58decodeCheck C s with
      | error e =>
        have := C03_b58check_refuses C s (by intro p hp; rw [hd] at hp; cases hp)
        unfold getVersion
        rw [hb, this]
      | ok p =>
        unfold getVersion
        rw [hb, hd]
        have := h58 p hd
        cases p with
        | nil => simp
        | cons x xs =>
          simp only [List.head?_cons, ne_eq, Option.some.injEq] at this
          simp [this]
  exact ⟨hg, script_of_error hg⟩

example : (∀ p, b58decodeCheck crypto (str "hello") ≠ .ok p) ∧ bech32Decode (str "hello") = none := by
  refine ⟨?_, by decide⟩
  have : b58decodeCheck crypto (str "hello") = .error .valueError := by decide +kernel
  intro p; rw [this]; simp

/-- C20. Whatever the destination, an error is a ValueError or a TypeError, and a script is only
returned for a text that one of the two decoders accepts: its hash or program is in the script. -/
theorem C20_script_only_if_decoded (C : Crypto) (s : Str) (r : Bytes)
    (h : addressToScriptpubkey C s = .ok (some r)) :
    (∃ v hash, b58decodeCheck C s = .ok (v :: hash) ∧
      ((v = 0x00 ∨ v = 0x6f) ∧ r = [0x76, 0xa9, 0x14] ++ hash ++ [0x88, 0xac] ∨
       (v = 0x05 ∨ v = 0xc4) ∧ r = [0xa9, 0x14] ++ hash ++ [0x87])) ∨
    (∃ v prog, segwitDecode s = some (v, prog) ∧
      r = Spec.witnessScript v (prog.map UInt8.ofNat)) := by
  unfold addressToScriptpubkey at h
  cases hg : getVersion C s with
  | error e => rw [hg] at h; cases h
  | ok n =>
    rw [hg] at h
    simp only at h
    cases hd : b58decodeCheck C s with
    | error e =>
      have he := C03_b58check_refuses C s (by intro p hp; rw [hd] at hp; cases hp)
      rw [he] at h
      simp only at h
      cases hs : segwitDecode s with
      | none => rw [hs] at h; cases h
      | some q =>
        obtain ⟨v, prog⟩ := q
        right
        refine ⟨v, prog, rfl, ?_⟩
        have := (C19_segwit_output C s v prog hs).2 (by intro p hp; rw [hd] at hp; cases hp)
        unfold addressToScriptpubkey at this
        rw [hg, he] at this
        simp only [] at this
        rw [h] at this
        simpa using this
    | ok p =>
      rw [hd] at h
      left
      cases p with
      | nil => simp at h
      | cons v hash =>
        refine ⟨v, hash, rfl, ?_⟩
        simp only [List.take_succ_cons, List.take_zero, List.cons.injEq, and_true] at h
        rw [addressToPublicKeyHash_b58 hd hg] at h
        split at h
        · rename_i hv
          left
          simp only [Except.ok.injEq, Option.some.injEq] at h
          exact ⟨hv, by rw [← h]; simp⟩
        · split at h
          · rename_i hv
            right
            simp only [Except.ok.injEq, Option.some.injEq] at h
            exact ⟨hv, by rw [← h]; simp⟩
          · cases h

/-- C20, violation: a Base58Check text with a two byte "hash" gets a P2PKH script that pushes 20
bytes but contains two. -/
theorem C20_short_payload_accepted :
    addressToScriptpubkey crypto (b58encodeCheck crypto [0x00, 0x01, 0x02]) =
      .ok (some [0x76, 0xa9, 0x14, 0x01, 0x02, 0x88, 0xac]) := by
  decide +kernel

/-- C20, violation: a text with valid Bech32 checksum and a known prefix whose program is not a valid
witness program raises TypeError instead of ValueError. -/
theorem C20_bad_program_typeError (C : Crypto) (s hrp : Str) (data : List Nat)
    (hb : bech32Decode s = some (hrp, data))
    (hh : hrp = str "bc" ∨ hrp = str "tb" ∨ hrp = str "bcrt") (hs : segwitDecode s = none)
    (hno : ∀ p, b58decodeCheck C s ≠ .ok p) :
    addressToScriptpubkey C s = .error .typeError := by
  have herr := C03_b58check_refuses C s hno
  obtain ⟨g1, g2, _⟩ := getVersion_bech32 C hb
  have hg : ∃ n, getVersion C s = .ok n := by
    rcases hh with h | h
    · exact ⟨_, g1 h⟩
    · exact ⟨_, g2 h⟩
  obtain ⟨n, hg⟩ := hg
  unfold addressToScriptpubkey
  rw [hg, herr]
  simp only [hs]

/-- the version 17 text of the invalid addresses of BIP-173 -/
example : bech32Decode (str "BC13W508D6QEJXTDG4Y5R3ZARVARY0C5XW7KN40WF2") ≠ none ∧
    segwitDecode (str "BC13W508D6QEJXTDG4Y5R3ZARVARY0C5XW7KN40WF2") = none ∧
    addressToScriptpubkey crypto (str "BC13W508D6QEJXTDG4Y5R3ZARVARY0C5XW7KN40WF2")
      = .error .typeError := by
  refine ⟨?_, ?_, ?_⟩ <;> decide +kernel

end Bit
