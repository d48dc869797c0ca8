import Verif.Lemmas.Format
import Verif.Props.Base58
/-
Properties C04, C05: wallet import format.
-/
namespace Bit
open Concrete

private theorem prefix_ne (v : Net) : privateKeyByte v ≠ 0 := by cases v <;> decide

private theorem decode_export (C : Crypto) (hC : C.HashLengths) (v : Net) (b : Bytes) :
    b58decodeCheck C (b58encodeCheck C (privateKeyByte v :: b)) = .ok (privateKeyByte v :: b) :=
  C03_b58check_roundtrip C hC _ ⟨privateKeyByte v, by simp, prefix_ne v⟩

private theorem wif_length (C : Crypto) (hC : C.HashLengths) (v : Net) (b : Bytes) :
    (b.length = 33 → (b58encodeCheck C (privateKeyByte v :: b)).length = 52) ∧
    (b.length = 32 → (b58encodeCheck C (privateKeyByte v :: b)).length = 51) := by
  constructor
  · intro h
    refine b58encodeCheck_length hC _ b (prefix_ne v) (k := 51) ?_ ?_
    · rw [h]; cases v <;> simp [privateKeyByte]
    · rw [h]; cases v <;> simp [privateKeyByte]
  · intro h
    refine b58encodeCheck_length hC _ b (prefix_ne v) (k := 50) ?_ ?_
    · rw [h]; cases v <;> simp [privateKeyByte]
    · rw [h]; cases v <;> simp [privateKeyByte]

/-- C04. Exporting a 32-byte secret as WIF and importing the text returns the same secret, the same
compression flag and the same network. -/
theorem C04_wif_roundtrip (C : Crypto) (hC : C.HashLengths) (secret : Bytes) (v : Net)
    (compressed : Bool) (hl : secret.length = 32) :
    wifToBytes C (bytesToWif C secret v compressed) = .ok (secret, compressed, v) := by
  cases compressed with
  | true =>
    have hlen := (wif_length C hC v (secret ++ [1])).1 (by simp [hl])
    have hdec := decode_export C hC v (secret ++ [1])
    unfold wifToBytes bytesToWif
    simp only [if_true, List.cons_append] at *
    rw [hdec]
    have hlast : ∀ x : UInt8, (x :: (secret ++ [1])).getLast? = some 1 := by
      intro x; rw [← List.cons_append, List.getLast?_append]; simp
    cases v <;> simp [privateKeyByte, dropLast'] at * <;> simp [hlen, hlast]
  | false =>
    have hlen := (wif_length C hC v secret).2 hl
    have hdec := decode_export C hC v secret
    unfold wifToBytes bytesToWif
    simp only [Bool.false_eq_true, if_false, List.append_nil] at *
    rw [hdec]
    cases v <;> simp [privateKeyByte] at * <;> simp [hlen]

/-- a real key of the repository's tests (tests/samples.py, `WALLET_FORMAT_COMPRESSED_TEST`) -/
example : bytesToWif crypto (hex "c28a9f80738f770d527803a566cf6fc3edf6cea586c4fc4a5223a5ad797e1ac3")
    .test true = str "cU6s7jckL3bZUUkb3Q2CD9vNu8F1o58K5R5a3JFtidoccMbhEGKZ" := by decide +kernel

example : wifToBytes crypto (bytesToWif crypto (List.replicate 31 0 ++ [1]) .main true) =
    .ok (List.replicate 31 0 ++ [1], true, .main) :=
  C04_wif_roundtrip crypto crypto_lengths _ _ _ (by decide)

/-- C04. Different exports are different strings: the text determines secret, flag and network. -/
theorem C04_wif_injective (C : Crypto) (hC : C.HashLengths) {s s' : Bytes} {v v' : Net}
    {c c' : Bool} (hl : s.length = 32) (hl' : s'.length = 32)
    (h : bytesToWif C s v c = bytesToWif C s' v' c') : s = s' ∧ c = c' ∧ v = v' := by
  have h1 := C04_wif_roundtrip C hC s v c hl
  rw [h, C04_wif_roundtrip C hC s' v' c' hl'] at h1
  simp only [Except.ok.injEq, Prod.mk.injEq] at h1
  exact ⟨h1.1.symm, h1.2.1.symm, h1.2.2.symm⟩

private theorem not_all_ones {C : Crypto} (hC : C.HashLengths) {s : Str} {x : UInt8} {p : Bytes}
    (h : b58decodeCheck C s = .ok (x :: p)) (hx : x ≠ 0) : ∃ c ∈ s, c ≠ '1' := by
  by_contra hc
  have : s = List.replicate s.length '1' := by
    apply List.eq_replicate_iff.mpr ⟨rfl, ?_⟩
    intro c hm
    by_contra hne
    exact hc ⟨c, hm, hne⟩
  rw [C03_b58check_accepts_iff C hC, this, b58decode_ones] at h
  injection h with h
  rw [List.replicate_succ, List.cons_append, List.cons.injEq] at h
  exact hx h.1.symm

private theorem take_one {p : Bytes} {x : UInt8} (h : p.take 1 = [x]) : ∃ q, p = x :: q := by
  cases p with
  | nil => cases h
  | cons y q => simp at h; exact ⟨q, by rw [h]⟩

/-- C05. Import never misreads: an accepted string is exactly the export of the returned secret,
compression flag and network (whatever the length of the secret). -/
theorem C05_wif_import_exact (C : Crypto) (hC : C.HashLengths) {s : Str} {secret : Bytes}
    {compressed : Bool} {v : Net} (h : wifToBytes C s = .ok (secret, compressed, v)) :
    bytesToWif C secret v compressed = s := by
  unfold wifToBytes at h
  cases hd : b58decodeCheck C s with
  | error e => rw [hd] at h; cases h
  | ok p =>
    rw [hd] at h
    -- both networks alike
    have key : ∀ (w : Net) (q : Bytes), p = privateKeyByte w :: q →
        (if s.length = 52 ∧ p.getLast? = some 1 then
          (.ok (dropLast' (p.drop 1) 1, true, w) : Py (Bytes × Bool × Net))
          else .ok (p.drop 1, false, w)) = .ok (secret, compressed, v) →
        bytesToWif C secret v compressed = s := by
      intro w q hp hh
      have hs := not_all_ones hC (hp ▸ hd) (prefix_ne w)
      have hcanon := C03_b58check_canonical C hC hd hs
      split at hh
      · rename_i hc
        simp only [Except.ok.injEq, Prod.mk.injEq] at hh
        obtain ⟨h1, rfl, rfl⟩ := hh
        have hq : q.getLast? = some 1 := by
          cases q with
          | nil =>
            rw [hp] at hc
            have := hc.2
            cases w <;> simp [privateKeyByte] at this
          | cons y q' => rw [hp] at hc; simpa using hc.2
        have hsplit : q = dropLast' q 1 ++ [1] := by
          obtain ⟨ys, hys⟩ := List.getLast?_eq_some_iff.mp hq
          rw [hys]; simp [dropLast']
        rw [hp] at h1
        simp only [List.drop_succ_cons, List.drop_zero] at h1
        unfold bytesToWif
        simp only [if_true, List.cons_append]
        rw [← h1, ← hsplit, ← hp]
        exact hcanon
      · simp only [Except.ok.injEq, Prod.mk.injEq] at hh
        obtain ⟨h1, rfl, rfl⟩ := hh
        rw [hp] at h1
        simp only [List.drop_succ_cons, List.drop_zero] at h1
        unfold bytesToWif
        simp only [Bool.false_eq_true, if_false, List.append_nil]
        rw [← h1, ← hp]
        exact hcanon
    simp only [] at h
    split at h
    · rename_i h80
      obtain ⟨q, hq⟩ := take_one h80
      exact key .main q hq h
    · split at h
      · rename_i hef
        obtain ⟨q, hq⟩ := take_one hef
        exact key .test q hq h
      · cases h

/-- C05. A string is accepted exactly if its checksum is valid and its first payload byte is
`0x80` (main) or `0xef` (test); everything else raises `ValueError`. -/
theorem C05_wif_accepts_iff (C : Crypto) (s : Str) :
    ((∃ r, wifToBytes C s = .ok r) ↔
      ∃ q, b58decodeCheck C s = .ok (0x80 :: q) ∨ b58decodeCheck C s = .ok (0xef :: q)) ∧
    ((¬ ∃ r, wifToBytes C s = .ok r) → wifToBytes C s = .error .valueError) ∧
    (∀ k c v q, wifToBytes C s = .ok (k, c, v) → b58decodeCheck C s = .ok (0x80 :: q) → v = .main) ∧
    (∀ k c v q, wifToBytes C s = .ok (k, c, v) → b58decodeCheck C s = .ok (0xef :: q) → v = .test) := by
  cases hd : b58decodeCheck C s with
  | error e =>
    have he : e = .valueError := by
      have := C03_b58check_refuses C s (by rw [hd]; intro p h; cases h)
      rw [hd] at this; injection this
    subst he
    have : wifToBytes C s = .error .valueError := by unfold wifToBytes; rw [hd]
    rw [this]; simp
  | ok p =>
    unfold wifToBytes
    rw [hd]
    simp only []
    by_cases h1 : p.take 1 = [0x80]
    · obtain ⟨q, rfl⟩ := take_one h1
      simp only [List.take_succ_cons, List.take_zero, if_true]
      refine ⟨⟨fun _ => ⟨q, Or.inl rfl⟩, fun _ => ?_⟩, ?_, ?_, ?_⟩
      · split <;> exact ⟨_, rfl⟩
      · intro h; exfalso; apply h; split <;> exact ⟨_, rfl⟩
      · intro k c v q' h _; split at h <;> (injection h with h; injection h with _ h; injection h with _ h; exact h.symm)
      · intro k c v q' _ h; injection h with h; injection h with h _; cases h
    · by_cases h2 : p.take 1 = [0xef]
      · obtain ⟨q, rfl⟩ := take_one h2
        simp only [List.take_succ_cons, List.take_zero, List.cons.injEq, and_true, if_true] at h1 ⊢
        simp only [h1, if_false]
        refine ⟨⟨fun _ => ⟨q, Or.inr rfl⟩, fun _ => ?_⟩, ?_, ?_, ?_⟩
        · split <;> exact ⟨_, rfl⟩
        · intro h; exfalso; apply h; split <;> exact ⟨_, rfl⟩
        · intro k c v q' _ h; injection h with h; injection h with h _; cases h
        · intro k c v q' h _; split at h <;> (injection h with h; injection h with _ h; injection h with _ h; exact h.symm)
      · simp only [h1, h2, if_false]
        refine ⟨⟨fun ⟨r, h⟩ => (by cases h), ?_⟩, by intros; first | rfl | trivial, ?_, ?_⟩
        · rintro ⟨q, h | h⟩ <;> (injection h with h; subst h)
          · exact absurd rfl h1
          · exact absurd rfl h2
        · intro k c v q h; cases h
        · intro k c v q h; cases h

/-- C05. The checksum predicate never raises and says `True` exactly for the accepted strings. -/
theorem C05_checksum_check_iff (C : Crypto) (s : Str) :
    ∃ b, wifChecksumCheck C s = .ok b ∧ (b = true ↔ ∃ r, wifToBytes C s = .ok r) := by
  rw [(C05_wif_accepts_iff C s).1]
  unfold wifChecksumCheck
  cases hd : b58decodeCheck C s with
  | error e =>
    have he : e = .valueError := by
      have := C03_b58check_refuses C s (by rw [hd]; intro p h; cases h)
      rw [hd] at this; injection this
    subst he
    exact ⟨false, rfl, by simp⟩
  | ok p =>
    refine ⟨_, rfl, ?_⟩
    rw [decide_eq_true_iff]
    constructor
    · rintro (h | h)
      · obtain ⟨q, rfl⟩ := take_one h; exact ⟨q, Or.inl rfl⟩
      · obtain ⟨q, rfl⟩ := take_one h; exact ⟨q, Or.inr rfl⟩
    · rintro ⟨q, h | h⟩ <;> (injection h with h; subst h; simp)

/-- C05. Why the length matters: the uncompressed export of a 33-byte string ending in `01` is the
same text as the compressed export of its first 32 bytes, and is imported as the latter. -/
theorem C05_length_33_misread (C : Crypto) (hC : C.HashLengths) (secret : Bytes) (v : Net)
    (hl : secret.length = 32) :
    wifToBytes C (bytesToWif C (secret ++ [1]) v false) = .ok (secret, true, v) := by
  rw [← C04_wif_roundtrip C hC secret v true hl]
  simp [bytesToWif]

/-- C05 on a real string: one changed character is refused. -/
example : wifToBytes crypto (str "cU6s7jckL3bZUUkb3Q2CD9vNu8F1o58K5R5a3JFtidoccMbhEGKY") =
    .error .valueError := by decide +kernel

end Bit
