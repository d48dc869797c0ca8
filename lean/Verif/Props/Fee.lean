import Verif.Lemmas.Tx
import Verif.Spec.Size
/-
Properties of the fee estimate (C28, C29).
-/
namespace Bit

theorem byteWidth_pos (n : Nat) : 1 ≤ Spec.byteWidth n := by
  unfold Spec.byteWidth; split <;> omega

/-- `byteWidth n` is the least positive `k` with `n < 256 ^ k`. -/
theorem byteWidth_spec (n : Nat) : n < 256 ^ Spec.byteWidth n ∧
    ∀ k, 1 ≤ k → n < 256 ^ k → Spec.byteWidth n ≤ k := by
  induction n using Spec.byteWidth.induct with
  | case1 n h =>
    unfold Spec.byteWidth
    rw [dif_pos h]
    exact ⟨by omega, fun k hk _ => hk⟩
  | case2 n h ih =>
    unfold Spec.byteWidth
    rw [dif_neg h]
    constructor
    · rw [Nat.add_comm, Nat.pow_succ]
      have := ih.1
      omega
    · intro k hk hn
      cases k with
      | zero => omega
      | succ k =>
        rw [Nat.pow_succ] at hn
        have hd : n / 256 < 256 ^ k := by omega
        rcases Nat.eq_zero_or_pos k with rfl | hk0
        · simp at hd; omega
        · have := ih.2 k hk0 hd
          omega

theorem unkLen_byteWidth (n : Nat) : (intToUnknownBytes n).length = Spec.byteWidth n := by
  rw [intToUnknownBytes_length]
  apply Nat.le_antisymm
  · rcases Nat.eq_zero_or_pos n with rfl | hn
    · rw [unkLen_zero]; exact byteWidth_pos 0
    · by_contra hc
      have h1 := unkLen_le (n := n) (by omega)
      have h2 := (byteWidth_spec n).1
      have h3 : 256 ^ Spec.byteWidth n ≤ 256 ^ (unkLen n - 1) :=
        Nat.pow_le_pow_right (by norm_num) (by omega)
      omega
  · exact (byteWidth_spec n).2 _ (unkLen_pos n) (lt_unkLen n)

theorem byteWidth_mono {a b : Nat} (h : a ≤ b) : Spec.byteWidth a ≤ Spec.byteWidth b :=
  (byteWidth_spec a).2 _ (byteWidth_pos b) (Nat.lt_of_le_of_lt h (byteWidth_spec b).1)

/-! ## C28 -/

/-- C28. The estimated fee is the rate times the least whole number of bytes that is not below
input size + output size + 8 + the bytes needed for the two counts (+ 1/2 if segwit). Sizes in
quarters of a byte. For rate zero it is zero. -/
theorem C28_formula (in4 nIn out nOut : Nat) (rate : Int) (segwit : Bool) :
    ∃ size : Nat, estimateTxFee in4 nIn out nOut rate segwit = rate * size ∧
      in4 + 4 * (out + 8 + Spec.byteWidth nIn + Spec.byteWidth nOut) + (if segwit then 2 else 0)
        ≤ 4 * size ∧
      4 * size < in4 + 4 * (out + 8 + Spec.byteWidth nIn + Spec.byteWidth nOut)
        + (if segwit then 2 else 0) + 4 := by
  have e : estimateTxFee in4 nIn out nOut rate segwit = rate * (((in4 + 4 * Spec.byteWidth nIn + 4 * out
      + 4 * Spec.byteWidth nOut + 4 * 8 + (if segwit then 2 else 0)) + 3) / 4 : Nat) := by
    unfold estimateTxFee
    rw [unkLen_byteWidth, unkLen_byteWidth]
    split
    · rename_i h; simp [h]
    · exact Int.mul_comm _ _
  refine ⟨_, e, ?_, ?_⟩ <;> split_ifs <;> omega

/-- C28. The estimate never decreases when input size, output size, counts or a non-negative rate
grow; the segwit flag never lowers it; it is zero for rate zero. -/
theorem C28_monotone (in4 in4' nIn nIn' out out' nOut nOut' : Nat) (rate rate' : Int)
    (segwit segwit' : Bool) (h1 : in4 ≤ in4') (h2 : nIn ≤ nIn') (h3 : out ≤ out')
    (h4 : nOut ≤ nOut') (h0 : 0 ≤ rate) (h5 : rate ≤ rate') (h6 : segwit = true → segwit' = true) :
    estimateTxFee in4 nIn out nOut rate segwit ≤ estimateTxFee in4' nIn' out' nOut' rate' segwit' ∧
    estimateTxFee in4 nIn out nOut 0 segwit = 0 := by
  refine ⟨?_, by simp [estimateTxFee]⟩
  obtain ⟨s, e, a, b⟩ := C28_formula in4 nIn out nOut rate segwit
  obtain ⟨s', e', a', b'⟩ := C28_formula in4' nIn' out' nOut' rate' segwit'
  rw [e, e']
  have w1 := byteWidth_mono h2
  have w2 := byteWidth_mono h4
  have hflag : (if segwit then 2 else 0) ≤ (if segwit' then 2 else 0 : Nat) := by
    cases segwit <;> cases segwit' <;> simp_all
  have hs : s ≤ s' := by omega
  have hs' : (s : Int) ≤ s' := by exact_mod_cast hs
  calc rate * (s : Int) ≤ rate * s' := Int.mul_le_mul_of_nonneg_left hs' h0
    _ ≤ rate' * s' := Int.mul_le_mul_of_nonneg_right h5 (by omega)

example : estimateTxFee (4 * 148) 1 34 2 10 false = 1920 ∧
    estimateTxFee (4 * 148 + 1) 256 34 2 10 true = 1940 := by decide

/-! ## C29 -/

theorem compact_length {n : Nat} (h : n < 253) : (Spec.compact n).length = 1 := by
  simp [Spec.compact, h]

theorem compact_length_big {n : Nat} (h : 253 ≤ n) (h64 : n < 2 ^ 64) :
    Spec.byteWidth n < (Spec.compact n).length := by
  unfold Spec.compact
  rw [if_neg (by omega)]
  split_ifs with h1 h2
  · have := (byteWidth_spec n).2 2 (by norm_num) (by norm_num; omega)
    simp only [List.length_cons, leEncode_length]; omega
  · have := (byteWidth_spec n).2 4 (by norm_num) (by norm_num; omega)
    simp only [List.length_cons, leEncode_length]; omega
  · have := (byteWidth_spec n).2 8 (by norm_num) (by norm_num; omega)
    simp only [List.length_cons, leEncode_length]; omega

theorem input_length {i : Spec.TxInput} (h : i.prevTxid.length = 32) :
    i.encode.length = 40 + (Spec.compact i.script.length).length + i.script.length := by
  simp only [Spec.TxInput.encode, Spec.varBytes, List.length_append, leEncode_length, h]; omega

theorem output_length {o : Spec.TxOutput} (h : o.script.length < 253) :
    o.encode.length = o.script.length + 9 := by
  simp only [Spec.TxOutput.encode, Spec.varBytes, List.length_append, leEncode_length,
    compact_length h]; omega

theorem flatMap_length_le {α : Type} {f : α → List UInt8} {c : Nat} : ∀ {l : List α},
    (∀ x ∈ l, (f x).length ≤ c) → (l.flatMap f).length ≤ c * l.length
  | [], _ => by simp
  | x :: l, h => by
    have ih := flatMap_length_le (l := l) (fun y hy => h y (by simp [hy]))
    have hx := h x (by simp)
    rw [List.flatMap_cons, List.length_append, List.length_cons, Nat.mul_add]
    omega

theorem flatMap_length_eq {α : Type} {f : α → List UInt8} {c : Nat} : ∀ {l : List α},
    (∀ x ∈ l, (f x).length = c) → (l.flatMap f).length = c * l.length
  | [], _ => by simp
  | x :: l, h => by
    have ih := flatMap_length_eq (l := l) (fun y hy => h y (by simp [hy]))
    have hx := h x (by simp)
    rw [List.flatMap_cons, List.length_append, List.length_cons, Nat.mul_add]
    omega

theorem outputs_length : ∀ {l : List Spec.TxOutput}, (∀ o ∈ l, o.script.length < 253) →
    (l.flatMap Spec.TxOutput.encode).length = (l.map fun o => o.script.length + 9).sum
  | [], _ => by simp
  | o :: l, h => by
    have ih := outputs_length (l := l) (fun y hy => h y (by simp [hy]))
    rw [List.flatMap_cons, List.length_append, List.map_cons, List.sum_cons, ih,
      output_length (h o (by simp))]

theorem legacy_length (t : Spec.Tx) : t.encodeLegacy.length =
    8 + (Spec.compact t.inputs.length).length + (t.inputs.flatMap Spec.TxInput.encode).length +
    (Spec.compact t.outputs.length).length + (t.outputs.flatMap Spec.TxOutput.encode).length := by
  simp only [Spec.Tx.encodeLegacy, Spec.Tx.encodeBody, List.length_append, leEncode_length]; omega

theorem extended_length (t : Spec.Tx) : t.encodeExtended.length =
    t.encodeLegacy.length + 2 + (t.inputs.flatMap fun i => Spec.encodeStack i.witness).length := by
  simp only [Spec.Tx.encodeExtended, Spec.Tx.encodeLegacy, List.length_append, leEncode_length,
    List.length_cons, List.length_nil]; omega

/-- C29. P2PKH: if every input script has at most 107 bytes (push of a signature with hash type of
at most 72 bytes, push of a 33 byte key), at most 252 inputs and outputs, output scripts below 253
bytes, the fee estimated from 148 bytes per input and script length + 9 per output is at least the
rate times the size of the final transaction. -/
theorem C29_p2pkh_covers (t : Spec.Tx) (rate : Int) (hr : 0 ≤ rate)
    (hin : t.inputs.length < 253) (hout : t.outputs.length < 253)
    (hid : ∀ i ∈ t.inputs, i.prevTxid.length = 32 ∧ i.script.length ≤ 107 ∧ i.witness = [])
    (hsc : ∀ o ∈ t.outputs, o.script.length < 253) :
    rate * (t.vsize : Int) ≤ estimateTxFee (4 * (148 * t.inputs.length)) t.inputs.length
      (t.outputs.map fun o => o.script.length + 9).sum t.outputs.length rate false := by
  obtain ⟨s, e, a, b⟩ := C28_formula (4 * (148 * t.inputs.length)) t.inputs.length
      (t.outputs.map fun o => o.script.length + 9).sum t.outputs.length rate false
  rw [e]
  have hw : t.encode = t.encodeLegacy := by
    unfold Spec.Tx.encode
    rw [if_pos]
    rw [List.all_eq_true]
    intro i hi
    rw [(hid i hi).2.2]; rfl
  have hins : (t.inputs.flatMap Spec.TxInput.encode).length ≤ 148 * t.inputs.length := by
    apply flatMap_length_le
    intro i hi
    have h := hid i hi
    rw [input_length h.1, compact_length (by omega)]
    omega
  have hl := legacy_length t
  rw [compact_length hin, compact_length hout, outputs_length hsc] at hl
  have w1 := byteWidth_pos t.inputs.length
  have w2 := byteWidth_pos t.outputs.length
  simp only [Bool.false_eq_true, if_false] at a b
  have hv : t.vsize ≤ s := by
    unfold Spec.Tx.vsize Spec.Tx.weight
    rw [hw]
    omega
  exact Int.mul_le_mul_of_nonneg_left (by exact_mod_cast hv) hr

/-- C29. Nested P2WPKH: if every input has a script of 23 bytes and a witness of a signature of at
most 72 bytes and a 33 byte key, the fee estimated from 91 virtual bytes per input is at least the
rate times the virtual size of the final transaction. -/
theorem C29_np2wkh_covers (t : Spec.Tx) (rate : Int) (hr : 0 ≤ rate) (hne : t.inputs ≠ [])
    (hin : t.inputs.length < 253) (hout : t.outputs.length < 253)
    (hid : ∀ i ∈ t.inputs, i.prevTxid.length = 32 ∧ i.script.length = 23 ∧
      ∃ sig pub, i.witness = [sig, pub] ∧ sig.length ≤ 72 ∧ pub.length = 33)
    (hsc : ∀ o ∈ t.outputs, o.script.length < 253) :
    rate * (t.vsize : Int) ≤ estimateTxFee (4 * (91 * t.inputs.length)) t.inputs.length
      (t.outputs.map fun o => o.script.length + 9).sum t.outputs.length rate true := by
  obtain ⟨s, e, a, b⟩ := C28_formula (4 * (91 * t.inputs.length)) t.inputs.length
      (t.outputs.map fun o => o.script.length + 9).sum t.outputs.length rate true
  rw [e]
  have hw : t.encode = t.encodeExtended := by
    unfold Spec.Tx.encode
    rw [if_neg]
    obtain ⟨i, hi⟩ := List.exists_mem_of_ne_nil _ hne
    obtain ⟨sig, pub, hw, -⟩ := (hid i hi).2.2
    intro hall
    have := List.all_eq_true.mp hall i hi
    rw [hw] at this
    simp at this
  have hins : (t.inputs.flatMap Spec.TxInput.encode).length = 64 * t.inputs.length := by
    apply flatMap_length_eq
    intro i hi
    have h := hid i hi
    rw [input_length h.1, compact_length (by omega)]
    omega
  have hwit : (t.inputs.flatMap fun i => Spec.encodeStack i.witness).length ≤ 108 * t.inputs.length := by
    apply flatMap_length_le
    intro i hi
    obtain ⟨-, -, sig, pub, hw, h1, h2⟩ := hid i hi
    rw [hw]
    simp only [Spec.encodeStack, Spec.varBytes, List.length_append, List.flatMap_cons,
      List.flatMap_nil, List.length_cons, List.length_nil, h2, compact_length (n := sig.length) (by omega)]
    rw [compact_length (by norm_num), compact_length (by norm_num)]
    omega
  have hx := extended_length t
  have hl := legacy_length t
  rw [compact_length hin, compact_length hout, outputs_length hsc] at hl
  have w1 := byteWidth_pos t.inputs.length
  have w2 := byteWidth_pos t.outputs.length
  simp only [if_true] at a b
  have hv : t.vsize ≤ s := by
    unfold Spec.Tx.vsize Spec.Tx.weight
    rw [hw]
    omega
  exact Int.mul_le_mul_of_nonneg_left (by exact_mod_cast hv) hr

/-- C29 (the estimate is too small beyond 252 inputs). With 253 or more full-size P2PKH inputs the
estimate is below the rate times the size of the final transaction, because the input count takes
more bytes on the wire than in the estimate. -/
theorem C29_many_inputs_undercounted (t : Spec.Tx) (rate : Int) (hr : 0 < rate)
    (hin : 253 ≤ t.inputs.length) (hin64 : t.inputs.length < 2 ^ 64) (hout : t.outputs.length < 253)
    (hid : ∀ i ∈ t.inputs, i.prevTxid.length = 32 ∧ i.script.length = 107 ∧ i.witness = [])
    (hsc : ∀ o ∈ t.outputs, o.script.length < 253) :
    estimateTxFee (4 * (148 * t.inputs.length)) t.inputs.length
      (t.outputs.map fun o => o.script.length + 9).sum t.outputs.length rate false
      < rate * (t.vsize : Int) := by
  obtain ⟨s, e, a, b⟩ := C28_formula (4 * (148 * t.inputs.length)) t.inputs.length
      (t.outputs.map fun o => o.script.length + 9).sum t.outputs.length rate false
  rw [e]
  have hw : t.encode = t.encodeLegacy := by
    unfold Spec.Tx.encode
    rw [if_pos]
    rw [List.all_eq_true]
    intro i hi
    rw [(hid i hi).2.2]; rfl
  have hins : (t.inputs.flatMap Spec.TxInput.encode).length = 148 * t.inputs.length := by
    apply flatMap_length_eq
    intro i hi
    have h := hid i hi
    rw [input_length h.1, compact_length (by omega)]
    omega
  have hl := legacy_length t
  rw [compact_length hout, outputs_length hsc] at hl
  have w1 := compact_length_big hin hin64
  have w2 : Spec.byteWidth t.outputs.length = 1 :=
    Nat.le_antisymm ((byteWidth_spec _).2 1 (by norm_num) (by norm_num; omega)) (byteWidth_pos _)
  simp only [Bool.false_eq_true, if_false] at a b
  have hv : s < t.vsize := by
    unfold Spec.Tx.vsize Spec.Tx.weight
    rw [hw]
    omega
  exact Int.mul_lt_mul_of_pos_left (by exact_mod_cast hv) hr

/-- A transaction of `n` P2PKH-like inputs and one output. -/
def sizedTx (n scriptLen : Nat) (wit : List (List UInt8)) : Spec.Tx where
  version := 1
  inputs := List.replicate n
    { prevTxid := List.replicate 32 1, prevIndex := 0, script := List.replicate scriptLen 1
      sequence := 0, witness := wit }
  outputs := [{ value := 1, script := List.replicate 25 1 }]
  lockTime := 0

example : 10 * ((sizedTx 3 107 []).vsize : Int) ≤ estimateTxFee (4 * (148 * 3)) 3 34 1 10 false := by
  have := C29_p2pkh_covers (sizedTx 3 107 []) 10 (by norm_num) (by simp [sizedTx]) (by simp [sizedTx])
    (by intro i hi; simp [sizedTx] at hi; subst hi; simp) (by simp [sizedTx])
  simpa [sizedTx] using this

example : 10 * ((sizedTx 3 23 [List.replicate 71 1, List.replicate 33 1]).vsize : Int)
    ≤ estimateTxFee (4 * (91 * 3)) 3 34 1 10 true := by
  have := C29_np2wkh_covers (sizedTx 3 23 [List.replicate 71 1, List.replicate 33 1]) 10 (by norm_num)
    (by simp [sizedTx]) (by simp [sizedTx]) (by simp [sizedTx])
    (by intro i hi; simp [sizedTx] at hi; subst hi; exact ⟨by simp, by simp, _, _, rfl, by simp, by simp⟩)
    (by simp [sizedTx])
  simpa [sizedTx] using this

example : estimateTxFee (4 * (148 * 300)) 300 34 1 10 false < 10 * ((sizedTx 300 107 []).vsize : Int) := by
  have := C29_many_inputs_undercounted (sizedTx 300 107 []) 10 (by norm_num) (by simp [sizedTx, -List.reduceReplicate])
    (by simp [sizedTx, -List.reduceReplicate]) (by simp [sizedTx, -List.reduceReplicate])
    (by intro i hi; simp [sizedTx, -List.reduceReplicate] at hi; subst hi; simp) (by simp [sizedTx, -List.reduceReplicate])
  simpa [sizedTx, -List.reduceReplicate] using this

end Bit
