import Verif.Lemmas.Tx
import Verif.Concrete.Crypto
import Mathlib.Data.List.Forall2
/-
Properties of transaction serialisation (C24 to C27).
-/
namespace Bit
open Concrete

/-- The input object holds the fields of the specified input; `witness` says whether the witness
stack is recorded (in wire format) or left empty. -/
structure InRepresents (witness : Bool) (x : TxIn) (i : Spec.TxInput) : Prop where
  txid : x.txid = i.prevTxid
  txindex : x.txindex = Spec.leEncode 4 i.prevIndex
  script : x.scriptSig = i.script
  scriptLen : x.scriptSigLen = Spec.compact i.script.length
  sequence : x.sequence = Spec.leEncode 4 i.sequence
  witness : x.witness = if witness then Spec.encodeStack i.witness else []

structure OutRepresents (x : TxOut) (o : Spec.TxOutput) : Prop where
  amount : x.amount = Spec.leEncode 8 o.value
  script : x.scriptPubkey = o.script
  scriptLen : x.scriptPubkeyLen = Spec.compact o.script.length

/-- The transaction object holds exactly the fields of the specified transaction. -/
structure Represents (witness : Bool) (x : TxObj) (t : Spec.Tx) : Prop where
  version : x.version = Spec.leEncode 4 t.version
  inputs : List.Forall₂ (InRepresents witness) x.ins t.inputs
  outputs : List.Forall₂ OutRepresents x.outs t.outputs
  lockTime : x.locktime = Spec.leEncode 4 t.lockTime

theorem forall2_inOf (w : Bool) : ∀ is : List Spec.TxInput,
    List.Forall₂ (InRepresents w) (is.map (inOf w)) is
  | [] => .nil
  | _ :: is => .cons ⟨rfl, rfl, rfl, rfl, rfl, rfl⟩ (forall2_inOf w is)

theorem forall2_outOf : ∀ os : List Spec.TxOutput, List.Forall₂ OutRepresents (os.map outOf) os
  | [] => .nil
  | _ :: os => .cons ⟨rfl, rfl, rfl⟩ (forall2_outOf os)

theorem encodeLegacy_assoc (t : Spec.Tx) (rest : Bytes) : t.encodeLegacy ++ rest =
    Spec.leEncode 4 t.version ++ (t.encodeBody ++ (Spec.leEncode 4 t.lockTime ++ rest)) := by
  simp [Spec.Tx.encodeLegacy]

theorem encodeExtended_assoc (t : Spec.Tx) (rest : Bytes) : t.encodeExtended ++ rest =
    Spec.leEncode 4 t.version ++ ([0x00, 0x01] ++ (t.encodeBody ++
      (t.inputs.flatMap (fun i => Spec.encodeStack i.witness) ++
        (Spec.leEncode 4 t.lockTime ++ rest)))) := by
  simp [Spec.Tx.encodeExtended]

theorem take_lockTime (n : Nat) (rest : Bytes) :
    (Spec.leEncode 4 n ++ rest).take 4 = Spec.leEncode 4 n :=
  List.take_left' (leEncode_length 4 n)

theorem deserialize_legacy (t : Spec.Tx) (h : t.WF) (rest : Bytes) :
    ∃ x, deserialize (t.encodeLegacy ++ rest) = .ok x ∧ Represents false x t := by
  rw [encodeLegacy_assoc, deserialize_legacy_tail t h]
  exact ⟨_, rfl, rfl, forall2_inOf _ _, forall2_outOf _, take_lockTime _ _⟩

theorem deserialize_extended (t : Spec.Tx) (h : t.WF) (rest : Bytes) :
    ∃ x, deserialize (t.encodeExtended ++ rest) = .ok x ∧ Represents true x t := by
  rw [encodeExtended_assoc, deserialize_extended_tail t h]
  exact ⟨_, rfl, rfl, forall2_inOf _ _, forall2_outOf _, take_lockTime _ _⟩

/-- Sample transaction: two inputs (one with a witness of three items, one empty), two outputs. -/
def sampleTx : Spec.Tx where
  version := 2
  inputs := [
    { prevTxid := List.replicate 32 7, prevIndex := 1, script := [0x16, 0x00], sequence := 4294967293
      witness := [[], [1, 2, 3], List.replicate 300 5] },
    { prevTxid := List.replicate 32 9, prevIndex := 70000, script := List.replicate 260 3
      sequence := 0, witness := [] }]
  outputs := [{ value := 5000000000, script := [0x51] }, { value := 0, script := [] }]
  lockTime := 500000

theorem sampleTx_wf : sampleTx.WF where
  version := by decide
  nonempty := List.cons_ne_nil _ _
  inputs := by decide
  input := by
    have h : ∀ i ∈ sampleTx.inputs, i.prevTxid.length = 32 ∧ i.prevIndex < 2 ^ 32 ∧
        i.script.length < 2 ^ 64 ∧ i.sequence < 2 ^ 32 ∧ i.witness.length < 2 ^ 64 ∧
        ∀ w ∈ i.witness, w.length < 2 ^ 64 := by decide +kernel
    intro i hi
    obtain ⟨h1, h2, h3, h4, h5, h6⟩ := h i hi
    exact ⟨h1, h2, h3, h4, h5, h6⟩
  outputs := by decide
  output := by
    have h : ∀ o ∈ sampleTx.outputs, o.value < 2 ^ 64 ∧ o.script.length < 2 ^ 64 := by decide +kernel
    intro o ho
    exact ⟨(h o ho).1, (h o ho).2⟩
  lockTime := by decide

/-! ## C24 -/

/-- C24. Deserialising the wire encoding of any transaction with at least one input and fields of
the right widths gives an object with exactly its fields. -/
theorem C24_deserialize (t : Spec.Tx) (h : t.WF) :
    (∃ x, deserialize t.encodeLegacy = .ok x ∧ Represents false x t) ∧
    (∃ x, deserialize t.encodeExtended = .ok x ∧ Represents true x t) := by
  constructor
  · simpa using deserialize_legacy t h []
  · simpa using deserialize_extended t h []

example : ∃ x, deserialize sampleTx.encode = .ok x ∧ Represents true x sampleTx := by
  have h : sampleTx.encode = sampleTx.encodeExtended := by decide +kernel
  rw [h]
  exact (C24_deserialize sampleTx sampleTx_wf).2

theorem flatMap_bytes {w : Bool} {xs : List TxIn} {is : List Spec.TxInput}
    (h : List.Forall₂ (InRepresents w) xs is) :
    xs.flatMap TxIn.bytes = is.flatMap Spec.TxInput.encode := by
  induction h with
  | nil => rfl
  | cons hx _ ih =>
    rw [List.flatMap_cons, List.flatMap_cons, ih, TxIn.bytes, Spec.TxInput.encode, hx.txid,
      hx.txindex, hx.script, hx.scriptLen, hx.sequence, Spec.varBytes]
    simp

theorem flatMap_outBytes {xs : List TxOut} {os : List Spec.TxOutput}
    (h : List.Forall₂ OutRepresents xs os) :
    xs.flatMap TxOut.bytes = os.flatMap Spec.TxOutput.encode := by
  induction h with
  | nil => rfl
  | cons hx _ ih =>
    rw [List.flatMap_cons, List.flatMap_cons, ih, TxOut.bytes, Spec.TxOutput.encode, hx.amount,
      hx.script, hx.scriptLen, Spec.varBytes]
    simp

theorem flatMap_witness {w : Bool} {xs : List TxIn} {is : List Spec.TxInput}
    (h : List.Forall₂ (InRepresents w) xs is) :
    xs.flatMap TxIn.witness = if w then is.flatMap (fun i => Spec.encodeStack i.witness) else [] := by
  induction h with
  | nil => simp
  | cons hx _ ih =>
    rw [List.flatMap_cons, ih, hx.witness]
    cases w <;> simp

theorem body_represents {w : Bool} {x : TxObj} {t : Spec.Tx} (h : Represents w x t)
    (hi : t.inputs.length < 2 ^ 64) (ho : t.outputs.length < 2 ^ 64) :
    x.body = .ok t.encodeBody := by
  unfold TxObj.body
  rw [h.inputs.length_eq, h.outputs.length_eq, intToVarint_compact hi, intToVarint_compact ho,
    flatMap_bytes h.inputs, flatMap_outBytes h.outputs]
  rfl

/-- C24. Serialising an object that holds the fields of a transaction gives the wire encoding of
that transaction: the original one if no witness is recorded, the extended one otherwise; the
witness-free representation is the original one in both cases. -/
theorem C24_serialize (w : Bool) (x : TxObj) (t : Spec.Tx) (h : Represents w x t)
    (hne : t.inputs ≠ []) (hi : t.inputs.length < 2 ^ 64) (ho : t.outputs.length < 2 ^ 64) :
    x.bytes = .ok (if w then t.encodeExtended else t.encodeLegacy) ∧
    x.legacyRepr = .ok t.encodeLegacy := by
  have hb := body_represents h hi ho
  constructor
  · unfold TxObj.bytes
    rw [hb, flatMap_witness h.inputs, h.version, h.lockTime]
    cases w
    · simp [Spec.Tx.encodeLegacy]
    · have : (t.inputs.flatMap (fun i => Spec.encodeStack i.witness)).isEmpty = false := by
        cases hx : t.inputs with
        | nil => exact absurd hx hne
        | cons i is => simp [encodeStack_ne_nil]
      simp [this, Spec.Tx.encodeExtended]
  · unfold TxObj.legacyRepr
    rw [hb, h.version, h.lockTime]
    rfl

example : ∃ x : TxObj, x.bytes = .ok sampleTx.encodeExtended ∧ x.legacyRepr = .ok sampleTx.encodeLegacy := by
  obtain ⟨x, -, hr⟩ := (C24_deserialize sampleTx sampleTx_wf).2
  exact ⟨x, C24_serialize true x sampleTx hr (List.cons_ne_nil _ _) (by decide) (by decide)⟩

/-- The first byte of a compact size is one only for the number one. -/
theorem compact_first {n : Nat} (h1 : n ≠ 1) (rest : Bytes) :
    ∃ b bs, b ≠ 0x01 ∧ Spec.compact n ++ rest = b :: bs := by
  unfold Spec.compact
  split_ifs with h
  · refine ⟨_, _, ?_, rfl⟩
    intro hb
    have := congrArg UInt8.toNat hb
    rw [u8_ofNat_toNat n (by omega)] at this
    exact h1 this
  · exact ⟨_, _, by decide, rfl⟩
  · exact ⟨_, _, by decide, rfl⟩
  · exact ⟨_, _, by decide, rfl⟩

/-- C24. Without inputs the original serialisation begins like the marker; the flag tells the difference: unless there
is exactly one output, such a transaction is read back too. (With exactly one output it is misread, see below.) -/
theorem C24_no_input (t : Spec.Tx) (hi : t.inputs = []) (h1 : t.outputs.length ≠ 1)
    (ho : t.outputs.length < 2 ^ 64) (hw : ∀ o ∈ t.outputs, o.WF) :
    ∃ x, deserialize t.encodeLegacy = .ok x ∧ Represents false x t := by
  have hs : bytesIsSegwit (Spec.leEncode 4 t.version ++ (Spec.compact 0 ++ (Spec.compact t.outputs.length ++
      (t.outputs.flatMap Spec.TxOutput.encode ++ Spec.leEncode 4 t.lockTime)))) = false := by
    obtain ⟨b, bs, hb, e⟩ := compact_first h1 (t.outputs.flatMap Spec.TxOutput.encode ++ Spec.leEncode 4 t.lockTime)
    unfold bytesIsSegwit
    rw [e, List.drop_left' (leEncode_length 4 _)]
    simp [Spec.compact, hb]
  refine ⟨{ version := Spec.leEncode 4 t.version, ins := [], outs := t.outputs.map outOf
            locktime := Spec.leEncode 4 t.lockTime }, ?_, rfl, ?_, forall2_outOf _, rfl⟩
  · unfold deserialize Spec.Tx.encodeLegacy Spec.Tx.encodeBody
    rw [hi]
    simp only [List.append_assoc, List.flatMap_nil, List.nil_append, List.length_nil]
    rw [hs, readBytes_append _ _ (leEncode_length 4 _)]
    dsimp only
    rw [if_neg (by simp), readVarInt_compact (by norm_num)]
    dsimp only [readIns]
    rw [readVarInt_compact ho]
    dsimp only
    rw [readOuts_encode _ _ hw]
    simp only [Bool.false_eq_true, if_false, mkTxObj, readBytes]
    rw [if_neg (by simp)]
    rw [← List.append_nil (Spec.leEncode 4 t.lockTime), take_lockTime]
    simp
  · rw [hi]
    exact .nil

example : ∃ x, deserialize (Spec.Tx.encodeLegacy ⟨1, [], sampleTx.outputs, 7⟩) = .ok x ∧
    Represents false x ⟨1, [], sampleTx.outputs, 7⟩ :=
  C24_no_input _ rfl (by decide) (by decide) sampleTx_wf.output

/-- C24. At least one input is needed: the original serialisation of this transaction without
inputs (and with fields of the right widths otherwise) is taken for an extended one, and its output
is lost. -/
theorem C24_no_input_misread :
    ∃ t : Spec.Tx, t.inputs = [] ∧ t.version < 2 ^ 32 ∧ t.outputs.length < 2 ^ 64 ∧
      (∀ o ∈ t.outputs, o.value < 2 ^ 64 ∧ o.script.length < 2 ^ 64) ∧ t.lockTime < 2 ^ 32 ∧
      ∃ x, deserialize t.encodeLegacy = .ok x ∧ x.outs = [] ∧ t.outputs.length = 1 :=
  ⟨⟨1, [], [⟨50000 * 65536, [0x51]⟩], 0⟩, rfl, by decide, by decide, by decide, by decide,
    _, rfl, by decide, rfl⟩

/-! ## C25 -/

theorem encode_cases (t : Spec.Tx) (h : t.WF) :
    ∃ x, deserialize t.encode = .ok x ∧ x.bytes = .ok t.encode := by
  unfold Spec.Tx.encode
  obtain ⟨⟨x, hx, hr⟩, ⟨y, hy, hs⟩⟩ := C24_deserialize t h
  split
  · exact ⟨x, hx, (C24_serialize false x t hr h.nonempty h.inputs h.outputs).1⟩
  · exact ⟨y, hy, (C24_serialize true y t hs h.nonempty h.inputs h.outputs).1⟩

theorem bytesToHex_all_hex (b : Bytes) : (bytesToHex b).all (fun c => (hexVal c).isSome) = true := by
  induction b with
  | nil => rfl
  | cons x b ih =>
    have hx := u8_lt x
    simp only [bytesToHex, List.all_cons, Bool.and_eq_true]
    refine ⟨?_, ?_, ih⟩
    · rw [hexDigit_val (by omega)]; rfl
    · rw [hexDigit_val (by omega)]; rfl

theorem deserializeHex_bytesToHex (b : Bytes) : deserializeHex (bytesToHex b) = deserialize b := by
  unfold deserializeHex
  rw [if_pos (bytesToHex_all_hex b), hexToBytes_bytesToHex]

/-- C25. Serialising the deserialisation of a transaction's wire encoding gives the same bytes, and
for the hexadecimal form the same text. -/
theorem C25_reserialize (t : Spec.Tx) (h : t.WF) :
    (∃ x, deserialize t.encode = .ok x ∧ x.bytes = .ok t.encode) ∧
    (∃ x, deserializeHex (bytesToHex t.encode) = .ok x ∧ x.toHex = .ok (bytesToHex t.encode)) := by
  obtain ⟨x, hx, hb⟩ := encode_cases t h
  refine ⟨⟨x, hx, hb⟩, x, ?_, ?_⟩
  · rw [deserializeHex_bytesToHex, hx]
  · unfold TxObj.toHex
    rw [hb]

example : ∃ x, deserialize sampleTx.encode = .ok x ∧ x.bytes = .ok sampleTx.encode :=
  (C25_reserialize sampleTx sampleTx_wf).1

/-! ## C26 -/

/-- C26 (the code violates the ideal). Trailing bytes are ignored, for every transaction. -/
theorem C26_trailing_ignored (t : Spec.Tx) (h : t.WF) (trailing : Bytes) :
    deserialize (t.encode ++ trailing) = deserialize t.encode := by
  unfold Spec.Tx.encode
  split
  · rw [← List.append_nil t.encodeLegacy, List.append_assoc, encodeLegacy_assoc,
      encodeLegacy_assoc, deserialize_legacy_tail t h, deserialize_legacy_tail t h,
      take_lockTime, take_lockTime]
  · rw [← List.append_nil t.encodeExtended, List.append_assoc, encodeExtended_assoc,
      encodeExtended_assoc, deserialize_extended_tail t h, deserialize_extended_tail t h,
      take_lockTime, take_lockTime]

/-- C26 (the code violates the ideal). A transaction cut anywhere inside its lock time is accepted,
and the object then has a lock time of the wrong width: cutting `k` of the four bytes leaves the
first `4 - k`. -/
theorem C26_cut_locktime_accepted (t : Spec.Tx) (h : t.WF) (k : Nat) (hk : k ≤ 4) :
    ∃ x, deserialize (t.encode.take (t.encode.length - k)) = .ok x ∧
      x.locktime = (Spec.leEncode 4 t.lockTime).take (4 - k) := by
  have cut : ∀ a : Bytes, (a ++ Spec.leEncode 4 t.lockTime).take
      ((a ++ Spec.leEncode 4 t.lockTime).length - k) = a ++ (Spec.leEncode 4 t.lockTime).take (4 - k) := by
    intro a
    rw [List.length_append, leEncode_length, show a.length + 4 - k = a.length + (4 - k) by omega,
      List.take_length_add_append]
  have tk : ((Spec.leEncode 4 t.lockTime).take (4 - k)).take 4
      = (Spec.leEncode 4 t.lockTime).take (4 - k) := by
    rw [List.take_take]; congr 1; omega
  unfold Spec.Tx.encode
  split
  · have := cut (Spec.leEncode 4 t.version ++ t.encodeBody)
    unfold Spec.Tx.encodeLegacy
    rw [this, List.append_assoc, deserialize_legacy_tail t h]
    exact ⟨_, rfl, tk⟩
  · have := cut (Spec.leEncode 4 t.version ++ [0x00, 0x01] ++ t.encodeBody ++
      t.inputs.flatMap (fun i => Spec.encodeStack i.witness))
    unfold Spec.Tx.encodeExtended
    rw [this]
    have := deserialize_extended_tail t h ((Spec.leEncode 4 t.lockTime).take (4 - k))
    simp only [List.append_assoc] at this ⊢
    rw [this]
    exact ⟨_, rfl, tk⟩

example : ∃ x, deserialize (sampleTx.encode.take (sampleTx.encode.length - 3)) = .ok x ∧
    x.locktime = [0x20] :=
  C26_cut_locktime_accepted sampleTx sampleTx_wf 3 (by decide)

theorem readVarInt_lt {s rest : Bytes} {n : Nat} (h : readVarInt s = .ok (n, rest)) : n < 2 ^ 64 := by
  unfold readVarInt at h
  rw [hexInt_eq] at h
  split at h
  · cases h
  · rename_i val hv
    split at hv
    · cases hv
    · injection hv with hv
      have hlt := beNat_lt (s.take 1)
      have hl : (s.take 1).length ≤ 1 := by simp
      have h256 : 256 ^ (s.take 1).length ≤ 256 ^ 1 := Nat.pow_le_pow_right (by norm_num) hl
      have hval : val < 256 := by omega
      split at h
      · injection h with h; injection h with h _; omega
      · unfold readAsInt at h
        rw [hexInt_eq] at h
        split at h
        · rename_i v hv2
          split at hv2
          · cases hv2
          · injection hv2 with hv2
            injection h with h; injection h with h _
            have h1 := beNat_lt ((s.drop 1).take (2 ^ (val - 252))).reverse
            have h2 : ((s.drop 1).take (2 ^ (val - 252))).reverse.length ≤ 8 := by
              rw [List.length_reverse, List.length_take]
              have : 2 ^ (val - 252) ≤ 2 ^ 3 := Nat.pow_le_pow_right (by norm_num) (by omega)
              omega
            have h3 : 256 ^ ((s.drop 1).take (2 ^ (val - 252))).reverse.length ≤ 256 ^ 8 :=
              Nat.pow_le_pow_right (by norm_num) h2
            have h4 : (256 : Nat) ^ 8 = 2 ^ 64 := by norm_num
            omega
        · cases h

theorem readVarInt_error {s : Bytes} {e : PyErr} (h : readVarInt s = .error e) : e = .valueError := by
  unfold readVarInt at h
  rw [hexInt_eq] at h
  split at h
  · rename_i e' he
    split at he
    · simp only [Except.error.injEq] at he h; rw [← h, ← he]
    · cases he
  · split at h
    · cases h
    · unfold readAsInt at h
      rw [hexInt_eq] at h
      split at h
      · cases h
      · rename_i e' he
        split at he
        · simp only [Except.error.injEq] at he h; rw [← h, ← he]
        · cases he

theorem readVarString_error {s : Bytes} {e : PyErr} (h : readVarString s = .error e) :
    e = .valueError := by
  unfold readVarString at h
  split at h
  · rename_i hr; injection h with h; subst h; exact readVarInt_error hr
  · cases h

theorem readVarString_lt {s b rest : Bytes} (h : readVarString s = .ok (b, rest)) :
    b.length < 2 ^ 64 := by
  unfold readVarString at h
  split at h
  · cases h
  · rename_i n s' hr
    injection h with h
    have := readVarInt_lt hr
    have hb : b = s'.take n := (congrArg Prod.fst h).symm
    rw [hb, List.length_take]; omega

theorem readIns_error : ∀ (n : Nat) (s : Bytes) (e : PyErr), readIns n s = .error e → e = .valueError
  | 0, _, _, h => by cases h
  | n + 1, s, e, h => by
    rw [readIns] at h
    dsimp only at h
    split at h
    · rename_i hr; injection h with h; subst h; exact readVarString_error hr
    · rename_i scr tx hr
      rw [mkTxIn, intToVarint_compact (readVarString_lt hr)] at h
      dsimp only at h
      split at h
      · rename_i hr; injection h with h; subst h; exact readIns_error _ _ _ hr
      · cases h

theorem readOuts_error : ∀ (n : Nat) (s : Bytes) (e : PyErr), readOuts n s = .error e → e = .valueError
  | 0, _, _, h => by cases h
  | n + 1, s, e, h => by
    rw [readOuts] at h
    dsimp only at h
    split at h
    · rename_i hr; injection h with h; subst h; exact readVarString_error hr
    · rename_i scr tx hr
      rw [mkTxOut, intToVarint_compact (readVarString_lt hr)] at h
      dsimp only at h
      split at h
      · rename_i hr; injection h with h; subst h; exact readOuts_error _ _ _ hr
      · cases h

theorem readItems_error : ∀ (n : Nat) (s : Bytes) (e : PyErr), readItems n s = .error e → e = .valueError
  | 0, _, _, h => by cases h
  | n + 1, s, e, h => by
    rw [readItems] at h
    split at h
    · rename_i hr
      injection h with h; subst h
      unfold readSegwitString at hr
      split at hr
      · rename_i hr'; injection hr with hr; subst hr; exact readVarInt_error hr'
      · rename_i k tx hr'
        rw [intToVarint_compact (readVarInt_lt hr')] at hr
        cases hr
    · split at h
      · rename_i hr; injection h with h; subst h; exact readItems_error _ _ _ hr
      · cases h

theorem readWitnesses_error : ∀ (l : List TxIn) (s : Bytes) (e : PyErr),
    readWitnesses l s = .error e → e = .valueError
  | [], _, _, h => by cases h
  | i :: l, s, e, h => by
    rw [readWitnesses] at h
    split at h
    · rename_i hr; injection h with h; subst h; exact readVarInt_error hr
    · rename_i k tx hr'
      rw [intToVarint_compact (readVarInt_lt hr')] at h
      dsimp only at h
      split at h
      · rename_i hr; injection h with h; subst h; exact readItems_error _ _ _ hr
      · split at h
        · rename_i hr; injection h with h; subst h; exact readWitnesses_error _ _ _ hr
        · cases h

/-- C26. Whatever the bytes, deserialising returns an object or raises `ValueError`. -/
theorem C26_only_valueError (s : Bytes) (e : PyErr) (h : deserialize s = .error e) :
    e = .valueError := by
  unfold deserialize at h
  dsimp only at h
  split at h
  · rename_i hr; injection h with h; subst h; exact readVarInt_error hr
  · split at h
    · rename_i hr; injection h with h; subst h; exact readIns_error _ _ _ hr
    · split at h
      · rename_i hr; injection h with h; subst h; exact readVarInt_error hr
      · split at h
        · rename_i hr; injection h with h; subst h; exact readOuts_error _ _ _ hr
        · split at h
          · rename_i hr
            injection h with h; subst h
            split at hr
            · exact readWitnesses_error _ _ _ hr
            · cases hr
          · cases h

example : deserialize [1, 0, 0, 0] = .error .valueError := by decide +kernel

/-- C26. Cutting a transaction right after its version, before the number of inputs, is refused. -/
theorem C26_missing_count_refused (s : Bytes) (h : s.length ≤ 4) :
    deserialize s = .error .valueError := by
  unfold deserialize
  have h1 : s.drop 4 = [] := List.drop_eq_nil_of_le h
  simp [readBytes, h1, bytesIsSegwit, readVarInt, hexInt_eq]

/-! ## C27 -/

theorem calcTxid_of (C : Crypto) (t : Spec.Tx) (h : t.WF) (w : Bool) :
    calcTxid C (bytesToHex (if w then t.encodeExtended else t.encodeLegacy)) =
      .ok (bytesToHex (t.txidWith C.doubleSha256).reverse) := by
  obtain ⟨⟨x, hx, hr⟩, ⟨y, hy, hs⟩⟩ := C24_deserialize t h
  unfold calcTxid
  rw [deserializeHex_bytesToHex]
  cases w
  · simp only [Bool.false_eq_true, if_false, hx]
    rw [(C24_serialize false x t hr h.nonempty h.inputs h.outputs).2]
    rfl
  · simp only [if_true, hy]
    rw [(C24_serialize true y t hs h.nonempty h.inputs h.outputs).2]
    rfl

/-- C27. The computed id of a transaction, given in either serialisation, is the reversed double
SHA-256 of the original serialisation. -/
theorem C27_txid (C : Crypto) (t : Spec.Tx) (h : t.WF) :
    calcTxid C (bytesToHex t.encodeLegacy) =
      .ok (bytesToHex (t.txidWith C.doubleSha256).reverse) ∧
    calcTxid C (bytesToHex t.encodeExtended) =
      .ok (bytesToHex (t.txidWith C.doubleSha256).reverse) :=
  ⟨calcTxid_of C t h false, calcTxid_of C t h true⟩

/-- C27. Two transactions that differ only in their witnesses have the same computed id. -/
theorem C27_witness_irrelevant (C : Crypto) (t t' : Spec.Tx) (h : t.WF) (h' : t'.WF)
    (hv : t.version = t'.version) (ho : t.outputs = t'.outputs) (hl : t.lockTime = t'.lockTime)
    (hi : t.inputs.map (fun i => { i with witness := [] }) =
      t'.inputs.map (fun i => { i with witness := [] })) :
    calcTxid C (bytesToHex t.encode) = calcTxid C (bytesToHex t'.encode) := by
  have key : ∀ is : List Spec.TxInput, is.flatMap Spec.TxInput.encode =
      (is.map (fun i => { i with witness := [] })).flatMap Spec.TxInput.encode := by
    intro is
    rw [List.flatMap_map]
    rfl
  have hlen : t.inputs.length = t'.inputs.length := by
    simpa using congrArg List.length hi
  have hleg : t.encodeLegacy = t'.encodeLegacy := by
    unfold Spec.Tx.encodeLegacy Spec.Tx.encodeBody
    rw [key t.inputs, hi, ← key, hlen, hv, ho, hl]
  have e : ∀ s : Spec.Tx, s.WF → calcTxid C (bytesToHex s.encode) =
      .ok (bytesToHex (s.txidWith C.doubleSha256).reverse) := by
    intro s hs
    unfold Spec.Tx.encode
    split
    · exact (C27_txid C s hs).1
    · exact (C27_txid C s hs).2
  rw [e t h, e t' h', Spec.Tx.txidWith, Spec.Tx.txidWith, hleg]

example : calcTxid crypto (bytesToHex sampleTx.encode) = calcTxid crypto (bytesToHex
    { sampleTx with inputs := sampleTx.inputs.map fun i => { i with witness := [] } : Spec.Tx}.encode) :=
  C27_witness_irrelevant crypto _ _ sampleTx_wf
    ⟨sampleTx_wf.version, List.cons_ne_nil _ _, by decide, by
      intro i hi
      obtain ⟨j, hj, rfl⟩ := List.mem_map.mp hi
      have := sampleTx_wf.input j hj
      exact ⟨this.txid, this.index, this.script, this.sequence, by simp, by simp⟩,
     sampleTx_wf.outputs, sampleTx_wf.output, sampleTx_wf.lockTime⟩
    rfl rfl rfl (by simp)

end Bit
