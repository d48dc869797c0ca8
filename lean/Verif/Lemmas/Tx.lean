import Verif.Model.Tx
import Verif.Spec.Tx
import Verif.Lemmas.Utils
/-
Reading back the wire format.
-/
namespace Bit

theorem leEncode_eq : ∀ len n, Spec.leEncode len n = leBytes len n
  | 0, _ => rfl
  | len + 1, n => by rw [Spec.leEncode, leBytes, leEncode_eq len]

theorem intToVarint_compact {n : Nat} (h : n < 2 ^ 64) : intToVarint n = .ok (Spec.compact n) := by
  unfold Spec.compact
  simp only [leEncode_eq]
  rcases intToVarint_cases n with ⟨h1, e⟩ | ⟨h1, h2, e⟩ | ⟨h1, h2, e⟩ | ⟨h1, h2, e⟩ | ⟨h1, e⟩
  · rw [e, if_pos h1]
  · rw [e, if_neg (by omega), if_pos (by omega)]
  · rw [e, if_neg (by omega), if_neg (by omega), if_pos (by omega)]
  · rw [e, if_neg (by omega), if_neg (by omega), if_neg (by omega)]
  · omega

theorem readVarInt_compact {n : Nat} (h : n < 2 ^ 64) (rest : Bytes) :
    readVarInt (Spec.compact n ++ rest) = .ok (n, rest) :=
  readVarInt_varint (intToVarint_compact h) rest

theorem readBytes_append (a b : Bytes) {n : Nat} (h : a.length = n) : readBytes (a ++ b) n = (a, b) := by
  subst h; simp [readBytes]

theorem readVarString_varBytes {b : Bytes} (h : b.length < 2 ^ 64) (rest : Bytes) :
    readVarString (Spec.varBytes b ++ rest) = .ok (b, rest) := by
  unfold readVarString Spec.varBytes
  rw [List.append_assoc, readVarInt_compact h]
  simp [readBytes_append]

theorem readSegwitString_varBytes {b : Bytes} (h : b.length < 2 ^ 64) (rest : Bytes) :
    readSegwitString (Spec.varBytes b ++ rest) = .ok (Spec.varBytes b, rest) := by
  unfold readSegwitString Spec.varBytes
  rw [List.append_assoc, readVarInt_compact h]
  simp [readBytes_append, intToVarint_compact h]

theorem leEncode_length (len n : Nat) : (Spec.leEncode len n).length = len := by
  rw [leEncode_eq]; simp

/-- The model's input read from the wire format of `i`. -/
def inOf (w : Bool) (i : Spec.TxInput) : TxIn where
  scriptSig := i.script
  scriptSigLen := Spec.compact i.script.length
  txid := i.prevTxid
  txindex := Spec.leEncode 4 i.prevIndex
  witness := if w then Spec.encodeStack i.witness else []
  amount := none
  sequence := Spec.leEncode 4 i.sequence
  segwitInput := false

def outOf (o : Spec.TxOutput) : TxOut where
  amount := Spec.leEncode 8 o.value
  scriptPubkeyLen := Spec.compact o.script.length
  scriptPubkey := o.script

theorem readIns_encode (rest : Bytes) : ∀ (is : List Spec.TxInput), (∀ i ∈ is, i.WF) →
    readIns is.length (is.flatMap Spec.TxInput.encode ++ rest) = .ok (is.map (inOf false), rest)
  | [], _ => rfl
  | i :: is, h => by
    have hi := h i (by simp)
    have ih := readIns_encode rest is (fun j hj => h j (by simp [hj]))
    rw [List.length_cons, readIns, List.flatMap_cons, Spec.TxInput.encode]
    simp only [List.append_assoc]
    rw [readBytes_append _ _ hi.txid]
    dsimp only
    rw [readBytes_append _ _ (leEncode_length 4 _)]
    dsimp only
    rw [readVarString_varBytes hi.script]
    dsimp only
    rw [readBytes_append _ _ (leEncode_length 4 _)]
    dsimp only
    rw [mkTxIn, intToVarint_compact hi.script]
    dsimp only
    rw [ih]
    rfl

theorem readOuts_encode (rest : Bytes) : ∀ (os : List Spec.TxOutput), (∀ o ∈ os, o.WF) →
    readOuts os.length (os.flatMap Spec.TxOutput.encode ++ rest) = .ok (os.map outOf, rest)
  | [], _ => rfl
  | o :: os, h => by
    have ho := h o (by simp)
    have ih := readOuts_encode rest os (fun j hj => h j (by simp [hj]))
    rw [List.length_cons, readOuts, List.flatMap_cons, Spec.TxOutput.encode]
    simp only [List.append_assoc]
    rw [readBytes_append _ _ (leEncode_length 8 _)]
    dsimp only
    rw [readVarString_varBytes ho.script]
    dsimp only
    rw [mkTxOut, intToVarint_compact ho.script]
    dsimp only
    rw [ih]
    rfl

theorem readItems_encode (rest : Bytes) : ∀ (ws : List Bytes), (∀ w ∈ ws, w.length < 2 ^ 64) →
    readItems ws.length (ws.flatMap Spec.varBytes ++ rest) = .ok (ws.flatMap Spec.varBytes, rest)
  | [], _ => rfl
  | w :: ws, h => by
    have ih := readItems_encode rest ws (fun j hj => h j (by simp [hj]))
    rw [List.length_cons, readItems, List.flatMap_cons, List.append_assoc,
      readSegwitString_varBytes (h w (by simp))]
    dsimp only
    rw [ih]

theorem readWitnesses_encode (rest : Bytes) : ∀ (is : List Spec.TxInput), (∀ i ∈ is, i.WF) →
    readWitnesses (is.map (inOf false)) (is.flatMap (fun i => Spec.encodeStack i.witness) ++ rest)
      = .ok (is.map (inOf true), rest)
  | [], _ => rfl
  | i :: is, h => by
    have hi := h i (by simp)
    have ih := readWitnesses_encode rest is (fun j hj => h j (by simp [hj]))
    rw [List.map_cons, readWitnesses, List.flatMap_cons, Spec.encodeStack]
    simp only [List.append_assoc]
    rw [readVarInt_compact hi.items]
    dsimp only
    rw [intToVarint_compact hi.items]
    dsimp only
    rw [readItems_encode _ _ hi.item]
    dsimp only
    rw [ih]
    rfl

theorem compact_ne_nil (n : Nat) : Spec.compact n ≠ [] := by
  unfold Spec.compact; split_ifs <;> simp

theorem compact_head {n : Nat} (h0 : n ≠ 0) (rest : Bytes) :
    ∃ b bs, b ≠ 0 ∧ Spec.compact n ++ rest = b :: bs := by
  unfold Spec.compact
  split_ifs with h
  · refine ⟨_, _, ?_, rfl⟩
    intro hb
    have := congrArg UInt8.toNat hb
    rw [u8_ofNat_toNat n (by omega)] at this
    exact h0 this
  · exact ⟨_, _, by decide, rfl⟩
  · exact ⟨_, _, by decide, rfl⟩
  · exact ⟨_, _, by decide, rfl⟩

theorem isSegwit_legacy (v : Nat) {n : Nat} (h0 : n ≠ 0) (rest : Bytes) :
    bytesIsSegwit (Spec.leEncode 4 v ++ (Spec.compact n ++ rest)) = false := by
  obtain ⟨b, bs, hb, e⟩ := compact_head h0 rest
  unfold bytesIsSegwit
  rw [e, List.drop_left' (leEncode_length 4 v)]
  simp [hb]

theorem isSegwit_extended (v : Nat) (rest : Bytes) :
    bytesIsSegwit (Spec.leEncode 4 v ++ (0x00 :: 0x01 :: rest)) = true := by
  unfold bytesIsSegwit
  rw [List.drop_left' (leEncode_length 4 v)]
  simp

theorem encodeStack_ne_nil (ws : List Bytes) : Spec.encodeStack ws ≠ [] := by
  unfold Spec.encodeStack
  have := compact_ne_nil ws.length
  simp [this]

/-- The model object read from the original serialisation, with `tail` in place of the lock time. -/
theorem deserialize_legacy_tail (t : Spec.Tx) (h : t.WF) (tail : Bytes) :
    deserialize (Spec.leEncode 4 t.version ++ (t.encodeBody ++ tail)) =
      .ok { version := Spec.leEncode 4 t.version
            ins := t.inputs.map (inOf false)
            outs := t.outputs.map outOf
            locktime := tail.take 4 } := by
  have h0 : t.inputs.length ≠ 0 := by simpa using h.nonempty
  unfold deserialize Spec.Tx.encodeBody
  simp only [List.append_assoc]
  rw [isSegwit_legacy _ h0, readBytes_append _ _ (leEncode_length 4 _)]
  dsimp only
  rw [if_neg (by simp), readVarInt_compact h.inputs]
  dsimp only
  rw [readIns_encode _ _ h.input]
  dsimp only
  rw [readVarInt_compact h.outputs]
  dsimp only
  rw [readOuts_encode _ _ h.output]
  simp only [Bool.false_eq_true, if_false, mkTxObj, readBytes]
  rw [if_neg]
  simp [List.any_eq_true, TxIn.isSegwit, inOf]

theorem deserialize_extended_tail (t : Spec.Tx) (h : t.WF) (tail : Bytes) :
    deserialize (Spec.leEncode 4 t.version ++ ([0x00, 0x01] ++ (t.encodeBody ++
        (t.inputs.flatMap (fun i => Spec.encodeStack i.witness) ++ tail)))) =
      .ok { version := Spec.leEncode 4 t.version
            ins := t.inputs.map (inOf true)
            outs := t.outputs.map outOf
            locktime := tail.take 4 } := by
  unfold deserialize Spec.Tx.encodeBody
  simp only [List.append_assoc, List.cons_append, List.nil_append]
  rw [isSegwit_extended, readBytes_append _ _ (leEncode_length 4 _)]
  simp only [if_true, readBytes, List.drop_succ_cons, List.drop_zero]
  rw [readVarInt_compact h.inputs]
  dsimp only
  rw [readIns_encode _ _ h.input]
  dsimp only
  rw [readVarInt_compact h.outputs]
  dsimp only
  rw [readOuts_encode _ _ h.output]
  dsimp only
  rw [readWitnesses_encode _ _ h.input]
  simp only [mkTxObj]
  have hw : ∀ i : Spec.TxInput, (inOf true i).witness.isEmpty = false := by
    intro i
    simp [inOf, encodeStack_ne_nil]
  congr 2
  split
  · rw [List.map_map]
    apply List.map_congr_left
    intro i _
    simp only [Function.comp]
    rw [if_neg (by rw [hw]; simp)]
  · rfl

end Bit
