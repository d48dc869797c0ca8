import Verif.Props.Wallet
/-
C77 (prepared data survive as text) and C78 (`sign_transaction` tells prepared data from hexadecimal transactions).
-/
namespace Bit
open Concrete

/-! ## C77 -/

/-- C77. `json.loads` gives back exactly the value that `json.dumps` wrote, also with white space around the text. -/
theorem C77_roundtrip (readFloat : Str → PyFloat) (j : Json) (hj : Spec.Readable readFloat j) (before after : Str)
    (hb : Spec.Blank before) (ha : Spec.Blank after) :
    jsonLoads readFloat (before ++ j.dumps ++ after) = .ok j :=
  loads_dumps readFloat hj before after hb ha

/-- C77. Different values have different texts. -/
theorem C77_injective (readFloat : Str → PyFloat) (i j : Json) (hi : Spec.Readable readFloat i)
    (hj : Spec.Readable readFloat j) (h : i.dumps = j.dumps) : i = j := by
  have h1 := loads_dumps readFloat hi [] [] (fun c hc => by cases hc) (fun c hc => by cases hc)
  have h2 := loads_dumps readFloat hj [] [] (fun c hc => by cases hc) (fun c hc => by cases hc)
  rw [h, h2] at h1
  injection h1 with h1
  exact h1.symm

/-- C77. The text consists of printable ASCII characters, so it has no line breaks and no encoding can change it. -/
theorem C77_printable (readFloat : Str → PyFloat) (j : Json) (hj : Spec.Readable readFloat j) :
    ∀ c ∈ j.dumps, ' ' ≤ c ∧ c ≤ '~' :=
  printable_dumps readFloat j hj

/-- C77. An unspent written as JSON text and read again is the same unspent, whether its size is an int or a float. -/
theorem C77_unspent (readFloat : Str → PyFloat) (hfloat : Spec.ReadsQuarters readFloat) (isFloat : Bool) (u : Unspent)
    (hu : Spec.Consistent u) (hv : u.vsize4 < 2 ^ 50) :
    (jsonLoads readFloat (u.toJson readFloat isFloat).dumps).bind Unspent.fromJson = .ok u := by
  have h := loads_dumps readFloat (toJson_readable readFloat (isFloat := isFloat) hfloat hv) [] []
    (fun c hc => by cases hc) (fun c hc => by cases hc)
  rw [List.nil_append, List.append_nil] at h
  rw [h]
  exact (fromJson_toJson readFloat hfloat hv).trans (C50_from_dict u hu _ fun _ _ => rfl)

/-- What `prepare_transaction` writes. -/
theorem prepared_ok {Amount : Type} (C : Crypto) (readFloat : Str → PyFloat) (floats : Unspent → Bool)
    (env : Env Amount) (args : TxArgs Amount) (hshuffle : ∀ l, (env.shuffle l).Perm l) (ask : Ask) (net : Net)
    (address : Str) (us : List Unspent) (hne : us ≠ []) (hus : ∀ u ∈ us, Spec.Consistent u ∧ u.vsize4 < 2 ^ 50)
    {text : Str} (h : prepareTransaction C readFloat floats env args ask net address us = .ok text) :
    ∃ (coins : List Unspent) (pays : List (Str × Int)),
      sanitizeArgs C env args us (some address) net = .ok (coins, pays.map fun o => (.str o.1, o.2)) ∧
      (∀ u ∈ coins, Spec.Consistent u ∧ u.vsize4 < 2 ^ 50) ∧
      (preparedData readFloat floats coins (jsonPairs pays)).dumps = text := by
  have hempty : us.isEmpty = false := by simpa using hne
  unfold prepareTransaction at h
  simp only [hempty] at h
  rw [if_neg (by decide)] at h
  dsimp only at h
  cases hs : sanitizeArgs C env args us (some address) net with
  | error e => rw [hs] at h; cases h
  | ok r =>
    obtain ⟨coins, outs⟩ := r
    rw [hs] at h
    dsimp only at h
    have hpairs : ∀ outs os, jsonOutputs outs = .ok os → ∃ pays : List (Str × Int),
        outs = pays.map (fun o => (.str o.1, o.2)) ∧ os = jsonPairs pays := by
      intro outs
      induction outs with
      | nil =>
        intro os ho
        injection ho with ho
        exact ⟨[], rfl, ho.symm⟩
      | cons o outs ih =>
        intro os ho
        obtain ⟨d, n⟩ := o
        cases d with
        | bytes b => cases ho
        | str s =>
          rw [jsonOutputs] at ho
          cases hj : jsonOutputs outs with
          | error e => rw [hj] at ho; cases ho
          | ok os' =>
            rw [hj] at ho
            injection ho with ho
            obtain ⟨pays, h1, h2⟩ := ih os' hj
            exact ⟨(s, n) :: pays, by rw [h1]; rfl, by rw [← ho, h2]; rfl⟩
    cases hj : jsonOutputs outs with
    | error e => rw [hj] at h; cases h
    | ok os =>
      rw [hj] at h
      injection h with h
      obtain ⟨pays, h1, h2⟩ := hpairs outs os hj
      have hcoins : ∀ u ∈ coins, Spec.Consistent u ∧ u.vsize4 < 2 ^ 50 := by
        unfold sanitizeArgs at hs
        obtain ⟨_, _, _, _, _, sel, _, _, _, _, _, _, _, h7, h8, _, _⟩ := sanitize_ok hs
        have hsel : ∀ u ∈ sel, Spec.Consistent u ∧ u.vsize4 < 2 ^ 50 :=
          fun u hu => hus u (selectCoins_mem hshuffle h7 u hu)
        rw [h8]
        split
        · intro u hu
          obtain ⟨v, hv, rfl⟩ := List.mem_map.mp hu
          exact ⟨consistent_optIn (hsel v hv).1, by rw [vsize4_optIn]; exact (hsel v hv).2⟩
        · exact hsel
      exact ⟨coins, pays, by rw [h1], hcoins, by rw [← h2]; exact h⟩

/-- C77. What `prepare_transaction` gives is read back: the same coins and the same payments. -/
theorem C77_prepared {Amount : Type} (C : Crypto) (readFloat : Str → PyFloat)
    (hfloat : Spec.ReadsQuarters readFloat) (floats : Unspent → Bool) (env : Env Amount) (args : TxArgs Amount)
    (hshuffle : ∀ l, (env.shuffle l).Perm l) (ask : Ask) (net : Net) (address : Str) (us : List Unspent) (hne : us ≠ [])
    (hus : ∀ u ∈ us, Spec.Consistent u ∧ u.vsize4 < 2 ^ 50) (text : Str)
    (h : prepareTransaction C readFloat floats env args ask net address us = .ok text) :
    ∃ (coins : List Unspent) (pays : List (Str × Int)) (l : List Json) (j : Json),
      sanitizeArgs C env args us (some address) net = .ok (coins, pays.map fun o => (.str o.1, o.2)) ∧
      jsonLoads readFloat text = .ok j ∧
      j.get "unspents".toList = .ok (.arr l) ∧ l.map Unspent.fromJson = coins.map .ok ∧
      j.get "outputs".toList = .ok (.arr (pays.map fun o => .arr [.str o.1, .int o.2])) := by
  obtain ⟨coins, pays, hs, hcoins, ht⟩ := prepared_ok C readFloat floats env args hshuffle ask net address us hne hus h
  have hload := loads_dumps readFloat
    (preparedData_readable readFloat floats hfloat coins (fun u hu => (hcoins u hu).2) pays) [] []
    (fun c hc => by cases hc) (fun c hc => by cases hc)
  rw [List.nil_append, List.append_nil, ht] at hload
  refine ⟨coins, pays, coins.map (fun u => u.toJson readFloat (floats u)), _, hs, hload, rfl, ?_, rfl⟩
  rw [List.map_map]
  apply List.map_congr_left
  intro u hu
  exact (fromJson_toJson readFloat hfloat (hcoins u hu).2).trans (C50_from_dict u (hcoins u hu).1 _ fun _ _ => rfl)

/-- A value of every kind, with texts that need escapes and a size of 1.75. -/
def sampleJson : Json :=
  .obj [("a\"\\".toList, .arr [.null, .bool true, .int (-12), .int 0]), ("é\n".toList, .str "😀x".toList),
    ("f".toList, .float (exactFloat "1.75".toList)), ([], .obj [])]

example : Spec.Readable exactFloat sampleJson := by
  have e : quarterText 7 = "1.75".toList := by decide +kernel
  have h : Spec.FloatText "1.75".toList := e ▸ quarterText_float 7
  simp only [sampleJson, Spec.Readable, Spec.ReadableItems, Spec.ReadableList, and_true, true_and]
  exact ⟨by simp, ⟨h, rfl⟩, by simp⟩

example : sampleJson.dumps =
    "{\"a\\\"\\\\\":[null,true,-12,0],\"\\u00e9\\n\":\"\\ud83d\\ude00x\",\"f\":1.75,\"\":{}}".toList := by
  decide +kernel

/-- An unspent with a size that is a float. -/
def floatUnspent : Unspent :=
  mkUnspent 70000 3 "a9".toList "07".toList 1 "np2wsh".toList 417 none 4294967295

example : Spec.Consistent floatUnspent ∧ floatUnspent.vsize4 < 2 ^ 50 :=
  ⟨C50_consistent _ _ _ _ _ _ _ _ _ [], by decide⟩

example : (floatUnspent.toJson exactFloat true).dumps =
    ("{\"amount\":70000,\"confirmations\":3,\"script\":\"a9\",\"txid\":\"07\",\"txindex\":1," ++
      "\"type\":\"np2wsh\",\"vsize\":104.25,\"segwit\":true,\"sequence\":4294967295}").toList := by
  decide +kernel

/-! ## C78 -/

/-- C78. A hexadecimal text is never taken for prepared data: without unspents the coins of the key are fetched and the
transaction is signed for them, with a list of unspents it is signed for these. -/
theorem C78_hex (C : Crypto) (readFloat : Str → PyFloat) (ask : Ask) (w : Wallet) (text : Str) (b : Bytes)
    (h : hexToBytes text = .ok b) :
    (∀ us, us ≠ [] → w.signTransaction C readFloat ask text (some us) = (w, signTransactionHex C w.signer text us)) ∧
    w.signTransaction C readFloat ask text none =
      ((w.getUnspents C ask).1,
        (w.getUnspents C ask).2.bind fun us => signTransactionHex C (w.getUnspents C ask).1.signer text us) := by
  have hfall : w.signFallback C ask text [] = ((w.getUnspents C ask).1,
        (w.getUnspents C ask).2.bind fun us => signTransactionHex C (w.getUnspents C ask).1.signer text us) := by
    unfold Wallet.signFallback
    rw [if_pos (by rfl)]
    obtain ⟨w', r⟩ := w.getUnspents C ask
    cases r <;> rfl
  refine ⟨fun us hus => ?_, ?_⟩
  · have he : us.isEmpty = false := by simpa using hus
    unfold Wallet.signTransaction
    cases jsonLoads readFloat text <;>
    · dsimp only [Option.getD_some]
      unfold Wallet.signFallback
      rw [he]
      rfl
  · rw [← hfall]
    unfold Wallet.signTransaction
    cases hl : jsonLoads readFloat text with
    | error e => rfl
    | ok j =>
      dsimp only
      have hget : j.get "unspents".toList = .error .typeError := by
        cases j with
        | obj l => exact absurd hl (loads_hex readFloat h l)
        | _ => rfl
      rw [hget]
      rfl

/-- C78. Prepared data are never taken for a hexadecimal transaction: the text is refused by `bytes.fromhex`, and with
a list of unspents `sign_transaction` raises `ValueError`. -/
theorem C78_prepared_not_hex {Amount : Type} (C : Crypto) (readFloat : Str → PyFloat) (floats : Unspent → Bool)
    (env : Env Amount) (args : TxArgs Amount) (ask ask' : Ask) (net : Net) (address : Str) (us given : List Unspent)
    (hne : given ≠ []) (w : Wallet) (text : Str)
    (h : prepareTransaction C readFloat floats env args ask net address us = .ok text) :
    hexToBytes text = .error .valueError ∧
    w.signTransaction C readFloat ask' text (some given) = (w, .error .valueError) := by
  have hbrace : '{' ∈ text := by
    unfold prepareTransaction at h
    dsimp only at h
    split at h
    · cases h
    · split at h
      · cases h
      · split at h
        · cases h
        · injection h with h
          rw [← h, preparedData, Json.dumps]
          exact List.mem_cons_self
  obtain ⟨e, he⟩ := hexToBytes_brace hbrace
  have hv := hexToBytes_error he
  refine ⟨by rw [he, hv], ?_⟩
  have hem : given.isEmpty = false := by simpa using hne
  unfold Wallet.signTransaction
  cases jsonLoads readFloat text <;>
  · dsimp only [Option.getD_some]
    unfold Wallet.signFallback signTransactionHex
    rw [hem, deserializeHex_error he]
    rfl

/-- A hexadecimal text that is a JSON number. -/
example : hexToBytes "1234".toList = .ok [0x12, 0x34] ∧
    jsonLoads exactFloat "1234".toList = .ok (.int 1234) := by
  refine ⟨by decide, ?_⟩
  rfl

end Bit
