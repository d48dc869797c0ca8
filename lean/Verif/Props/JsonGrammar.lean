import Verif.Lemmas.JsonGrammar
import Verif.Lemmas.Web
import Verif.Props.JsonText
/-
C79: JSON texts written or reformatted by other programs.
-/
namespace Bit
open Bit.Spec (HexDigit FourHex StringText ValueText ElementsText MembersText Blank IntPart FracPart ExpPart Digits minus
  SizeEntry UnspentEntry PreparedValue JsonText)

/-- C79. Every text of the JSON grammar is read as the value it stands for: any white space, any spelling of
characters and numbers, any order of the entries. -/
theorem C79_loads (readFloat : Str → PyFloat) (text : Str) (j : Json) (h : JsonText readFloat text j) :
    jsonLoads readFloat text = .ok j :=
  loads_jsonText readFloat h

/-! ## What is written is in the grammar -/

theorem hexDigit_of {n : Nat} (h : n < 16) : HexDigit (hexDigit n) n := by
  left
  interval_cases n <;> rfl

theorem fourHex_escape {n : Nat} (h : n < 65536) :
    FourHex [hexDigit (n / 4096 % 16), hexDigit (n / 256 % 16), hexDigit (n / 16 % 16), hexDigit (n % 16)] n :=
  ⟨_, _, _, _, _, _, _, _, rfl, hexDigit_of (Nat.mod_lt _ (by decide)), hexDigit_of (Nat.mod_lt _ (by decide)),
    hexDigit_of (Nat.mod_lt _ (by decide)), hexDigit_of (Nat.mod_lt _ (by decide)), by omega⟩

theorem pair_of (n : Nat) (h : 0x10000 ≤ n) :
    0x10000 + (0xd800 + (n - 0x10000) / 1024 - 0xd800) * 0x400 + (0xdc00 + (n - 0x10000) % 1024 - 0xdc00) = n := by
  rw [Nat.add_sub_cancel_left, Nat.add_sub_cancel_left]
  omega

theorem stringText_escape (c : Char) {t s : Str} (h : StringText t s) : StringText (escapeChar c ++ t) (c :: s) := by
  unfold escapeChar
  split_ifs with h1 h2 h3 h4 h5 h6 h7 h8 h9
  · subst h1; exact .short (by decide) h
  · subst h2; exact .short (by decide) h
  · exact .plain h3.1 h2 h1 h
  · rw [← ofNat_of h4]; exact .short (by decide) h
  · rw [← ofNat_of h5]; exact .short (by decide) h
  · rw [← ofNat_of h6]; exact .short (by decide) h
  · rw [← ofNat_of h7]; exact .short (by decide) h
  · rw [← ofNat_of h8]; exact .short (by decide) h
  · have hr := char_range c
    have := StringText.unicode (fourHex_escape h9) (by omega) h
    rw [Char.ofNat_toNat] at this
    exact this
  · have hr := char_range c
    have hlt : (c.toNat - 0x10000) / 1024 < 1024 := by omega
    rw [Nat.mod_eq_of_lt hlt]
    have hm : (c.toNat - 0x10000) % 1024 < 1024 := Nat.mod_lt _ (by decide)
    have := StringText.pair (fourHex_escape (n := 0xd800 + (c.toNat - 0x10000) / 1024) (by omega))
      (fourHex_escape (n := 0xdc00 + (c.toNat - 0x10000) % 1024) (by omega)) (by omega) (by omega) h
    rw [pair_of _ (by omega), Char.ofNat_toNat] at this
    unfold unicodeEscape
    simpa only [List.cons_append, List.nil_append, List.append_assoc] using this

theorem stringText_flatMap (s : Str) : StringText (s.flatMap escapeChar) s := by
  induction s with
  | nil => exact .nil
  | cons c s ih => rw [List.flatMap_cons]; exact stringText_escape c ih

theorem valueText_string (readFloat : Str → PyFloat) (s : Str) : ValueText readFloat (stringText s) (.str s) :=
  .string (stringText_flatMap s)

theorem valueText_int (readFloat : Str → PyFloat) (n : Int) : ValueText readFloat (intText n) (.int n) := by
  obtain ⟨h1, h2, h3⟩ := digitsText_spec n.natAbs
  have h := ValueText.int (readFloat := readFloat) (decide (n < 0)) (ds := Dec.digitsText n.natAbs)
    ⟨⟨h3, h1⟩, digitsText_head _⟩
  rw [h2] at h
  rw [intText_eq]
  have e : (if decide (n < 0) = true then (-1 : Int) else 1) * (n.natAbs : Int) = n := by
    by_cases hn : n < 0
    · simp only [hn, decide_true, if_true]; omega
    · simp only [hn, decide_false, Bool.false_eq_true, if_false]; omega
  rw [e] at h
  exact h

theorem valueText_quarters (readFloat : Str → PyFloat) (v : Nat) :
    ValueText readFloat (quarterText v) (.float (readFloat (quarterText v))) := by
  obtain ⟨h1, h2, h3⟩ := digitsText_spec (v / 4)
  have hf : FracPart ('.' :: (if v % 4 = 0 then ['0'] else if v % 4 = 1 then ['2', '5'] else if v % 4 = 2 then ['5']
      else ['7', '5'])) := by
    refine ⟨_, rfl, ?_⟩
    split_ifs <;> exact ⟨by decide, by decide⟩
  have h := ValueText.float (readFloat := readFloat) false (ds := Dec.digitsText (v / 4)) ⟨⟨h3, h1⟩, digitsText_head _⟩
    (.inr hf) (.inl rfl) (.inl hf)
  rw [List.append_nil] at h
  exact h

mutual

/-- No float is NaN or infinite: its text is a JSON number. -/
def Proper (readFloat : Str → PyFloat) : Json → Prop
  | .float f => ValueText readFloat f.repr (.float f)
  | .arr l => ProperList readFloat l
  | .obj l => (l.map Prod.fst).Nodup ∧ ProperItems readFloat l
  | _ => True

def ProperList (readFloat : Str → PyFloat) : List Json → Prop
  | [] => True
  | j :: l => Proper readFloat j ∧ ProperList readFloat l

def ProperItems (readFloat : Str → PyFloat) : List (Str × Json) → Prop
  | [] => True
  | (_, j) :: l => Proper readFloat j ∧ ProperItems readFloat l

end

theorem blank_nil : Blank [] := fun _ h => by cases h

mutual

theorem valueText_dumps (readFloat : Str → PyFloat) : ∀ j, Proper readFloat j → ValueText readFloat j.dumps j
  | .null, _ => by rw [Json.dumps]; exact .null
  | .bool true, _ => by rw [Json.dumps]; exact .true
  | .bool false, _ => by rw [Json.dumps]; exact .false
  | .int n, _ => by rw [Json.dumps]; exact valueText_int readFloat n
  | .float f, h => by rw [Json.dumps]; rw [Proper] at h; exact h
  | .str s, _ => by rw [Json.dumps]; exact valueText_string readFloat s
  | .arr [], _ => by rw [Json.dumps]; exact .noElements blank_nil
  | .arr (j :: js), h => by
    rw [Proper, ProperList] at h
    rw [Json.dumps]
    exact .array (elementsText_dumps readFloat j js h.1 h.2)
  | .obj [], _ => by rw [Json.dumps]; exact .noMembers blank_nil
  | .obj ((k, j) :: js), h => by
    rw [Proper, ProperItems] at h
    rw [Json.dumps]
    have := membersText_dumps readFloat k j js h.2.1 h.2.2
    have := ValueText.object this
    rw [lastValues_nodup h.1] at this
    simpa only [List.append_assoc, List.cons_append] using this
termination_by j => sizeOf j

theorem elementsText_dumps (readFloat : Str → PyFloat) : ∀ j js, Proper readFloat j → ProperList readFloat js →
    ElementsText readFloat (j.dumps ++ dumpElements js) (j :: js)
  | j, [], h, _ => by
    have := ElementsText.last blank_nil (valueText_dumps readFloat j h) blank_nil
    rw [dumpElements]
    simpa only [List.nil_append] using this
  | j, j' :: js, h, hs => by
    rw [ProperList] at hs
    have := ElementsText.more blank_nil (valueText_dumps readFloat j h) blank_nil
      (elementsText_dumps readFloat j' js hs.1 hs.2)
    rw [dumpElements]
    simpa only [List.nil_append, List.append_nil, List.append_assoc] using this
termination_by j js => sizeOf (j :: js)

theorem membersText_dumps (readFloat : Str → PyFloat) (k : Str) : ∀ j js, Proper readFloat j → ProperItems readFloat js →
    MembersText readFloat (stringText k ++ ':' :: (j.dumps ++ dumpMembers js)) ((k, j) :: js)
  | j, [], h, _ => by
    have := MembersText.last blank_nil (stringText_flatMap k) blank_nil blank_nil (valueText_dumps readFloat j h)
      blank_nil
    rw [dumpMembers]
    simpa [stringText] using this
  | j, (k', j') :: js, h, hs => by
    rw [ProperItems] at hs
    have := MembersText.more blank_nil (stringText_flatMap k) blank_nil blank_nil (valueText_dumps readFloat j h)
      blank_nil (membersText_dumps readFloat k' j' js hs.1 hs.2)
    rw [dumpMembers]
    simpa [stringText] using this
termination_by j js => sizeOf ((k, j) :: js)

end

theorem sizeJson_proper (readFloat : Str → PyFloat) (hfloat : Spec.ReadsQuarters readFloat) (isFloat : Bool) {v : Nat}
    (hv : v < 2 ^ 50) : Proper readFloat (sizeJson readFloat isFloat v) := by
  unfold sizeJson
  split
  · rw [Proper, hfloat.repr v hv]
    exact valueText_quarters readFloat v
  · rw [Proper]
    · trivial
    all_goals (intros; contradiction)

theorem toJson_proper (readFloat : Str → PyFloat) (hfloat : Spec.ReadsQuarters readFloat) (isFloat : Bool) {u : Unspent}
    (hv : u.vsize4 < 2 ^ 50) : Proper readFloat (u.toJson readFloat isFloat) := by
  have hs := sizeJson_proper readFloat hfloat isFloat hv
  have hg : Proper readFloat ((DictVal.flag u.segwit).toJson readFloat isFloat) := by
    rcases u.segwit with _ | b
    · rw [DictVal.toJson, Proper]
      · trivial
      all_goals (intros; contradiction)
    · rw [DictVal.toJson, Proper]
      · trivial
      all_goals (intros; contradiction)
  unfold Unspent.toJson
  rw [Proper]
  refine ⟨?_, ?_⟩
  · have : ((u.toDict.map fun a => (a.1.toList, a.2.toJson readFloat isFloat)).map Prod.fst) =
        unspentSlots.map String.toList := by
      simp only [Unspent.toDict, unspentSlots, List.map_cons, List.map_nil]
    rw [this]
    decide
  · simp only [Unspent.toDict, List.map_cons, List.map_nil, ProperItems, DictVal.toJson, Proper, true_and]
    exact ⟨hs, hg, trivial⟩

theorem preparedData_proper (readFloat : Str → PyFloat) (hfloat : Spec.ReadsQuarters readFloat) (floats : Unspent → Bool)
    (us : List Unspent) (hv : ∀ u ∈ us, u.vsize4 < 2 ^ 50) (outs : List (Str × Int)) :
    Proper readFloat (preparedData readFloat floats us (jsonPairs outs)) := by
  unfold preparedData
  simp only [Proper, ProperItems, and_true]
  refine ⟨by simp only [List.map_cons, List.map_nil]; decide, ?_, ?_⟩
  · induction us with
    | nil => simp only [List.map_nil, ProperList]
    | cons u us ih =>
      rw [List.map_cons, ProperList]
      exact ⟨toJson_proper readFloat hfloat _ (hv u List.mem_cons_self), ih fun v h => hv v (List.mem_cons_of_mem _ h)⟩
  · induction outs with
    | nil => simp only [jsonPairs, List.map_nil, ProperList]
    | cons o outs ih =>
      simp only [jsonPairs, List.map_cons, ProperList, Proper, true_and]
      exact ih

theorem lookup_toJson (readFloat : Str → PyFloat) (isFloat : Bool) {k : String} {v : DictVal} :
    ∀ {d : List (String × DictVal)}, d.lookup k = some v →
      (d.map fun a => (a.1.toList, a.2.toJson readFloat isFloat)).lookup k.toList = some (v.toJson readFloat isFloat)
  | [], h => by cases h
  | (k', v') :: d, h => by
    rw [List.lookup_cons] at h
    rw [List.map_cons, List.lookup_cons]
    by_cases e : k = k'
    · subst e
      simp only [beq_self_eq_true, Option.some.injEq] at h ⊢
      rw [h]
    · have e' : k.toList ≠ k'.toList := fun h => e (String.toList_injective h)
      rw [beq_eq_false_iff_ne.mpr e] at h
      rw [beq_eq_false_iff_ne.mpr e']
      exact lookup_toJson readFloat isFloat h

theorem at_toJson (readFloat : Str → PyFloat) (isFloat : Bool) {u : Unspent} (k : String) {v : DictVal}
    (h : u.toDict.lookup k = some v) : Spec.At (u.toJson readFloat isFloat) [Spec.name k] (v.toJson readFloat isFloat) :=
  .step (lookup_toJson readFloat isFloat h) (.here _)

theorem unspentEntry_toJson (readFloat : Str → PyFloat) (hfloat : Spec.ReadsQuarters readFloat) (isFloat : Bool)
    {u : Unspent} (hv : u.vsize4 < 2 ^ 50) : UnspentEntry (u.toJson readFloat isFloat) u := by
  refine ⟨at_toJson readFloat isFloat "amount" rfl, at_toJson readFloat isFloat "confirmations" rfl,
    at_toJson readFloat isFloat "script" rfl, at_toJson readFloat isFloat "txid" rfl,
    at_toJson readFloat isFloat "txindex" rfl, at_toJson readFloat isFloat "type" rfl,
    at_toJson readFloat isFloat "sequence" rfl, ⟨_, at_toJson readFloat isFloat "vsize" rfl, ?_⟩,
    ⟨_, at_toJson readFloat isFloat "segwit" rfl, ?_⟩⟩
  · show SizeEntry (sizeJson readFloat isFloat u.vsize4) u.vsize4
    unfold sizeJson
    split
    · exact .inr ⟨_, rfl, hfloat.exact _ hv⟩
    · rename_i h
      exact .inl ⟨u.vsize4 / 4, rfl, by omega⟩
  · show (DictVal.flag u.segwit).toJson readFloat isFloat = .null ∨
      ∃ b, (DictVal.flag u.segwit).toJson readFloat isFloat = .bool b
    rcases u.segwit with _ | b
    · exact .inl rfl
    · exact .inr ⟨b, rfl⟩

/-- C79. What `prepare_transaction` gives is a text of the JSON grammar, so that every program that reads JSON reads
it, and its value has the coins and the payments. -/
theorem C79_prepared {Amount : Type} (C : Crypto) (readFloat : Str → PyFloat)
    (hfloat : Spec.ReadsQuarters readFloat) (floats : Unspent → Bool) (env : Env Amount) (args : TxArgs Amount)
    (hshuffle : ∀ l, (env.shuffle l).Perm l) (ask : Ask) (net : Net) (address : Str) (us : List Unspent) (hne : us ≠ [])
    (hus : ∀ u ∈ us, Spec.Consistent u ∧ u.vsize4 < 2 ^ 50) (text : Str)
    (h : prepareTransaction C readFloat floats env args ask net address us = .ok text) :
    ∃ (coins : List Unspent) (pays : List (Str × Int)) (j : Json),
      sanitizeArgs C env args us (some address) net = .ok (coins, pays.map fun o => (.str o.1, o.2)) ∧
      (∀ u ∈ coins, Spec.Consistent u) ∧ JsonText readFloat text j ∧ PreparedValue j coins pays := by
  obtain ⟨coins, pays, hs, hcoins, ht⟩ := prepared_ok C readFloat floats env args hshuffle ask net address us hne hus h
  refine ⟨coins, pays, preparedData readFloat floats coins (jsonPairs pays), hs, fun u hu => (hcoins u hu).1,
    ⟨[], text, [], by simp, blank_nil, ?_, blank_nil⟩, ⟨_, .step rfl (.here _), ?_⟩, .step rfl (.here _)⟩
  · rw [← ht]
    exact valueText_dumps readFloat _ (preparedData_proper readFloat hfloat floats coins (fun u hu => (hcoins u hu).2) pays)
  · rw [List.forall₂_map_left_iff]
    exact List.forall₂_same.mpr fun u hu => unspentEntry_toJson readFloat hfloat _ (hcoins u hu).2

/-! ## Signing -/

theorem fromJson_entry {x : Json} {u : Unspent} (h : UnspentEntry x u) (hu : Spec.Consistent u) :
    Unspent.fromJson x = .ok u := by
  obtain ⟨h1, h2, h3, h4, h5, h6, h7, ⟨v, h8, hv⟩, ⟨g, h9, hg⟩⟩ := h
  have hsize : attrOfJson "vsize" v = .ok (.size u.vsize4) := by
    rcases hv with ⟨n, rfl, hn⟩ | ⟨f, rfl, hf⟩
    · unfold attrOfJson
      rw [if_pos rfl]
      dsimp only
      rw [if_pos (by omega), Int.toNat_natCast, hn]
    · unfold attrOfJson
      rw [if_pos rfl]
      dsimp only
      rw [quarters_value hf]
  obtain ⟨flag, hflag⟩ : ∃ flag, attrOfJson "segwit" g = .ok (.flag flag) := by
    rcases hg with rfl | ⟨b, rfl⟩
    · exact ⟨_, rfl⟩
    · exact ⟨_, rfl⟩
  have e : Unspent.fromJson x = Unspent.fromDict [("amount", .int u.amount), ("confirmations", .int u.confirmations),
      ("script", .str u.script), ("txid", .str u.txid), ("txindex", .int u.txindex), ("type", .str u.type),
      ("vsize", .size u.vsize4), ("segwit", .flag flag), ("sequence", .int u.sequence)] := by
    unfold Unspent.fromJson unspentSlots
    simp only [pyMap]
    rw [show x.get "amount".toList = _ from h1.get, show x.get "confirmations".toList = _ from h2.get,
      show x.get "script".toList = _ from h3.get, show x.get "txid".toList = _ from h4.get,
      show x.get "txindex".toList = _ from h5.get, show x.get "type".toList = _ from h6.get,
      show x.get "sequence".toList = _ from h7.get, show x.get "vsize".toList = _ from h8.get,
      show x.get "segwit".toList = _ from h9.get]
    simp only [Except.bind, hsize, hflag]
    rfl
  rw [e]
  exact congrArg Except.ok (mkUnspent_self hu)

theorem pyMap_entries {l : List Json} {coins : List Unspent} (h : List.Forall₂ UnspentEntry l coins)
    (hc : ∀ u ∈ coins, Spec.Consistent u) : pyMap Unspent.fromJson l = .ok coins := by
  induction h with
  | nil => rfl
  | cons h1 _ ih =>
    rw [pyMap, fromJson_entry h1 (hc _ List.mem_cons_self)]
    dsimp only
    rw [ih fun u hu => hc u (List.mem_cons_of_mem _ hu)]

theorem brace_of_object {readFloat : Str → PyFloat} {text : Str} {l : List (Str × Json)}
    (h : JsonText readFloat text (.obj l)) : '{' ∈ text := by
  obtain ⟨w, t, w', rfl, -, hv, -⟩ := h
  have : '{' ∈ t := by
    cases hv with
    | noMembers _ => exact List.mem_cons_self
    | object _ => exact List.mem_cons_self
  simp [this]

/-- C79. Any JSON text with the coins and the payments of a prepared transaction is signed as these: whoever wrote it,
in whichever layout and order, `sign_transaction` gives the transaction that spends the coins and makes the payments,
or raises if this cannot be made. -/
theorem C79_sign (C : Crypto) (readFloat : Str → PyFloat) (ask : Ask) (w : Wallet) (text : Str) (j : Json)
    (coins : List Unspent) (pays : List (Str × Int)) (ht : JsonText readFloat text j) (hj : PreparedValue j coins pays)
    (hc : ∀ u ∈ coins, Spec.Consistent u) :
    (∀ tx, createNewTransaction C w.signer coins (pays.map fun o => (.str o.1, o.2)) = .ok tx →
      w.signTransaction C readFloat ask text none = (w, .ok tx)) ∧
    (∀ e, createNewTransaction C w.signer coins (pays.map fun o => (.str o.1, o.2)) = .error e →
      ∃ e, (w.signTransaction C readFloat ask text none).2 = .error e) := by
  obtain ⟨⟨l, hl, hf⟩, ho⟩ := hj
  have hbrace : '{' ∈ text := by
    cases hl with
    | step _ _ => exact brace_of_object ht
  have hsign : w.signTransaction C readFloat ask text none =
      match createNewTransaction C w.signer coins (pays.map fun o => (.str o.1, o.2)) with
      | .ok tx => (w, .ok tx)
      | .error _ => w.signFallback C ask text coins := by
    unfold Wallet.signTransaction
    rw [loads_jsonText readFloat ht]
    dsimp only
    rw [show j.get "unspents".toList = _ from hl.get, show j.get "outputs".toList = _ from ho.get]
    simp only [Except.bind, Json.items]
    rw [pyMap_entries hf hc]
    dsimp only
    rw [show pays.map (fun o => Json.arr [.str o.1, .int o.2]) = jsonPairs pays from rfl, pyMap_outputs]
    dsimp only
    cases createNewTransaction C w.signer coins (pays.map fun o => (.str o.1, o.2)) <;> rfl
  rw [hsign]
  refine ⟨fun tx h => by rw [h], fun e h => ?_⟩
  rw [h]
  dsimp only
  obtain ⟨e', he'⟩ := hexToBytes_brace hbrace
  unfold Wallet.signFallback signTransactionHex
  rw [deserializeHex_error he']
  dsimp only
  split
  · exact ⟨_, rfl⟩
  · exact ⟨_, rfl⟩

/-- C79. A prepared transaction that was reformatted, reordered or written anew by another program on the way is signed
to the same transaction as the text itself. -/
theorem C79_reformatted {Amount : Type} (C : Crypto) (readFloat : Str → PyFloat)
    (hfloat : Spec.ReadsQuarters readFloat) (floats : Unspent → Bool) (env : Env Amount) (args : TxArgs Amount)
    (hshuffle : ∀ l, (env.shuffle l).Perm l) (ask ask' ask'' : Ask) (net : Net) (address : Str) (us : List Unspent)
    (hne : us ≠ []) (hus : ∀ u ∈ us, Spec.Consistent u ∧ u.vsize4 < 2 ^ 50) (text : Str)
    (h : prepareTransaction C readFloat floats env args ask net address us = .ok text) :
    ∃ (coins : List Unspent) (pays : List (Str × Int)) (j : Json), JsonText readFloat text j ∧
      PreparedValue j coins pays ∧
      ∀ (text' : Str) (j' : Json), JsonText readFloat text' j' → PreparedValue j' coins pays → ∀ (w : Wallet) (tx : Str),
        (w.signTransaction C readFloat ask' text' none).2 = .ok tx ↔
          (w.signTransaction C readFloat ask'' text none).2 = .ok tx := by
  obtain ⟨coins, pays, j, -, hc, ht, hj⟩ := C79_prepared C readFloat hfloat floats env args hshuffle ask net address us
    hne hus text h
  refine ⟨coins, pays, j, ht, hj, fun text' j' ht' hj' w tx => ?_⟩
  obtain ⟨h1, h2⟩ := C79_sign C readFloat ask'' w text j coins pays ht hj hc
  obtain ⟨h1', h2'⟩ := C79_sign C readFloat ask' w text' j' coins pays ht' hj' hc
  cases hn : createNewTransaction C w.signer coins (pays.map fun o => (.str o.1, o.2)) with
  | ok tx' => rw [h1 tx' hn, h1' tx' hn]
  | error e =>
    obtain ⟨e1, he1⟩ := h2 e hn
    obtain ⟨e2, he2⟩ := h2' e hn
    rw [he1, he2]
    simp

/-! ## Cases -/

/-- The text of a value with white space, a capital escape, an escaped slash, a pair of surrogates and a float with an
exponent. -/
example : JsonText exactFloat " { \"\\u00E9\" : [ 1 , -0 ] , \"b\\/\" :\"\\uD83D\\uDE00\" , \"x\" : 1E2 }".toList
    (.obj [("é".toList, .arr [.int 1, .int 0]), ("b/".toList, .str "😀".toList),
      ("x".toList, .float (exactFloat "1E2".toList))]) := by
  have d1 : IntPart "1".toList := ⟨⟨by decide, by decide⟩, by decide⟩
  have d0 : IntPart "0".toList := ⟨⟨by decide, by decide⟩, by decide⟩
  have b : Blank " ".toList := by intro c hc; simp at hc; exact .inl hc
  have v1 : ValueText exactFloat "1".toList (.int 1) := ValueText.int false d1
  have v0 : ValueText exactFloat "-0".toList (.int 0) := ValueText.int true d0
  have vx : ValueText exactFloat "1E2".toList (.float (exactFloat "1E2".toList)) :=
    ValueText.float false (frac := []) (exp := "E2".toList) d1 (.inl rfl)
      (.inr ⟨'E', [], "2".toList, rfl, .inr rfl, .inl rfl, by decide, by decide⟩)
      (.inr ⟨'E', [], "2".toList, rfl, .inr rfl, .inl rfl, by decide, by decide⟩)
  have arr : ValueText exactFloat "[ 1 , -0 ]".toList (.arr [.int 1, .int 0]) :=
    ValueText.array (ElementsText.more b v1 b (ElementsText.last b v0 b))
  have k1 : StringText "\\u00E9".toList "é".toList :=
    StringText.unicode (ds := "00E9".toList) (n := 233)
      ⟨_, _, _, _, 0, 0, 14, 9, rfl, .inl rfl, .inl rfl, .inr rfl, .inl rfl, rfl⟩ (by decide) .nil
  have k2 : StringText "b\\/".toList "b/".toList :=
    StringText.plain (by decide) (by decide) (by decide) (.short (by decide) .nil)
  have s1 : StringText "\\uD83D\\uDE00".toList "😀".toList :=
    StringText.pair (ds := "D83D".toList) (es := "DE00".toList) (n := 0xd83d) (m := 0xde00)
      ⟨_, _, _, _, 13, 8, 3, 13, rfl, .inr rfl, .inl rfl, .inl rfl, .inr rfl, rfl⟩
      ⟨_, _, _, _, 13, 14, 0, 0, rfl, .inr rfl, .inr rfl, .inl rfl, .inl rfl, rfl⟩ (by decide) (by decide) .nil
  have k3 : StringText "x".toList "x".toList := StringText.plain (by decide) (by decide) (by decide) .nil
  exact ⟨" ".toList, _, [], rfl, b, ValueText.object (MembersText.more b k1 b b arr b
    (MembersText.more b k2 b blank_nil (.string s1) b (MembersText.last b k3 b b vx b))), blank_nil⟩

/-- A text with a repeated key: the last value counts. -/
example : JsonText exactFloat "{\"a\":1,\"b\":null,\"a\":0}".toList (.obj [("a".toList, .int 0), ("b".toList, .null)]) := by
  have v1 : ValueText exactFloat "1".toList (.int 1) := ValueText.int false ⟨⟨by decide, by decide⟩, by decide⟩
  have v0 : ValueText exactFloat "0".toList (.int 0) := ValueText.int false ⟨⟨by decide, by decide⟩, by decide⟩
  have ka : StringText "a".toList "a".toList := StringText.plain (by decide) (by decide) (by decide) .nil
  have kb : StringText "b".toList "b".toList := StringText.plain (by decide) (by decide) (by decide) .nil
  exact ⟨[], _, [], rfl, blank_nil, ValueText.object (MembersText.more blank_nil ka blank_nil blank_nil v1 blank_nil
    (MembersText.more blank_nil kb blank_nil blank_nil .null blank_nil
      (MembersText.last blank_nil ka blank_nil blank_nil v0 blank_nil))), blank_nil⟩

/-- Data with the entries in another order, a further entry, a size written as an int and a wrong flag. -/
def reordered : Json :=
  .obj [("outputs".toList, .arr [.arr [.str legacyB, .int 60000]]), ("note".toList, .str "rent".toList),
    ("unspents".toList, .arr [.obj [("vsize".toList, .int 148), ("sequence".toList, .int 4294967295),
      ("segwit".toList, .bool true), ("type".toList, .str "p2pkh".toList), ("txindex".toList, .int 1),
      ("txid".toList, .str "07".toList), ("script".toList, .str "a9".toList), ("confirmations".toList, .int 3),
      ("amount".toList, .int 70000)]])]

example : PreparedValue reordered
    [mkUnspent 70000 3 "a9".toList "07".toList 1 "p2pkh".toList 0 none 4294967295] [(legacyB, 60000)] := by
  refine ⟨⟨_, .step rfl (.here _), .cons ⟨.step rfl (.here _), .step rfl (.here _), .step rfl (.here _),
    .step rfl (.here _), .step rfl (.here _), .step rfl (.here _), .step rfl (.here _),
    ⟨_, .step rfl (.here _), .inl ⟨148, rfl, rfl⟩⟩, ⟨_, .step rfl (.here _), .inr ⟨true, rfl⟩⟩⟩ .nil⟩,
    .step rfl (.here _)⟩

end Bit
