import Verif.Props.Address
import Verif.Props.Multisig
import Verif.Lemmas.SignSingle
import Verif.Lemmas.SignMulti
/-
C74: a wallet recognises exactly the coins that pay to it. C75: addresses of contracts.
-/
namespace Bit
open Concrete

/-! ## C75 -/

theorem p2sh_address {C : Crypto} (hC : C.HashLengths) (net : Net) (h : Bytes) (hl : h.length = 20) :
    b58decodeCheck C (b58encodeCheck C (scriptHashByte net :: h)) =
      .ok ((if net = .main then 0x05 else 0xc4) :: h) ∧
    (bech32Decode (b58encodeCheck C (scriptHashByte net :: h)) = none →
      getVersion C (b58encodeCheck C (scriptHashByte net :: h)) = .ok net ∧
      addressToScriptpubkey C (b58encodeCheck C (scriptHashByte net :: h)) = .ok (some (Spec.p2shScript h))) ∧
    (bech32Decode (b58encodeCheck C (scriptHashByte net :: h)) ≠ none →
      getVersion C (b58encodeCheck C (scriptHashByte net :: h)) = .error .valueError ∧
      addressToScriptpubkey C (b58encodeCheck C (scriptHashByte net :: h)) = .error .valueError) := by
  have hr : b58decodeCheck C (b58encodeCheck C (scriptHashByte net :: h)) = .ok (scriptHashByte net :: h) :=
    C03_b58check_roundtrip C hC _ ⟨scriptHashByte net, by simp, by cases net <;> decide⟩
  refine ⟨by cases net <;> exact hr, fun hb => ?_, fun hb => ?_⟩
  · have hg := getVersion_b58 hr (by cases net <;> simp [scriptHashByte]) hb
    have hn : versionNet (scriptHashByte net) = net := by cases net <;> decide
    rw [hn] at hg
    exact ⟨hg, script_p2sh hr hl (by cases net <;> simp [scriptHashByte]) hg⟩
  · have hg := getVersion_shadow hC hr hl (by cases net <;> simp [scriptHashByte]) hb
    exact ⟨hg, script_of_error hg⟩

/-- C75. The address of a contract carries the network's version byte for scripts and the HASH160 of the redeem script
with the keys and the number of signatures asked for. It is recognised as an address of that network, and paying to it
gives exactly the P2SH script of that hash, unless its text happens to be a valid Bech32 text as well, in which case
both calls raise ValueError. -/
theorem C75_contract_address (C : Crypto) (hC : C.HashLengths) (keys : List Bytes) (m : Int) (hm : 1 ≤ m) (net : Net)
    (a : Str) (h : multisigToAddress C keys m net = .ok a) :
    ∃ redeem, Spec.parseMultisig redeem = some (m.toNat, keys, keys.length) ∧
      b58decodeCheck C a = .ok ((if net = .main then 0x05 else 0xc4) :: C.ripemd160 (C.sha256 redeem)) ∧
      (bech32Decode a = none → getVersion C a = .ok net ∧
        addressToScriptpubkey C a = .ok (some (Spec.p2shScript (C.ripemd160 (C.sha256 redeem))))) ∧
      (bech32Decode a ≠ none → getVersion C a = .error .valueError ∧
        addressToScriptpubkey C a = .error .valueError) := by
  unfold multisigToAddress at h
  cases hr : multisigToRedeemscript keys m with
  | error e => rw [hr] at h; cases h
  | ok r =>
    rw [hr] at h
    simp only [Except.ok.injEq] at h
    subst h
    exact ⟨r, ((C21_redeemscript keys m hm).2.1 r hr).1, p2sh_address hC net _ (hC.ripemd160_length _)⟩

/-- C75. The segwit address of a contract: the same with the HASH160 of the witness program `00 20 SHA256(redeem)`. -/
theorem C75_contract_segwit_address (C : Crypto) (hC : C.HashLengths) (keys : List Bytes) (m : Int) (hm : 1 ≤ m)
    (net : Net) (a : Str) (h : multisigToSegwitAddress C keys m net = .ok a) :
    ∃ redeem hash, Spec.parseMultisig redeem = some (m.toNat, keys, keys.length) ∧
      hash = C.ripemd160 (C.sha256 (Spec.witnessScript 0 (C.sha256 redeem))) ∧
      b58decodeCheck C a = .ok ((if net = .main then 0x05 else 0xc4) :: hash) ∧
      (bech32Decode a = none → getVersion C a = .ok net ∧ addressToScriptpubkey C a = .ok (some (Spec.p2shScript hash))) ∧
      (bech32Decode a ≠ none → getVersion C a = .error .valueError ∧
        addressToScriptpubkey C a = .error .valueError) := by
  unfold multisigToSegwitAddress at h
  cases hr : multisigToRedeemscript keys m with
  | error e => rw [hr] at h; cases h
  | ok r =>
    rw [hr] at h
    simp only [Except.ok.injEq] at h
    subst h
    have ew : Spec.witnessScript 0 (C.sha256 r) = 0x00 :: 0x20 :: C.sha256 r := by
      unfold Spec.witnessScript
      rw [hC.sha256_length]; rfl
    refine ⟨r, _, ((C21_redeemscript keys m hm).2.1 r hr).1, rfl, ?_⟩
    rw [ew]
    exact p2sh_address hC net _ (hC.ripemd160_length _)

/-- C75. There are both addresses whenever there is a redeem script. -/
theorem C75_contract_address_exists (C : Crypto) (keys : List Bytes) (m : Int) (hm : 1 ≤ m) (net : Net)
    (hk : ∀ k ∈ keys, k.length = 33 ∨ k.length = 65) (hn : m ≤ keys.length)
    (hs : 3 + (keys.map fun k => k.length + 1).sum ≤ 520) :
    (∃ a, multisigToAddress C keys m net = .ok a) ∧ ∃ a, multisigToSegwitAddress C keys m net = .ok a := by
  obtain ⟨r, hr⟩ := (C21_redeemscript keys m hm).1.2 ⟨hn, hk, hs⟩
  unfold multisigToAddress multisigToSegwitAddress
  rw [hr]
  exact ⟨⟨_, rfl⟩, ⟨_, rfl⟩⟩

/-- A contract of two keys out of three. -/
example : ∃ a, multisigToAddress crypto [2 :: List.replicate 32 7, 3 :: List.replicate 32 8, 4 :: List.replicate 64 9] 2 .test =
    .ok a := (C75_contract_address_exists crypto _ 2 (by decide) .test (by decide) (by decide) (by decide)).1

/-! ## C74 -/

/-- The coin pays to the key: to its hash, or to its witness program inside a script hash. -/
def PaysKey (C : Crypto) (k : PrivKey) (u : Unspent) : Prop :=
  u.script = bytesToHex (Spec.p2pkhScript (C.ripemd160 (C.sha256 (k.publicKey C)))) ∨
  k.compressed = true ∧ u.script = bytesToHex (Spec.p2shScript
    (C.ripemd160 (C.sha256 (Spec.witnessScript 0 (C.ripemd160 (C.sha256 (k.publicKey C)))))))

/-- The coin pays to the contract: to its script hash, or, if all keys are compressed, to its witness program inside a
script hash. -/
def PaysContract (C : Crypto) (s : MultiSig) (u : Unspent) : Prop :=
  u.script = bytesToHex (Spec.p2shScript (C.ripemd160 (C.sha256 s.redeemscript))) ∨
  s.isCompressed = true ∧ u.script = bytesToHex (Spec.p2shScript
    (C.ripemd160 (C.sha256 (Spec.witnessScript 0 (C.sha256 s.redeemscript)))))

/-- The texts of the wallet's addresses are ordinary: none of them is a valid Bech32 text. -/
def OrdinaryAddresses (C : Crypto) (s : Signer) : Prop :=
  (∀ a, s.address C = .ok a → bech32Decode a = none) ∧ ∀ a, s.segwitAddress C = .ok (some a) → bech32Decode a = none

/-- C74. A key says of a coin that it can sign it exactly if the coin pays to the key. If one of its addresses looks like
a Bech32 text it raises for every coin. -/
theorem C74_can_sign (C : Crypto) (k : PrivKey) (hk : KeyLaws C k) :
    (OrdinaryAddresses C (.single k) → ∀ u, ∃ b, (Signer.single k).canSignUnspent C u = .ok b ∧ (b = true ↔ PaysKey C k u)) ∧
    (¬ OrdinaryAddresses C (.single k) → ∀ u, (Signer.single k).canSignUnspent C u = .error .valueError) := by
  obtain ⟨a, h1, -, h3, h4⟩ := C17_p2pkh_address C hk.hash hk.zero (k.publicKey C) k.net hk.pub'
  have ha : (Signer.single k).address C = .ok a := h1
  have hseg : (Signer.single k).segwitAddress C = k.segwitAddress C := rfl
  have hp := hk.pub
  unfold Signer.canSignUnspent OrdinaryAddresses PaysKey
  rw [ha, hseg]
  dsimp only
  cases hc : k.compressed with
  | false =>
    rw [hc] at hp
    have hs : k.segwitAddress C = .ok none := by
      unfold PrivKey.segwitAddress PrivKey.isCompressed
      rw [hp]; rfl
    rw [hs]
    dsimp only
    constructor
    · rintro ⟨g1, -⟩ u
      have := h3 (g1 a rfl)
      unfold Signer.scriptHex
      rw [this.2]
      exact ⟨_, rfl, by simp⟩
    · intro hno u
      have hb : bech32Decode a ≠ none := fun hb => hno ⟨fun a' h => by cases h; exact hb, fun a' h => by cases h⟩
      unfold Signer.scriptHex
      rw [(h4 hb).2]
  | true =>
    rw [hc] at hp
    obtain ⟨a', h', e1, rfl, -, e3, e4⟩ := (C18_segwit_address C hk.hash (k.publicKey C) k.net).2 hp
    have hs : k.segwitAddress C = .ok (some a') := by
      unfold PrivKey.segwitAddress PrivKey.isCompressed
      rw [hp, e1]; rfl
    have hh : (C.ripemd160 (C.sha256 (k.publicKey C))).length = 20 := hk.hash.ripemd160_length _
    have ew : Spec.witnessScript 0 (C.ripemd160 (C.sha256 (k.publicKey C))) =
        [0x00, 0x14] ++ C.ripemd160 (C.sha256 (k.publicKey C)) := by
      unfold Spec.witnessScript
      rw [hh]; rfl
    rw [hs]
    dsimp only
    constructor
    · rintro ⟨g1, g2⟩ u
      unfold Signer.scriptHex
      rw [(h3 (g1 a rfl)).2, (e3 (g2 a' rfl)).2, ew]
      exact ⟨_, rfl, by simp⟩
    · intro hno u
      unfold Signer.scriptHex
      by_cases hb : bech32Decode a = none
      · have hb' : bech32Decode a' ≠ none := fun hb' => hno ⟨fun x h => by cases h; exact hb, fun x h => by cases h; exact hb'⟩
        rw [(h3 hb).2, (e4 hb').2]
      · rw [(h4 hb).2]

/-- C74 for contracts. -/
theorem C74_can_sign_contract (C : Crypto) (s : MultiSig) (hs : ContractShape C s) :
    (OrdinaryAddresses C (.multi s) →
      ∀ u, ∃ b, (Signer.multi s).canSignUnspent C u = .ok b ∧ (b = true ↔ PaysContract C s u)) ∧
    (¬ OrdinaryAddresses C (.multi s) → ∀ u, (Signer.multi s).canSignUnspent C u = .error .valueError) := by
  have ha : (Signer.multi s).address C = .ok (b58encodeCheck C (scriptHashByte s.net :: C.hash160 s.redeemscript)) := by
    show multisigToAddress C s.publicKeys s.m s.net = _
    unfold multisigToAddress
    rw [hs.redeem]
  have hseg : (Signer.multi s).segwitAddress C = if s.isCompressed then .ok (some (b58encodeCheck C
      (scriptHashByte s.net :: C.hash160 (0x00 :: 0x20 :: C.sha256 s.redeemscript)))) else .ok none := by
    show MultiSig.segwitAddress C s = _
    unfold MultiSig.segwitAddress multisigToSegwitAddress
    rw [hs.redeem]
  obtain ⟨-, h3, h4⟩ := p2sh_address hs.hash s.net (C.hash160 s.redeemscript) (hs.hash.ripemd160_length _)
  obtain ⟨-, e3, e4⟩ := p2sh_address hs.hash s.net (C.hash160 (0x00 :: 0x20 :: C.sha256 s.redeemscript))
    (hs.hash.ripemd160_length _)
  have ew : Spec.witnessScript 0 (C.sha256 s.redeemscript) = 0x00 :: 0x20 :: C.sha256 s.redeemscript := by
    unfold Spec.witnessScript
    rw [hs.hash.sha256_length]; rfl
  unfold Signer.canSignUnspent OrdinaryAddresses PaysContract
  rw [ha, hseg, ew]
  generalize b58encodeCheck C (scriptHashByte s.net :: C.hash160 s.redeemscript) = a at *
  generalize b58encodeCheck C (scriptHashByte s.net :: C.hash160 (0x00 :: 0x20 :: C.sha256 s.redeemscript)) = a' at *
  dsimp only
  cases hc : s.isCompressed with
  | false =>
    rw [if_neg (by decide)]
    dsimp only
    constructor
    · rintro ⟨g1, -⟩ u
      unfold Signer.scriptHex
      rw [(h3 (g1 a rfl)).2]
      refine ⟨_, rfl, ?_⟩
      rw [decide_eq_true_eq]
      exact ⟨Or.inl, fun h => h.elim id fun h => nomatch h.1⟩
    · intro hno u
      have hb : bech32Decode a ≠ none := fun hb => hno ⟨fun a' h => by cases h; exact hb, fun a' h => by cases h⟩
      unfold Signer.scriptHex
      rw [(h4 hb).2]
  | true =>
    rw [if_pos rfl]
    dsimp only
    constructor
    · rintro ⟨g1, g2⟩ u
      unfold Signer.scriptHex
      rw [(h3 (g1 a rfl)).2, (e3 (g2 a' rfl)).2]
      refine ⟨_, rfl, ?_⟩
      rw [Bool.or_eq_true, decide_eq_true_eq, decide_eq_true_eq]
      exact ⟨fun h => h.imp id fun h => ⟨rfl, h⟩, fun h => h.imp id And.right⟩
    · intro hno u
      unfold Signer.scriptHex
      by_cases hb : bech32Decode a = none
      · have hb' : bech32Decode a' ≠ none := fun hb' => hno ⟨fun x h => by cases h; exact hb, fun x h => by cases h; exact hb'⟩
        rw [(h3 hb).2, (e4 hb').2]
      · rw [(h4 hb).2]

/-! ### which coin an input of a transaction spends -/

/-- The input spends the coin: transaction id (which unspents give in reversed order) and output number agree. -/
def Names (u : Unspent) (i : Spec.TxInput) : Prop :=
  hexToBytes u.txid = .ok i.prevTxid.reverse ∧ u.txindex = i.prevIndex

/-- The input spends this coin, which pays to the key. -/
def OwnsKey (C : Crypto) (k : PrivKey) (u : Unspent) (i : Spec.TxInput) : Prop := PaysKey C k u ∧ Names u i

/-- The input spends this coin, which pays to the contract. -/
def OwnsContract (C : Crypto) (s : MultiSig) (u : Unspent) (i : Spec.TxInput) : Prop := PaysContract C s u ∧ Names u i

theorem index_lt {i : Spec.TxInput} (hi : i.WF) : i.prevIndex < 256 ^ 4 := by
  have h : (2 : Nat) ^ 32 = 256 ^ 4 := by norm_num
  rw [← h]
  exact hi.index

theorem index_of_bytes {n : Int} {c : Bytes} {k len : Nat} (hk : k < 256 ^ len) (h : toBytesLE n len = .ok c)
    (he : c = leBytes len k) : n = k := by
  obtain ⟨h0, h1, h2⟩ := toBytesLE_eq_ok h
  have h3 : n.toNat < 256 ^ len := by
    generalize 256 ^ len = N at h1 ⊢
    omega
  have e3 := congrArg leNat (h2.symm.trans he)
  rw [leNat_leBytes_of_lt h3, leNat_leBytes_of_lt hk] at e3
  omega

theorem outpointOf_iff {u : Unspent} {key : Bytes} :
    outpointOf u = .ok key ↔ ∃ b c, hexToBytes u.txid = .ok b ∧ toBytesLE u.txindex 4 = .ok c ∧ key = b.reverse ++ c := by
  unfold outpointOf
  cases hexToBytes u.txid with
  | error e => simp
  | ok b =>
    cases toBytesLE u.txindex 4 with
    | error e => simp
    | ok c => simp [eq_comm]

theorem outpoint_names {u : Unspent} {i : Spec.TxInput} (hi : i.WF) :
    outpointOf u = .ok (Spec.TxInput.outpoint i) ↔ Names u i := by
  have hlt := index_lt hi
  rw [outpointOf_iff]
  unfold Names Spec.TxInput.outpoint
  rw [leEncode_eq]
  constructor
  · rintro ⟨b, c, hx, hy, h⟩
    have hl : c.length = 4 := by
      rw [(toBytesLE_eq_ok hy).2.2, leBytes_length]
    obtain ⟨e1, e2⟩ := List.append_inj' h (by rw [hl, leBytes_length])
    exact ⟨by rw [e1, List.reverse_reverse]; exact hx, index_of_bytes hlt hy e2.symm⟩
  · rintro ⟨h1, h2⟩
    refine ⟨_, leBytes 4 i.prevIndex, h1, ?_, ?_⟩
    · rw [h2, toBytesLE_ok hlt]
    · rw [List.reverse_reverse]

theorem inputDict_can {C : Crypto} {s : Signer} : ∀ {us : List Unspent} {d0 d : List (Bytes × Unspent)},
    inputDict C s us d0 = .ok d → ∀ u ∈ us, ∃ b, s.canSignUnspent C u = .ok b
  | [], _, _, _, u, hu => nomatch hu
  | v :: us, d0, d, h, u, hu => by
    rw [inputDict] at h
    cases hc : s.canSignUnspent C v with
    | error e => rw [hc] at h; cases h
    | ok b =>
      rcases List.mem_cons.mp hu with rfl | hu
      · exact ⟨b, hc⟩
      · rw [hc] at h
        cases b with
        | false => exact inputDict_can h u hu
        | true =>
          dsimp only at h
          cases ho : outpointOf v with
          | error e => rw [ho] at h; cases h
          | ok key => rw [ho] at h; exact inputDict_can h u hu

theorem can_iff_pays {C : Crypto} {k : PrivKey} (hk : KeyLaws C k) {u : Unspent} {b : Bool}
    (h : (Signer.single k).canSignUnspent C u = .ok b) (v : Unspent) :
    (Signer.single k).canSignUnspent C v = .ok true ↔ PaysKey C k v := by
  obtain ⟨h1, h2⟩ := C74_can_sign C k hk
  by_cases ho : OrdinaryAddresses C (.single k)
  · obtain ⟨c, hc, hp⟩ := h1 ho v
    rw [hc, ← hp, Except.ok.injEq]
  · rw [h2 ho u] at h; cases h

theorem can_iff_pays_contract {C : Crypto} {s : MultiSig} (hs : ContractShape C s) {u : Unspent} {b : Bool}
    (h : (Signer.multi s).canSignUnspent C u = .ok b) (v : Unspent) :
    (Signer.multi s).canSignUnspent C v = .ok true ↔ PaysContract C s v := by
  obtain ⟨h1, h2⟩ := C74_can_sign_contract C s hs
  by_cases ho : OrdinaryAddresses C (.multi s)
  · obtain ⟨c, hc, hp⟩ := h1 ho v
    rw [hc, ← hp, Except.ok.injEq]
  · rw [h2 ho u] at h; cases h

theorem pays_of_can {C : Crypto} {k : PrivKey} (hk : KeyLaws C k) {u : Unspent}
    (h : (Signer.single k).canSignUnspent C u = .ok true) : PaysKey C k u := (can_iff_pays hk h u).mp h

theorem pays_of_can_contract {C : Crypto} {s : MultiSig} (hs : ContractShape C s) {u : Unspent}
    (h : (Signer.multi s).canSignUnspent C u = .ok true) : PaysContract C s u := (can_iff_pays_contract hs h u).mp h

theorem owns_of_mine {C : Crypto} {k : PrivKey} (hk : KeyLaws C k) {u : Unspent} {i : Spec.TxInput} (hi : i.WF)
    (h : Mine C (.single k) (Spec.TxInput.outpoint i) u) : OwnsKey C k u i :=
  ⟨pays_of_can hk h.1, (outpoint_names hi).mp h.2⟩

theorem owns_of_mine_contract {C : Crypto} {s : MultiSig} (hs : ContractShape C s) {u : Unspent} {i : Spec.TxInput}
    (hi : i.WF) (h : Mine C (.multi s) (Spec.TxInput.outpoint i) u) : OwnsContract C s u i :=
  ⟨pays_of_can_contract hs h.1, (outpoint_names hi).mp h.2⟩

theorem mine_of_owns {C : Crypto} {k : PrivKey} (hk : KeyLaws C k) {us : List Unspent} {d0 d : List (Bytes × Unspent)}
    (hd : inputDict C (.single k) us d0 = .ok d) {u : Unspent} (hu : u ∈ us) {i : Spec.TxInput} (hi : i.WF)
    (h : OwnsKey C k u i) : Mine C (.single k) (Spec.TxInput.outpoint i) u := by
  obtain ⟨b, hb⟩ := inputDict_can hd u hu
  exact ⟨(can_iff_pays hk hb u).mpr h.1, (outpoint_names hi).mpr h.2⟩

theorem mine_of_owns_contract {C : Crypto} {s : MultiSig} (hs : ContractShape C s) {us : List Unspent}
    {d0 d : List (Bytes × Unspent)} (hd : inputDict C (.multi s) us d0 = .ok d) {u : Unspent} (hu : u ∈ us)
    {i : Spec.TxInput} (hi : i.WF) (h : OwnsContract C s u i) :
    Mine C (.multi s) (Spec.TxInput.outpoint i) u := by
  obtain ⟨b, hb⟩ := inputDict_can hd u hu
  exact ⟨(can_iff_pays_contract hs hb u).mpr h.1, (outpoint_names hi).mpr h.2⟩

end Bit
