import Verif.Lemmas.SignTwice
import Verif.Props.Sign
/-
Properties C47-C49: signing for a multi-signature contract.
-/
namespace Bit

/-- The co-signers `ks` of a contract sign one after the other, each getting the text the previous one
returned. -/
def cosign (C : Crypto) (s : MultiSig) (us : List Unspent) : List PrivKey → Str → Py Str
  | [], tx => .ok tx
  | k :: ks, tx =>
    match signTransactionHex C (.multi { s with key := k }) tx us with
    | .error e => .error e
    | .ok tx => cosign C s us ks tx

/-- The outputs described by the unspents of the contract are of the kind the unspents say. -/
def ContractFits (C : Crypto) (s : MultiSig) (u : Unspent) : Prop :=
  (u.isSegwit = false ∧
    u.script = bytesToHex (Spec.p2shScript (C.ripemd160 (C.sha256 s.redeemscript)))) ∨
  (u.isSegwit = true ∧ u.script = bytesToHex (Spec.p2shScript
    (C.ripemd160 (C.sha256 (Spec.witnessScript 0 (C.sha256 s.redeemscript))))))

/-- The inputs of the contract are not signed yet. -/
def Unsigned (C : Crypto) (s : MultiSig) (us : List Unspent) (t : Spec.Tx) : Prop :=
  ∀ i ∈ t.inputs, ∀ u ∈ us, OwnsContract C s u i → i.script = [] ∧ i.witness = []

theorem Unsigned.fresh {C : Crypto} {s : MultiSig} {us : List Unspent} {t : Spec.Tx} (h : Unsigned C s us t)
    (hs : ContractLaws C s) (hwf : t.WF) : Fresh C s us t := by
  intro i hi u hu
  obtain ⟨h1, h2⟩ := chosen_mem hu
  obtain ⟨h3, h4⟩ := h i hi u h1 (owns_of_mine_contract hs.toContractShape (hwf.input i hi) h2)
  split
  · exact h4
  · exact h3

/-- The signatures of the keys `ks` for the inputs of the contract cannot be mistaken for those of another key of the
contract: for the message of such an input, no signature of one of `ks` verifies under a different key, and no
part of the contract's script is itself a signature by one of the contract's keys. -/
def NoMixup (C : Crypto) (s : MultiSig) (ks : List PrivKey) (us : List Unspent) (t : Spec.Tx) : Prop :=
  ∀ (j : Nat) (i : Spec.TxInput) (u : Unspent), t.inputs[j]? = some i → u ∈ us → OwnsContract C s u i →
    ∀ (p data : Bytes), p ∈ s.publicKeys →
      data = C.sha256 (if u.isSegwit then Spec.segwitMessage C.doubleSha256 t i s.redeemscript u.amount.toNat
        else Spec.legacyMessage t j s.redeemscript) →
      (∀ k ∈ ks, C.verify (C.sign k.secret data) data p = true → p = k.publicKey C) ∧
      ∀ b, b <:+: s.redeemscript → C.isDer b = true → C.verify b data p = false

theorem NoMixup.apart {C : Crypto} {s : MultiSig} {ks : List PrivKey} {us : List Unspent} {t : Spec.Tx}
    (h : NoMixup C s ks us t) (hs : ContractLaws C s) (hwf : t.WF) : AllApart C s ks us t := by
  intro j i u hi hu
  obtain ⟨h1, h2⟩ := chosen_mem hu
  have := h j i u hi h1 (owns_of_mine_contract hs.toContractShape (hwf.input i (List.mem_of_getElem? hi)) h2)
  exact ⟨fun k hk p hp => (this p _ hp rfl).1 k hk, fun b hb hd p hp => (this p _ hp rfl).2 b hb hd⟩

theorem cosign_iff {C : Crypto} {s : MultiSig} (hs : ContractLaws C s) {us : List Unspent} {w : Bool}
    (hw : w = true ∨ ∀ u ∈ us, u.isSegwit = false) {t : Spec.Tx} (hwf : t.WF) (hfr : Fresh C s us t) {r : Str} :
    ∀ (ks done : List PrivKey), (∀ a ∈ ks, SignerLaws C s a) → (∀ a ∈ done, SignerLaws C s a) →
      AllApart C s (ks ++ done) us t →
      ((ks ++ done).map fun k => k.publicKey C).Nodup → ((ks.length + done.length : Nat) : Int) ≤ s.m →
      (cosign C s us ks (bytesToHex (enc w (multiTx C s done us t))) = .ok r ↔
        (ks = [] ∨ MultiSignable C s us t) ∧ r = bytesToHex (enc w (multiTx C s (ks.reverse ++ done) us t)))
  | [], done, _, _, _, _, _ => by
    rw [cosign]
    simp [eq_comm]
  | k :: ks, done, h1, h2, hap, h3, h4 => by
    rw [List.length_cons] at h4
    have hk := h1 k List.mem_cons_self
    have h3' : ((ks ++ (k :: done)).map fun k => k.publicKey C).Nodup := by
      refine ((List.Perm.map _ ?_).nodup_iff).mp h3
      exact (List.perm_middle).symm
    have hnd : ((k :: done).map fun k => k.publicKey C).Nodup := by
      rw [List.map_append] at h3'
      exact (List.nodup_append.mp h3').2.1
    have ih := cosign_iff hs hw hwf hfr (r := r) ks (k :: done) (fun a ha => h1 a (List.mem_cons_of_mem _ ha))
      (by
        intro a ha
        rcases List.mem_cons.mp ha with rfl | ha
        · exact hk
        · exact h2 a ha) (hap.mono (by intro a ha; simp at ha ⊢; tauto)) h3' (by rw [List.length_cons]; push_cast at h4 ⊢; omega)
    have hstep := fun r' => multi_sign_hex hs h2 hk hnd (by push_cast at h4; omega) hw hwf hfr
      (fun _ => hap.mono (by intro a ha; simp; tauto)) (r := r')
    rw [cosign, List.reverse_cons, List.append_assoc, List.singleton_append]
    cases hsg : signTransactionHex C (.multi { s with key := k }) (bytesToHex (enc w (multiTx C s done us t))) us with
    | error e =>
      dsimp only
      simp only [reduceCtorEq, false_iff, not_and, List.cons_ne_nil, false_or]
      intro hm
      have := (hstep _).mpr ⟨hm, rfl⟩
      rw [hsg] at this
      cases this
    | ok r' =>
      obtain ⟨hm, rfl⟩ := (hstep r').mp hsg
      dsimp only
      rw [ih]
      simp [hm]

/-- C47. The co-signers of a contract sign a transaction one after the other, each getting the text the
previous one returned. If that works in one order, it works in every other order and gives the same text.
(At most `m` of them, with different keys.) -/
theorem C47_order_irrelevant (C : Crypto) (s : MultiSig) (hs : ContractLaws C s) (us : List Unspent) (w : Bool)
    (t : Spec.Tx) (hwf : t.WF) (hw : w = true ∨ ∀ u ∈ us, u.isSegwit = false) (hun : Unsigned C s us t)
    (ks ks' : List PrivKey) (hks : ∀ k ∈ ks, SignerLaws C s k)
    (hap : NoMixup C s ks us t) (hdiff : (ks.map fun k => k.publicKey C).Nodup) (hm : (ks.length : Int) ≤ s.m) (hperm : ks.Perm ks') (r : Str)
    (h : cosign C s us ks (bytesToHex (if w then t.encodeExtended else t.encodeLegacy)) = .ok r) :
    cosign C s us ks' (bytesToHex (if w then t.encodeExtended else t.encodeLegacy)) = .ok r := by
  have hnil : t = multiTx C s [] us t := (multiTx_nil C s us t).symm
  have he : bytesToHex (if w then t.encodeExtended else t.encodeLegacy) =
      bytesToHex (enc w (multiTx C s [] us t)) := by rw [← hnil]; rfl
  rw [he] at h ⊢
  obtain ⟨h1, h2⟩ := (cosign_iff hs hw hwf (hun.fresh hs hwf) ks [] hks (by simp)
    (by rw [List.append_nil]; exact hap.apart hs hwf) (by simpa using hdiff)
    (by simpa using hm)).mp h
  refine (cosign_iff hs hw hwf (hun.fresh hs hwf) ks' [] (fun a ha => hks a (hperm.mem_iff.mpr ha)) (by simp)
    ((hap.apart hs hwf).mono (by intro a ha; rw [List.append_nil] at ha; exact hperm.mem_iff.mpr ha)) ?_
    (by rw [← hperm.length_eq]; simpa using hm)).mpr ⟨?_, ?_⟩
  · rw [List.append_nil]
    exact (hperm.map _).nodup_iff.mp hdiff
  · refine h1.imp ?_ id
    intro h
    subst h
    exact hperm.nil_eq.symm
  · rw [h2, List.append_nil, List.append_nil]
    congr 2
    apply multiTx_perm
    · exact (List.reverse_perm ks).trans (hperm.trans (List.reverse_perm ks').symm)
    · exact (((List.reverse_perm ks).map _).nodup_iff).mpr hdiff

/-! ## C48 -/

theorem parsePushes_items : ∀ (items : List Bytes) (n : Nat) (rest : Bytes), (∀ b ∈ items, b.length ≤ 75) →
    Spec.parsePushes (items.length + n) (items.flatMap Spec.varBytes ++ rest) =
      (items ++ (Spec.parsePushes n rest).1, (Spec.parsePushes n rest).2)
  | [], n, rest, _ => by simp
  | b :: items, n, rest, h => by
    have hb := h b List.mem_cons_self
    have e : (b :: items).flatMap Spec.varBytes ++ rest =
        UInt8.ofNat b.length :: (b ++ (items.flatMap Spec.varBytes ++ rest)) := by
      rw [List.flatMap_cons, Spec.varBytes, compact_small (by omega)]
      simp
    have hp : Spec.parsePush (UInt8.ofNat b.length :: (b ++ (items.flatMap Spec.varBytes ++ rest))) =
        some (b, items.flatMap Spec.varBytes ++ rest) := by
      have h : (UInt8.ofNat b.length).toNat = b.length := u8_ofNat_toNat _ (by omega)
      rw [Spec.parsePush, h, if_pos hb]
      exact splitOff_append b _
    rw [e, List.length_cons, show items.length + 1 + n = (items.length + n) + 1 by omega, Spec.parsePushes, hp]
    dsimp only
    rw [parsePushes_items items n rest fun c hc => h c (List.mem_cons_of_mem _ hc)]
    rfl

theorem sigsFor_ok {C : Crypto} {s : MultiSig} {done : List PrivKey} 
    (hd : ∀ k ∈ done, SignerLaws C s k) (msg : Bytes) :
    List.Forall₂ (fun sig key => Spec.SigOk C.hashing msg sig key) (sigsFor C s done (C.sha256 msg))
      (s.publicKeys.filter fun p => p ∈ done.map fun k => k.publicKey C) := by
  unfold sigsFor
  rw [List.forall₂_map_left_iff, List.forall₂_same]
  intro p hp
  rw [List.mem_filter] at hp
  obtain ⟨k, hk, hkp, he⟩ := sigOf_mem (d := C.sha256 msg) (by simpa using hp.2)
  rw [he]
  exact ⟨_, rfl, (hd k hk).len _, hkp ▸ (hd k hk).verify _⟩

theorem multisigOk {C : Crypto} {s : MultiSig} {done : List PrivKey} (hs : ContractLaws C s)
    (hd : ∀ k ∈ done, SignerLaws C s k) (hn : (done.map fun k => k.publicKey C).Nodup)
    (hlen : (done.length : Int) = s.m) (msg : Bytes) :
    Spec.MultisigOk C.hashing msg s.redeemscript (sigsFor C s done (C.sha256 msg)) := by
  obtain ⟨-, hrl, -, -, hp⟩ := redeem_head hs
  refine ⟨s.m.toNat, s.publicKeys, s.publicKeys.length,
    s.publicKeys.filter fun p => p ∈ done.map fun k => k.publicKey C, hp, rfl, ?_, hrl, List.filter_sublist,
    sigsFor_ok hd msg⟩
  rw [sigsFor_length hs.nodup hn fun k hk => (hd k hk).mem]
  omega

theorem multiInput_spends {C : Crypto} {s : MultiSig} {done : List PrivKey} (hs : ContractLaws C s)
    (hd : ∀ k ∈ done, SignerLaws C s k) (hn : (done.map fun k => k.publicKey C).Nodup)
    (hlen : (done.length : Int) = s.m) {t t' : Spec.Tx} (hsk : Spec.SameSkeleton t t') {j : Nat} {u : Unspent}
    {i : Spec.TxInput} (hf : ContractFits C s u) :
    ∃ script, u.script = bytesToHex script ∧
      Spec.Spends C.hashing t' j (multiInput C s done t j u i) script u.amount.toNat := by
  have hpos := hs.pos
  obtain ⟨-, hrl, -⟩ := redeem_head hs
  obtain ⟨f1, f2, f3⟩ := multiInput_fields C s done t j u i
  have hne : done ≠ [] := by
    intro h
    subst h
    simp at hlen
    omega
  rcases hf with ⟨hseg, hscr⟩ | ⟨hseg, hscr⟩
  · refine ⟨_, hscr, Or.inr (Or.inr (Or.inl ?_))⟩
    have hdig : digest C t j i s.redeemscript u.isSegwit u.amount.toNat =
        C.sha256 (Spec.legacyMessage t j s.redeemscript) := by
      unfold digest
      rw [hseg, if_neg Bool.false_ne_true]
    have hpad : padding C s done.length = 0 := by
      unfold padding
      split
      · rfl
      · omega
    have hmi : multiInput C s done t j u i = { i with
        script := [0x00] ++ (sigsFor C s done (C.sha256 (Spec.legacyMessage t j s.redeemscript))).flatMap
          Spec.varBytes ++ pushPrefix s.redeemscript.length ++ s.redeemscript
        witness := [] } := by
      unfold multiInput
      dsimp only
      rw [if_neg hne, if_neg (by rw [hseg]; simp), hdig, hpad]
      simp
    refine ⟨sigsFor C s done (C.sha256 (Spec.legacyMessage t j s.redeemscript)), s.redeemscript, ?_, rfl, ?_, ?_⟩
    · rw [hmi]
      dsimp only
      obtain ⟨p, hp, hpp⟩ := C14_script_push_parses s.redeemscript [] (lt_of_le_of_lt hrl (by norm_num))
      have hpe : pushPrefix s.redeemscript.length = p := by
        rw [pushPrefix, hp]
      have hlast : Spec.parsePushes 1 (pushPrefix s.redeemscript.length ++ s.redeemscript) = ([s.redeemscript], []) := by
        rw [List.append_nil] at hpp
        rw [hpe, Spec.parsePushes, hpp]
        rfl
      have hz : [0x00] ++ (sigsFor C s done (C.sha256 (Spec.legacyMessage t j s.redeemscript))).flatMap
          Spec.varBytes ++ pushPrefix s.redeemscript.length ++ s.redeemscript =
          ([] :: sigsFor C s done (C.sha256 (Spec.legacyMessage t j s.redeemscript))).flatMap Spec.varBytes ++
            (pushPrefix s.redeemscript.length ++ s.redeemscript) := by
        rw [List.flatMap_cons]
        simp [Spec.varBytes, show Spec.compact 0 = [0x00] by decide]
      have := parsePushes_items ([] :: sigsFor C s done (C.sha256 (Spec.legacyMessage t j s.redeemscript))) 1
        (pushPrefix s.redeemscript.length ++ s.redeemscript) (by
          intro b hb
          rcases List.mem_cons.mp hb with rfl | hb
          · simp
          · have := sigsFor_item hd b hb; omega)
      rw [hz, show (sigsFor C s done (C.sha256 (Spec.legacyMessage t j s.redeemscript))).length + 2 =
        ([] :: sigsFor C s done (C.sha256 (Spec.legacyMessage t j s.redeemscript))).length + 1 by simp, this, hlast]
    · rw [skeleton_legacy hsk]
      exact multisigOk hs hd hn hlen _
    · rw [hmi]
  · refine ⟨_, hscr, Or.inr (Or.inr (Or.inr ?_))⟩
    have hdig : digest C t j i s.redeemscript u.isSegwit u.amount.toNat =
        C.sha256 (Spec.segwitMessage C.doubleSha256 t i s.redeemscript u.amount.toNat) := by
      unfold digest
      rw [hseg, if_pos rfl]
    have hmi : multiInput C s done t j u i = { i with
        script := [0x22] ++ Spec.witnessScript 0 (C.sha256 s.redeemscript)
        witness := [] :: sigsFor C s done (C.sha256 (Spec.segwitMessage C.doubleSha256 t i s.redeemscript
          u.amount.toNat)) ++ [s.redeemscript] } := by
      unfold multiInput
      dsimp only
      rw [if_neg hne, if_pos hseg, hdig, show s.m.toNat - done.length = 0 by omega]
      simp
    have h32 : (C.sha256 s.redeemscript).length = 32 := hs.hash.sha256_length _
    refine ⟨sigsFor C s done (C.sha256 (Spec.segwitMessage C.doubleSha256 t i s.redeemscript u.amount.toNat)),
      s.redeemscript, Spec.witnessScript 0 (C.sha256 s.redeemscript), ?_, rfl, rfl, ?_, ?_⟩
    · rw [hmi]
      dsimp only
      have hwl : (Spec.witnessScript 0 (C.sha256 s.redeemscript)).length = 34 := by
        simp [Spec.witnessScript, h32]
      rw [hwl]
      rfl
    · rw [hmi]
    · rw [skeleton_segwit hsk f1 f2 f3]
      exact multisigOk hs hd hn hlen _

theorem complete_spends (C : Crypto) (s : MultiSig) (hs : ContractLaws C s) (us : List Unspent) (w : Bool)
    (t : Spec.Tx) (hwf : t.WF) (hw : w = true ∨ ∀ u ∈ us, u.isSegwit = false) (hun : Unsigned C s us t)
    (hfit : ∀ u ∈ us, PaysContract C s u → ContractFits C s u)
    (ks : List PrivKey) (hks : ∀ k ∈ ks, SignerLaws C s k)
    (hap : NoMixup C s ks us t) (hdiff : (ks.map fun k => k.publicKey C).Nodup) (hm : (ks.length : Int) = s.m) (r : Str)
    (h : cosign C s us ks (bytesToHex (if w then t.encodeExtended else t.encodeLegacy)) = .ok r) :
    ∃ t', t'.WF ∧ Spec.SameSkeleton t t' ∧ r = bytesToHex (if w then t'.encodeExtended else t'.encodeLegacy) ∧
      ∀ (j : Nat) (i i' : Spec.TxInput), t.inputs[j]? = some i → t'.inputs[j]? = some i' →
        ((∀ u ∈ us, ¬ OwnsContract C s u i) ∧ i' = i) ∨
        ∃ u ∈ us, OwnsContract C s u i ∧ ∃ script, u.script = bytesToHex script ∧
          Spec.Spends C.hashing t' j i' script u.amount.toNat ∧ i' = multiInput C s ks.reverse t j u i := by
  have hnil : t = multiTx C s [] us t := (multiTx_nil C s us t).symm
  have he : bytesToHex (if w then t.encodeExtended else t.encodeLegacy) =
      bytesToHex (enc w (multiTx C s [] us t)) := by rw [← hnil]; rfl
  rw [he] at h
  obtain ⟨h1, h2⟩ := (cosign_iff hs hw hwf (hun.fresh hs hwf) ks [] hks (by simp)
    (by rw [List.append_nil]; exact hap.apart hs hwf) (by simpa using hdiff)
    (by simpa using hm.le)).mp h
  rw [List.append_nil] at h2
  have hkr : ∀ k ∈ ks.reverse, SignerLaws C s k := fun k hk => hks k (List.mem_reverse.mp hk)
  have hapr := (hap.apart hs hwf).mono (ks' := ks.reverse) fun k hk => List.mem_reverse.mp hk
  have hdr : ((ks.reverse).map fun k => k.publicKey C).Nodup :=
    (((List.reverse_perm ks).map _).nodup_iff).mpr hdiff
  have hpos := hs.pos
  have hms : MultiSignable C s us t := by
    refine h1.resolve_left ?_
    intro h
    subst h
    simp at hm
    omega
  refine ⟨multiTx C s ks.reverse us t, multiTx_wf hs hkr hwf, multiTx_skeleton C s ks.reverse us t, h2, ?_⟩
  obtain ⟨d, hd⟩ := hms.dict
  intro j i i' hi hi'
  have hg := multiTx_get (C := C) (s := s) (done := ks.reverse) (us := us) (t := t) (j := j)
  rw [hi, Option.map_some] at hg
  cases hc : chosen C (.multi s) us (Spec.TxInput.outpoint i) with
  | none =>
    rw [hc] at hg
    dsimp only at hg
    rw [hg] at hi'
    injection hi' with hi'
    exact Or.inl ⟨fun u hu hmu => (chosen_none hd).mp hc u hu
      (mine_of_owns_contract hs.toContractShape hd hu (hwf.input i (List.mem_of_getElem? hi)) hmu), hi'.symm⟩
  | some u =>
    rw [hc] at hg
    dsimp only at hg
    obtain ⟨hu, hmine⟩ := chosen_mem hc
    have hmine := owns_of_mine_contract hs.toContractShape (hwf.input i (List.mem_of_getElem? hi)) hmine
    have hsp := multiInput_spends hs hkr hdr (by rw [List.length_reverse]; exact hm)
      (multiTx_skeleton C s ks.reverse us t) (j := j) (i := i) (hfit u hu hmine.1)
    rw [hg] at hi'
    injection hi' with hi'
    rw [← hi']
    obtain ⟨script, e, hsp⟩ := hsp
    exact Or.inr ⟨u, hu, hmine, script, e, hsp, rfl⟩

/-- C48. If `m` co-signers with different keys signed an unsigned transaction, one after the other, the
result is the wire encoding of a transaction that differs only in scripts and witnesses of inputs. An input
whose outpoint is not among the given unspents of the contract is as before. Every other input now spends, by
the rules of the script interpreter, the output described by one of these unspents: an empty item, exactly `m`
signatures in the order of the keys, each valid for the message of that input, and the redeem script. -/
theorem C48_complete (C : Crypto) (s : MultiSig) (hs : ContractLaws C s) (us : List Unspent) (w : Bool)
    (t : Spec.Tx) (hwf : t.WF) (hw : w = true ∨ ∀ u ∈ us, u.isSegwit = false) (hun : Unsigned C s us t)
    (hfit : ∀ u ∈ us, PaysContract C s u → ContractFits C s u)
    (ks : List PrivKey) (hks : ∀ k ∈ ks, SignerLaws C s k)
    (hap : NoMixup C s ks us t) (hdiff : (ks.map fun k => k.publicKey C).Nodup) (hm : (ks.length : Int) = s.m) (r : Str)
    (h : cosign C s us ks (bytesToHex (if w then t.encodeExtended else t.encodeLegacy)) = .ok r) :
    ∃ t', t'.WF ∧ Spec.SameSkeleton t t' ∧ r = bytesToHex (if w then t'.encodeExtended else t'.encodeLegacy) ∧
      ∀ (j : Nat) (i i' : Spec.TxInput), t.inputs[j]? = some i → t'.inputs[j]? = some i' →
        ((∀ u ∈ us, ¬ OwnsContract C s u i) ∧ i' = i) ∨
        ∃ u ∈ us, OwnsContract C s u i ∧ ∃ script, u.script = bytesToHex script ∧
          Spec.Spends C.hashing t' j i' script u.amount.toNat := by
  obtain ⟨t', h1, h2, h3, h4⟩ := complete_spends C s hs us w t hwf hw hun hfit ks hks hap hdiff hm r h
  refine ⟨t', h1, h2, h3, fun j i i' hi hi' => (h4 j i i' hi hi').imp_right ?_⟩
  rintro ⟨u, hu, ho, script, e, hsp, -⟩
  exact ⟨u, hu, ho, script, e, hsp⟩

/-! ### refusal of a further signature -/

/-- With `m` signatures found, `ValueError`, whatever the key. -/
theorem signMulti_full {C : Crypto} {s : MultiSig} {done : List PrivKey} {d field : Bytes}
    (hs : ContractLaws C s) (hd : ∀ a ∈ done, SignerLaws C s a) (hap : Apart C s done d) (k : PrivKey) (w sg : Bool)
    (hne : field.isEmpty = false) {extra : List Bytes}
    (hextra : ∀ b ∈ extra, ∀ p ∈ s.publicKeys, C.verify (dropLast' b 1) d p = false)
    (hr : getSignaturesFromScript C.isDer field = .ok (sigsFor C s done d ++ extra))
    (hm : s.m ≤ (sigsFor C s done d).length) :
    signMulti C { s with key := k } w sg d field = .error .valueError := by
  unfold signMulti
  dsimp only
  rw [hne, if_neg (by simp), hr]
  dsimp only
  rw [hs.noBadPoint, if_neg Bool.false_ne_true, matchSigs_done hs hd hap.1 hextra]
  have hlen : (((s.publicKeys.filter fun p => p ∈ done.map fun k => k.publicKey C).map
        fun p => (p, sigOf C done d p)).reverse).length = (sigsFor C s done d).length := by
    simp [sigsFor]
  rw [hlen, if_pos hm]

/-- The result of the first loop for an input to sign. -/
theorem prepared_some {C : Crypto} {s : Signer} {d : List (Bytes × Unspent)} {Y : TxObj} {t : Spec.Tx}
    (hY : Skel Y t) (hi : t.inputs.length < 2 ^ 64) (ho : t.outputs.length < 2 ^ 64)
    {k : Nat} {x : TxIn} {p : Prepared} {ti : Spec.TxInput} (hti : t.inputs[k]? = some ti)
    (hp : prepareInput C s d x = .ok p) (hk : Y.ins[k]? = some p.input) {u : Unspent}
    (hl : d.lookup (x.txid ++ x.txindex) = some u) :
    ∃ sc, s.scriptcode C = .ok (some sc) ∧ p.sign = some u.isSegwit ∧
      p.field = (if u.isSegwit then x.witness else x.scriptSig) ∧
      preimage C Y k hashTypeAll u.isSegwit = .ok (digest C t k ti sc u.isSegwit u.amount.toNat) := by
  unfold prepareInput at hp
  rw [hl] at hp
  dsimp only at hp
  cases hs : s.scriptcode C with
  | error e => rw [hs] at hp; cases hp
  | ok o =>
    rw [hs] at hp
    cases o with
    | none => cases hp
    | some sc =>
      dsimp only at hp
      cases hv : intToVarint sc.length with
      | error e => rw [hv] at hp; cases hp
      | ok l =>
        rw [hv] at hp
        dsimp only at hp
        obtain ⟨hscl, rfl⟩ := intToVarint_ok hv
        cases hsg : u.segwit.getD false with
        | true =>
          have hseg : u.isSegwit = true := hsg
          rw [hsg, if_pos rfl] at hp
          cases ha : toBytesLE u.amount 8 with
          | error e => rw [ha] at hp; cases hp
          | ok a =>
            rw [ha] at hp
            injection hp with hp
            obtain ⟨h1, h2, h3⟩ := toBytesLE_eq_ok ha
            have hpre := preimage_segwit (C := C) (sc := sc) (amount := u.amount.toNat) hY hi ho hk hti
              (by rw [← hp, h3, leEncode_eq]) (by rw [← hp])
            subst hp
            refine ⟨sc, rfl, by rw [hseg], by rw [hseg, if_pos rfl], ?_⟩
            rw [hseg, hpre]
            unfold digest
            rw [if_pos rfl]
        | false =>
          have hseg : u.isSegwit = false := hsg
          rw [hsg, if_neg (by simp)] at hp
          injection hp with hp
          have hpre := preimage_legacy (C := C) (sc := sc) hY hi ho hk (by rw [← hp]) (by rw [← hp])
          subst hp
          refine ⟨sc, rfl, by rw [hseg], by rw [hseg, if_neg Bool.false_ne_true], ?_⟩
          rw [hseg, hpre]
          unfold digest
          rw [if_neg Bool.false_ne_true]

theorem finish_error {C : Crypto} {s : Signer} {segwitTx : Bool} {Y : TxObj} {e : PyErr} :
    ∀ (ps : List Prepared) (k : Nat),
      (∀ (j : Nat) (p : Prepared) (sg : Bool), ps[j]? = some p → p.sign = some sg →
        ∃ h, preimage C Y (k + j) hashTypeAll sg = .ok h ∧
          signInput C s segwitTx sg h p.field p.input = .error e) →
      ∃ hs, calculatePreimages C Y (inputsParameters k ps) = .ok hs ∧
        ((∃ p ∈ ps, p.sign ≠ none) → signInputs C s segwitTx ps hs = .error e)
  | [], _, _ => ⟨[], rfl, by simp⟩
  | p :: ps, k, h => by
    obtain ⟨hs, h1, h2⟩ := finish_error ps (k + 1) (by
      intro j q sg hj hq
      have := h (j + 1) q sg (by simpa using hj) hq
      rwa [show k + (j + 1) = k + 1 + j by omega] at this)
    cases hp : p.sign with
    | none =>
      have e1 : inputsParameters k (p :: ps) = inputsParameters (k + 1) ps := by
        rw [inputsParameters, hp]
      refine ⟨hs, by rw [e1, h1], ?_⟩
      rintro ⟨q, hq, hqs⟩
      rcases List.mem_cons.mp hq with rfl | hq
      · exact absurd hp hqs
      · rw [signInputs, hp]
        dsimp only
        rw [h2 ⟨q, hq, hqs⟩]
    | some sg =>
      have e1 : inputsParameters k (p :: ps) = (k, hashTypeAll, sg) :: inputsParameters (k + 1) ps := by
        rw [inputsParameters, hp]
      obtain ⟨hh, h3, h4⟩ := h 0 p sg rfl hp
      rw [Nat.add_zero] at h3
      refine ⟨hh :: hs, by rw [e1, calculatePreimages, h3, h1], ?_⟩
      intro _
      rw [signInputs, hp]
      dsimp only
      rw [h4]

/-- If every input to sign is refused with the same exception, and there is one, signing is. -/
theorem signTxObj_error {C : Crypto} {s : Signer} {x : TxObj} {us : List Unspent} {t : Spec.Tx}
    (hx : Skel x t) (hi : t.inputs.length < 2 ^ 64) (ho : t.outputs.length < 2 ^ 64)
    {d : List (Bytes × Unspent)} (hd : inputDict C s us [] = .ok d) {w : Bool} (hw : x.isSegwit = .ok w)
    {sc : Bytes} (hsc : s.scriptcode C = .ok (some sc)) (hscl : sc.length < 2 ^ 64) {e : PyErr}
    (ham : ∀ (j : Nat) (xj : TxIn) (ti : Spec.TxInput) (u : Unspent), x.ins[j]? = some xj →
      t.inputs[j]? = some ti → d.lookup (xj.txid ++ xj.txindex) = some u →
      (u.isSegwit = true → 0 ≤ u.amount ∧ u.amount < 2 ^ 64) ∧
      signBytes C s w u.isSegwit (digest C t j ti sc u.isSegwit u.amount.toNat)
        (if u.isSegwit then xj.witness else xj.scriptSig) = .error e)
    (hone : ∃ xj ∈ x.ins, d.lookup (xj.txid ++ xj.txindex) ≠ none) :
    signTxObj C s x us = .error e := by
  have hprep : ∀ xj ∈ x.ins, ∃ p, prepareInput C s d xj = .ok p := by
    intro xj hm
    obtain ⟨j, hj⟩ := List.mem_iff_getElem?.mp hm
    obtain ⟨ti, hti⟩ := get_of_length hx.inputs.length_eq hj
    unfold prepareInput
    cases hl : d.lookup (xj.txid ++ xj.txindex) with
    | none => exact ⟨_, rfl⟩
    | some u =>
      dsimp only
      rw [hsc]
      dsimp only
      rw [intToVarint_compact hscl]
      dsimp only
      split
      · rename_i hs
        obtain ⟨h4, h5⟩ := (ham j xj ti u hj hti hl).1 hs
        have : toBytesLE u.amount 8 = .ok (leBytes 8 u.amount.toNat) := by
          unfold toBytesLE
          rw [if_pos ⟨h4, by norm_num; omega⟩]
        rw [this]
        exact ⟨_, rfl⟩
      · exact ⟨_, rfl⟩
  have hall : ∀ (l : List TxIn), (∀ y ∈ l, ∃ p, prepareInput C s d y = .ok p) →
      ∃ ps, prepareInputs C s d l = .ok ps := by
    intro l
    induction l with
    | nil => intro _; exact ⟨[], rfl⟩
    | cons a l ih =>
      intro h
      obtain ⟨p, hp⟩ := h a List.mem_cons_self
      obtain ⟨ps, hps⟩ := ih fun y hy => h y (List.mem_cons_of_mem _ hy)
      exact ⟨p :: ps, by rw [prepareInputs, hp, hps]⟩
  obtain ⟨ps, hps⟩ := hall x.ins hprep
  have hps' := prepareInputs_iff.mp hps
  have hp := forall₂_iff_get.mp hps'
  have hskel : Skel { x with ins := ps.map Prepared.input } t := by
    refine ⟨hx.version, ?_, hx.outputs, hx.lockTime⟩
    dsimp only
    have h2 := forall₂_iff_get.mp hx.inputs
    refine forall₂_iff_get.mpr ⟨by rw [List.length_map, ← hp.1, h2.1], ?_⟩
    intro k y z hy hz
    rw [List.getElem?_map, Option.map_eq_some_iff] at hy
    obtain ⟨p, hpk, rfl⟩ := hy
    obtain ⟨xk, hxk⟩ := get_of_length hp.1.symm hpk
    obtain ⟨e1, e2, e3⟩ := prepareInput_skel (hp.2 k xk p hxk hpk)
    have := h2.2 k xk z hxk hz
    exact ⟨e1.trans this.txid, e2.trans this.txindex, e3.trans this.sequence⟩
  have hsign : ∀ (j : Nat) (xj : TxIn) (p : Prepared), x.ins[j]? = some xj → ps[j]? = some p →
      (d.lookup (xj.txid ++ xj.txindex) = none ↔ p.sign = none) := by
    intro j xj p hxj hpj
    obtain ⟨ti, hti⟩ := get_of_length hx.inputs.length_eq hxj
    have hpp := hp.2 j xj p hxj hpj
    cases hl : d.lookup (xj.txid ++ xj.txindex) with
    | none =>
      unfold prepareInput at hpp
      rw [hl] at hpp
      injection hpp with hpp
      subst hpp
      simp
    | some u =>
      obtain ⟨_, -, h2, -⟩ := prepared_some hskel hi ho hti hpp (by
        dsimp only; rw [List.getElem?_map, hpj]; rfl) hl
      rw [h2]
      simp
  obtain ⟨hs, h1, h2⟩ := finish_error (C := C) (s := s) (segwitTx := w)
    (Y := { x with ins := ps.map Prepared.input }) (e := e) ps 0 (by
      intro j p sg hpj hsg
      obtain ⟨xj, hxj⟩ := get_of_length hp.1.symm hpj
      obtain ⟨ti, hti⟩ := get_of_length hx.inputs.length_eq hxj
      cases hl : d.lookup (xj.txid ++ xj.txindex) with
      | none => rw [(hsign j xj p hxj hpj).mp hl] at hsg; cases hsg
      | some u =>
        obtain ⟨sc', h1, h2, h3, h4⟩ := prepared_some hskel hi ho hti (hp.2 j xj p hxj hpj) (by
          dsimp only; rw [List.getElem?_map, hpj]; rfl) hl
        rw [hsc] at h1
        injection h1 with h1
        injection h1 with h1
        subst h1
        rw [h2] at hsg
        injection hsg with hsg
        subst hsg
        refine ⟨_, by rw [Nat.zero_add]; exact h4, ?_⟩
        unfold signInput
        rw [h3, (ham j xj ti u hxj hti hl).2])
  unfold signTxObj
  rw [hd]
  dsimp only
  rw [hw]
  dsimp only
  rw [hps]
  dsimp only
  rw [h1]
  dsimp only
  rw [h2]
  obtain ⟨xj, hm, hne⟩ := hone
  obtain ⟨j, hj⟩ := List.mem_iff_getElem?.mp hm
  obtain ⟨p, hpj⟩ := get_of_length hp.1 hj
  exact ⟨p, List.mem_of_getElem? hpj, fun hc => hne ((hsign j xj p hj hpj).mpr hc)⟩

/-- The signatures in an input are found again. -/
theorem multi_read {C : Crypto} {s : MultiSig} {done : List PrivKey} (hs : ContractLaws C s)
    (hd : ∀ a ∈ done, SignerLaws C s a) (hn : (done.map fun k => k.publicKey C).Nodup) (hne : done ≠ [])
    (hle : (done.length : Int) ≤ s.m) {w : Bool} {t : Spec.Tx} {j : Nat} {u : Unspent} {i : Spec.TxInput} {x : TxIn}
    (hw : u.isSegwit = true → w = true) (hx : InRepresents w x (multiInput C s done t j u i)) :
    getSignaturesFromScript C.isDer (if u.isSegwit then x.witness else x.scriptSig) =
      .ok (sigsFor C s done (digest C t j i s.redeemscript u.isSegwit u.amount.toNat) ++
        if u.isSegwit then [] else strays C s) ∧
    (if u.isSegwit then x.witness else x.scriptSig).isEmpty = false ∧
    (sigsFor C s done (digest C t j i s.redeemscript u.isSegwit u.amount.toNat)).length = done.length := by
  obtain ⟨-, -, hm15, -⟩ := redeem_head hs
  have hlen := sigsFor_length (s := s) (d := digest C t j i s.redeemscript u.isSegwit u.amount.toNat) hs.nodup hn
    (fun a ha => (hd a ha).mem)
  refine ⟨?_, ?_, hlen⟩
  · cases hseg : u.isSegwit with
    | true =>
      have := hw hseg
      subst this
      have hfield : x.witness = Spec.encodeStack (multiInput C s done t j u i).witness := hx.witness
      rw [if_pos rfl, hfield]
      unfold multiInput
      dsimp only
      rw [if_neg hne, if_pos hseg, hseg]
      rw [hseg] at hlen
      rw [if_pos rfl, List.append_nil]
      exact read_segwit hs hd _ (by rw [hlen]; omega)
    | false =>
      have hfield : x.scriptSig = (multiInput C s done t j u i).script := hx.script
      rw [if_neg Bool.false_ne_true, hfield]
      unfold multiInput
      dsimp only
      rw [if_neg hne, if_neg (by rw [hseg]; simp), hseg, if_neg Bool.false_ne_true]
      exact read_legacy hs hd _
  · cases hseg : u.isSegwit with
    | true =>
      have := hw hseg
      subst this
      have hfield : x.witness = Spec.encodeStack (multiInput C s done t j u i).witness := hx.witness
      rw [if_pos rfl, hfield]
      have := encodeStack_ne_nil (multiInput C s done t j u i).witness
      simpa using this
    | false =>
      have hfield : x.scriptSig = (multiInput C s done t j u i).script := hx.script
      rw [if_neg Bool.false_ne_true, hfield]
      unfold multiInput
      dsimp only
      rw [if_neg hne, if_neg (by rw [hseg]; simp)]
      simp

/-- C48. After `m` co-signers signed, a further signature is refused with `ValueError`, whoever asks for it, as
long as some input of the transaction belongs to the contract. -/
theorem C48_further_refused (C : Crypto) (s : MultiSig) (hs : ContractLaws C s) (us : List Unspent) (w : Bool)
    (t : Spec.Tx) (hwf : t.WF) (hw : w = true ∨ ∀ u ∈ us, u.isSegwit = false) (hun : Unsigned C s us t)
    (ks : List PrivKey) (hks : ∀ k ∈ ks, SignerLaws C s k)
    (hap : NoMixup C s ks us t) (hdiff : (ks.map fun k => k.publicKey C).Nodup) (hm : (ks.length : Int) = s.m) (r : Str)
    (h : cosign C s us ks (bytesToHex (if w then t.encodeExtended else t.encodeLegacy)) = .ok r)
    (hown : ∃ i ∈ t.inputs, ∃ u ∈ us, OwnsContract C s u i) (k : PrivKey) :
    signTransactionHex C (.multi { s with key := k }) r us = .error .valueError := by
  have hnil : t = multiTx C s [] us t := (multiTx_nil C s us t).symm
  have he : bytesToHex (if w then t.encodeExtended else t.encodeLegacy) =
      bytesToHex (enc w (multiTx C s [] us t)) := by rw [← hnil]; rfl
  rw [he] at h
  obtain ⟨h1, h2⟩ := (cosign_iff hs hw hwf (hun.fresh hs hwf) ks [] hks (by simp)
    (by rw [List.append_nil]; exact hap.apart hs hwf) (by simpa using hdiff)
    (by simpa using hm.le)).mp h
  rw [List.append_nil] at h2
  have hkr : ∀ k ∈ ks.reverse, SignerLaws C s k := fun k hk => hks k (List.mem_reverse.mp hk)
  have hapr := (hap.apart hs hwf).mono (ks' := ks.reverse) fun k hk => List.mem_reverse.mp hk
  have hdr : ((ks.reverse).map fun k => k.publicKey C).Nodup :=
    (((List.reverse_perm ks).map _).nodup_iff).mpr hdiff
  have hpos := hs.pos
  have hks0 : ks ≠ [] := by
    intro h
    subst h
    simp at hm
    omega
  have hms : MultiSignable C s us t := h1.resolve_left hks0
  obtain ⟨d, hdict⟩ := hms.dict
  have hwf' := multiTx_wf hs hkr (us := us) hwf
  have hsk := multiTx_skeleton C s ks.reverse us t
  obtain ⟨x, hx, hrep⟩ := deserialize_enc hwf' w
  obtain ⟨-, hrl, -⟩ := redeem_head hs
  have hin := forall₂_iff_get.mp hrep.inputs
  rw [h2]
  unfold signTransactionHex
  rw [deserializeHex_bytesToHex, hx]
  dsimp only
  unfold signTx
  have hlook : ∀ (j : Nat) (xj : TxIn) (i : Spec.TxInput), x.ins[j]? = some xj → t.inputs[j]? = some i →
      d.lookup (xj.txid ++ xj.txindex) = chosen C (.multi s) us (Spec.TxInput.outpoint i) := by
    intro j xj i hxj hi
    obtain ⟨i', hi'⟩ := get_of_length hin.1 hxj
    obtain ⟨f1, f2, f3⟩ := skeleton_get hsk hi hi'
    have hout : xj.txid ++ xj.txindex = Spec.TxInput.outpoint i := by
      rw [(hin.2 j xj i' hxj hi').outpoint]; unfold Spec.TxInput.outpoint; rw [f1, f2]
    rw [hout, chosen_eq hdict]
  have herr : signTxObj C (.multi { s with key := k }) x us = .error .valueError := by
    refine signTxObj_error hrep.skel hwf'.inputs hwf'.outputs (by rw [inputDict_key]; exact hdict)
      (isSegwit_represents hrep hwf') (show (Signer.multi { s with key := k }).scriptcode C = .ok (some s.redeemscript) from rfl)
      (lt_of_le_of_lt hrl (by norm_num)) ?_ ?_
    · intro j xj ti u hxj hti hl
      obtain ⟨i, hi⟩ := get_of_length (skeleton_length hsk) hti
      have hl' := hl
      rw [hlook j xj i hxj hi] at hl'
      refine ⟨hms.amounts i (List.mem_of_getElem? hi) u hl', ?_⟩
      have hmi : ti = multiInput C s ks.reverse t j u i := by
        rw [multiTx_get, hi, Option.map_some, hl'] at hti
        injection hti with hti
        exact hti.symm
      have hwu : u.isSegwit = true → w = true := by
        intro h
        rcases hw with hw | hw
        · exact hw
        · rw [hw u (chosen_mem hl').1] at h; cases h
      have hxr := hin.2 j xj ti hxj hti
      rw [hmi] at hxr
      have hdig : digest C (multiTx C s ks.reverse us t) j ti s.redeemscript u.isSegwit u.amount.toNat =
          digest C t j i s.redeemscript u.isSegwit u.amount.toNat := skeleton_digest hsk hi hti _ _ _
      obtain ⟨r1, r2, r3⟩ := multi_read hs hkr hdr (by simpa using hks0)
        (by rw [List.length_reverse]; exact hm.le) hwu hxr
      simp only [signBytes]
      rw [hdig]
      exact signMulti_full hs hkr (hapr j i u hi hl') k w u.isSegwit r2 (by
        intro b hb
        split at hb
        · cases hb
        · exact (hapr j i u hi hl').strays hs b hb) r1 (by rw [r3, List.length_reverse]; exact hm.ge)
    · obtain ⟨i, hi, u, hu, hmine⟩ := hown
      obtain ⟨j, hj⟩ := List.mem_iff_getElem?.mp hi
      obtain ⟨i', hi'⟩ := get_of_length (skeleton_length hsk).symm hj
      obtain ⟨xj, hxj⟩ := get_of_length hin.1.symm hi'
      refine ⟨xj, List.mem_of_getElem? hxj, ?_⟩
      rw [hlook j xj i hxj hj]
      intro hc
      exact (chosen_none hdict).mp hc u hu (mine_of_owns_contract hs.toContractShape hdict hu (hwf.input i hi) hmine)
  rw [herr]

/-- C47, C48. Some co-signers (at most `m`) signed a segwit or legacy input of the contract: the signatures
stand in the order of the contract's keys, one for each of the co-signers, each valid. In a witness empty items
stand for the missing ones, so that the declared count is always `m + 2`. -/
theorem C47_signatures_sorted (C : Crypto) (s : MultiSig) (hs : ContractLaws C s) (us : List Unspent) (w : Bool)
    (t : Spec.Tx) (hwf : t.WF) (hw : w = true ∨ ∀ u ∈ us, u.isSegwit = false) (hun : Unsigned C s us t)
    (ks : List PrivKey) (hks : ∀ k ∈ ks, SignerLaws C s k) (hne : ks ≠ [])
    (hap : NoMixup C s ks us t) (hdiff : (ks.map fun k => k.publicKey C).Nodup) (hm : (ks.length : Int) ≤ s.m) (r : Str)
    (h : cosign C s us ks (bytesToHex (if w then t.encodeExtended else t.encodeLegacy)) = .ok r) :
    ∃ t', t'.WF ∧ Spec.SameSkeleton t t' ∧ r = bytesToHex (if w then t'.encodeExtended else t'.encodeLegacy) ∧
      ∀ (j : Nat) (i i' : Spec.TxInput), t.inputs[j]? = some i → t'.inputs[j]? = some i' →
        (∃ u ∈ us, OwnsContract C s u i) →
        ∃ u ∈ us, OwnsContract C s u i ∧ ∃ (sigs used : List Bytes) (pad : Nat),
          used.Sublist s.publicKeys ∧ used.Perm (ks.map fun k => k.publicKey C) ∧
          List.Forall₂ (fun sig key => Spec.SigOk C.hashing
            (if u.isSegwit then Spec.segwitMessage C.doubleSha256 t i s.redeemscript u.amount.toNat
              else Spec.legacyMessage t j s.redeemscript) sig key) sigs used ∧
          (if u.isSegwit then
            i'.script = 0x22 :: Spec.witnessScript 0 (C.sha256 s.redeemscript) ∧
              i'.witness = [] :: sigs ++ List.replicate pad [] ++ [s.redeemscript] ∧
              (i'.witness.length : Int) = s.m + 2
          else i'.witness = [] ∧ Spec.parsePushes (sigs.length + pad + 2) i'.script =
            ([] :: sigs ++ List.replicate pad [] ++ [s.redeemscript], [])) := by
  have hnil : t = multiTx C s [] us t := (multiTx_nil C s us t).symm
  have he : bytesToHex (if w then t.encodeExtended else t.encodeLegacy) =
      bytesToHex (enc w (multiTx C s [] us t)) := by rw [← hnil]; rfl
  rw [he] at h
  obtain ⟨h1, h2⟩ := (cosign_iff hs hw hwf (hun.fresh hs hwf) ks [] hks (by simp)
    (by rw [List.append_nil]; exact hap.apart hs hwf) (by simpa using hdiff)
    (by simpa using hm)).mp h
  rw [List.append_nil] at h2
  have hkr : ∀ k ∈ ks.reverse, SignerLaws C s k := fun k hk => hks k (List.mem_reverse.mp hk)
  have hapr := (hap.apart hs hwf).mono (ks' := ks.reverse) fun k hk => List.mem_reverse.mp hk
  have hdr : ((ks.reverse).map fun k => k.publicKey C).Nodup :=
    (((List.reverse_perm ks).map _).nodup_iff).mpr hdiff
  have hms : MultiSignable C s us t := h1.resolve_left hne
  have hner : ks.reverse ≠ [] := by simpa using hne
  obtain ⟨-, hrl, hm15, -⟩ := redeem_head hs
  refine ⟨multiTx C s ks.reverse us t, multiTx_wf hs hkr hwf, multiTx_skeleton C s ks.reverse us t, h2, ?_⟩
  obtain ⟨d, hd⟩ := hms.dict
  rintro j i i' hi hi' ⟨v, hv, hmv⟩
  have hg := multiTx_get (C := C) (s := s) (done := ks.reverse) (us := us) (t := t) (j := j)
  rw [hi, Option.map_some, hi'] at hg
  cases hc : chosen C (.multi s) us (Spec.TxInput.outpoint i) with
  | none => 
    exact absurd (mine_of_owns_contract hs.toContractShape hd hv (hwf.input i (List.mem_of_getElem? hi)) hmv)
      ((chosen_none hd).mp hc v hv)
  | some u =>
    rw [hc] at hg
    injection hg with hg
    subst hg
    obtain ⟨hu, hmine⟩ := chosen_mem hc
    have hlen := sigsFor_length (s := s) (d := digest C t j i s.redeemscript u.isSegwit u.amount.toNat) hs.nodup hdr
      (fun a ha => (hkr a ha).mem)
    rw [List.length_reverse] at hlen
    have hmine := owns_of_mine_contract hs.toContractShape (hwf.input i (List.mem_of_getElem? hi)) hmine
    refine ⟨u, hu, hmine, sigsFor C s ks.reverse (digest C t j i s.redeemscript u.isSegwit u.amount.toNat),
      s.publicKeys.filter fun p => p ∈ ks.reverse.map fun k => k.publicKey C,
      if u.isSegwit then s.m.toNat - ks.length else padding C s ks.length, List.filter_sublist, ?_,
      sigsFor_ok hkr _, ?_⟩
    · rw [List.perm_ext_iff_of_nodup (hs.nodup.filter _) hdiff]
      intro p
      rw [List.mem_filter]
      simp only [List.map_reverse, List.mem_reverse, decide_eq_true_eq]
      constructor
      · exact And.right
      · intro h
        refine ⟨?_, h⟩
        obtain ⟨k, hk, rfl⟩ := List.mem_map.mp h
        exact (hks k hk).mem
    · cases hseg : u.isSegwit with
      | true =>
        rw [if_pos rfl, if_pos rfl]
        rw [hseg] at hlen
        unfold multiInput
        dsimp only
        rw [if_neg hner, if_pos hseg, hseg, List.length_reverse]
        refine ⟨rfl, rfl, ?_⟩
        simp only [List.length_append, List.length_cons, List.length_replicate, List.length_nil, hlen]
        omega
      | false =>
        rw [if_neg Bool.false_ne_true, if_neg Bool.false_ne_true]
        unfold multiInput
        dsimp only
        rw [if_neg hner, if_neg (by rw [hseg]; simp), hseg, List.length_reverse]
        dsimp only
        refine ⟨rfl, ?_⟩
        obtain ⟨p, hp, hpp⟩ := C14_script_push_parses s.redeemscript [] (lt_of_le_of_lt hrl (by norm_num))
        have hpe : pushPrefix s.redeemscript.length = p := by
          rw [pushPrefix, hp]
        have hlast : Spec.parsePushes 1 (pushPrefix s.redeemscript.length ++ s.redeemscript) =
            ([s.redeemscript], []) := by
          rw [List.append_nil] at hpp
          rw [hpe, Spec.parsePushes, hpp]
          rfl
        have := parsePushes_items ([] :: sigsFor C s ks.reverse (digest C t j i s.redeemscript false
          u.amount.toNat) ++ List.replicate (padding C s ks.length) []) 1
          (pushPrefix s.redeemscript.length ++ s.redeemscript) (by
            intro b hb
            simp only [List.mem_append, List.mem_cons, List.mem_replicate] at hb
            rcases hb with (rfl | hb) | ⟨-, rfl⟩
            · simp
            · have := sigsFor_item hkr b hb; omega
            · simp)
        rw [hlast, List.flatMap_append, replicate_zero_flatMap, List.flatMap_cons] at this
        convert this using 1
        congr 1
        · simp
        · simp [Spec.varBytes, show Spec.compact 0 = [0x00] by decide]

/-! ## C49 -/

theorem readItems_short {lock : Bytes} (hl : lock ≠ []) : ∀ (items : List Bytes), (∀ b ∈ items, b.length < 2 ^ 64) →
    ∀ {ws rest : Bytes}, readItems (items.length + 1) (items.flatMap Spec.varBytes ++ lock) = .ok (ws, rest) →
      rest.length < lock.length
  | [], _, ws, rest, h => by
    rw [List.flatMap_nil, List.nil_append, List.length_nil, readItems] at h
    split at h
    · cases h
    · rename_i w tx hw
      rw [readItems] at h
      injection h with h
      rw [Prod.mk.injEq] at h
      rw [← h.2]
      unfold readSegwitString at hw
      split at hw
      · cases hw
      · rename_i n tx' hv
        simp only [readBytes] at hw
        split at hw
        · cases hw
        · injection hw with hw
          rw [Prod.mk.injEq] at hw
          rw [← hw.2]
          have := readVarInt_shorter hv
          simp
          omega
  | b :: items, hb, ws, rest, h => by
    rw [List.flatMap_cons, List.append_assoc, List.length_cons, readItems,
      readSegwitString_varBytes (hb b List.mem_cons_self)] at h
    dsimp only at h
    split at h
    · cases h
    · rename_i ws' rest' hr
      injection h with h
      rw [Prod.mk.injEq] at h
      rw [← h.2]
      exact readItems_short hl items (fun c hc => hb c (List.mem_cons_of_mem _ hc)) hr

/-- A transaction with one input whose witness declares one item more than it has is read with a lock time
of less than four bytes. -/
theorem deserialize_short {t : Spec.Tx} (h : t.WF) {i : Spec.TxInput} (hone : t.inputs = [i])
    {items : List Bytes} (hitems : ∀ b ∈ items, b.length < 2 ^ 64) (hn : items.length + 1 < 2 ^ 64) {lock : Bytes}
    (hl : lock ≠ []) {x : TxObj}
    (hx : deserialize (Spec.leEncode 4 t.version ++ ([0x00, 0x01] ++ (t.encodeBody ++
        (Spec.compact (items.length + 1) ++ (items.flatMap Spec.varBytes ++ lock))))) = .ok x) :
    x.locktime.length < lock.length := by
  unfold deserialize Spec.Tx.encodeBody at hx
  simp only [List.append_assoc, List.cons_append, List.nil_append] at hx
  rw [isSegwit_extended, readBytes_append _ _ (leEncode_length 4 _)] at hx
  simp only [if_true, readBytes, List.drop_succ_cons, List.drop_zero] at hx
  rw [readVarInt_compact h.inputs] at hx
  dsimp only at hx
  rw [readIns_encode _ _ h.input] at hx
  dsimp only at hx
  rw [readVarInt_compact h.outputs] at hx
  dsimp only at hx
  rw [readOuts_encode _ _ h.output] at hx
  dsimp only at hx
  rw [hone, List.map_singleton, readWitnesses, readVarInt_compact hn] at hx
  dsimp only at hx
  rw [intToVarint_compact hn] at hx
  dsimp only at hx
  cases hr : readItems (items.length + 1) (items.flatMap Spec.varBytes ++ lock) with
  | error e => rw [hr] at hx; cases hx
  | ok v =>
    obtain ⟨ws, rest⟩ := v
    have := readItems_short hl items hitems hr
    rw [hr] at hx
    dsimp only at hx
    rw [readWitnesses] at hx
    dsimp only at hx
    injection hx with hx
    rw [← hx]
    simp only [mkTxObj, List.length_take]
    omega

theorem sigsFor_again {C : Crypto} {s : MultiSig} {done : List PrivKey} {k : PrivKey} {d : Bytes}
    (hn : (done.map fun k => k.publicKey C).Nodup) (hk : k ∈ done) :
    sigsFor C s (k :: done) d = sigsFor C s done d := by
  have hm : ∀ p, (p ∈ (k :: done).map fun k => k.publicKey C) ↔ p ∈ done.map fun k => k.publicKey C := by
    intro p
    rw [List.map_cons, List.mem_cons]
    constructor
    · rintro (h | h)
      · rw [h]; exact List.mem_map.mpr ⟨k, hk, rfl⟩
      · exact h
    · exact Or.inr
  unfold sigsFor
  simp only [hm]
  apply List.map_congr_left
  intro p hp
  unfold sigOf
  by_cases h : k.publicKey C = p
  · rw [List.find?_cons_of_pos (by simpa using h), find_unique hn hk h]
  · rw [List.find?_cons_of_neg (by simpa using h)]

/-- C49. Some co-signers, fewer than `m`, signed a transaction with one input, a segwit one of the contract.
One of them signs again. This is not refused and does not leave the transaction as it was: the result is not
the wire encoding of any transaction (the witness declares `m + 2` items but has `m + 1`). -/
theorem C49_segwit_signed_twice (C : Crypto) (s : MultiSig) (hs : ContractLaws C s) (us : List Unspent)
    (t : Spec.Tx) (hwf : t.WF) (i : Spec.TxInput) (hone : t.inputs = [i]) (hun : Unsigned C s us t)
    (hseg : ∀ u ∈ us, u.isSegwit = true) (hown : ∃ u ∈ us, OwnsContract C s u i)
    (ks : List PrivKey) (hks : ∀ k ∈ ks, SignerLaws C s k)
    (hap : NoMixup C s ks us t) (hdiff : (ks.map fun k => k.publicKey C).Nodup) (hm : (ks.length : Int) < s.m) (r : Str)
    (h : cosign C s us ks (bytesToHex t.encodeExtended) = .ok r) (k : PrivKey) (hk : k ∈ ks) :
    ∃ r', signTransactionHex C (.multi { s with key := k }) r us = .ok r' ∧
      ∀ t' : Spec.Tx, t'.WF → r' ≠ bytesToHex t'.encodeExtended ∧ r' ≠ bytesToHex t'.encodeLegacy := by
  have hnil : t = multiTx C s [] us t := (multiTx_nil C s us t).symm
  have he : bytesToHex t.encodeExtended =
      bytesToHex (enc true (multiTx C s [] us t)) := by rw [← hnil]; rfl
  rw [he] at h
  obtain ⟨h1, h2⟩ := (cosign_iff hs (Or.inl rfl) hwf (hun.fresh hs hwf) ks [] hks (by simp)
    (by rw [List.append_nil]; exact hap.apart hs hwf) (by simpa using hdiff)
    (by simpa using hm.le)).mp h
  rw [List.append_nil] at h2
  have hkr : ∀ k ∈ ks.reverse, SignerLaws C s k := fun k hk => hks k (List.mem_reverse.mp hk)
  have hapr := (hap.apart hs hwf).mono (ks' := ks.reverse) fun k hk => List.mem_reverse.mp hk
  have hdr : ((ks.reverse).map fun k => k.publicKey C).Nodup :=
    (((List.reverse_perm ks).map _).nodup_iff).mpr hdiff
  have hne : ks ≠ [] := List.ne_nil_of_mem hk
  have hner : ks.reverse ≠ [] := by simpa using hne
  have hms : MultiSignable C s us t := h1.resolve_left hne
  obtain ⟨d, hdict⟩ := hms.dict
  have hwf' := multiTx_wf hs hkr (us := us) hwf
  have hsk := multiTx_skeleton C s ks.reverse us t
  obtain ⟨x, hx, hrep⟩ := deserialize_enc hwf' true
  obtain ⟨-, hrl, hm15, -⟩ := redeem_head hs
  have hpos := hs.pos
  have hin := forall₂_iff_get.mp hrep.inputs
  -- the input
  have hi0 : t.inputs[0]? = some i := by rw [hone]; rfl
  cases hc : chosen C (.multi s) us (Spec.TxInput.outpoint i) with
  | none =>
    obtain ⟨u, hu, hmu⟩ := hown
    exact absurd (mine_of_owns_contract hs.toContractShape hdict hu (hwf.input i (List.mem_of_getElem? hi0)) hmu)
      ((chosen_none hdict).mp hc u hu)
  | some u =>
    obtain ⟨hu, hmine⟩ := chosen_mem hc
    have hsu := hseg u hu
    obtain ⟨i', hi'⟩ := get_of_length (skeleton_length hsk).symm hi0
    obtain ⟨x0, hx0⟩ := get_of_length hin.1.symm hi'
    have hmi : i' = multiInput C s ks.reverse t 0 u i := by
      have := hi'
      rw [multiTx_get, hi0, Option.map_some, hc] at this
      injection this with this
      exact this.symm
    have hxi := hin.2 0 x0 i' hx0 hi'
    have hxr := hxi
    rw [hmi] at hxr
    have hdig : digest C (multiTx C s ks.reverse us t) 0 i' s.redeemscript u.isSegwit u.amount.toNat =
        digest C t 0 i s.redeemscript u.isSegwit u.amount.toNat := skeleton_digest hsk hi0 hi' _ _ _
    obtain ⟨r1, r2, r3⟩ := multi_read hs hkr hdr hner (by rw [List.length_reverse]; exact hm.le)
      (fun _ => rfl) hxr
    have hsm := signMulti_more hs hkr (hapr 0 i u hi0 hc).1 (hks k hk) true u.isSegwit r2 (by
      intro b hb
      rw [if_pos hsu] at hb
      cases hb) r1
    rw [r3, if_neg (show ¬ s.m ≤ ((ks.reverse.length : Nat) : Int) by rw [List.length_reverse]; omega), sigsFor_again hdr (List.mem_reverse.mpr hk)] at hsm
    rw [hsu] at hsm r3
    simp only [if_true, List.length_nil, Nat.cast_zero, sub_zero] at hsm
    set d0 := digest C t 0 i s.redeemscript true u.amount.toNat with hd0
    have hlen1 : x.ins = [x0] := by
      have hl : x.ins.length = 1 := by
        rw [hin.1, ← skeleton_length hsk |>.symm, hone]
        rfl
      obtain ⟨a, ha⟩ := List.length_eq_one_iff.mp hl
      rw [ha] at hx0
      simp only [List.getElem?_cons_zero, Option.some.injEq] at hx0
      rw [ha, hx0]
    have hscript : x0.scriptSig = [0x22] ++ Spec.witnessScript 0 (C.sha256 s.redeemscript) := by
      rw [hxr.script]
      unfold multiInput
      dsimp only
      rw [if_neg hner, if_pos hsu]
    have hsl : ([0x22] ++ Spec.witnessScript 0 (C.sha256 s.redeemscript) : Bytes).length < 2 ^ 64 := by
      rw [← hscript, hxi.script]
      exact (hwf'.input i' (List.mem_of_getElem? hi')).script
    have hslen : x0.scriptSigLen = Spec.compact ([0x22] ++ Spec.witnessScript 0 (C.sha256 s.redeemscript) : Bytes).length := by
      rw [hxi.scriptLen, ← hxi.script, hscript]
    set items : List Bytes := [] :: sigsFor C s ks.reverse d0 ++ List.replicate (s.m - ks.length - 1).toNat []
      ++ [s.redeemscript] with hitems
    have hil : items.length + 1 = (s.m + 2).toNat := by
      rw [hitems]
      simp only [List.length_append, List.length_cons, List.length_replicate, List.length_nil, r3, List.length_reverse]
      omega
    have hitem : ∀ b ∈ items, b.length < 2 ^ 64 := by
      intro b hb
      rw [hitems] at hb
      simp only [List.mem_append, List.mem_cons, List.mem_replicate, List.not_mem_nil, or_false] at hb
      rcases hb with ((rfl | hb) | ⟨-, rfl⟩) | rfl
      · simp
      · have := sigsFor_item hkr b hb; omega
      · simp
      · omega
    let x1 : TxIn := { x0 with segwitInput := true,
                               scriptSig := [0x22] ++ Spec.witnessScript 0 (C.sha256 s.redeemscript),
                               scriptSigLen := Spec.compact ([0x22] ++ Spec.witnessScript 0 (C.sha256 s.redeemscript) : Bytes).length,
                               witness := Spec.compact (items.length + 1) ++ items.flatMap Spec.varBytes }
    have hobj : signTxObj C (.multi { s with key := k }) x us = .ok { x with ins := [x1] } := by
      refine (signTxObj_iff hrep.skel hwf'.inputs hwf'.outputs).mpr ⟨d, true, by rw [inputDict_key]; exact hdict,
        isSegwit_represents hrep hwf', rfl, by rw [hlen1]; rfl, ?_⟩
      intro j xj x'j ti hxj hx'j hti
      have hj : j = 0 := by
        rw [hlen1] at hxj
        cases j with
        | zero => rfl
        | succ j => simp at hxj
      subst hj
      rw [hx0] at hxj
      rw [hi'] at hti
      injection hxj with hxj
      injection hti with hti
      subst hxj hti
      simp only [List.getElem?_cons_zero, Option.some.injEq] at hx'j
      subst hx'j
      unfold StepAt
      have hout : x0.txid ++ x0.txindex = Spec.TxInput.outpoint i := by
        obtain ⟨f1, f2, f3⟩ := skeleton_get hsk hi0 hi'
        rw [hxi.outpoint]; unfold Spec.TxInput.outpoint; rw [f1, f2]
      rw [hout, chosen_eq hdict, hc]
      refine ⟨s.redeemscript, [0x22] ++ Spec.witnessScript 0 (C.sha256 s.redeemscript),
        Spec.compact (items.length + 1) ++ items.flatMap Spec.varBytes, _, rfl,
        lt_of_le_of_lt hrl (by norm_num),
        hms.amounts i (List.mem_of_getElem? hi0) u hc, ?_, intToVarint_compact hsl, ?_⟩
      · simp only [signBytes]
        rw [hdig, hsu, if_pos rfl, hsm, hil]
        congr 2
        rw [hitems]
        simp only [List.flatMap_append, List.flatMap_cons, List.flatMap_nil, List.cons_append, replicate_zero_flatMap,
          List.append_nil, List.length_reverse]
        simp [Spec.varBytes, show Spec.compact 0 = [0x00] by decide]
      · rw [hsu]
    have hbody : ({ x with ins := [x1] } : TxObj).body = .ok (multiTx C s ks.reverse us t).encodeBody := by
      rw [← body_represents hrep hwf'.inputs hwf'.outputs]
      unfold TxObj.body
      rw [hlen1]
      simp only [List.flatMap_cons, List.flatMap_nil, List.append_nil, TxIn.bytes, x1, hscript, hslen,
        List.length_singleton]
    have hbytes : ({ x with ins := [x1] } : TxObj).toHex = .ok (bytesToHex
        (Spec.leEncode 4 (multiTx C s ks.reverse us t).version ++ ([0x00, 0x01] ++
        ((multiTx C s ks.reverse us t).encodeBody ++ (Spec.compact (items.length + 1) ++
          (items.flatMap Spec.varBytes ++ Spec.leEncode 4 (multiTx C s ks.reverse us t).lockTime)))))) := by
      unfold TxObj.toHex TxObj.bytes
      rw [hbody]
      have hnn : (Spec.compact (items.length + 1) ++ items.flatMap Spec.varBytes).isEmpty = false := by
        have := compact_ne_nil (items.length + 1)
        simp [this]
      dsimp only
      rw [List.flatMap_singleton, hnn, hrep.version, hrep.lockTime]
      simp [x1]
    refine ⟨bytesToHex (Spec.leEncode 4 (multiTx C s ks.reverse us t).version ++ ([0x00, 0x01] ++
        ((multiTx C s ks.reverse us t).encodeBody ++ (Spec.compact (items.length + 1) ++
          (items.flatMap Spec.varBytes ++ Spec.leEncode 4 (multiTx C s ks.reverse us t).lockTime))))), ?_, ?_⟩
    · rw [h2]
      unfold signTransactionHex
      rw [deserializeHex_bytesToHex, hx]
      dsimp only
      unfold signTx
      rw [hobj]
      exact hbytes
    · intro t' hwt
      have hone' : (multiTx C s ks.reverse us t).inputs = [i'] := by
        have hl : (multiTx C s ks.reverse us t).inputs.length = 1 := by
          rw [skeleton_length hsk, hone]
          rfl
        obtain ⟨a, ha⟩ := List.length_eq_one_iff.mp hl
        rw [ha] at hi'
        simp only [List.getElem?_cons_zero, Option.some.injEq] at hi'
        rw [ha, hi']
      have hshort := fun (y : TxObj) (hy : deserialize _ = .ok y) =>
        deserialize_short hwf' hone' hitem (lt_of_le_of_lt (show items.length + 1 ≤ 17 by omega) (by norm_num))
          (lock := Spec.leEncode 4 (multiTx C s ks.reverse us t).lockTime)
          (by intro hc; have := congrArg List.length hc; rw [leEncode_length] at this; simp at this) (x := y) hy
      rw [leEncode_length] at hshort
      obtain ⟨⟨a, ha, hra⟩, ⟨b, hb, hrb⟩⟩ := C24_deserialize t' hwt
      constructor
      · intro hc
        rw [← bytesToHex_injective hc] at hb
        have := hshort b hb
        rw [hrb.lockTime, leEncode_length] at this
        omega
      · intro hc
        rw [← bytesToHex_injective hc] at ha
        have := hshort a ha
        rw [hra.lockTime, leEncode_length] at this
        omega

/-- C49. For legacy inputs signing twice does no harm. The script after the co-signers `done` signed, with any
number `z` of empty items standing for missing signatures: a further signature of one of them leaves the
signatures as they are (only the number of empty items changes), and what the next co-signer makes of the
script does not depend on that number. -/
theorem C49_legacy_signed_twice (C : Crypto) (s : MultiSig) (hs : ContractLaws C s) (done : List PrivKey)
    (hd : ∀ a ∈ done, SignerLaws C s a) (hn : (done.map fun k => k.publicKey C).Nodup)
    (hm : (done.length : Int) < s.m) (w : Bool) (data push : Bytes)
    (hap : ∀ k ∈ done, ∀ p ∈ s.publicKeys, C.verify (C.sign k.secret data) data p = true → p = k.publicKey C)
    (hpart : ∀ b, b <:+: s.redeemscript → C.isDer b = true → ∀ p ∈ s.publicKeys, C.verify b data p = false)
    (hpush : scriptPush s.redeemscript.length = .ok push) (script : Nat → Bytes)
    (hscript : ∀ z, script z = [0x00] ++ (sigsFor C s done data).flatMap Spec.varBytes ++ List.replicate z 0x00
      ++ push ++ s.redeemscript) (z : Nat) :
    (∀ k ∈ done, ∃ z' wit, signMulti C { s with key := k } w false data (script z) = .ok (script z', wit)) ∧
    (∀ k, SignerLaws C s k → signMulti C { s with key := k } w false data (script z) =
      signMulti C { s with key := k } w false data (script 0)) := by
  have hpe : push = pushPrefix s.redeemscript.length := by
    rw [pushPrefix, hpush]
  subst hpe
  have hap' : Apart C s done data := ⟨hap, hpart⟩
  have hne : ∀ z, (script z).isEmpty = false := by
    intro z
    rw [hscript]
    simp
  have hr : ∀ z, getSignaturesFromScript C.isDer (script z) = .ok (sigsFor C s done data ++ strays C s) := by
    intro z
    rw [hscript]
    exact read_legacy hs hd z
  have hlen := sigsFor_length (s := s) (d := data) hs.nodup hn (fun a ha => (hd a ha).mem)
  constructor
  · intro k hk
    rw [signMulti_more hs hd hap'.1 (hd k hk) w false (hne z) (hap'.strays hs) (hr z), if_neg (by rw [hlen]; omega),
      sigsFor_again hn hk]
    exact ⟨_, _, by rw [hscript]; rfl⟩
  · intro k hk
    rw [signMulti_more hs hd hap'.1 hk w false (hne z) (hap'.strays hs) (hr z),
      signMulti_more hs hd hap'.1 hk w false (hne 0) (hap'.strays hs) (hr 0)]

theorem cosign_pad {C : Crypto} {s : MultiSig} (hs : ContractLaws C s) {us : List Unspent}
    (hleg : ∀ u ∈ us, u.isSegwit = false) {w : Bool} {t : Spec.Tx} (hwf : t.WF) {k : PrivKey}
    (hk : SignerLaws C s k) {r : Str} : ∀ (ks done : List PrivKey) (z : Nat), z ≤ 15 →
      (∀ a ∈ ks, SignerLaws C s a) → (∀ a ∈ done, SignerLaws C s a) → AllApart C s (ks.reverse ++ done) us t →
      (signed C s (ks.reverse ++ done) : Int) < s.m →
      (cosign C s us (ks ++ [k]) (bytesToHex (enc w (withTx C s us (padInput C s t done z) t))) = .ok r ↔
        MultiSignable C s us t ∧ r = bytesToHex (enc w (withTx C s us (padInput C s t (k :: (ks.reverse ++ done))
          (s.m - signed C s (ks.reverse ++ done) - (strays C s).length - 1).toNat) t)))
  | [], done, z, hz, _, hd, hap, hlt => by
    obtain ⟨-, -, hm15, -⟩ := redeem_head hs
    have hall : ∀ a ∈ k :: done, SignerLaws C s a := by
      intro a ha
      rcases List.mem_cons.mp ha with rfl | ha
      · exact hk
      · exact hd a ha
    simp only [List.reverse_nil, List.nil_append] at hap hlt ⊢
    have := with_sign_hex (r := r) hs (padInput_keeps hs t hd hz) (padInput_keeps hs t hall (by omega))
      (more_writes hs hleg hd hap hlt hk w z) hwf
    rw [← this, cosign]
    cases signTransactionHex C (.multi { s with key := k }) _ us with
    | error e => rfl
    | ok r' => simp [cosign]
  | a :: ks, done, z, hz, hks, hd, hap, hlt => by
    obtain ⟨-, -, hm15, -⟩ := redeem_head hs
    have ha := hks a List.mem_cons_self
    have hall : ∀ b ∈ a :: done, SignerLaws C s b := by
      intro b hb
      rcases List.mem_cons.mp hb with rfl | hb
      · exact ha
      · exact hd b hb
    have e : (a :: ks).reverse ++ done = ks.reverse ++ (a :: done) := by simp
    rw [e] at hap hlt ⊢
    have hlt' : (signed C s done : Int) < s.m := by
      have := signed_mono C s (l := done) (l' := ks.reverse ++ (a :: done)) (by intro b hb; simp [hb])
      omega
    have hstep := fun r' => with_sign_hex (r := r') hs (padInput_keeps hs t hd hz) (padInput_keeps hs t hall (by omega))
      (more_writes hs hleg hd (hap.mono (by intro b hb; simp [hb])) hlt' ha w z) hwf
    have ih := cosign_pad hs hleg hwf hk (w := w) (r := r) ks (a :: done) (s.m - signed C s done - (strays C s).length - 1).toNat (by omega)
      (fun b hb => hks b (List.mem_cons_of_mem _ hb)) hall hap hlt
    rw [List.cons_append, cosign]
    cases hsg : signTransactionHex C (.multi { s with key := a })
        (bytesToHex (enc w (withTx C s us (padInput C s t done z) t))) us with
    | error e =>
      dsimp only
      simp only [reduceCtorEq, false_iff, not_and]
      intro hm
      have := (hstep _).mpr ⟨hm, rfl⟩
      rw [hsg] at this
      cases this
    | ok r' =>
      obtain ⟨hm, rfl⟩ := (hstep r').mp hsg
      exact ih

/-- C49. For legacy inputs signing twice does no harm to a transaction: its co-signers `signers`, at most `m`, have
different keys. Whatever the order in which they sign, and however often each of them does, the text is the same as if
each had signed once, as soon as the last one signed who had not signed before. -/
theorem C49_legacy_history (C : Crypto) (s : MultiSig) (hs : ContractLaws C s) (us : List Unspent)
    (hleg : ∀ u ∈ us, u.isSegwit = false) (w : Bool) (t : Spec.Tx) (hwf : t.WF) (hun : Unsigned C s us t)
    (signers : List PrivKey) (hsl : ∀ k ∈ signers, SignerLaws C s k) (hap : NoMixup C s signers us t)
    (hdiff : (signers.map fun k => k.publicKey C).Nodup) (hm : (signers.length : Int) ≤ s.m)
    (history : List PrivKey) (last : PrivKey) (hlast : last ∉ history)
    (hall : ∀ k, k ∈ history ++ [last] ↔ k ∈ signers) (r : Str) :
    cosign C s us (history ++ [last]) (bytesToHex (if w then t.encodeExtended else t.encodeLegacy)) = .ok r ↔
      cosign C s us signers (bytesToHex (if w then t.encodeExtended else t.encodeLegacy)) = .ok r := by
  have hap' := hap.apart hs hwf
  have hfr := hun.fresh hs hwf
  have hpos := hs.pos
  have hin : ∀ k ∈ history, k ∈ signers := fun k hk => (hall k).mp (by simp [hk])
  have hlm : last ∈ signers := (hall last).mp (by simp)
  have hne : signers ≠ [] := List.ne_nil_of_mem hlm
  have hinj : ∀ a ∈ signers, ∀ b ∈ signers, a.publicKey C = b.publicKey C → a = b :=
    fun a ha b hb e => Option.some.inj ((find_unique hdiff ha rfl).symm.trans (find_unique hdiff hb e.symm))
  have hnil : t = multiTx C s [] us t := (multiTx_nil C s us t).symm
  have hright := cosign_iff hs (Or.inr hleg) hwf hfr (w := w) (r := r) signers [] hsl (by simp)
    (by rw [List.append_nil]; exact hap') (by simpa using hdiff) (by simpa using hm)
  rw [← hnil, List.append_nil, multiTx_pad hleg (by simpa using hne)] at hright
  -- the number of keys that signed
  have hcount : ∀ l : List PrivKey, (l.map fun k => k.publicKey C).Nodup → (∀ k ∈ l, SignerLaws C s k) →
      signed C s l = l.length := by
    intro l hl hll
    rw [← sigsFor_signed C s l [], sigsFor_length hs.nodup hl fun a ha => (hll a ha).mem]
  have hhist : signed C s history + 1 = signers.length := by
    have hp : signers.Perm (last :: signers.erase last) := List.perm_cons_erase hlm
    have hnd : ((last :: signers.erase last).map fun k => k.publicKey C).Nodup := (hp.map _).nodup_iff.mp hdiff
    have hnd' := (List.nodup_cons.mp hnd).2
    have hsn : signers.Nodup := (List.pairwise_map.mp hdiff).imp fun h e => h (by rw [e])
    rw [signed_same (l' := signers.erase last), hcount _ hnd' (fun k hk => hsl k (List.mem_of_mem_erase hk)),
      List.length_erase_of_mem hlm]
    · have := List.length_pos_of_mem hlm
      omega
    · intro a
      rw [hsn.mem_erase_iff]
      constructor
      · intro ha
        refine ⟨?_, hin a ha⟩
        rintro rfl
        exact hlast ha
      · rintro ⟨h1, h2⟩
        have := (hall a).mpr h2
        simpa [h1] using this
  have hsame : ∀ a, a ∈ last :: history.reverse ↔ a ∈ signers.reverse := by
    intro a
    rw [List.mem_reverse, ← hall a]
    simp [or_comm]
  have htx : ∀ z, withTx C s us (padInput C s t (last :: history.reverse) z) t =
      withTx C s us (padInput C s t signers.reverse z) t := by
    intro z
    have : padInput C s t (last :: history.reverse) z = padInput C s t signers.reverse z := by
      funext j u i
      unfold padInput
      rw [sigsFor_same hsame (fun a ha b hb => hinj a (by simpa using (hsame a).mp ha) b (by simpa using (hsame b).mp hb))]
    rw [this]
  have he : bytesToHex (if w then t.encodeExtended else t.encodeLegacy) = bytesToHex (enc w t) := rfl
  rw [he, hright]
  have hor : (signers = [] ∨ MultiSignable C s us t) ↔ MultiSignable C s us t := by simp [hne]
  rw [hor]
  have hfirst : ∀ k, SignerLaws C s k → ∀ r', signTransactionHex C (.multi { s with key := k }) (bytesToHex (enc w t)) us = .ok r' ↔
      MultiSignable C s us t ∧ r' = bytesToHex (enc w (withTx C s us (padInput C s t [k] 0) t)) := by
    intro k hk r'
    have := with_sign_hex (r := r') hs (F := fun _ _ i => i) (fun _ _ _ => ⟨rfl, rfl, rfl, id⟩)
      (padInput_keeps hs t (done := [k]) (by simpa using hk) (z := 0) (by omega)) (first_writes hs hleg hfr hk w) hwf
    rwa [withTx_id] at this
  cases hh : history with
  | nil =>
    subst hh
    have h1 : signers.length = 1 := by
      rw [← hhist]
      simp [signed]
    rw [List.nil_append, cosign]
    have hpad : padding C s signers.reverse.length = 0 := by simp [padding, h1]
    rw [hpad, ← htx, List.reverse_nil, ← hfirst last (hsl last hlm)]
    cases signTransactionHex C (.multi { s with key := last }) (bytesToHex (enc w t)) us with
    | error e => rfl
    | ok r' => simp [cosign]
  | cons a ks =>
    subst hh
    have ha := hsl a (hin a List.mem_cons_self)
    have hks : ∀ b ∈ ks, SignerLaws C s b := fun b hb => hsl b (hin b (List.mem_cons_of_mem _ hb))
    have hsg : signed C s (ks.reverse ++ [a]) = signed C s (a :: ks) := signed_same (by intro b; simp [or_comm])
    have hmain := cosign_pad hs hleg hwf (hsl last hlm) (w := w) (r := r) ks [a] 0 (by omega) hks (by simpa using ha)
      (hap'.mono (by intro b hb; exact hin b (by simpa [or_comm] using hb))) (by rw [hsg]; omega)
    have hz : (s.m - signed C s (ks.reverse ++ [a]) - (strays C s).length - 1).toNat = padding C s signers.reverse.length := by
      rw [hsg, List.length_reverse]
      unfold padding
      have h2 : 0 < signed C s (a :: ks) := by
        unfold signed
        rw [List.length_pos_iff_exists_mem]
        exact ⟨a.publicKey C, by rw [List.mem_filter]; exact ⟨ha.mem, by simp⟩⟩
      rw [if_neg (by omega)]
      omega
    rw [hz, show last :: (ks.reverse ++ [a]) = last :: (a :: ks).reverse by simp, htx] at hmain
    rw [← hmain, List.cons_append, cosign]
    cases hsgn : signTransactionHex C (.multi { s with key := a }) (bytesToHex (enc w t)) us with
    | error e =>
      dsimp only
      simp only [reduceCtorEq, false_iff]
      intro hc
      have := (hfirst a ha _).mpr ⟨(hmain.mp hc).1, rfl⟩
      rw [hsgn] at this
      cases this
    | ok r' =>
      obtain ⟨-, rfl⟩ := (hfirst a ha r').mp hsgn
      rfl

/-! ## The objects of the co-signers, and a worked case -/

/-- Two co-signers that give the same keys and the same `m` have objects that differ in the private key only,
so the theorems above apply to what they construct. -/
theorem C47_cosigner_objects (C : Crypto) (net : Net) (k k' : PrivKey) (keys : PubArgs) (m : Int) (s s' : MultiSig)
    (h : mkMultiSig C net k keys m = .ok s) (h' : mkMultiSig C net k' keys m = .ok s') :
    s' = { s with key := k' } := by
  unfold mkMultiSig at h h'
  split at h
  · cases h
  split at h
  · cases h
  split at h'
  · cases h'
  split at h'
  · cases h'
  cases ho : keys.ordered with
  | error e => rw [ho] at h; cases h
  | ok args =>
    rw [ho] at h h'
    dsimp only at h h'
    cases ha : argsToBytes args with
    | error e => rw [ha] at h; cases h
    | ok pubs =>
      rw [ha] at h h'
      dsimp only at h h'
      cases hr : multisigToRedeemscript pubs m with
      | error e => rw [hr] at h; cases h
      | ok r =>
        rw [hr] at h h'
        injection h with h
        injection h' with h'
        rw [← h, ← h']

/-- Coins with proper ids and numbers can be looked up, and those of proper amounts can be signed for. -/
theorem multi_can {C : Crypto} {s : MultiSig} (hs : ContractLaws C s) {us : List Unspent} (t : Spec.Tx)
    (hadd : OrdinaryAddresses C (.multi s))
    (htx : ∀ u ∈ us, ∃ b : Bytes, u.txid = bytesToHex b) (hidx : ∀ u ∈ us, 0 ≤ u.txindex ∧ u.txindex < 2 ^ 32)
    (ham : ∀ u ∈ us, 0 ≤ u.amount ∧ u.amount < 2 ^ 64) : MultiSignable C s us t := by
  have hdict : ∀ (l : List Unspent) (d0 : List (Bytes × Unspent)), (∀ u ∈ l, u ∈ us) →
      ∃ d, inputDict C (.multi s) l d0 = .ok d := by
    intro l
    induction l with
    | nil => intro d0 _; exact ⟨d0, rfl⟩
    | cons u l ih =>
      intro d0 hl
      have hu := hl u List.mem_cons_self
      have hl' : ∀ v ∈ l, v ∈ us := fun v hv => hl v (List.mem_cons_of_mem _ hv)
      obtain ⟨b, hb, -⟩ := (C74_can_sign_contract C s hs.toContractShape).1 hadd u
      rw [inputDict, hb]
      cases b with
      | false => exact ih d0 hl'
      | true =>
        obtain ⟨tb, htb⟩ := htx u hu
        obtain ⟨h0, h1⟩ := hidx u hu
        have : outpointOf u = .ok (tb.reverse ++ leBytes 4 u.txindex.toNat) := by
          unfold outpointOf
          rw [htb, hexToBytes_bytesToHex]
          dsimp only
          have : toBytesLE u.txindex 4 = .ok (leBytes 4 u.txindex.toNat) := by
            unfold toBytesLE
            rw [if_pos ⟨h0, by norm_num; omega⟩]
          rw [this]
        rw [this]
        exact ih _ hl'
  exact ⟨hdict us [] fun _ h => h, fun i _ u hu _ => ham u (chosen_mem hu).1⟩

/-- Signing does not fail: for unspents with transaction ids in hexadecimal, output numbers below 2^32 and
amounts below 2^64, at most `m` co-signers sign one after the other. -/
theorem C48_succeeds (C : Crypto) (s : MultiSig) (hs : ContractLaws C s) (us : List Unspent) (w : Bool)
    (t : Spec.Tx) (hwf : t.WF) (hw : w = true ∨ ∀ u ∈ us, u.isSegwit = false) (hun : Unsigned C s us t)
    (ks : List PrivKey) (hks : ∀ k ∈ ks, SignerLaws C s k)
    (hap : NoMixup C s ks us t) (hdiff : (ks.map fun k => k.publicKey C).Nodup) (hm : (ks.length : Int) ≤ s.m)
    (hadd : OrdinaryAddresses C (.multi s))
    (htx : ∀ u ∈ us, ∃ b : Bytes, u.txid = bytesToHex b) (hidx : ∀ u ∈ us, 0 ≤ u.txindex ∧ u.txindex < 2 ^ 32)
    (ham : ∀ u ∈ us, 0 ≤ u.amount ∧ u.amount < 2 ^ 64) :
    ∃ r, cosign C s us ks (bytesToHex (if w then t.encodeExtended else t.encodeLegacy)) = .ok r := by
  have hnil : t = multiTx C s [] us t := (multiTx_nil C s us t).symm
  have he : bytesToHex (if w then t.encodeExtended else t.encodeLegacy) =
      bytesToHex (enc w (multiTx C s [] us t)) := by rw [← hnil]; rfl
  rw [he]
  exact ⟨_, (cosign_iff hs hw hwf (hun.fresh hs hwf) ks [] hks (by simp)
    (by rw [List.append_nil]; exact hap.apart hs hwf) (by simpa using hdiff)
    (by simpa using hm)).mpr ⟨Or.inr (multi_can hs t hadd htx hidx ham), rfl⟩⟩

open Concrete

/-- A third toy key: 32 bytes `0b`. -/
def keyC : PrivKey := { net := .main, secret := List.replicate 32 11, compressed := true }

/-- A 2-of-3 contract of the toy keys. -/
def contract : MultiSig where
  net := .main
  key := keyA
  publicKeys := [keyA.publicKey crypto, keyB.publicKey crypto, keyC.publicKey crypto]
  m := 2
  redeemscript := [0x52] ++ (0x21 :: keyA.publicKey crypto) ++ (0x21 :: keyB.publicKey crypto) ++
    (0x21 :: keyC.publicKey crypto) ++ [0x53, 0xae]
  isCompressed := true

example : mkMultiSig crypto .main keyA (.list [.bytes (keyA.publicKey crypto), .bytes (keyB.publicKey crypto),
    .bytes (keyC.publicKey crypto)]) 2 = .ok contract := by decide +kernel

theorem contract_laws : ContractLaws crypto contract where
  hash := crypto_lengths
  pos := by decide
  redeem := by decide +kernel
  nodup := by decide +kernel
  points := by decide +kernel
  der := by
    intro b hb
    have : (b.length == 33 && b.head? == some 0x30) = true := hb
    simp only [Bool.and_eq_true, beq_iff_eq] at this
    exact this.2

theorem xor_mask_inj : ∀ (a b h : Bytes), a.length = h.length → b.length = h.length →
    List.zipWith (· ^^^ ·) a h = List.zipWith (· ^^^ ·) b h → a = b
  | [], [], _, _, _, _ => rfl
  | [], _ :: _, [], _, hb, _ => by simp at hb
  | [], _, _ :: _, ha, _, _ => by simp at ha
  | _ :: _, [], [], ha, _, _ => by simp at ha
  | _ :: _, [], _ :: _, _, hb, _ => by simp at hb
  | _ :: _, _ :: _, [], ha, _, _ => by simp at ha
  | x :: a, y :: b, z :: h, ha, hb, he => by
    simp only [List.zipWith_cons_cons, List.cons.injEq] at he
    rw [xor_mask_inj a b h (by simpa using ha) (by simpa using hb) he.2]
    have : x = y := by
      have := congrArg (· ^^^ z) he.1
      simpa [UInt8.xor_assoc] using this
    rw [this]

theorem contract_signer {k : PrivKey} (hk : k = keyA ∨ k = keyB ∨ k = keyC) : SignerLaws crypto contract k := by
  have hl : k.secret.length = 32 := by rcases hk with rfl | rfl | rfl <;> decide
  have hc : k.compressed = true := by rcases hk with rfl | rfl | rfl <;> rfl
  have hsig : ∀ d, (toySig (toyPub k.secret true) d).length = 33 := by
    intro d
    unfold toySig toyPub
    rw [List.length_cons, List.length_zipWith, sha256_length, if_pos rfl, List.drop_succ_cons, List.drop_zero, hl]
    rfl
  refine ⟨?_, ?_, ?_, ?_⟩
  · rcases hk with rfl | rfl | rfl <;> decide +kernel
  · intro d
    show ((toySig (toyPub k.secret true) d).length == 33 && (toySig (toyPub k.secret true) d).head? == some 0x30)
      = true
    rw [hsig]
    rfl
  · intro d
    show (toySig (toyPub k.secret true) d).length ≤ 72
    rw [hsig]
    omega
  · intro d
    show (toySig (toyPub k.secret true) d == toySig ((toyPub k.secret k.compressed).take 33) d) = true
    have ht : (toyPub k.secret true).take 33 = toyPub k.secret true :=
      List.take_of_length_le (by simp [toyPub, hl])
    rw [hc, ht, beq_iff_eq]

theorem contract_noMixup {ks : List PrivKey} (hks : ∀ k ∈ ks, k = keyA ∨ k = keyB ∨ k = keyC) (us : List Unspent)
    (t : Spec.Tx) : NoMixup crypto contract ks us t := by
  intro j i u _ _ _ p d hp _
  constructor
  swap
  · intro b hb hd
    have : (b.length == 33 && b.head? == some 0x30) = true := hd
    simp only [Bool.and_eq_true, beq_iff_eq] at this
    have h1 : (0x30 : UInt8) ∈ contract.redeemscript := hb.subset (List.mem_of_head? this.2)
    exact absurd h1 (by decide +kernel)
  intro k hk
  have hl : k.secret.length = 32 := by rcases hks k hk with rfl | rfl | rfl <;> decide
  have hc : k.compressed = true := by rcases hks k hk with rfl | rfl | rfl <;> rfl
  have hpk : k.publicKey crypto = 0x02 :: k.secret := by
    show toyPub k.secret k.compressed = _
    rw [hc]
    rfl
  have hp' : ∃ q, p = 0x02 :: q ∧ q.length = 32 := by
    have hp : p ∈ [keyA.publicKey crypto, keyB.publicKey crypto, keyC.publicKey crypto] := hp
    simp only [List.mem_cons, List.not_mem_nil, or_false] at hp
    rcases hp with rfl | rfl | rfl
    · exact ⟨List.replicate 32 7, rfl, by decide⟩
    · exact ⟨List.replicate 32 9, rfl, by decide⟩
    · exact ⟨List.replicate 32 11, rfl, by decide⟩
  obtain ⟨q, rfl, hq⟩ := hp'
  show (toySig (toyPub k.secret true) d == toySig ((0x02 :: q).take 33) d) = true → _
  have ht : (0x02 :: q).take 33 = 0x02 :: q := List.take_of_length_le (by simp [hq])
  rw [ht, beq_iff_eq, hpk]
  unfold toySig toyPub
  rw [if_pos rfl, List.drop_succ_cons, List.drop_zero, List.drop_succ_cons, List.drop_zero, List.cons.injEq,
    List.cons.injEq]
  rintro ⟨-, h⟩
  exact ⟨rfl, (xor_mask_inj _ _ _ (by rw [hl, sha256_length]) (by rw [hq, sha256_length]) h).symm⟩

/-- A nested P2WSH unspent of the contract. -/
def unspentM : Unspent := mkUnspent 90000 3 (bytesToHex (Spec.p2shScript (ripemd160 (sha256
  (Spec.witnessScript 0 (sha256 contract.redeemscript)))))) (bytesToHex (List.replicate 32 7)) 1
  "np2wsh".toList 0 none 4294967295

/-- A P2SH unspent of the contract. -/
def unspentL : Unspent := mkUnspent 60000 3 (bytesToHex (Spec.p2shScript (ripemd160 (sha256
  contract.redeemscript)))) (bytesToHex (List.replicate 32 9)) 70000 "p2sh".toList 0 none 4294967295

/-- The first input of the unsigned transaction alone. -/
def oneInputTx : Spec.Tx := { unsignedTx with inputs := unsignedTx.inputs.take 1 }

theorem unsignedTx_wf : unsignedTx.WF where
  version := by decide
  nonempty := List.cons_ne_nil _ _
  inputs := by decide
  input := by
    have h : ∀ i ∈ unsignedTx.inputs, i.prevTxid.length = 32 ∧ i.prevIndex < 2 ^ 32 ∧
        i.script.length < 2 ^ 64 ∧ i.sequence < 2 ^ 32 ∧ i.witness.length < 2 ^ 64 ∧
        ∀ w ∈ i.witness, w.length < 2 ^ 64 := by decide +kernel
    intro i hi
    obtain ⟨h1, h2, h3, h4, h5, h6⟩ := h i hi
    exact ⟨h1, h2, h3, h4, h5, h6⟩
  outputs := by decide
  output := sampleTx_wf.output
  lockTime := by decide

theorem contract_ordinary : OrdinaryAddresses crypto (.multi contract) := ordinary_of (by decide +kernel)

theorem unspentM_pays : PaysContract crypto contract unspentM := Or.inr ⟨rfl, rfl⟩

theorem unspentML_can : ∀ u ∈ [unspentM, unspentL], (Signer.multi contract).canSignUnspent crypto u = .ok true := by
  decide +kernel

/-- The hypotheses of C47 and C48 are met: the three keys can sign both inputs, any two of them complete the
transaction. -/
example : Unsigned crypto contract [unspentM, unspentL] unsignedTx ∧
    (∀ u ∈ [unspentM, unspentL], ContractFits crypto contract u) ∧
    (∃ i ∈ unsignedTx.inputs, ∃ u ∈ [unspentM, unspentL], OwnsContract crypto contract u i) ∧
    ([keyC, keyA].map fun k => k.publicKey crypto).Nodup ∧
    ∃ r, cosign crypto contract [unspentM, unspentL] [keyC, keyA] (bytesToHex unsignedTx.encodeExtended) = .ok r := by
  refine ⟨?_, ?_, ?_, by decide +kernel, ?_⟩
  · intro i hi u _ _
    have : ∀ i ∈ unsignedTx.inputs, i.script = [] ∧ i.witness = [] := by decide +kernel
    exact this i hi
  · intro u hu
    simp only [List.mem_cons, List.not_mem_nil, or_false] at hu
    rcases hu with rfl | rfl
    · exact Or.inr ⟨by decide, rfl⟩
    · exact Or.inl ⟨by decide, rfl⟩
  · exact ⟨unsignedTx.inputs[0], List.getElem_mem _, unspentM, List.mem_cons_self,
      unspentM_pays, by decide +kernel, by decide +kernel⟩
  · refine C48_succeeds crypto contract contract_laws [unspentM, unspentL] true unsignedTx unsignedTx_wf
      (Or.inl rfl) ?_ [keyC, keyA] ?_ ?_ (by decide +kernel) (by decide) ?_ ?_ ?_ ?_
    · intro i hi u _ _
      have : ∀ i ∈ unsignedTx.inputs, i.script = [] ∧ i.witness = [] := by decide +kernel
      exact this i hi
    · intro k hk
      simp only [List.mem_cons, List.not_mem_nil, or_false] at hk
      rcases hk with rfl | rfl
      · exact contract_signer (Or.inr (Or.inr rfl))
      · exact contract_signer (Or.inl rfl)
    · exact contract_noMixup (by simp) _ _
    · exact contract_ordinary
    · intro u hu
      simp only [List.mem_cons, List.not_mem_nil, or_false] at hu
      rcases hu with rfl | rfl
      · exact ⟨List.replicate 32 7, rfl⟩
      · exact ⟨List.replicate 32 9, rfl⟩
    · decide +kernel
    · decide +kernel

/-- C49 for the 2-of-3 contract: key A signs its one-input transaction twice. -/
example : ∃ r r', cosign crypto contract [unspentM] [keyA] (bytesToHex oneInputTx.encodeExtended) = .ok r ∧
    signTransactionHex crypto (.multi { contract with key := keyA }) r [unspentM] = .ok r' ∧
    ∀ t' : Spec.Tx, t'.WF → r' ≠ bytesToHex t'.encodeExtended ∧ r' ≠ bytesToHex t'.encodeLegacy := by
  have hwf : oneInputTx.WF := by
    refine ⟨by decide, List.cons_ne_nil _ _, by decide, ?_, by decide, unsignedTx_wf.output, by decide⟩
    intro i hi
    exact unsignedTx_wf.input i (List.mem_of_mem_take hi)
  have hun : Unsigned crypto contract [unspentM] oneInputTx := by
    intro i hi u _ _
    have : ∀ i ∈ oneInputTx.inputs, i.script = [] ∧ i.witness = [] := by decide +kernel
    exact this i hi
  have hks : ∀ k ∈ [keyA], SignerLaws crypto contract k := by
    intro k hk
    rw [List.mem_singleton] at hk
    exact contract_signer (Or.inl hk)
  obtain ⟨r, hr⟩ := C48_succeeds crypto contract contract_laws [unspentM] true oneInputTx hwf (Or.inl rfl) hun
    [keyA] hks (contract_noMixup (by simp) _ _) (by decide +kernel) (by decide)
    contract_ordinary
    (fun u hu => by rw [List.mem_singleton] at hu; rw [hu]; exact ⟨List.replicate 32 7, rfl⟩)
    (by decide +kernel) (by decide +kernel)
  obtain ⟨r', hr', hno⟩ := C49_segwit_signed_twice crypto contract contract_laws [unspentM] oneInputTx hwf
    (oneInputTx.inputs[0]) rfl hun (by decide +kernel)
    ⟨unspentM, List.mem_cons_self, unspentM_pays, by decide +kernel, by decide +kernel⟩
    [keyA] hks (contract_noMixup (by simp) _ _) (by decide +kernel) (by decide) r hr keyA List.mem_cons_self
  exact ⟨r, r', hr, hr', hno⟩

/-- C49 for the legacy coin of the 2-of-3 contract: key A signs three times, then key C. The text is that of C and A
signing once each. -/
example : ∃ r, cosign crypto contract [unspentL] [keyA, keyA, keyA, keyC] (bytesToHex unsignedTx.encodeLegacy) = .ok r ∧
    cosign crypto contract [unspentL] [keyC, keyA] (bytesToHex unsignedTx.encodeLegacy) = .ok r ∧
    ∃ i ∈ unsignedTx.inputs, OwnsContract crypto contract unspentL i := by
  have hun : Unsigned crypto contract [unspentL] unsignedTx := by
    intro i hi u _ _
    have : ∀ i ∈ unsignedTx.inputs, i.script = [] ∧ i.witness = [] := by decide +kernel
    exact this i hi
  have hks : ∀ k ∈ [keyC, keyA], SignerLaws crypto contract k := by
    intro k hk
    simp only [List.mem_cons, List.not_mem_nil, or_false] at hk
    rcases hk with rfl | rfl
    · exact contract_signer (Or.inr (Or.inr rfl))
    · exact contract_signer (Or.inl rfl)
  obtain ⟨r, hr⟩ := C48_succeeds crypto contract contract_laws [unspentL] false unsignedTx unsignedTx_wf
    (Or.inr (by decide)) hun [keyC, keyA] hks (contract_noMixup (by simp) _ _) (by decide +kernel) (by decide)
    contract_ordinary
    (fun u hu => by rw [List.mem_singleton] at hu; rw [hu]; exact ⟨List.replicate 32 9, rfl⟩)
    (by decide +kernel) (by decide +kernel)
  refine ⟨r, ?_, hr, unsignedTx.inputs[1], List.getElem_mem _, Or.inl rfl, by decide +kernel,
    by decide +kernel⟩
  refine (C49_legacy_history crypto contract contract_laws [unspentL] (by decide) false unsignedTx unsignedTx_wf hun
    [keyC, keyA] hks (contract_noMixup (by simp) _ _) (by decide +kernel) (by decide) [keyA, keyA, keyA] keyC
    (by decide +kernel) ?_ r).mpr hr
  intro k
  simp [or_comm]

end Bit
