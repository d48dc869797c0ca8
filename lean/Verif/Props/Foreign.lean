import Verif.Lemmas.Foreign
import Verif.Props.Ecdsa
/-
C99: co-signing texts whose inputs hold any bytes; bytes of the contract's own script that look like signatures.
C93: contracts of keys of secp256k1.
-/
namespace Bit

open Concrete
open _root_.Spec (Encodes HasCoords beValue)

attribute [local irreducible] Spec.fieldPrime Spec.groupOrder

/-! ### reading -/

theorem push_flatMap {items : List Bytes} (h : ∀ b ∈ items, b.length ≤ 75) :
    items.flatMap (fun b => UInt8.ofNat b.length :: b) = items.flatMap Spec.varBytes := by
  induction items with
  | nil => rfl
  | cons b items ih =>
    rw [List.flatMap_cons, List.flatMap_cons, ih fun c hc => h c (List.mem_cons_of_mem _ hc), Spec.varBytes,
      compact_small (by have := h b List.mem_cons_self; omega)]
    rfl

theorem read_items {C : Crypto} {s : MultiSig} (hs : ContractLaws C s) {items : List Bytes}
    (h : ∀ b ∈ items, b.length ≤ 75) :
    getSignaturesFromScript C.isDer (0x00 :: items.flatMap (fun b => UInt8.ofNat b.length :: b) ++
      pushPrefix s.redeemscript.length ++ s.redeemscript) =
      .ok (items.filter (fun b => C.isDer b.dropLast) ++ strays C s) := by
  unfold getSignaturesFromScript
  have e : (0x00 :: items.flatMap (fun b => UInt8.ofNat b.length :: b) ++
      pushPrefix s.redeemscript.length ++ s.redeemscript).drop 1 =
      items.flatMap Spec.varBytes ++ (pushPrefix s.redeemscript.length ++ s.redeemscript) := by
    rw [push_flatMap h, List.cons_append, List.cons_append, List.drop_succ_cons, List.drop_zero, List.append_assoc]
  rw [e, getSigs_items items (fun b hb => by have := h b hb; omega) (strays_eq hs).1 _ le_rfl]
  simp only [dropLast'_eq]

/-- C99. The input script of a contract, with any items before the contract's script, can always be read. The code
takes for signatures those items that look like one and, besides, nothing but parts of the contract's script that
look like one. -/
theorem C99_read (C : Crypto) (s : MultiSig) (hs : ContractLaws C s) (push : Bytes)
    (hpush : scriptPush s.redeemscript.length = .ok push) (items : List Bytes) (hitems : ∀ b ∈ items, b.length ≤ 75) :
    ∃ more, getSignaturesFromScript C.isDer (0x00 :: items.flatMap (fun b => UInt8.ofNat b.length :: b) ++ push ++
        s.redeemscript) = .ok (items.filter (fun b => C.isDer b.dropLast) ++ more) ∧
      (∀ b ∈ more, C.isDer b.dropLast = true ∧ b <:+: s.redeemscript) ∧
      (s.redeemscript.length ≤ 75 → more = []) := by
  have hpe : push = pushPrefix s.redeemscript.length := by rw [pushPrefix, hpush]
  subst hpe
  refine ⟨strays C s, read_items hs hitems, ?_, ?_⟩
  · intro b hb
    rw [← dropLast'_eq]
    exact (strays_eq hs).2 b hb
  · intro h75
    have hp : pushPrefix s.redeemscript.length = Spec.compact s.redeemscript.length := by
      unfold pushPrefix
      rw [u8_length h75, compact_small (by omega)]
    have := getSigs_items (isDer := C.isDer) (rest := []) (J := []) [s.redeemscript] (by
      intro b hb; rw [List.mem_singleton.mp hb]; omega) rfl _ le_rfl
    rw [List.append_nil, List.append_nil, List.filter_cons, (redeem_head hs).1] at this
    have h2 := (strays_eq hs).1
    rw [hp] at h2
    have e : [s.redeemscript].flatMap Spec.varBytes = Spec.compact s.redeemscript.length ++ s.redeemscript := by
      simp [Spec.varBytes]
    rw [e, h2] at this
    simpa using this

/-! ### signing -/

/-- The bytes `b` are somewhere in the input `i` of the coin `u`: an item of the witness, or any part of the script. -/
def Was (u : Unspent) (i : Spec.TxInput) (b : Bytes) : Prop :=
  if u.isSegwit then b ∈ i.witness else b <:+: i.script

/-- The bytes `b` are an item that the input `i` of the coin `u` gives to the contract `s`: an item of the witness, or
one of the items, each of at most 75 bytes, that the script pushes after a zero and before the contract's script. -/
def Held (s : MultiSig) (u : Unspent) (i : Spec.TxInput) (b : Bytes) : Prop :=
  if u.isSegwit then b ∈ i.witness
  else ∃ (push : Bytes) (items : List Bytes), scriptPush s.redeemscript.length = .ok push ∧
    (∀ c ∈ items, c.length ≤ 75) ∧
    i.script = 0x00 :: items.flatMap (fun c => UInt8.ofNat c.length :: c) ++ push ++ s.redeemscript ∧ b ∈ items

/-- The signatures in an input after the key `k` signed it: one for each of the keys `used`, which are keys of the
contract in its order. That of `k` is made now; every other one was in the input `i` before and verifies. -/
structure KeptSigs (C : Crypto) (s : MultiSig) (k : PrivKey) (data : Bytes) (u : Unspent) (i : Spec.TxInput)
    (used sigs : List Bytes) : Prop where
  order : used.Sublist s.publicKeys
  own : k.publicKey C ∈ used
  few : (used.length : Int) ≤ s.m
  sigs : List.Forall₂ (fun sig p => (p = k.publicKey C ∧ sig = C.sign k.secret data ++ [0x01]) ∨
    (p ≠ k.publicKey C ∧ Was u i sig ∧ C.isDer sig.dropLast = true ∧ C.verify sig.dropLast data p = true)) sigs used
  /-- no valid signature is lost -/
  all : ∀ b, Held s u i b → C.isDer b.dropLast = true → ∀ p ∈ s.publicKeys, C.verify b.dropLast data p = true → p ∈ used

/-- The input `i'` of the coin `u` holds a zero, the signatures, some empty places and the contract's script, and
nothing else. -/
def Laid (C : Crypto) (s : MultiSig) (u : Unspent) (i' : Spec.TxInput) (sigs : List Bytes) (pad : Nat) : Prop :=
  if u.isSegwit then i'.script = 0x22 :: Spec.witnessScript 0 (C.sha256 s.redeemscript) ∧
    i'.witness = [] :: sigs ++ List.replicate pad [] ++ [s.redeemscript] ∧ (sigs.length : Int) + pad = s.m
  else i'.witness = [] ∧ Spec.parsePushes (sigs.length + pad + 2) i'.script =
    ([] :: sigs ++ List.replicate pad [] ++ [s.redeemscript], [])

/-- No text is a signature under two keys of the contract. -/
def OneKey (C : Crypto) (s : MultiSig) (data : Bytes) : Prop :=
  ∀ b, C.isDer b = true → ∀ p ∈ s.publicKeys, ∀ q ∈ s.publicKeys, C.verify b data p = true →
    C.verify b data q = true → p = q

/-- The witness `stack` has only good signatures: those of its items that look like signatures verify under different
keys of the contract other than that of `k`. -/
structure GoodStack (C : Crypto) (s : MultiSig) (k : PrivKey) (data : Bytes) (stack : List Bytes) : Prop where
  few : stack.length < 253
  one : OneKey C s data
  sigs : ∃ ps : List Bytes, ps.Nodup ∧ k.publicKey C ∉ ps ∧ (∀ p ∈ ps, p ∈ s.publicKeys) ∧
    List.Forall₂ (fun sig p => C.verify sig.dropLast data p = true) (stack.filter fun b => C.isDer b.dropLast) ps

/-- What the input holds after signing. -/
def Kept (C : Crypto) (s : MultiSig) (k : PrivKey) (data : Bytes) (u : Unspent) (i i' : Spec.TxInput) : Prop :=
  ∃ (used sigs : List Bytes) (pad : Nat), KeptSigs C s k data u i used sigs ∧ Laid C s u i' sigs pad ∧
    (OneKey C s data → (used.length : Int) + pad ≤ s.m)

theorem kept_of_sign {C : Crypto} {s : MultiSig} (hs : ContractLaws C s) {w : Bool} {k : PrivKey}
    (hk : SignerLaws C s k) {d : Bytes} (hsize : ∀ b p, C.isDer b = true → C.verify b d p = true → b.length ≤ 72)
    {u : Unspent} {i : Spec.TxInput} (hwf : i.WF) (hw : u.isSegwit = true → w = true)
    (hgood : u.isSegwit = true → GoodStack C s k d i.witness) {a wit : Bytes}
    (h : signMulti C { s with key := k } w u.isSegwit d
      (if u.isSegwit then (if w then Spec.encodeStack i.witness else []) else i.script) = .ok (a, wit)) :
    ∃ W : List Bytes, W.length < 2 ^ 64 ∧ (∀ b ∈ W, b.length < 2 ^ 64) ∧
      wit = (if w then Spec.encodeStack W else []) ∧ Kept C s k d u i { i with script := a, witness := W } := by
  obtain ⟨used, sigs, pad, count, g1, g2, g3, g4, g5, g6, g7, g8⟩ := signMulti_any hs hk hsize h
  obtain ⟨-, hrl, hm15, -⟩ := redeem_head hs
  have hlens : sigs.length = used.length := g4.length_eq
  have hshort : ∀ b ∈ sigs, b.length ≤ 75 := by
    intro b hb
    obtain ⟨n, hn⟩ := List.mem_iff_getElem?.mp hb
    have hg := forall₂_iff_get.mp g4
    obtain ⟨q, hq⟩ := get_of_length hg.1 hn
    rcases hg.2 n b q hn hq with ⟨-, rfl⟩ | ⟨-, q1, q2⟩
    · have := hk.len d
      rw [List.length_append, List.length_singleton]
      omega
    · have := hsize _ _ (foundIn_sound q1).1 q2
      rw [List.length_dropLast] at this
      omega
  have hrep : ∀ n, (List.replicate n ([] : Bytes)).flatMap Spec.varBytes = List.replicate n 0x00 := by
    intro n
    induction n with
    | zero => rfl
    | succ n ih => rw [List.replicate_succ, List.flatMap_cons, ih]; rfl
  cases hseg : u.isSegwit with
  | false =>
    rw [hseg] at g4 g5 g6 g7
    simp only [Bool.false_eq_true, if_false, Prod.mk.injEq] at g4 g5 g6 g7
    obtain ⟨ha, hwit⟩ := g6
    refine ⟨[], by simp, by simp, ?_, used, sigs, pad, ⟨g1, g2, g3, ?_, ?_⟩, ?_, g8⟩
    · rw [hwit]
      simp [Spec.encodeStack, Spec.compact]
    · refine g4.imp ?_
      intro sig p hsp
      rcases hsp with hsp | ⟨q1, q2, q3⟩
      · exact .inl hsp
      · exact .inr ⟨q1, by rw [Was, hseg]; exact (foundIn_sound q2).2, (foundIn_sound q2).1, q3⟩
    · intro b hb hd p hp hv
      rw [Held, hseg] at hb
      obtain ⟨push, items, hpush, hitems, hbefore, hb⟩ := hb
      have hpe : push = pushPrefix s.redeemscript.length := by rw [pushPrefix, hpush]
      rw [hpe] at hbefore
      refine g5 b ?_ p hp hv
      unfold foundIn
      rw [hbefore, read_items hs hitems]
      exact List.mem_append_left _ (List.mem_filter.mpr ⟨hb, hd⟩)
    · rw [Laid, hseg]
      refine ⟨rfl, ?_⟩
      dsimp only
      rw [ha]
      obtain ⟨p, hp, hpp⟩ := C14_script_push_parses s.redeemscript [] (lt_of_le_of_lt hrl (by norm_num))
      have hpe : pushPrefix s.redeemscript.length = p := by
        rw [pushPrefix, hp]
      have hlast : Spec.parsePushes 1 (pushPrefix s.redeemscript.length ++ s.redeemscript) =
          ([s.redeemscript], []) := by
        rw [List.append_nil] at hpp
        rw [hpe, Spec.parsePushes, hpp]
        rfl
      have := parsePushes_items ([] :: sigs ++ List.replicate pad []) 1
        (pushPrefix s.redeemscript.length ++ s.redeemscript) (by
          intro b hb
          simp only [List.mem_append, List.mem_cons, List.mem_replicate] at hb
          rcases hb with (rfl | hb) | ⟨-, rfl⟩
          · simp
          · exact hshort b hb
          · simp)
      rw [hlast, List.flatMap_append, hrep, List.flatMap_cons] at this
      convert this using 1
      congr 1
      · simp
      · simp [Spec.varBytes, show Spec.compact 0 = [0x00] by decide]
  | true =>
    have hwt := hw hseg
    obtain ⟨hfew, hone, ps, hps1, hps2, hps3, hps4⟩ := hgood hseg
    rw [hseg, hwt] at g4 g5 g6 g7
    simp only [if_true, Prod.mk.injEq] at g4 g5 g6 g7
    rw [foundIn_stack C hwf.item hfew] at g4 g5 g7
    obtain ⟨ha, hwit⟩ := g6
    obtain ⟨hpad, hcount⟩ := g7 (by simp [Spec.encodeStack, compact_ne_nil])
    have hfl := hps4.length_eq
    have hsub : k.publicKey C :: ps ⊆ used := by
      intro p hp
      rcases List.mem_cons.mp hp with rfl | hp
      · exact g2
      · obtain ⟨n, hn⟩ := List.mem_iff_getElem?.mp hp
        have hg := forall₂_iff_get.mp hps4
        obtain ⟨b, hb⟩ := get_of_length hg.1.symm hn
        exact g5 b (List.mem_of_getElem? hb) p (hps3 p hp) (hg.2 n b p hb hn)
    have hge := (List.subperm_of_subset (List.nodup_cons.mpr ⟨hps2, hps1⟩) hsub).length_le
    rw [List.length_cons] at hge
    have h8 := g8 hone
    have htot : (sigs.length : Int) + pad = s.m := by omega
    refine ⟨[] :: sigs ++ List.replicate pad [] ++ [s.redeemscript], ?_, ?_, ?_, used, sigs, pad,
      ⟨g1, g2, g3, ?_, ?_⟩, ?_, g8⟩
    · simp only [List.length_append, List.length_cons, List.length_replicate, List.length_nil]
      omega
    · intro b hb
      simp only [List.mem_append, List.mem_cons, List.mem_replicate, List.not_mem_nil, or_false] at hb
      rcases hb with ((rfl | hb) | ⟨-, rfl⟩) | rfl
      · simp
      · have := hshort b hb
        omega
      · simp
      · omega
    · rw [hwit, hwt, if_pos rfl, Spec.encodeStack, hcount]
      have hl : ([] :: sigs ++ List.replicate pad [] ++ [s.redeemscript]).length = (s.m + 2).toNat := by
        simp only [List.length_append, List.length_cons, List.length_replicate, List.length_nil]
        omega
      rw [hl, List.flatMap_append, List.flatMap_append, hrep, List.flatMap_cons]
      simp [Spec.varBytes, show Spec.compact 0 = [0x00] by decide]
    · refine g4.imp ?_
      intro sig p hsp
      rcases hsp with hsp | ⟨q1, q2, q3⟩
      · exact .inl hsp
      · obtain ⟨r1, r2⟩ := List.mem_filter.mp q2
        exact .inr ⟨q1, by rw [Was, hseg]; exact r1, r2, q3⟩
    · intro b hb hd p hp hv
      rw [Held, hseg] at hb
      exact g5 b (List.mem_filter.mpr ⟨hb, hd⟩) p hp hv
    · rw [Laid, hseg]
      exact ⟨ha, rfl, htot⟩

/-- C99. A co-signer signs the wire encoding of any transaction, whatever its inputs hold. If that succeeds,
the result is the wire encoding of a transaction with the same outpoints, sequence numbers and outputs. Inputs that
are not the contract's are as before. In an input of the contract there is a signature of the co-signer and, besides,
only signatures that were there before and that verify under other keys of the contract, in the order of the keys;
whatever else the input held is gone, and no valid signature is lost. For segwit inputs the witness is asked to have
only good signatures (see C99_segwit_bad). -/
theorem C99_foreign (C : Crypto) (s : MultiSig) (hs : ContractLaws C s) (us : List Unspent) (w : Bool)
    (t : Spec.Tx) (hwf : t.WF) (hw : w = true ∨ ∀ u ∈ us, u.isSegwit = false) (k : PrivKey) (hk : SignerLaws C s k)
    (hsize : ∀ b data p, C.isDer b = true → C.verify b data p = true → b.length ≤ 72)
    (hgood : ∀ (j : Nat) (i : Spec.TxInput) (u : Unspent), t.inputs[j]? = some i → u ∈ us → OwnsContract C s u i →
      u.isSegwit = true →
      GoodStack C s k (C.sha256 (Spec.segwitMessage C.doubleSha256 t i s.redeemscript u.amount.toNat)) i.witness)
    (r : Str) (h : signTransactionHex C (.multi { s with key := k })
      (bytesToHex (if w then t.encodeExtended else t.encodeLegacy)) us = .ok r) :
    ∃ t', t'.WF ∧ Spec.SameSkeleton t t' ∧ r = bytesToHex (if w then t'.encodeExtended else t'.encodeLegacy) ∧
      ∀ (j : Nat) (i i' : Spec.TxInput), t.inputs[j]? = some i → t'.inputs[j]? = some i' →
        ((∀ u ∈ us, ¬ OwnsContract C s u i) ∧ i' = i) ∨
        ∃ u ∈ us, OwnsContract C s u i ∧ ∃ data,
          data = C.sha256 (if u.isSegwit then Spec.segwitMessage C.doubleSha256 t i s.redeemscript u.amount.toNat
            else Spec.legacyMessage t j s.redeemscript) ∧
          Kept C s k data u i i' := by
  obtain ⟨x, hx, hrep⟩ := deserialize_enc hwf w
  have he : (if w then t.encodeExtended else t.encodeLegacy) = enc w t := rfl
  rw [he] at h
  unfold signTransactionHex at h
  rw [deserializeHex_bytesToHex, hx] at h
  dsimp only at h
  unfold signTx at h
  cases hso : signTxObj C (.multi { s with key := k }) x us with
  | error e => rw [hso] at h; cases h
  | ok x' =>
    rw [hso] at h
    dsimp only at h
    obtain ⟨d, sg, hdict, hsg, hx', hlen, hstep⟩ := (signTxObj_iff hrep.skel hwf.inputs hwf.outputs).mp hso
    rw [isSegwit_represents hrep hwf] at hsg
    injection hsg with hsg
    subst hsg
    rw [inputDict_key] at hdict
    have hin := forall₂_iff_get.mp hrep.inputs
    have hsc : (Signer.multi { s with key := k }).scriptcode C = .ok (some s.redeemscript) := rfl
    -- the inputs one by one
    have hstep' : ∀ (j : Nat) (i : Spec.TxInput) (x'j : TxIn), t.inputs[j]? = some i → x'.ins[j]? = some x'j →
        ∃ xj, x.ins[j]? = some xj ∧ InRepresents w xj i ∧
        (match chosen C (.multi s) us (Spec.TxInput.outpoint i) with
          | none => x'j = xj
          | some u => ∃ (script : Bytes) (W : List Bytes), script.length < 2 ^ 64 ∧ W.length < 2 ^ 64 ∧
              (∀ b ∈ W, b.length < 2 ^ 64) ∧
              Kept C s k (digest C t j i s.redeemscript u.isSegwit u.amount.toNat) u i
                { i with script := script, witness := W } ∧
              x'j = { xj with segwitInput := u.isSegwit, scriptSig := script,
                              scriptSigLen := Spec.compact script.length,
                              witness := if w then Spec.encodeStack W else [] }) := by
      intro j i x'j hi hx'j
      obtain ⟨xj, hxj⟩ := get_of_length hlen hx'j
      have hr := hin.2 j xj i hxj hi
      refine ⟨xj, hxj, hr, ?_⟩
      have hst := hstep j xj x'j i hxj hx'j hi
      unfold StepAt at hst
      rw [hr.outpoint, chosen_eq hdict] at hst
      cases hc : chosen C (.multi s) us (Spec.TxInput.outpoint i) with
      | none => rw [hc] at hst; exact hst
      | some u =>
        rw [hc] at hst
        dsimp only at hst ⊢
        obtain ⟨sc, script, witness, len, h1, -, -, h4, h5, h6⟩ := hst
        rw [hsc] at h1
        injection h1 with h1
        injection h1 with h1
        subst h1
        rw [hr.script, hr.witness] at h4
        obtain ⟨hlt, hlen5⟩ := intToVarint_ok h5
        have hwi := hwf.input i (List.mem_of_getElem? hi)
        obtain ⟨hu, hmine⟩ := chosen_mem hc
        have ho := owns_of_mine_contract hs.toContractShape hwi hmine
        obtain ⟨W, q1, q2, q3, q4⟩ := kept_of_sign hs hk (fun b p => hsize b _ p) hwi
          (fun hseg => by
            rcases hw with hw | hw
            · exact hw
            · rw [hw u hu] at hseg; cases hseg)
          (fun hseg => by
            have := hgood j i u hi hu ho hseg
            unfold digest
            rw [hseg]
            exact this) h4
        rw [hlen5, q3] at h6
        exact ⟨script, W, hlt, q1, q2, q4, h6⟩
    -- what the inputs hold
    have hG : ∀ j : Nat, ∃ g : Bytes × List Bytes, (g.1.length < 2 ^ 64 ∧ g.2.length < 2 ^ 64 ∧
        ∀ b ∈ g.2, b.length < 2 ^ 64) ∧
        ∀ (i : Spec.TxInput) (x'j xj : TxIn) (u : Unspent), t.inputs[j]? = some i → x'.ins[j]? = some x'j →
          x.ins[j]? = some xj → chosen C (.multi s) us (Spec.TxInput.outpoint i) = some u →
          Kept C s k (digest C t j i s.redeemscript u.isSegwit u.amount.toNat) u i
            { i with script := g.1, witness := g.2 } ∧
          x'j = { xj with segwitInput := u.isSegwit, scriptSig := g.1, scriptSigLen := Spec.compact g.1.length,
                          witness := if w then Spec.encodeStack g.2 else [] } := by
      intro j
      by_cases hex : ∃ (i : Spec.TxInput) (x'j : TxIn) (u : Unspent), t.inputs[j]? = some i ∧ x'.ins[j]? = some x'j ∧
          chosen C (.multi s) us (Spec.TxInput.outpoint i) = some u
      · obtain ⟨i, x'j, u, e1, e2, e3⟩ := hex
        obtain ⟨xj, hxj, hr, hm⟩ := hstep' j i x'j e1 e2
        rw [e3] at hm
        obtain ⟨script, W, q1, q2, q3, q4, q5⟩ := hm
        refine ⟨(script, W), ⟨q1, q2, q3⟩, ?_⟩
        intro i2 y2 z2 u2 f1 f2 f3 f4
        rw [e1] at f1
        rw [e2] at f2
        rw [hxj] at f3
        injection f1 with f1
        injection f2 with f2
        injection f3 with f3
        subst f1; subst f2; subst f3
        rw [e3] at f4
        injection f4 with f4
        subst f4
        exact ⟨q4, q5⟩
      · exact ⟨([], []), by simp, fun i x'j _ u f1 f2 _ f4 => absurd ⟨i, x'j, u, f1, f2, f4⟩ hex⟩
    choose G hG1 hG2 using hG
    let F : Nat → Unspent → Spec.TxInput → Spec.TxInput := fun j _ i =>
      { i with script := (G j).1, witness := (G j).2 }
    have hF : Keeps F := fun j u i =>
      ⟨rfl, rfl, rfl, fun hi => ⟨hi.txid, hi.index, (hG1 j).1, hi.sequence, (hG1 j).2.1, (hG1 j).2.2⟩⟩
    have hwf' := withTx_wf (C := C) (s := s) (us := us) hF hwf
    have hsk := withTx_skeleton (C := C) (s := s) (us := us) (t := t) hF
    have hrep' : Represents w x' (withTx C s us F t) := by
      rw [hx']
      refine ⟨hrep.version, ?_, hrep.outputs, hrep.lockTime⟩
      dsimp only
      refine forall₂_iff_get.mpr ⟨?_, ?_⟩
      · rw [hlen, hin.1]; simp [withTx]
      · intro j x'j i' hx'j hi'
        obtain ⟨i, hi⟩ := get_of_length (skeleton_length hsk) hi'
        obtain ⟨xj, hxj, hr, hm⟩ := hstep' j i x'j hi hx'j
        rw [withTx_get, hi, Option.map_some] at hi'
        injection hi' with hi'
        subst hi'
        cases hc : chosen C (.multi s) us (Spec.TxInput.outpoint i) with
        | none => rw [hc] at hm; dsimp only at hm ⊢; rw [hm]; exact hr
        | some u =>
          dsimp only
          obtain ⟨-, h3⟩ := hG2 j i x'j xj u hi hx'j hxj hc
          rw [h3]
          exact ⟨hr.txid, hr.txindex, rfl, rfl, hr.sequence, rfl⟩
    refine ⟨withTx C s us F t, hwf', hsk, ?_, ?_⟩
    · unfold TxObj.toHex at h
      rw [(C24_serialize w x' _ hrep' hwf'.nonempty hwf'.inputs hwf'.outputs).1] at h
      injection h with h
      exact h.symm
    · intro j i i' hi hi'
      obtain ⟨x'j, hx'j⟩ := get_of_length (forall₂_iff_get.mp hrep'.inputs).1.symm hi'
      obtain ⟨xj, hxj, hr, hm⟩ := hstep' j i x'j hi hx'j
      rw [withTx_get, hi, Option.map_some] at hi'
      injection hi' with hi'
      have hwi := hwf.input i (List.mem_of_getElem? hi)
      cases hc : chosen C (.multi s) us (Spec.TxInput.outpoint i) with
      | none =>
        left
        rw [hc] at hi'
        exact ⟨fun u hu ho => (chosen_none hdict).mp hc u hu
          (mine_of_owns_contract hs.toContractShape hdict hu hwi ho), hi'.symm⟩
      | some u =>
        right
        obtain ⟨hu, hmine⟩ := chosen_mem hc
        rw [hc] at hi'
        dsimp only at hi'
        obtain ⟨h2, -⟩ := hG2 j i x'j xj u hi hx'j hxj hc
        subst hi'
        exact ⟨u, hu, owns_of_mine_contract hs.toContractShape hwi hmine, _, rfl, h2⟩

/-- C99. If the input held, among any other items, valid signatures of `m - 1` other keys of the contract, then the
script interpreter accepts the input after the co-signer signed. Signatures must be of the type "all", and no text
may be a signature under two keys of the contract. -/
theorem C99_completes (C : Crypto) (s : MultiSig) (hs : ContractLaws C s) (us : List Unspent) (w : Bool)
    (t : Spec.Tx) (hwf : t.WF) (hw : w = true ∨ ∀ u ∈ us, u.isSegwit = false) (k : PrivKey) (hk : SignerLaws C s k)
    (hsize : ∀ b data p, C.isDer b = true → C.verify b data p = true → b.length ≤ 72)
    (hgood : ∀ (j : Nat) (i : Spec.TxInput) (u : Unspent), t.inputs[j]? = some i → u ∈ us → OwnsContract C s u i →
      u.isSegwit = true →
      GoodStack C s k (C.sha256 (Spec.segwitMessage C.doubleSha256 t i s.redeemscript u.amount.toNat)) i.witness)
    (hfit : ∀ u ∈ us, PaysContract C s u → ContractFits C s u)
    (r : Str) (h : signTransactionHex C (.multi { s with key := k })
      (bytesToHex (if w then t.encodeExtended else t.encodeLegacy)) us = .ok r) :
    ∃ t', t'.WF ∧ Spec.SameSkeleton t t' ∧ r = bytesToHex (if w then t'.encodeExtended else t'.encodeLegacy) ∧
      ∀ (j : Nat) (i i' : Spec.TxInput), t.inputs[j]? = some i → t'.inputs[j]? = some i' →
        (∃ u ∈ us, OwnsContract C s u i) →
        (∀ u ∈ us, OwnsContract C s u i → ∀ data,
          data = C.sha256 (if u.isSegwit then Spec.segwitMessage C.doubleSha256 t i s.redeemscript u.amount.toNat
            else Spec.legacyMessage t j s.redeemscript) →
          OneKey C s data ∧
          (∀ b, Was u i b → ∀ p ∈ s.publicKeys, C.verify b.dropLast data p = true → b.getLast? = some 0x01) ∧
          ∃ ps : List Bytes, ps.Nodup ∧ k.publicKey C ∉ ps ∧ (ps.length : Int) + 1 = s.m ∧
            ∀ p ∈ ps, p ∈ s.publicKeys ∧ ∃ b, Held s u i b ∧ C.isDer b.dropLast = true ∧
              C.verify b.dropLast data p = true) →
        ∃ u ∈ us, OwnsContract C s u i ∧ ∃ script, u.script = bytesToHex script ∧
          Spec.accepts C.hashing t' j i' script u.amount.toNat = true := by
  obtain ⟨t', h1, h2, h3, h4⟩ := C99_foreign C s hs us w t hwf hw k hk hsize hgood r h
  refine ⟨t', h1, h2, h3, ?_⟩
  intro j i i' hi hi' hex hall
  rcases h4 j i i' hi hi' with ⟨hno, -⟩ | ⟨u, hu, ho, data, hdata, used, sigs, pad, hkept, hlaid, hpad⟩
  · obtain ⟨u, hu, ho⟩ := hex
    exact absurd ho (hno u hu)
  refine ⟨u, hu, ho, ?_⟩
  obtain ⟨hone, htype, ps, hnd, hown, hcount, hps⟩ := hall u hu ho data hdata
  obtain ⟨-, hrl, -, -, hpm⟩ := redeem_head hs
  have hsub : k.publicKey C :: ps ⊆ used := by
    intro p hp
    rcases List.mem_cons.mp hp with rfl | hp
    · exact hkept.own
    · obtain ⟨g1, b, g2, g3, g4⟩ := hps p hp
      exact hkept.all b g2 g3 p g1 g4
  have hge := (List.subperm_of_subset (List.nodup_cons.mpr ⟨hown, hnd⟩) hsub).length_le
  rw [List.length_cons] at hge
  have hfew := hkept.few
  have hp := hpad hone
  have hpad0 : pad = 0 := by omega
  subst hpad0
  have hlens : sigs.length = used.length := hkept.sigs.length_eq
  have hok : ∀ message, data = C.sha256 message → Spec.MultisigOk C.hashing message s.redeemscript sigs := by
    intro message hd
    refine ⟨s.m.toNat, s.publicKeys, s.publicKeys.length, used, hpm, rfl, by omega, hrl, hkept.order, ?_⟩
    have hg := forall₂_iff_get.mp hkept.sigs
    refine forall₂_iff_get.mpr ⟨hg.1, ?_⟩
    intro n sig p hsig hp'
    rcases hg.2 n sig p hsig hp' with ⟨rfl, rfl⟩ | ⟨-, g1, g2, g3⟩
    · rw [hd]
      exact ⟨_, rfl, hk.len _, hk.verify _⟩
    · have hlast := htype sig g1 p (hkept.order.subset (List.mem_of_getElem? hp')) g3
      rw [hd] at g3
      exact ⟨sig.dropLast, (List.dropLast_append_getLast? _ hlast).symm, hsize _ _ _ g2 g3, g3⟩
  rcases hfit u hu ho.1 with ⟨hseg, hscr⟩ | ⟨hseg, hscr⟩
  · rw [hseg] at hdata
    rw [Laid, hseg] at hlaid
    refine ⟨_, hscr, accepted hs.hash (Or.inr (Or.inr (Or.inl ⟨sigs, s.redeemscript, ?_, rfl, ?_, hlaid.1⟩)))⟩
    · rw [hlaid.2]
      simp
    · rw [skeleton_legacy h2]
      exact hok _ hdata
  · rw [hseg] at hdata
    rw [Laid, hseg] at hlaid
    obtain ⟨l1, l2, -⟩ := hlaid
    have h32 : (C.sha256 s.redeemscript).length = 32 := hs.hash.sha256_length _
    refine ⟨_, hscr, accepted hs.hash (Or.inr (Or.inr (Or.inr ⟨sigs, s.redeemscript, _, ?_, rfl, rfl, ?_, ?_⟩)))⟩
    · rw [l1]
      show _ = UInt8.ofNat (Spec.witnessScript 0 (C.sha256 s.redeemscript)).length ::
        Spec.witnessScript 0 (C.sha256 s.redeemscript)
      simp [Spec.witnessScript, h32]
    · rw [l2]
      simp
    · obtain ⟨e1, e2, e3⟩ := skeleton_get h2 hi hi'
      rw [skeleton_segwit h2 e1 e2 e3]
      exact hok _ hdata

/-! ### contracts of keys of secp256k1 -/

/-- C93. Any valid keys with different secrets, few enough for the limit of 520 bytes, are the keys of a contract for
every number from one to the number of keys, and the laws that the theorems about contracts and co-signers ask
hold for it. -/
theorem C93_contract (C : Crypto) (hC : Standard C) (net : Net) (key : PrivKey) (ks : List PrivKey)
    (hks : ∀ k ∈ ks, ValidKey k) (hdiff : (ks.map PrivKey.secret).Nodup) (hkey : key ∈ ks) (hnet : key.net = net)
    (m : Int) (hm : 1 ≤ m) (hmn : m ≤ ks.length)
    (hsize : 3 + (ks.map fun k => if k.compressed then 34 else 66).sum ≤ 520) :
    ∃ s, mkMultiSig C net key (.list (ks.map fun k => .bytes (k.publicKey C))) m = .ok s ∧
      s.publicKeys = ks.map (fun k => k.publicKey C) ∧ s.m = m ∧ s.key = key ∧
      ContractLaws C s ∧ ∀ k ∈ ks, SignerLaws C s k := by
  have henc : ∀ k ∈ ks, Encodes k.compressed (beValue k.secret • Spec.base) (k.publicKey C) := fun k hk =>
    hC.pubkey k.secret k.compressed (hks k hk).range.1 (hks k hk).range.2
  have hlen : ∀ k ∈ ks, (k.publicKey C).length = if k.compressed then 33 else 65 := by
    intro k hk
    obtain ⟨x, y, hc, -⟩ := id (henc k hk)
    exact (encodes_coords (henc k hk) hc).2.2
  have hsum : ((ks.map fun k => k.publicKey C).map fun p => p.length + 1).sum =
      (ks.map fun k => if k.compressed then 34 else 66).sum := by
    rw [List.map_map]
    congr 1
    apply List.map_congr_left
    intro k hk
    show (k.publicKey C).length + 1 = _
    rw [hlen k hk]
    split <;> rfl
  have hl2 : ∀ p ∈ ks.map (fun k => k.publicKey C), p.length = 33 ∨ p.length = 65 := by
    intro p hp
    obtain ⟨k, hk, rfl⟩ := List.mem_map.mp hp
    rw [hlen k hk]
    split <;> simp
  have hge := sum_ge _ hl2
  rw [hsum, List.length_map] at hge
  have hred := redeemscript_cases (ks.map fun k => k.publicKey C) m (by omega) (by omega)
  rw [if_pos ⟨by rw [List.length_map]; exact hmn, hl2, by rw [hsum]; exact hsize⟩] at hred
  obtain ⟨red, hred⟩ : ∃ red, multisigToRedeemscript (ks.map fun k => k.publicKey C) m = .ok red := ⟨_, hred⟩
  have hmk : mkMultiSig C net key (.list (ks.map fun k => .bytes (k.publicKey C))) m = .ok
      { net := net, key := key, publicKeys := ks.map fun k => k.publicKey C, m := m, redeemscript := red
        isCompressed := (ks.map fun k => k.publicKey C).all (fun p => p.length = 33) } := by
    unfold mkMultiSig
    rw [if_neg (by simp [hnet]), if_neg]
    · have ha : argsToBytes (ks.map fun k => .bytes (k.publicKey C)) = .ok (ks.map fun k => k.publicKey C) := by
        have := argsToBytes_bytes (ks.map fun k => k.publicKey C)
        rwa [List.map_map] at this
      simp only [PubArgs.ordered, ha, hred]
    · rintro ⟨-, h2⟩
      exact h2 (List.mem_map.mpr ⟨key, hkey, rfl⟩)
  refine ⟨_, hmk, rfl, rfl, rfl, ⟨⟨hC.hash, hred⟩, hm, ?_, ?_, hC.tag⟩, fun k hk =>
    C93_signer_laws C hC _ k (hks k hk) (List.mem_map.mpr ⟨k, hk, rfl⟩)⟩
  · refine (List.nodup_map_iff_inj_on (List.Nodup.of_map _ hdiff)).mpr ?_
    intro a ha b hb e
    exact List.inj_on_of_nodup_map hdiff ha hb ((C93_distinct C hC a b (hks a ha) (hks b hb)).2 e).1
  · intro p hp
    obtain ⟨k, hk, rfl⟩ := List.mem_map.mp hp
    exact hC.isPoint _ _ _ (henc k hk)


/-! ### worked cases -/

example : ∃ s, mkMultiSig secpCrypto .main keyOne
    (.list ([keyOne, keyThree].map fun k => .bytes (k.publicKey secpCrypto))) 2 = .ok s ∧
    ContractLaws secpCrypto s ∧ ∀ k ∈ [keyOne, keyThree], SignerLaws secpCrypto s k := by
  obtain ⟨s, h1, -, -, -, h2, h3⟩ := C93_contract secpCrypto C93_exists .main keyOne [keyOne, keyThree] (by
      intro k hk
      simp only [List.mem_cons, List.not_mem_nil, or_false] at hk
      rcases hk with rfl | rfl
      · exact keyOne_valid
      · exact keyThree_valid) (by decide +kernel) List.mem_cons_self rfl 2 (by decide) (by decide) (by decide)
  exact ⟨s, h1, h2, h3⟩

/-- a toy key with bytes that look like a signature -/
def keyS : PrivKey where
  net := .main
  secret := [1, 1, 1, 1, 34, 0x30] ++ List.replicate 26 1
  compressed := true

/-- a 3-of-4 contract with this key -/
def contractS : MultiSig where
  net := .main
  key := keyA
  publicKeys := [keyA.publicKey crypto, keyB.publicKey crypto, keyS.publicKey crypto, keyC.publicKey crypto]
  m := 3
  redeemscript := [0x53] ++ (0x21 :: keyA.publicKey crypto) ++ (0x21 :: keyB.publicKey crypto) ++
    (0x21 :: keyS.publicKey crypto) ++ (0x21 :: keyC.publicKey crypto) ++ [0x54, 0xae]
  isCompressed := true

theorem contractS_laws : ContractLaws crypto contractS where
  hash := crypto_lengths
  pos := by decide
  redeem := by decide +kernel
  nodup := by decide +kernel
  points := by decide +kernel
  der := contract_laws.der

/-- In the script of this contract there is something that looks like a signature, and C99_read tells what is read. -/
example : strays crypto contractS ≠ [] ∧
    ∃ more, more ≠ [] ∧ getSignaturesFromScript crypto.isDer (0x00 ::
      [[1, 2, 3], (0x30 :: List.replicate 33 5)].flatMap (fun b => UInt8.ofNat b.length :: b) ++
        [0x4c, 139] ++ contractS.redeemscript) = .ok ([0x30 :: List.replicate 33 5] ++ more) ∧
      ∀ b ∈ more, b <:+: contractS.redeemscript := by
  refine ⟨by decide +kernel, ?_⟩
  obtain ⟨more, h1, h2, -⟩ := C99_read crypto contractS contractS_laws [0x4c, 139] (by decide +kernel)
    [[1, 2, 3], (0x30 :: List.replicate 33 5)] (by decide +kernel)
  refine ⟨more, ?_, h1, fun b hb => (h2 b hb).2⟩
  rintro rfl
  revert h1
  decide +kernel

theorem crypto_size : ∀ b data p, crypto.isDer b = true → crypto.verify b data p = true → b.length ≤ 72 := by
  intro b data p h _
  have : (b.length == 33 && b.head? == some 0x30) = true := h
  simp only [Bool.and_eq_true, beq_iff_eq] at this
  omega

/-- The data signed for the segwit input and for the other input of the sample transaction. -/
def dataM : Bytes := sha256 (Spec.segwitMessage crypto.doubleSha256 unsignedTx (unsignedTx.inputs[0]'(by decide))
  contract.redeemscript 90000)

def dataL : Bytes := sha256 (Spec.legacyMessage unsignedTx 1 contract.redeemscript)

/-- Something meaningless, a signature of key B with the type `x`, something that looks like a signature. -/
def foreignItems (x : UInt8) : List Bytes :=
  [[1, 2, 3], crypto.sign keyB.secret dataL ++ [x], 0x30 :: List.replicate 33 5]

/-- The sample transaction with this witness in the first input, and these items and the contract's script in the
second. -/
def foreignTx (x : UInt8) (stack : List Bytes) : Spec.Tx :=
  { unsignedTx with inputs := [{ unsignedTx.inputs[0]'(by decide) with witness := stack },
      { unsignedTx.inputs[1]'(by decide) with
        script := 0x00 :: (foreignItems x).flatMap (fun b => UInt8.ofNat b.length :: b) ++ [0x4c, 105] ++
          contract.redeemscript }] }

/-- A witness with something meaningless and a signature of key B, not filled up. -/
def goodStack : List Bytes := [[], [1, 2, 3], crypto.sign keyB.secret dataM ++ [1], contract.redeemscript]

/-- A witness with something that only looks like a signature. -/
def badStack : List Bytes := [[], 0x30 :: List.replicate 33 5, contract.redeemscript]

/-- What key A makes of it. -/
def foreignSigned (x : UInt8) (stack : List Bytes) : Py Str :=
  signTransactionHex crypto (.multi { contract with key := keyA }) (bytesToHex (foreignTx x stack).encodeExtended)
    [unspentM, unspentL]

theorem foreignTx_wf (x : UInt8) (hx : x = 1 ∨ x = 2) (stack : List Bytes) (hst : stack.length < 2 ^ 64)
    (hit : ∀ b ∈ stack, b.length < 2 ^ 64) : (foreignTx x stack).WF where
  version := unsignedTx_wf.version
  nonempty := List.cons_ne_nil _ _
  inputs := by
    show 2 < 2 ^ 64
    norm_num
  input := by
    intro i hi
    have h : i = { unsignedTx.inputs[0]'(by decide) with witness := stack } ∨
        i = { unsignedTx.inputs[1]'(by decide) with
          script := 0x00 :: (foreignItems x).flatMap (fun b => UInt8.ofNat b.length :: b) ++
            [0x4c, 105] ++ contract.redeemscript } := by
      have hi : i ∈ [_, _] := hi
      simpa only [List.mem_cons, List.not_mem_nil, or_false] using hi
    have h0 := unsignedTx_wf.input _ (List.getElem_mem (l := unsignedTx.inputs) (n := 0) (by decide))
    have h1 := unsignedTx_wf.input _ (List.getElem_mem (l := unsignedTx.inputs) (n := 1) (by decide))
    rcases h with rfl | rfl
    · exact ⟨h0.txid, h0.index, h0.script, h0.sequence, hst, hit⟩
    · refine ⟨h1.txid, h1.index, ?_, h1.sequence, h1.items, h1.item⟩
      rcases hx with rfl | rfl <;> decide +kernel
  outputs := unsignedTx_wf.outputs
  output := unsignedTx_wf.output
  lockTime := unsignedTx_wf.lockTime

/-- The transaction with the signatures of keys A and B only, that of B in the second input with the type `x`. -/
def foreignDone (x : UInt8) : Spec.Tx :=
  { unsignedTx with inputs := unsignedTx.inputs.mapIdx fun j i =>
      if j = 1 then { i with
        script := 0x00 :: [crypto.sign keyA.secret dataL ++ [1], crypto.sign keyB.secret dataL ++ [x]].flatMap
          (fun b => UInt8.ofNat b.length :: b) ++ [0x4c, 105] ++ contract.redeemscript }
      else { i with
        script := 0x22 :: Spec.witnessScript 0 (sha256 contract.redeemscript)
        witness := [[], crypto.sign keyA.secret dataM ++ [1], crypto.sign keyB.secret dataM ++ [1],
          contract.redeemscript] } }

theorem foreignSigned_ok (x : UInt8) (hx : x = 1 ∨ x = 2) :
    foreignSigned x goodStack = .ok (bytesToHex (foreignDone x).encodeExtended) := by
  rcases hx with rfl | rfl <;> decide +kernel

theorem goodStack_wf (x : UInt8) (hx : x = 1 ∨ x = 2) : (foreignTx x goodStack).WF :=
  foreignTx_wf x hx _ (by decide) (by decide +kernel)

/-- C99 (a shortcoming). The type that follows a signature found in the text is neither checked nor put right. In a
2-of-3 contract, the text holds a signature of key B that verifies and is marked with the type 2; key A signs without
an error, both signatures verify, and the script interpreter refuses the input. -/
theorem C99_type : ∃ (t t' : Spec.Tx) (i' : Spec.TxInput) (sigA sigB script : Bytes), t.WF ∧
    signTransactionHex crypto (.multi { contract with key := keyA }) (bytesToHex t.encodeExtended)
      [unspentM, unspentL] = .ok (bytesToHex t'.encodeExtended) ∧
    t'.inputs[1]? = some i' ∧ OwnsContract crypto contract unspentL i' ∧
    Spec.parsePushes 4 i'.script = ([[], sigA ++ [1], sigB ++ [2], contract.redeemscript], []) ∧
    crypto.verify sigA (sha256 (Spec.legacyMessage t 1 contract.redeemscript)) (keyA.publicKey crypto) = true ∧
    crypto.verify sigB (sha256 (Spec.legacyMessage t 1 contract.redeemscript)) (keyB.publicKey crypto) = true ∧
    unspentL.script = bytesToHex script ∧
    Spec.accepts crypto.hashing t' 1 i' script unspentL.amount.toNat = false := by
  refine ⟨foreignTx 2 goodStack, foreignDone 2, (foreignDone 2).inputs[1]'(by decide),
    crypto.sign keyA.secret dataL, crypto.sign keyB.secret dataL, _,
    goodStack_wf 2 (Or.inr rfl), foreignSigned_ok 2 (Or.inr rfl), List.getElem?_eq_getElem _,
    ⟨Or.inl rfl, by decide +kernel, by decide +kernel⟩, by decide +kernel, by decide +kernel, by decide +kernel, rfl,
    by decide +kernel⟩

/-- C99 (a shortcoming). If an item of the witness of a contract's input only looks like a signature, the co-signer
makes a text that is not the encoding of any transaction, without an error: the number of items that is announced is
not the number of items that follow. -/
theorem C99_segwit_bad : ∃ (t : Spec.Tx) (i : Spec.TxInput) (b : Bytes) (r : Str), t.WF ∧ t.inputs[0]? = some i ∧
    OwnsContract crypto contract unspentM i ∧ i.witness = [[], b, contract.redeemscript] ∧
    (∀ p ∈ contract.publicKeys, crypto.verify b.dropLast (sha256 (Spec.segwitMessage crypto.doubleSha256 t i
      contract.redeemscript unspentM.amount.toNat)) p = false) ∧
    signTransactionHex crypto (.multi { contract with key := keyA }) (bytesToHex t.encodeExtended)
      [unspentM, unspentL] = .ok r ∧
    ∀ t' : Spec.Tx, t'.WF → r ≠ bytesToHex t'.encodeExtended ∧ r ≠ bytesToHex t'.encodeLegacy := by
  have hbad : (match foreignSigned 1 badStack with
      | .ok r => (match deserializeHex r with | .ok _ => false | .error _ => true)
      | .error _ => false) = true := by decide +kernel
  cases hr : foreignSigned 1 badStack with
  | error e => rw [hr] at hbad; cases hbad
  | ok r =>
    rw [hr] at hbad
    dsimp only at hbad
    refine ⟨foreignTx 1 badStack, (foreignTx 1 badStack).inputs[0]'(by decide), 0x30 :: List.replicate 33 5, r,
      foreignTx_wf 1 (Or.inl rfl) _ (by decide) (by decide +kernel), List.getElem?_eq_getElem _,
      ⟨unspentM_pays, by decide +kernel, by decide +kernel⟩, rfl, by decide +kernel, hr, ?_⟩
    intro t' hwf
    have key : ∀ w, r ≠ bytesToHex (enc w t') := by
      rintro w rfl
      obtain ⟨x, hx, -⟩ := deserialize_enc hwf w
      rw [deserializeHex_bytesToHex, hx] at hbad
      cases hbad
    exact ⟨key true, key false⟩

theorem contract_pub : ∀ p ∈ contract.publicKeys, ∃ q, p = 0x02 :: q ∧ q.length = 32 := by
  intro p hp
  have hp : p ∈ [keyA.publicKey crypto, keyB.publicKey crypto, keyC.publicKey crypto] := hp
  simp only [List.mem_cons, List.not_mem_nil, or_false] at hp
  rcases hp with rfl | rfl | rfl
  · exact ⟨List.replicate 32 7, rfl, by decide⟩
  · exact ⟨List.replicate 32 9, rfl, by decide⟩
  · exact ⟨List.replicate 32 11, rfl, by decide⟩

theorem contract_oneKey (data : Bytes) : OneKey crypto contract data := by
  intro b _ p hp1 q hq1 hv1 hv2
  obtain ⟨p', rfl, hp2⟩ := contract_pub p hp1
  obtain ⟨q', rfl, hq2⟩ := contract_pub q hq1
  have e := (beq_iff_eq.mp hv1).symm.trans (beq_iff_eq.mp hv2)
  rw [List.take_of_length_le (by simp [hp2]), List.take_of_length_le (by simp [hq2])] at e
  unfold toySig at e
  rw [List.drop_succ_cons, List.drop_zero, List.drop_succ_cons, List.drop_zero, List.cons.injEq] at e
  rw [xor_mask_inj _ _ _ (by rw [hp2, sha256_length]) (by rw [hq2, sha256_length]) e.2]

theorem foreign_own {i : Spec.TxInput} {j : Nat} {u : Unspent} (hi : (foreignTx 1 goodStack).inputs[j]? = some i)
    (hu : u ∈ [unspentM, unspentL]) (ho : OwnsContract crypto contract u i) :
    (j = 0 ∧ u = unspentM ∧ i = (foreignTx 1 goodStack).inputs[0]'(by decide)) ∨
    (j = 1 ∧ u = unspentL ∧ i = (foreignTx 1 goodStack).inputs[1]'(by decide)) := by
  simp only [List.mem_cons, List.not_mem_nil, or_false] at hu
  have hj : j < 2 := by
    obtain ⟨h, -⟩ := List.getElem?_eq_some_iff.mp hi
    have e : (foreignTx 1 goodStack).inputs.length = 2 := by decide
    omega
  obtain ⟨-, hn, -⟩ := ho
  rcases (by omega : j = 0 ∨ j = 1) with rfl | rfl
  · rw [List.getElem?_eq_getElem (by decide)] at hi
    have hi := (Option.some.inj hi).symm
    rcases hu with rfl | rfl
    · exact Or.inl ⟨rfl, rfl, hi⟩
    · rw [hi] at hn
      exact absurd hn (by decide +kernel)
  · rw [List.getElem?_eq_getElem (by decide)] at hi
    have hi := (Option.some.inj hi).symm
    rcases hu with rfl | rfl
    · rw [hi] at hn
      exact absurd hn (by decide +kernel)
    · exact Or.inr ⟨rfl, rfl, hi⟩

/-- A signature in the script of the second input has the type 1. -/
theorem foreign_type {b p : Bytes} (hb : b <:+: ((foreignTx 1 goodStack).inputs[1]'(by decide)).script)
    (hp : p ∈ contract.publicKeys) (hv : crypto.verify b.dropLast dataL p = true) : b.getLast? = some 0x01 := by
  have hv : (b.dropLast == toySig (p.take 33) dataL) = true := hv
  obtain ⟨q, hq, hql⟩ := contract_pub p hp
  have hlen : b.length = 34 := by
    have e := congrArg List.length (beq_iff_eq.mp hv)
    rw [hq, List.take_of_length_le (by simp [hql])] at e
    unfold toySig at e
    rw [List.length_dropLast, List.length_cons, List.length_zipWith, sha256_length, List.drop_succ_cons,
      List.drop_zero, hql] at e
    omega
  obtain ⟨x, y, hxy⟩ := hb
  have hb' : b = (((foreignTx 1 goodStack).inputs[1]'(by decide)).script.drop x.length).take 34 := by
    rw [← hxy, List.append_assoc, List.drop_left, ← hlen, List.take_left]
  have hx : x.length < 400 := by
    have e := congrArg List.length hxy
    rw [List.length_append, List.length_append] at e
    have : ((foreignTx 1 goodStack).inputs[1]'(by decide)).script.length < 400 := by decide +kernel
    omega
  have key : ∀ n < 400, ∀ p ∈ contract.publicKeys,
      ((((foreignTx 1 goodStack).inputs[1]'(by decide)).script.drop n).take 34).dropLast ==
        toySig (p.take 33) dataL →
      ((((foreignTx 1 goodStack).inputs[1]'(by decide)).script.drop n).take 34).getLast? = some 1 := by decide +kernel
  rw [hb'] at hv ⊢
  exact key _ hx p hp hv

/-- With the type 1, all hypotheses of C99_foreign and C99_completes are met, and both inputs are accepted. -/
example : ∃ t', foreignSigned 1 goodStack = .ok (bytesToHex t'.encodeExtended) ∧
    ∀ (j : Nat) (i' : Spec.TxInput), t'.inputs[j]? = some i' → ∃ u ∈ [unspentM, unspentL], ∃ script,
      u.script = bytesToHex script ∧ Spec.accepts crypto.hashing t' j i' script u.amount.toNat = true := by
  have hdm : ∀ i, i = (foreignTx 1 goodStack).inputs[0]'(by decide) → sha256 (Spec.segwitMessage crypto.doubleSha256
      (foreignTx 1 goodStack) i contract.redeemscript unspentM.amount.toNat) = dataM := by
    rintro i rfl
    decide +kernel
  obtain ⟨t', hwf', hsk, hr, hacc⟩ := C99_completes crypto contract contract_laws [unspentM, unspentL] true
    (foreignTx 1 goodStack) (goodStack_wf 1 (Or.inl rfl)) (Or.inl rfl) keyA (contract_signer (Or.inl rfl)) crypto_size
    (by
      intro j i u hi hu ho hseg
      rcases foreign_own hi hu ho with ⟨rfl, rfl, hi0⟩ | ⟨rfl, rfl, -⟩
      · have e := hdm i hi0
        refine ⟨by rw [hi0]; decide, contract_oneKey _, [keyB.publicKey crypto], by simp, by decide +kernel,
          by decide +kernel, ?_⟩
        have hf : i.witness.filter (fun b => crypto.isDer b.dropLast) = [crypto.sign keyB.secret dataM ++ [1]] := by
          rw [hi0]
          decide +kernel
        rw [hf]
        refine List.Forall₂.cons ?_ List.Forall₂.nil
        show crypto.verify _ (sha256 _) _ = true
        rw [e]
        decide +kernel
      · exact absurd hseg (by decide))
    (by
      intro u hu _
      simp only [List.mem_cons, List.not_mem_nil, or_false] at hu
      rcases hu with rfl | rfl
      · exact Or.inr ⟨rfl, rfl⟩
      · exact Or.inl ⟨rfl, rfl⟩) _ (foreignSigned_ok 1 (Or.inl rfl))
  refine ⟨t', by rw [foreignSigned_ok 1 (Or.inl rfl)]; exact congrArg _ hr, ?_⟩
  intro j i' hi'
  obtain ⟨i, hi⟩ := get_of_length (skeleton_length hsk) hi'
  have hex : ∃ u ∈ [unspentM, unspentL], OwnsContract crypto contract u i := by
    have h : i ∈ [(foreignTx 1 goodStack).inputs[0]'(by decide), (foreignTx 1 goodStack).inputs[1]'(by decide)] :=
      List.mem_of_getElem? hi
    simp only [List.mem_cons, List.not_mem_nil, or_false] at h
    rcases h with rfl | rfl
    · exact ⟨unspentM, by simp, unspentM_pays, by decide +kernel, by decide +kernel⟩
    · exact ⟨unspentL, by simp, Or.inl rfl, by decide +kernel, by decide +kernel⟩
  obtain ⟨u, hu, -, script, h1, h2⟩ := hacc j i i' hi hi' hex (by
    intro u hu ho data hdata
    refine ⟨contract_oneKey _, ?_, [keyB.publicKey crypto], by simp, by decide +kernel, by decide, ?_⟩
    · intro b hb p hp hv
      rcases foreign_own hi hu ho with ⟨rfl, rfl, hi0⟩ | ⟨rfl, rfl, hi1⟩
      · have hb : b ∈ i.witness := hb
        have hd : data = dataM := hdata.trans (hdm i hi0)
        rw [hi0] at hb
        rw [hd] at hv
        have key : ∀ b ∈ goodStack, ∀ p ∈ contract.publicKeys, crypto.verify b.dropLast dataM p = true →
            b.getLast? = some 0x01 := by decide +kernel
        exact key b hb p hp hv
      · have hd : data = dataL := by
          rw [hdata, hi1]
          decide +kernel
        rw [hd] at hv
        have hb : b <:+: i.script := hb
        rw [hi1] at hb
        exact foreign_type hb hp hv
    · intro p hp
      rw [List.mem_singleton] at hp
      subst hp
      refine ⟨by decide +kernel, ?_⟩
      rcases foreign_own hi hu ho with ⟨rfl, rfl, hi0⟩ | ⟨rfl, rfl, hi1⟩
      · have hd : data = dataM := hdata.trans (hdm i hi0)
        refine ⟨crypto.sign keyB.secret dataM ++ [1], ?_, by decide +kernel, by rw [hd]; decide +kernel⟩
        show _ ∈ i.witness
        rw [hi0]
        exact List.mem_cons_of_mem _ (List.mem_cons_of_mem _ List.mem_cons_self)
      · have hd : data = dataL := by
          rw [hdata, hi1]
          decide +kernel
        refine ⟨crypto.sign keyB.secret dataL ++ [1], ?_, by decide +kernel, by rw [hd]; decide +kernel⟩
        exact ⟨[0x4c, 105], foreignItems 1, by decide +kernel, by decide +kernel, by rw [hi1]; rfl,
          List.mem_cons_of_mem _ List.mem_cons_self⟩)
  exact ⟨u, hu, script, h1, h2⟩

end Bit
