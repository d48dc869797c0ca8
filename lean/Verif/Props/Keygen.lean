import Verif.Lemmas.Keygen
import Verif.Props.Keys
import Verif.Props.Address
/-
C54: the search for an address with a given prefix, for every interleaving of the processes.
-/
namespace Bit
open Concrete

theorem alphabet_iff (c : Char) : b58Alphabet.contains c = (Spec.base58Digit c).isSome := by
  rw [base58Digit_eq]
  unfold b58Index
  by_cases h : c ∈ b58Alphabet
  · rw [List.contains_iff_mem.mpr h, Option.isSome_iff_ne_none.mpr]
    rw [ne_eq, List.idxOf?_eq_none_iff]
    exact fun hn => hn h
  · rw [(List.idxOf?_eq_none_iff).mpr h]
    simpa using h

/-- C54. A prefix with a character that is not Base58 raises ValueError before any process is started. -/
theorem C54_invalid_prefix (pre : Str) (cores : Cores) (available : Nat)
    (h : ∃ c ∈ pre, Spec.base58Digit c = none) : searchPlan pre cores available = .error .valueError := by
  obtain ⟨c, hc, hn⟩ := h
  unfold searchPlan
  rw [if_pos]
  rw [List.any_eq_true]
  refine ⟨c, hc, ?_⟩
  rw [alphabet_iff, hn]
  rfl

example : searchPlan (str "1l") .all 4 = .error .valueError :=
  C54_invalid_prefix _ _ _ ⟨'l', by decide, by decide⟩

/-- C54. Any other prefix starts a search, for the prefix itself if it begins with `1` and for the prefix
after a `1` otherwise, by at least one worker and by at most as many as there are processors. -/
theorem C54_plan (pre : Str) (cores : Cores) (available : Nat) (hcores : cores ≠ .other) (hav : 0 < available)
    (hpre : ∀ c ∈ pre, Spec.base58Digit c ≠ none) (hne : pre ≠ []) :
    ∃ n, 0 < n ∧ n ≤ available ∧
      ((∃ rest, pre = '1' :: rest) → searchPlan pre cores available = .ok (.start pre n)) ∧
      ((¬ ∃ rest, pre = '1' :: rest) → searchPlan pre cores available = .ok (.start ('1' :: pre) n)) := by
  have h1 : pre.any (fun c => !b58Alphabet.contains c) = false := by
    rw [List.any_eq_false]
    intro c hc
    rw [alphabet_iff, Option.isSome_iff_ne_none.mpr (hpre c hc)]
    simp
  have h2 : (∃ rest, pre = '1' :: rest) ↔ pre.head? = some '1' := by
    cases pre with
    | nil => simp
    | cons c rest =>
      simp only [List.head?_cons, Option.some.injEq, List.cons.injEq]
      exact ⟨fun ⟨_, h, _⟩ => h, fun h => ⟨rest, h, rfl⟩⟩
  rw [h2]
  cases cores with
  | all =>
    refine ⟨available, hav, Nat.le_refl _, ?_, ?_⟩ <;> intro h <;> unfold searchPlan <;>
      rw [if_neg (by rw [h1]; simp), if_neg hne]
    · rw [if_pos h]
    · rw [if_neg h]
  | number m =>
    refine ⟨if 0 < m ∧ m ≤ available then m.toNat else 1, ?_, ?_, ?_, ?_⟩
    · split <;> omega
    · split <;> omega
    · intro h; unfold searchPlan; rw [if_neg (by rw [h1]; simp), if_neg hne, if_pos h]
    · intro h; unfold searchPlan; rw [if_neg (by rw [h1]; simp), if_neg hne, if_neg h]
  | other => exact absurd rfl hcores

example : searchPlan (str "Bit") (.number 3) 4 = .ok (.start (str "1Bit") 3) ∧
    searchPlan (str "1Bit") (.number 9) 4 = .ok (.start (str "1Bit") 1) := by decide

/-- The steps of a search by workers for an address beginning with `pre`, from the beginning to `st`. -/
def Searched (C : Crypto) (pre : Str) (workers : Nat) (es : List VanityStep) (st : VanityState) : Prop :=
  vanityRun C pre (vanityInit workers) es = some st

/-- C54. Whatever the interleaving, the reported address begins with the prefix; the reported secret is one
of those drawn, it is a valid key, and the address is that of its compressed public key. -/
theorem C54_reported (C : Crypto) (pre : Str) (workers : Nat) (es : List VanityStep) (st : VanityState)
    (hrun : Searched C pre workers es st) (secret : Bytes) (address : Str)
    (hst : st.main = .reported secret address) :
    pre <+: address ∧ ValidKey { net := .main, secret := secret, compressed := true } ∧
      (∃ i, VanityStep.draw i secret ∈ es) ∧
      ((C.pubkey secret true).length = 33 →
        ({ net := .main, secret := secret, compressed := true } : PrivKey).address C = .ok address) := by
  have h := run_invariant (SoundInv C pre) soundInv_step [] (soundInv_init C pre workers) hrun
  have hg := h.main secret address hst
  refine ⟨hg.starts, ?_, hg.drawn, ?_⟩
  · have hs := hg.secret
    unfold ecPrivateKey at hs
    split at hs
    · rename_i hc
      have hl := congrArg List.length (Except.ok.inj hs)
      rw [List.length_append, List.length_replicate] at hl
      refine ⟨by show secret.length = 32; omega, ?_, ?_⟩
      · show 0 < Spec.bytesValue secret
        rw [bytesValue_eq]; exact hc.1
      · show Spec.bytesValue secret < _
        rw [bytesValue_eq]; exact hc.2.1
    · cases hs
  · intro hl
    unfold PrivKey.address publicKeyToAddress PrivKey.publicKey
    dsimp only
    rw [if_neg (by omega), hg.address]
    rfl

/-- A complete search by two workers with the toy keys; the second finds an address with prefix `1M` while
the main process has already given up waiting. -/
example : ∃ st a, Searched crypto (str "1M") 2 [.work 0, .work 1, .work 0, .work 0, .work 0, .look, .work 1,
      .draw 0 (List.replicate 32 1), .work 1, .work 1, .look, .draw 1 (List.replicate 31 1 ++ [9]), .look,
      .work 1, .work 0, .work 1, .get 0] st ∧
    st.main = .reported (List.replicate 31 1 ++ [9]) a ∧ st.workers = [.done, .done] := by
  refine ⟨⟨[.done, .done], 2, false, true, [], .reported (List.replicate 31 1 ++ [9])
    (b58encodeCheck crypto (0x00 :: crypto.hash160 (crypto.pubkey (List.replicate 31 1 ++ [9]) true)))⟩, _,
    ?_, rfl, rfl⟩
  unfold Searched
  decide +kernel

/-- C54. The main process never waits in vain for an entry: when every worker has ended and nothing has been
reported yet, the queue has an entry. -/
theorem C54_not_stuck (C : Crypto) (pre : Str) (workers : Nat) (hw : 0 < workers) (es : List VanityStep)
    (st : VanityState) (hrun : Searched C pre workers es st) (hdone : ∀ w ∈ st.workers, w = .done)
    (hmain : ∀ s a, st.main ≠ .reported s a) : st.queue ≠ [] := by
  have h := run_invariant (fun _ st => AliveInv st) (fun _ st e st' => aliveInv_step st e st') []
    (aliveInv_init workers) hrun
  have hlen : st.workers.length = workers := by
    have := run_invariant (C := C) (pre := pre) (fun _ st => st.workers.length = workers)
      (by intro es st e st' h hm
          cases hm <;> simpa [VanityState.moved] using h) [] (by simp [vanityInit]) hrun
    exact this
  have hm : st.matched = true := by
    cases hs : st.workers with
    | nil => rw [hs] at hlen; simp at hlen; omega
    | cons w ws =>
      refine h.stopped 0 ?_
      rw [hs, hdone w (by rw [hs]; exact List.mem_cons_self)]
      rfl
  rcases h.matched hm with hq | ⟨i, s, a, hi⟩ | ⟨s, a, hr⟩
  · exact hq
  · cases hdone _ (List.mem_of_getElem? hi)
  · exact absurd hr (hmain s a)

/-- It is a step of worker `i`. -/
def VanityStep.isOf (i : Nat) : VanityStep → Bool
  | .work j => j == i
  | .draw j _ => j == i
  | _ => false

/-- Number of steps of worker `i`. -/
def stepsOf (i : Nat) (es : List VanityStep) : Nat := es.countP (VanityStep.isOf i)

/-- Steps that a worker can still take once the match has been announced. -/
def WorkerAt.left : WorkerAt → Nat
  | .done => 0
  | .check => 1
  | .put _ _ => 1
  | .found _ _ => 2
  | .generate => 3
  | .write _ => 4
  | .read => 5
  | .lock => 6

/-- C54. After the match has been announced every worker ends: it takes at most six more steps. -/
theorem C54_workers_end (C : Crypto) (pre : Str) (st st' : VanityState) (es : List VanityStep)
    (hm : st.matched = true) (hrun : vanityRun C pre st es = some st') (i : Nat) : stepsOf i es ≤ 6 := by
  have key : ∀ w, st.workers[i]? = some w → ∃ w', st'.workers[i]? = some w' ∧
      stepsOf i es + w'.left ≤ w.left ∧ st'.matched = true := by
    intro w hw
    have := run_invariant (C := C) (pre := pre)
      (fun es s => ∃ w', s.workers[i]? = some w' ∧ stepsOf i es + w'.left ≤ w.left ∧ s.matched = true)
      (by
        intro es s e s' ⟨w', h1, h2, h3⟩ hmv
        have happ : stepsOf i (es ++ [e]) = stepsOf i es +
            if VanityStep.isOf i e = true then 1 else 0 := by
          unfold stepsOf
          rw [List.countP_append, List.countP_singleton]
        have hmove : ∀ (s0 : VanityState) (k : Nat) (w0 w1 : WorkerAt), s.workers[k]? = some w0 →
            s0.workers = s.workers → s0.matched = true → w1.left < w0.left →
            stepsOf i (es ++ [e]) = stepsOf i es + (if (k == i) = true then 1 else 0) →
            ∃ w', (s0.moved k w1).workers[i]? = some w' ∧ stepsOf i (es ++ [e]) + w'.left ≤ w.left ∧
              (s0.moved k w1).matched = true := by
          intro s0 k w0 w1 hk hs0 hm0 hl hst
          have hk' : s0.workers[k]? = some w0 := by rw [hs0]; exact hk
          rw [getElem?_moved hk']
          by_cases hki : k = i
          · rw [if_pos hki, hst, if_pos (by simpa using hki)]
            subst hki
            rw [h1] at hk
            injection hk with hk
            subst hk
            exact ⟨w1, rfl, by omega, hm0⟩
          · rw [if_neg hki, hst, if_neg (by simpa using hki), hs0]
            exact ⟨w', h1, by omega, hm0⟩
        cases hmv with
        | stop hk _ => exact hmove s _ _ _ hk rfl h3 (by decide) happ
        | go _ hn => rw [h3] at hn; cases hn
        | lock hk _ => exact hmove _ _ _ _ hk rfl h3 (by decide) happ
        | read hk => exact hmove s _ _ _ hk rfl h3 (by simp [WorkerAt.left]) happ
        | write hk => exact hmove _ _ _ _ hk rfl h3 (by simp [WorkerAt.left]) happ
        | found hk => exact hmove _ _ _ _ hk rfl rfl (by simp [WorkerAt.left]) happ
        | put hk => exact hmove _ _ _ _ hk rfl h3 (by simp [WorkerAt.left]) happ
        | hit hk _ _ => exact hmove s _ _ _ hk rfl h3 (by simp [WorkerAt.left]) happ
        | miss hk _ _ => exact hmove s _ _ _ hk rfl h3 (by simp [WorkerAt.left]) happ
        | idle _ _ _ => exact ⟨w', h1, by rw [happ]; simpa [VanityStep.isOf] using h2, h3⟩
        | leave _ _ _ => exact ⟨w', h1, by rw [happ]; simpa [VanityStep.isOf] using h2, h3⟩
        | note _ _ _ => exact ⟨w', h1, by rw [happ]; simpa [VanityStep.isOf] using h2, h3⟩
        | take _ _ => exact ⟨w', h1, by rw [happ]; simpa [VanityStep.isOf] using h2, h3⟩)
      [] ⟨w, hw, by simp [stepsOf], hm⟩ hrun
    exact this
  cases hw : st.workers[i]? with
  | some w =>
    obtain ⟨w', _, h, _⟩ := key w hw
    have : w.left ≤ 6 := by cases w <;> simp [WorkerAt.left]
    omega
  | none =>
    have := run_invariant (C := C) (pre := pre) (fun es s => s.workers.length ≤ i ∧ stepsOf i es = 0)
      (by
        intro es s e s' ⟨h1, h2⟩ hmv
        have hne : ∀ k w, s.workers[k]? = some w → k ≠ i := by
          intro k w hk
          have := (List.getElem?_eq_some_iff.mp hk).1
          omega
        have happ : stepsOf i (es ++ [e]) = stepsOf i es +
            if VanityStep.isOf i e = true then 1 else 0 := by
          unfold stepsOf
          rw [List.countP_append, List.countP_singleton]
        have hz : ∀ k w, s.workers[k]? = some w → stepsOf i es + (if (k == i) = true then 1 else 0) = 0 := by
          intro k w hk
          rw [if_neg (by simpa using hne k w hk), h2]
        cases hmv with
        | stop hk _ => exact ⟨by simpa [VanityState.moved] using h1, happ.trans (hz _ _ hk)⟩
        | go hk _ => exact ⟨by simpa [VanityState.moved] using h1, happ.trans (hz _ _ hk)⟩
        | lock hk _ => exact ⟨by simpa [VanityState.moved] using h1, happ.trans (hz _ _ hk)⟩
        | read hk => exact ⟨by simpa [VanityState.moved] using h1, happ.trans (hz _ _ hk)⟩
        | write hk => exact ⟨by simpa [VanityState.moved] using h1, happ.trans (hz _ _ hk)⟩
        | found hk => exact ⟨by simpa [VanityState.moved] using h1, happ.trans (hz _ _ hk)⟩
        | put hk => exact ⟨by simpa [VanityState.moved] using h1, happ.trans (hz _ _ hk)⟩
        | hit hk _ _ => exact ⟨by simpa [VanityState.moved] using h1, happ.trans (hz _ _ hk)⟩
        | miss hk _ _ => exact ⟨by simpa [VanityState.moved] using h1, happ.trans (hz _ _ hk)⟩
        | idle _ _ _ => exact ⟨h1, happ.trans (by simpa [VanityStep.isOf] using h2)⟩
        | leave _ _ _ => exact ⟨h1, happ.trans (by simpa [VanityStep.isOf] using h2)⟩
        | note _ _ _ => exact ⟨h1, happ.trans (by simpa [VanityStep.isOf] using h2)⟩
        | take _ _ => exact ⟨h1, happ.trans (by simpa [VanityStep.isOf] using h2)⟩)
      [] ⟨List.getElem?_eq_none_iff.mp hw, rfl⟩ hrun
    rw [List.nil_append] at this
    omega

/-- The secret drawn in a step. -/
def drawnSecret : VanityStep → Option Bytes
  | .draw _ s => some s
  | _ => none

/-- Number of keys drawn in a run. -/
def keysDrawn (es : List VanityStep) : Nat := (es.filterMap drawnSecret).length

/-- C54. No key is counted twice or lost: as long as fewer than `2^31` keys have been counted, the counter is
the number of keys generated, plus those (at most one for each worker) that a worker is about to generate. -/
theorem C54_counter (C : Crypto) (pre : Str) (workers : Nat) (es : List VanityStep) (st : VanityState)
    (hrun : Searched C pre workers es st) (hsmall : keysDrawn es + workers < 2 ^ 31) :
    ∃ pending ≤ workers, st.counter = keysDrawn es + pending := by
  have h := run_invariant CountInv (countInv_step (C := C) (pre := pre)) [] (countInv_init workers) hrun
  have hlen := run_invariant (C := C) (pre := pre) (fun _ st => st.workers.length = workers)
      (by intro es st e st' h hm
          cases hm <;> simpa [VanityState.moved] using h) [] (by simp [vanityInit]) hrun
  have hd : draws es = keysDrawn es := by
    unfold draws keysDrawn
    rw [List.length_filterMap_eq_countP]
    congr 1
    funext e
    cases e <;> rfl
  have hle : st.workers.countP WorkerAt.generating ≤ workers := by
    rw [← hlen]
    exact List.countP_le_length
  refine ⟨_, hle, ?_⟩
  rw [h.counter, List.nil_append, hd]
  unfold cInt
  omega

/-! ## What is printed -/

/-- C54. The WIF that is printed does not belong to the address: it is the WIF of the key without
compression. A key made of it has the right secret, but the address of the other form of the public key,
which is different (unless the two forms of the public key have the same hash). -/
theorem C54_wif_of_other_address (C : Crypto) (hC : C.HashLengths) (hz : ZeroPayloadOk C) (secret : Bytes)
    (address : Str) (hk : ValidKey { net := .main, secret := secret, compressed := true })
    (hlen : ∀ c, (C.pubkey secret c).length = if c then 33 else 65)
    (haddr : ({ net := .main, secret := secret, compressed := true } : PrivKey).address C = .ok address)
    (hcol : C.ripemd160 (C.sha256 (C.pubkey secret true)) ≠ C.ripemd160 (C.sha256 (C.pubkey secret false))) :
    ∃ k, wifToKey C (reportedWif C secret) = .ok k ∧ k.secret = secret ∧ ∃ a, k.address C = .ok a ∧ a ≠ address := by
  have hw := C53_wif C hC { net := .main, secret := secret, compressed := false } ⟨hk.length, hk.pos, hk.lt⟩
    (hlen false)
  unfold PrivKey.toWif at hw
  rw [isCompressed_eq (k := { net := .main, secret := secret, compressed := false }) (hlen false)] at hw
  refine ⟨_, hw, rfl, ?_⟩
  have e1 : ∀ c, ({ net := .main, secret := secret, compressed := c } : PrivKey).address C =
      .ok (b58encodeCheck C (0x00 :: C.ripemd160 (C.sha256 (C.pubkey secret c)))) := by
    intro c
    unfold PrivKey.address publicKeyToAddress PrivKey.publicKey
    dsimp only
    rw [if_neg (by rw [hlen c]; cases c <;> simp)]
    rfl
  refine ⟨_, e1 false, ?_⟩
  rw [e1 true] at haddr
  injection haddr with haddr
  rw [← haddr]
  intro heq
  have h1 := roundtrip_payload hC hz 0x00 (C.ripemd160 (C.sha256 (C.pubkey secret false))) (hC.ripemd160_length _)
  have h2 := roundtrip_payload hC hz 0x00 (C.ripemd160 (C.sha256 (C.pubkey secret true))) (hC.ripemd160_length _)
  rw [heq, h2] at h1
  injection h1 with h1
  injection h1 with _ h1
  exact hcol h1

/-- The toy keys meet the hypotheses. -/
example : ∃ k, wifToKey crypto (reportedWif crypto (List.replicate 32 1)) = .ok k ∧ k.secret = List.replicate 32 1 ∧
    ∃ a, k.address crypto = .ok a ∧
      a ≠ b58encodeCheck crypto (0x00 :: crypto.hash160 (crypto.pubkey (List.replicate 32 1) true)) :=
  C54_wif_of_other_address crypto crypto_lengths crypto_zeroPayloadOk _ _
    ⟨by decide, by decide, by decide⟩ (by intro c; cases c <;> decide) rfl (by decide +kernel)

/-- C54. Without a prefix the call returns a pair at once, with the same two forms. -/
theorem C54_empty_prefix (C : Crypto) (cores : Cores) (available : Nat) (secret : Bytes)
    (hlen : (C.pubkey secret true).length = 33) :
    searchPlan [] cores available = .ok .pair ∧
    ∃ a, ({ net := .main, secret := secret, compressed := true } : PrivKey).address C = .ok a ∧
      generateKeyAddressPair C secret = .ok (reportedWif C secret, a) := by
  refine ⟨rfl, b58encodeCheck C (0x00 :: C.hash160 (C.pubkey secret true)), ?_, ?_⟩
  · unfold PrivKey.address publicKeyToAddress PrivKey.publicKey
    dsimp only
    rw [if_neg (by omega)]
    rfl
  · unfold generateKeyAddressPair publicKeyToAddress
    rw [if_neg (by omega)]
    rfl

/-! ## The counter may wrap around -/

theorem vanityRun_append (C : Crypto) (pre : Str) (st st1 : VanityState) (es fs : List VanityStep)
    (h : vanityRun C pre st es = some st1) : vanityRun C pre st (es ++ fs) = vanityRun C pre st1 fs := by
  induction es generalizing st with
  | nil => injection h with h; subst h; rfl
  | cons e es ih =>
    rw [List.cons_append]
    rw [vanityRun] at h ⊢
    cases hs : vanityStep C pre st e with
    | none => rw [hs] at h; cases h
    | some s => rw [hs] at h; exact ih s h

/-- Limitation. If the match is found after exactly `2^32` keys, the counter, a C `int`, shows 0 again. All
workers have ended and the entry is in the queue, but the main process takes the 0 for a search that has
not begun: it never reports. -/
theorem C54_wraparound_hang (C : Crypto) (pre : Str) (other match_ : Bytes) (ho : ecPrivateKey other = .ok other)
    (hm : ecPrivateKey match_ = .ok match_)
    (hother : ¬ pre <+: b58encodeCheck C (0x00 :: C.hash160 (C.pubkey other true)))
    (hmatch : pre <+: b58encodeCheck C (0x00 :: C.hash160 (C.pubkey match_ true))) :
    ∃ es st, Searched C pre 1 es st ∧ st.workers = [.done] ∧ st.queue.length = 1 ∧ keysDrawn es = 2 ^ 32 ∧
      ∀ fs st', vanityRun C pre st fs = some st' → ∀ s a, st'.main ≠ .reported s a := by
  have hround : ∀ n : Nat, ∃ es, keysDrawn es = n ∧ vanityRun C pre (vanityInit 1) es =
      some { vanityInit 1 with counter := cInt n } := by
    intro n
    induction n with
    | zero => exact ⟨[], rfl, rfl⟩
    | succ n ih =>
      obtain ⟨es, h1, h2⟩ := ih
      refine ⟨es ++ [.work 0, .work 0, .work 0, .work 0, .draw 0 other], ?_, ?_⟩
      · unfold keysDrawn at h1 ⊢
        rw [List.filterMap_append, List.length_append, h1]
        rfl
      · rw [vanityRun_append C pre _ _ _ _ h2]
        have hd : ∀ c : Int, drawStep C pre ⟨[.generate], c, false, false, [], .waiting 0⟩ 0 other .generate =
            some ⟨[.check], c, false, false, [], .waiting 0⟩ := by
          intro c
          unfold drawStep
          rw [if_pos ho]
          dsimp only
          rw [if_neg (fun h => hother (List.isPrefixOf_iff_prefix.mp h))]
          rfl
        have he : cInt ((n + 1 : Nat) : Int) = cInt (cInt n + 1) := by rw [cInt_succ]; rfl
        rw [he]
        have step1 : vanityRun C pre { vanityInit 1 with counter := cInt n } [.work 0, .work 0, .work 0, .work 0] =
            some ⟨[.generate], cInt (cInt n + 1), false, false, [], .waiting 0⟩ := rfl
        rw [show [VanityStep.work 0, .work 0, .work 0, .work 0, .draw 0 other] =
          [VanityStep.work 0, .work 0, .work 0, .work 0] ++ [.draw 0 other] from rfl,
          vanityRun_append C pre _ _ _ _ step1]
        unfold vanityRun vanityStep
        dsimp only [List.getElem?_cons_zero]
        rw [hd]
        rfl
  obtain ⟨n, hn, hc⟩ : ∃ n : Nat, n + 1 = 2 ^ 32 ∧ cInt (cInt (n : Int) + 1) = 0 :=
    ⟨2 ^ 32 - 1, by decide, by decide⟩
  obtain ⟨es, h1, h2⟩ := hround n
  have hlast : ∃ a, vanityRun C pre { vanityInit 1 with counter := cInt n }
      [.work 0, .work 0, .work 0, .work 0, .draw 0 match_, .work 0, .work 0] =
      some ⟨[.done], 0, false, true, [(match_, a)], .waiting 0⟩ := by
    refine ⟨b58encodeCheck C (0x00 :: C.hash160 (C.pubkey match_ true)), ?_⟩
    have hd : ∀ c : Int, drawStep C pre ⟨[.generate], c, false, false, [], .waiting 0⟩ 0 match_ .generate =
        some ⟨[.found match_ (b58encodeCheck C (0x00 :: C.hash160 (C.pubkey match_ true)))], c, false, false, [],
          .waiting 0⟩ := by
      intro c
      unfold drawStep
      rw [if_pos hm]
      dsimp only
      rw [if_pos (List.isPrefixOf_iff_prefix.mpr hmatch)]
      rfl
    have step1 : vanityRun C pre { vanityInit 1 with counter := cInt n }
        [.work 0, .work 0, .work 0, .work 0] =
        some ⟨[.generate], cInt (cInt n + 1), false, false, [], .waiting 0⟩ := rfl
    rw [hc] at step1
    have step2 : vanityRun C pre ⟨[.generate], 0, false, false, [], .waiting 0⟩ [.draw 0 match_] =
        some ⟨[.found match_ (b58encodeCheck C (0x00 :: C.hash160 (C.pubkey match_ true)))], 0, false, false, [],
          .waiting 0⟩ := by
      unfold vanityRun vanityStep
      dsimp only [List.getElem?_cons_zero]
      rw [hd]
      rfl
    rw [show [VanityStep.work 0, .work 0, .work 0, .work 0, .draw 0 match_, .work 0, .work 0] =
      [VanityStep.work 0, .work 0, .work 0, .work 0] ++ ([.draw 0 match_] ++ [.work 0, .work 0]) from rfl,
      vanityRun_append C pre _ _ _ _ step1, vanityRun_append C pre _ _ _ _ step2]
    rfl
  obtain ⟨a, hlast⟩ := hlast
  refine ⟨es ++ [.work 0, .work 0, .work 0, .work 0, .draw 0 match_, .work 0, .work 0], _,
    (vanityRun_append C pre _ _ _ _ h2).trans hlast, rfl, rfl, ?_, ?_⟩
  · unfold keysDrawn at h1 ⊢
    rw [List.filterMap_append, List.length_append, h1]
    exact hn
  · intro fs st' hrun s b hst
    have := run_invariant (C := C) (pre := pre) (fun _ st => st.workers = [.done] ∧ st.counter = 0 ∧
        st.main = .waiting 0)
      (by
        intro es st e st' ⟨hw, hc, hmn⟩ hmv
        have hnot : ∀ (k : Nat) (w : WorkerAt), st.workers[k]? = some w → w = .done := by
          intro k w hk
          rw [hw] at hk
          simpa using List.mem_of_getElem? hk
        cases hmv with
        | stop hk _ => cases hnot _ _ hk
        | go hk _ => cases hnot _ _ hk
        | lock hk _ => cases hnot _ _ hk
        | read hk => cases hnot _ _ hk
        | write hk => cases hnot _ _ hk
        | found hk => cases hnot _ _ hk
        | put hk => cases hnot _ _ hk
        | hit hk _ _ => cases hnot _ _ hk
        | miss hk _ _ => cases hnot _ _ hk
        | idle _ _ _ => exact ⟨hw, hc, hmn⟩
        | leave _ hx hn => exact absurd hc hn
        | note _ hx hn =>
          rw [hmn] at hx
          injection hx with hx
          rw [← hx] at hn
          exact absurd hc hn
        | take hx _ => rw [hmn] at hx; cases hx)
      [] ⟨rfl, rfl, rfl⟩ hrun
    rw [this.2.2] at hst
    cases hst

end Bit
