import Verif.Lemmas.Secret
import Verif.Model.KeyUse
import Verif.Concrete.Crypto
/-
C100: what a key or contract object shows, does and sends depends on its secret only through the public key and the signatures.
-/
namespace Bit

open Concrete

/-- The object with other bytes in place of the secret. -/
def KeyState.without (junk : Bytes) (st : KeyState) : KeyState := { st with wallet := st.wallet.without junk }

theorem className_without (s : Signer) (junk : Bytes) : (s.without junk).className = s.className := by cases s <;> rfl

theorem use_device {Amount : Type} (C : Crypto) (st : KeyState) (junk : Bytes) (u : KeyUse Amount) :
    (st.without junk).use ((st.wallet.signer.device C).crypto C) u
      = ((st.use C u).1.without junk, (st.use C u).2) := by
  cases u with
  | repr =>
    simp only [KeyState.use, KeyState.without, Wallet.without, Signer.repr, device_address, className_without]
  | publicKey => simp only [KeyState.use, KeyState.without, Wallet.without, device_publicKey]
  | pubToHex => obtain ⟨⟨signer, us, bal⟩, txs⟩ := st; cases signer <;> rfl
  | publicPoint => obtain ⟨⟨signer, us, bal⟩, txs⟩ := st; cases signer <;> rfl
  | isCompressed => obtain ⟨⟨signer, us, bal⟩, txs⟩ := st; cases signer <;> rfl
  | address => simp only [KeyState.use, KeyState.without, Wallet.without, device_address]
  | segwitAddress => simp only [KeyState.use, KeyState.without, Wallet.without, device_segwitAddress]
  | scriptcode => simp only [KeyState.use, KeyState.without, Wallet.without, device_scriptcode]
  | segwitScriptcode => obtain ⟨⟨signer, us, bal⟩, txs⟩ := st; cases signer <;> rfl
  | attributes => rfl
  | sign data => simp only [KeyState.use, KeyState.without, Wallet.without, device_sign]
  | verify signature data => obtain ⟨⟨signer, us, bal⟩, txs⟩ := st; cases signer <;> rfl
  | canSignUnspent u => simp only [KeyState.use, KeyState.without, Wallet.without, device_canSign]
  | balanceAs => rfl
  | getBalance => simp only [KeyState.use, KeyState.without, device_getBalance]
  | getUnspents => simp only [KeyState.use, KeyState.without, device_getUnspents]
  | getTransactions => simp only [KeyState.use, KeyState.without, Wallet.without, device_getTransactions]
  | createTransaction => simp only [KeyState.use, KeyState.without, device_createTransaction]
  | signTransaction => simp only [KeyState.use, KeyState.without, device_signTransaction]
  | send => simp only [KeyState.use, KeyState.without, device_send]

theorem use_signer {Amount : Type} (C : Crypto) (st : KeyState) (u : KeyUse Amount) :
    (st.use C u).1.wallet.signer = st.wallet.signer := by
  cases u with
  | getBalance => exact getBalance_device_signer _ _ _ _ _ _ _ _ _
  | getUnspents => exact getUnspents_device_signer _ _ _
  | createTransaction => exact createTransaction_device_signer _ _ _ _ _ _
  | signTransaction => exact signTransaction_device_signer _ _ _ _ _ _
  | send => exact send_device_signer _ _ _ _ _ _ _ _
  | _ => rfl

/-- C100: whatever is done with a key or contract object, in any order and with any answers of the network, apart from the six
functions that export the secret and `==`: all results, all attributes and all that is sent are those of an object that holds no
secret but only a device that knows the public key and signs. -/
theorem C100_device {Amount : Type} (C : Crypto) (st : KeyState) (junk : Bytes) (uses : List (KeyUse Amount)) :
    (st.without junk).history ((st.wallet.signer.device C).crypto C) uses = st.history C uses := by
  induction uses generalizing st with
  | nil => rfl
  | cons u us ih =>
    rw [KeyState.history, KeyState.history, use_device, ← ih, use_signer]

/-- C100: two objects with different secrets but the same public keys and signatures, alike in all else, cannot be told apart
by any history of calls. -/
theorem C100_alike {Amount : Type} (C : Crypto) (st st' : KeyState) (h : st.without [] = st'.without [])
    (hd : st.wallet.signer.device C = st'.wallet.signer.device C) (uses : List (KeyUse Amount)) :
    st.history C uses = st'.history C uses := by
  rw [← C100_device C st [], ← C100_device C st' [], h, hd]

/-- The calls that ask for no signature. -/
def KeyUse.watches {Amount : Type} : KeyUse Amount → Bool
  | .sign _ => false
  | .createTransaction _ _ _ _ => false
  | .signTransaction _ _ _ _ => false
  | .send _ _ _ _ _ _ => false
  | _ => true

theorem use_watch {Amount : Type} (C : Crypto) (st : KeyState) (g : Bytes → Bytes) (junk : Bytes) (u : KeyUse Amount)
    (h : u.watches = true) :
    (st.without junk).use ((st.wallet.signer.deviceWith C g).crypto C) u
      = ((st.use C u).1.without junk, (st.use C u).2) := by
  cases u with
  | repr =>
    simp only [KeyState.use, KeyState.without, Wallet.without, Signer.repr, watch_address, className_without]
  | publicKey => obtain ⟨⟨signer, us, bal⟩, txs⟩ := st; cases signer <;> rfl
  | pubToHex => obtain ⟨⟨signer, us, bal⟩, txs⟩ := st; cases signer <;> rfl
  | publicPoint => obtain ⟨⟨signer, us, bal⟩, txs⟩ := st; cases signer <;> rfl
  | isCompressed => obtain ⟨⟨signer, us, bal⟩, txs⟩ := st; cases signer <;> rfl
  | address => simp only [KeyState.use, KeyState.without, Wallet.without, watch_address]
  | segwitAddress => simp only [KeyState.use, KeyState.without, Wallet.without, watch_segwitAddress]
  | scriptcode => obtain ⟨⟨signer, us, bal⟩, txs⟩ := st; cases signer <;> rfl
  | segwitScriptcode => obtain ⟨⟨signer, us, bal⟩, txs⟩ := st; cases signer <;> rfl
  | attributes => rfl
  | sign data => exact absurd h (by simp [KeyUse.watches])
  | verify signature data => obtain ⟨⟨signer, us, bal⟩, txs⟩ := st; cases signer <;> rfl
  | canSignUnspent u => simp only [KeyState.use, KeyState.without, Wallet.without, watch_canSign]
  | balanceAs => rfl
  | getBalance => simp only [KeyState.use, KeyState.without, watch_getBalance]
  | getUnspents => simp only [KeyState.use, KeyState.without, watch_getUnspents]
  | getTransactions => simp only [KeyState.use, KeyState.without, Wallet.without, watch_getTransactions]
  | createTransaction => exact absurd h (by simp [KeyUse.watches])
  | signTransaction => exact absurd h (by simp [KeyUse.watches])
  | send => exact absurd h (by simp [KeyUse.watches])

/-- C100: all but `sign`, `create_transaction`, `sign_transaction` and `send` needs the public key only: with it in place of
the secret, and whatever signatures `g`, the results and attributes are the same. -/
theorem C100_watch {Amount : Type} (C : Crypto) (st : KeyState) (g : Bytes → Bytes) (junk : Bytes)
    (uses : List (KeyUse Amount)) (h : ∀ u ∈ uses, u.watches = true) :
    (st.without junk).history ((st.wallet.signer.deviceWith C g).crypto C) uses = st.history C uses := by
  induction uses generalizing st with
  | nil => rfl
  | cons u us ih =>
    rw [KeyState.history, KeyState.history, use_watch C st g junk u (h u List.mem_cons_self),
      ← ih _ fun v hv => h v (List.mem_cons_of_mem _ hv), use_signer]

/-- C100, with the services, the fee and the rates: `create_transaction` and `send` of a program ask, remember and send the
same without the secret. -/
theorem C100_program (C : Crypto) (p : Program) (w : Wallet) (junk : Bytes) (args : TxArgs (Str × Str)) (src : Source)
    (world : Surround) :
    p.create ((w.signer.device C).crypto C) (w.without junk) args src world
      = ((p.create C w args src world).1, (p.create C w args src world).2.1.without junk,
        (p.create C w args src world).2.2) ∧
    p.send ((w.signer.device C).crypto C) (w.without junk) args src world
      = ((p.send C w args src world).1, (p.send C w args src world).2.1.without junk,
        (p.send C w args src world).2.2) :=
  ⟨device_programCreate C w junk p args src world, device_programSend C w junk p args src world⟩

/-- C100: a contract is made from the public key alone, and holds nothing else of the secret. `prepare_transaction` has no key. -/
theorem C100_contract (C : Crypto) (net : Net) (k : PrivKey) (keys : PubArgs) (m : Int) (g : Bytes → Bytes) (junk : Bytes) :
    mkMultiSig (((Signer.single k).deviceWith C g).crypto C) net (k.without junk) keys m
      = (mkMultiSig C net k keys m).map (MultiSig.without junk) := by
  have hp : (k.without junk).publicKey (((Signer.single k).deviceWith C g).crypto C) = k.publicKey C := rfl
  have hn : (k.without junk).net = k.net := rfl
  simp only [mkMultiSig, hp, hn]
  split
  · rfl
  · split
    · rfl
    · split
      · rfl
      · split
        · rfl
        · split <;> rfl

theorem C100_prepare {Amount : Type} (C : Crypto) (d : Device) (readFloat : Str → PyFloat) (floats : Unspent → Bool)
    (env : Env Amount) (args : TxArgs Amount) (ask : Ask) (net : Net) (address : Str) (us : List Unspent) :
    prepareTransaction (d.crypto C) readFloat floats env args ask net address us
      = prepareTransaction C readFloat floats env args ask net address us :=
  device_prepareTransaction C d readFloat floats env args ask net address us

/-! ### a case -/

/-- Cryptographic functions that see the first 31 bytes of a secret only. -/
def coarse : Crypto :=
  { crypto with
    pubkey := fun secret => crypto.pubkey (secret.take 31 ++ [1])
    sign := fun secret => crypto.sign (secret.take 31 ++ [1]) }

def aliceKey : KeyState := ⟨newWallet (.single ⟨.main, List.replicate 31 7 ++ [1], true⟩), []⟩
def bobKey : KeyState := ⟨newWallet (.single ⟨.main, List.replicate 31 7 ++ [2], true⟩), []⟩

/-- The two keys differ, the exports tell them apart, and the hypotheses of `C100_alike` hold. -/
example : aliceKey.wallet.signer ≠ bobKey.wallet.signer ∧
    (PrivKey.toHex ⟨.main, List.replicate 31 7 ++ [1], true⟩ ≠ PrivKey.toHex ⟨.main, List.replicate 31 7 ++ [2], true⟩) ∧
    aliceKey.without [] = bobKey.without [] ∧
    aliceKey.wallet.signer.device coarse = bobKey.wallet.signer.device coarse := by
  refine ⟨by decide, by decide +kernel, rfl, rfl⟩

/-- What is shown is not constant. -/
example : ∀ st : KeyState, st = aliceKey → (∃ text, st.history (Amount := Int) coarse [.repr, .attributes] =
    [.text (.ok text), .attributes [] 0 []] ∧ text = str "<PrivateKey: 1C9Uq9dQDiG5G4frTLizay9p2TED5ubeF1>") := by
  rintro st rfl
  exact ⟨_, rfl, by decide +kernel⟩

/-- A history that fetches, pays and shows what is left. -/
example (ask : Ask) (env : Env Int) (args : TxArgs Int) (lists : Lists) (push : Service → Str → Py Bool) :
    aliceKey.history coarse [.getUnspents ask, .send env args ask lists push .stored, .attributes] =
      bobKey.history coarse [.getUnspents ask, .send env args ask lists push .stored, .attributes] :=
  C100_alike coarse aliceKey bobKey rfl rfl _

end Bit
