import Verif.Spec.Url
import Verif.Props.JsonGrammar
import Verif.Props.LedgerWeb
import Verif.Props.Submit
/-
C98: how a node is asked.
-/
namespace Bit
open Concrete
open Bit.Spec (At name Gives Account Coin NodeAnswers Blank StringText ValueText ElementsText MembersText JsonText IsUrl
  Authority CanStand RpcRequest Serves)
open _root_.Spec.Ledger (coinsOf)

/-! ## The URL -/

theorem split_first {a a' b b' : Str} {p : Char → Prop} (h : a ++ b = a' ++ b') (ha : ∀ c ∈ a, ¬ p c) (ha' : ∀ c ∈ a', ¬ p c)
    (hb : ∀ c, b.head? = some c → p c) (hb' : ∀ c, b'.head? = some c → p c) : a = a' ∧ b = b' := by
  induction a generalizing a' with
  | nil =>
    cases a' with
    | nil => exact ⟨rfl, h⟩
    | cons c l =>
      rw [List.nil_append] at h
      exact absurd (hb c (by rw [h]; rfl)) (ha' c List.mem_cons_self)
  | cons c l ih =>
    cases a' with
    | nil =>
      rw [List.nil_append] at h
      exact absurd (hb' c (by rw [← h]; rfl)) (ha c List.mem_cons_self)
    | cons c' l' =>
      rw [List.cons_append, List.cons_append, List.cons.injEq] at h
      obtain ⟨h1, h2⟩ := ih h.2 (fun c hc => ha c (List.mem_cons_of_mem _ hc)) fun c hc => ha' c (List.mem_cons_of_mem _ hc)
      exact ⟨by rw [h.1, h1], h2⟩

theorem split_at {a a' b b' : Str} {x : Char} (h : a ++ x :: b = a' ++ x :: b') (ha : x ∉ a) (ha' : x ∉ a') : a = a' ∧ b = b' := by
  obtain ⟨h1, h2⟩ := split_first (p := (· = x)) h (fun c hc e => ha (e ▸ hc)) (fun c hc e => ha' (e ▸ hc))
    (fun c hc => by simpa using hc.symm) (fun c hc => by simpa using hc.symm)
  exact ⟨h1, (List.cons.inj h2).2⟩

theorem split_last {a a' b b' : Str} {x : Char} (h : a ++ x :: b = a' ++ x :: b') (hb : x ∉ b) (hb' : x ∉ b') :
    a = a' ∧ b = b' := by
  have h' := congrArg List.reverse h
  simp only [List.reverse_append, List.reverse_cons, List.append_assoc, List.singleton_append] at h'
  obtain ⟨h1, h2⟩ := split_at h' (by simpa using hb) (by simpa using hb')
  exact ⟨List.reverse_injective h2, List.reverse_injective h1⟩

theorem intText_chars (n : Int) : ∀ c ∈ intText n, c ∉ ['/', '?', '#', '@', ':'] := by
  intro c hc
  have h : c = '-' ∨ ('0' ≤ c ∧ c ≤ '9') := by
    unfold intText at hc
    split at hc
    · rcases List.mem_cons.mp hc with h | h
      · exact .inl h
      · exact .inr ((digitsText_spec _).1 c h)
    · exact .inr ((digitsText_spec _).1 c hc)
  intro hm
  simp only [List.mem_cons, List.not_mem_nil, or_false] at hm
  rcases hm with rfl | rfl | rfl | rfl | rfl <;> revert h <;> decide

/-- The authority of the URL of a node. -/
def NodeSettings.authority (s : NodeSettings) : Str :=
  s.user ++ ':' :: s.password ++ '@' :: s.host ++ ':' :: intText s.port

theorem url_eq (s : NodeSettings) : s.url =
    (if s.https then "https" else "http").toList ++ ':' :: '/' :: '/' :: (s.authority ++ '/' :: s.path) := by
  unfold NodeSettings.url NodeSettings.authority
  cases s.https <;> simp

theorem scheme_chars (b : Bool) : ':' ∉ (if b then "https" else "http").toList := by cases b <;> decide

theorem authority_chars {s : NodeSettings} (h : CanStand s) : ∀ c ∈ s.authority, c ∉ ['/', '?', '#'] := by
  intro c hc hm
  unfold NodeSettings.authority at hc
  simp only [List.mem_append, List.mem_cons] at hc
  have more : ∀ l, c ∈ ['/', '?', '#'] ++ l := fun l => List.mem_append_left _ hm
  rcases hc with ((hc | rfl | hc) | rfl | hc) | rfl | hc
  · exact h.user c hc (more _)
  · revert hm; decide
  · exact h.password c hc (more _)
  · revert hm; decide
  · exact h.host c hc (more _)
  · revert hm; decide
  · exact intText_chars _ c hc (more _)

/-- C98. Requests to a node go where they should: if name, password and host have none of the characters that separate the
parts of a URL, the URL is read in one way only, with exactly the scheme, name, password, host, port and path that
`connect_to_node` was called with. -/
theorem C98_url (s : NodeSettings) (h : CanStand s) (scheme authority rest : Str) (login : Option (Str × Str)) (host : Str)
    (port : Option Str) :
    IsUrl s.url scheme authority rest ∧ Authority authority login host port ↔
      scheme = (if s.https then "https" else "http").toList ∧
      authority = s.user ++ ':' :: s.password ++ '@' :: s.host ++ ':' :: intText s.port ∧
      login = some (s.user, s.password) ∧ host = s.host ∧ port = some (intText s.port) ∧ rest = '/' :: s.path := by
  have hu : ∀ x ∈ ['/', '?', '#', '@', '%', ':'], x ∉ s.user := fun x hx hm => h.user x hm hx
  have hp : ∀ x ∈ ['/', '?', '#', '@', '%'], x ∉ s.password := fun x hx hm => h.password x hm hx
  have hh : ∀ x ∈ ['/', '?', '#', '@'], x ∉ s.host := fun x hx hm => h.host x hm hx
  have hn : ∀ x ∈ ['/', '?', '#', '@', ':'], x ∉ intText s.port := fun x hx hm => intText_chars _ x hm hx
  have hplace : '@' ∉ s.host ++ ':' :: intText s.port := by
    simp only [List.mem_append, List.mem_cons, not_or]
    exact ⟨hh _ (by decide), by decide, hn _ (by decide)⟩
  have hw : s.authority = s.user ++ ':' :: s.password ++ '@' :: (s.host ++ ':' :: intText s.port) := by
    unfold NodeSettings.authority
    simp
  constructor
  · rintro ⟨⟨e, h1, h2, h3⟩, place, h4, h5, h6⟩
    rw [url_eq] at e
    have e' : (if s.https then "https" else "http").toList ++ ':' :: '/' :: '/' :: (s.authority ++ '/' :: s.path) =
        scheme ++ ':' :: '/' :: '/' :: (authority ++ rest) := by rw [e]; simp
    obtain ⟨e1, e2⟩ := split_at e' (scheme_chars _) h1
    have e3 := (List.cons.inj (List.cons.inj e2).2).2
    obtain ⟨e4, e5⟩ := split_first (p := (· ∈ ['/', '?', '#'])) e3 (authority_chars h) h2
      (fun c hc => by obtain rfl : '/' = c := Option.some.inj hc; decide) h3
    subst e4
    have hl : ∃ u p, login = some (u, p) := by
      cases login with
      | some l => exact ⟨l.1, l.2, rfl⟩
      | none =>
        dsimp only at h4
        rw [← h4, hw] at h5
        simp at h5
    obtain ⟨u, p, rfl⟩ := hl
    obtain ⟨h4, h7, h8⟩ := h4
    rw [hw] at h4
    obtain ⟨e6, e7⟩ := split_last h4 hplace h5
    obtain ⟨e8, e9⟩ := split_at e6 (hu _ (by decide)) h7
    subst e7
    have hport : ∃ n, port = some n := by
      cases port with
      | some n => exact ⟨n, rfl⟩
      | none =>
        obtain ⟨h6, h9⟩ := h6
        rw [← h6] at h9
        simp at h9
    obtain ⟨n, rfl⟩ := hport
    obtain ⟨h6, h9⟩ := h6
    obtain ⟨e10, e11⟩ := split_last h6 (hn _ (by decide)) h9
    exact ⟨e1.symm, rfl, by rw [e8, e9], e10.symm, by rw [e11], e5.symm⟩
  · rintro ⟨rfl, rfl, rfl, rfl, rfl, rfl⟩
    refine ⟨⟨?_, scheme_chars _, authority_chars h, ?_⟩, s.host ++ ':' :: intText s.port, ⟨?_, hu _ (by decide), ?_⟩, hplace, rfl,
      hn _ (by decide)⟩
    · rw [url_eq]
      unfold NodeSettings.authority
      simp
    · intro c hc
      obtain rfl : '/' = c := Option.some.inj hc
      decide
    · simp
    · simp only [List.mem_append, not_or]
      exact ⟨hu _ (by decide), hp _ (by decide)⟩

/-- C98 (limitation). Name and password are put into the URL as they are. If there is a slash, a question mark or a hash in them, then the
request goes to a place that is read from the name and the password, whatever the host is: everything from
that character on is not part of the authority. -/
theorem C98_url_cut (s : NodeSettings) (h : ∃ c ∈ s.user ++ ':' :: s.password, c ∈ ['/', '?', '#']) (scheme authority rest : Str)
    (hr : IsUrl s.url scheme authority rest) : authority <+: s.user ++ ':' :: s.password ∧ authority ≠ s.user ++ ':' :: s.password := by
  obtain ⟨e, h1, h2, h3⟩ := hr
  rw [url_eq] at e
  have e' : (if s.https then "https" else "http").toList ++ ':' :: '/' :: '/' :: (s.authority ++ '/' :: s.path) =
      scheme ++ ':' :: '/' :: '/' :: (authority ++ rest) := by rw [e]; simp
  obtain ⟨-, e2⟩ := split_at e' (scheme_chars _) h1
  have e3 := (List.cons.inj (List.cons.inj e2).2).2
  obtain ⟨c, hc, hm⟩ := h
  have e4 : s.authority ++ '/' :: s.path =
      (s.user ++ ':' :: s.password) ++ ('@' :: s.host ++ ':' :: intText s.port ++ '/' :: s.path) := by
    unfold NodeSettings.authority
    simp
  rw [e4] at e3
  have ne : ¬ s.user ++ ':' :: s.password <+: authority := fun hp => h2 c (hp.subset hc) hm
  refine ⟨?_, fun e => ne (e ▸ List.prefix_refl _)⟩
  rcases List.prefix_or_prefix_of_prefix ⟨_, e3⟩ ⟨_, rfl⟩ with hp | hp
  · exact absurd hp ne
  · exact hp

/-- With a slash in the password the name becomes the host. -/
example : let s : NodeSettings := ⟨"rpc".toList, "3/secret".toList, "localhost".toList, 8332, false, []⟩
    IsUrl s.url "http".toList "rpc:3".toList "/secret@localhost:8332/".toList ∧
      Authority "rpc:3".toList none "rpc".toList (some "3".toList) := by
  refine ⟨⟨by decide +kernel, by decide, by decide, ?_⟩, "rpc:3".toList, rfl, by decide, by decide, by decide⟩
  intro c hc
  obtain rfl : '/' = c := Option.some.inj hc
  decide

example : CanStand ⟨"username".toList, "password".toList, "localhost".toList, 18443, false, []⟩ :=
  ⟨by decide, by decide, by decide⟩

/-! ## The text posted -/

theorem blank_space : Blank [' '] := fun _ h => .inl (List.mem_singleton.mp h)

mutual

theorem valueText_spaced (readFloat : Str → PyFloat) : ∀ j, Proper readFloat j → ValueText readFloat j.dumpsSpaced j
  | .null, _ => by rw [Json.dumpsSpaced]; exact .null
  | .bool true, _ => by rw [Json.dumpsSpaced]; exact .true
  | .bool false, _ => by rw [Json.dumpsSpaced]; exact .false
  | .int n, _ => by rw [Json.dumpsSpaced]; exact valueText_int readFloat n
  | .float f, h => by rw [Json.dumpsSpaced]; rw [Proper] at h; exact h
  | .str s, _ => by rw [Json.dumpsSpaced]; exact valueText_string readFloat s
  | .arr [], _ => by rw [Json.dumpsSpaced]; exact .noElements blank_nil
  | .arr (j :: js), h => by
    rw [Proper, ProperList] at h
    rw [Json.dumpsSpaced]
    exact .array (elementsText_spaced readFloat [] blank_nil j js h.1 h.2)
  | .obj [], _ => by rw [Json.dumpsSpaced]; exact .noMembers blank_nil
  | .obj ((k, j) :: js), h => by
    rw [Proper, ProperItems] at h
    rw [Json.dumpsSpaced]
    have := membersText_spaced readFloat [] blank_nil k j js h.2.1 h.2.2
    have := ValueText.object this
    rw [lastValues_nodup h.1] at this
    simpa only [List.append_assoc, List.cons_append, List.nil_append] using this
termination_by j => sizeOf j

theorem elementsText_spaced (readFloat : Str → PyFloat) (w : Str) (hw : Blank w) : ∀ j js, Proper readFloat j →
    ProperList readFloat js → ElementsText readFloat (w ++ (j.dumpsSpaced ++ spacedElements js)) (j :: js)
  | j, [], h, _ => by
    have := ElementsText.last hw (valueText_spaced readFloat j h) blank_nil
    rw [spacedElements]
    simpa only [List.nil_append, List.append_nil, List.append_assoc] using this
  | j, j' :: js, h, hs => by
    rw [ProperList] at hs
    have := ElementsText.more hw (valueText_spaced readFloat j h) blank_nil
      (elementsText_spaced readFloat [' '] blank_space j' js hs.1 hs.2)
    rw [spacedElements]
    simpa only [List.nil_append, List.append_nil, List.append_assoc, List.cons_append] using this
termination_by j js => sizeOf (j :: js)

theorem membersText_spaced (readFloat : Str → PyFloat) (w : Str) (hw : Blank w) (k : Str) : ∀ j js, Proper readFloat j →
    ProperItems readFloat js →
    MembersText readFloat (w ++ (stringText k ++ ':' :: ' ' :: (j.dumpsSpaced ++ spacedMembers js))) ((k, j) :: js)
  | j, [], h, _ => by
    have := MembersText.last hw (stringText_flatMap k) blank_nil blank_space (valueText_spaced readFloat j h)
      blank_nil
    rw [spacedMembers]
    simpa [stringText] using this
  | j, (k', j') :: js, h, hs => by
    rw [ProperItems] at hs
    have := MembersText.more hw (stringText_flatMap k) blank_nil blank_space (valueText_spaced readFloat j h)
      blank_nil (membersText_spaced readFloat [' '] blank_space k' j' js hs.1 hs.2)
    rw [spacedMembers]
    simpa [stringText] using this
termination_by j js => sizeOf ((k, j) :: js)

end

theorem payload_text (readFloat : Str → PyFloat) (method : Str) {params : List Json} (h : ProperList readFloat params) :
    JsonText readFloat (rpcPayload method params) (.obj [("method".toList, .str method), ("params".toList, .arr params),
      ("jsonrpc".toList, .str "2.0".toList)]) := by
  refine ⟨[], rpcPayload method params, [], by simp, blank_nil, ?_, blank_nil⟩
  refine valueText_spaced readFloat _ ?_
  simp only [Proper, ProperItems]
  refine ⟨?_, trivial, h, trivial, trivial⟩
  show ["method".toList, "params".toList, "jsonrpc".toList].Nodup
  decide

/-- C98. What is posted to a node is a JSON text for exactly the method and the parameters of the call. -/
theorem C98_request (readFloat : Str → PyFloat) (method : Str) (params : List Json) (h : ProperList readFloat params)
    (m : Str) (ps : List Json) : RpcRequest readFloat (rpcPayload method params) m ps ↔ m = method ∧ ps = params := by
  have ht := payload_text readFloat method h
  constructor
  · rintro ⟨j, h1, -, h2, h3⟩
    have e := (C79_loads readFloat _ _ h1).symm.trans (C79_loads readFloat _ _ ht)
    obtain rfl := Except.ok.inj e
    have h2 := h2.get
    have h3 := h3.get
    have e2 := h2.symm.trans (show _ = (Except.ok (Json.str method) : Py Json) from rfl)
    have e3 := h3.symm.trans (show _ = (Except.ok (Json.arr params) : Py Json) from rfl)
    exact ⟨Json.str.inj (Except.ok.inj e2), Json.arr.inj (Except.ok.inj e3)⟩
  · rintro ⟨rfl, rfl⟩
    exact ⟨_, ht, .step (v := .str "2.0".toList) rfl (.here _), .step (v := .str _) rfl (.here _), .step (v := .arr _) rfl (.here _)⟩

/-- C98. With a server that reads JSON-RPC at the URL, a call gets the reply of the server to this method with these parameters. -/
theorem C98_call (readFloat : Str → PyFloat) (post : Post) (s : NodeSettings) (answer : Rpc)
    (h : Serves readFloat post s.url answer) (method : Str) (params : List Json) (hp : ProperList readFloat params) :
    s.rpc post method params = answer method params :=
  h _ method params ((C98_request readFloat method params hp method params).mpr ⟨rfl, rfl⟩)

/-- C98. Different calls have different texts. -/
theorem C98_different (readFloat : Str → PyFloat) (method method' : Str) (params params' : List Json)
    (h : ProperList readFloat params) (h' : ProperList readFloat params')
    (e : rpcPayload method params = rpcPayload method' params') : method = method' ∧ params = params' := by
  have := (C98_request readFloat method params h method params).mpr ⟨rfl, rfl⟩
  rw [e] at this
  exact (C98_request readFloat method' params' h' method params).mp this

/-- C98. A node object has every method of the node: `node.first.second(…)` calls the method with the name that was written. -/
theorem C98_method (first : Str) (further : List Str) :
    methodName first further = ".".toList.intercalate (first :: further) := by
  have pre : ∀ (l : List Str) (x y : Str), methodName (x ++ y) l = x ++ methodName y l := by
    intro l
    induction l with
    | nil => intro x y; rfl
    | cons a l ih =>
      intro x y
      show methodName (x ++ y ++ '.' :: a) l = x ++ methodName (y ++ '.' :: a) l
      rw [List.append_assoc, ih]
  induction further generalizing first with
  | nil => simp [methodName, List.intercalate]
  | cons a l ih =>
    have e : methodName first (a :: l) = methodName (first ++ '.' :: a) l := rfl
    rw [e, show first ++ '.' :: a = (first ++ ['.']) ++ a by simp, pre, ih]
    simp [List.intercalate]

/-! ## Broadcasting -/

/-- The node took the call: its reply has the status 200 or 500 and is an object with a result and without an error. -/
def Took (r : Py Reply) : Prop :=
  ∃ reply l v, r = .ok reply ∧ (reply.status = 200 ∨ reply.status = 500) ∧ reply.json = .ok (.obj l) ∧
    (l.lookup (name "error") = none ∨ l.lookup (name "error") = some .null) ∧ l.lookup (name "result") = some v

/-- The node refused the call: its reply has another status, or an error. -/
def Refused (r : Py Reply) : Prop :=
  ∃ reply, r = .ok reply ∧ (reply.status ≠ 200 ∧ reply.status ≠ 500 ∨
    (reply.status = 200 ∨ reply.status = 500) ∧ ∃ l e, reply.json = .ok (.obj l) ∧ l.lookup (name "error") = some e ∧ e ≠ .null)

theorem rpcCall_ok (rpc : Rpc) (method : Str) (params : List Json) :
    (∃ v, rpcCall rpc method params = .ok v) ↔ Took (rpc method params) := by
  unfold rpcCall
  constructor
  · rintro ⟨v, h⟩
    cases hr : rpc method params with
    | error e =>
      rw [hr] at h
      cases e <;> cases h
    | ok reply =>
      rw [hr] at h
      dsimp only at h
      split at h
      · rename_i hs
        cases hj : reply.json with
        | error e => rw [hj] at h; cases h
        | ok j =>
          rw [hj, ok_bind] at h
          cases j with
          | obj l =>
            refine ⟨reply, l, ?_⟩
            unfold Json.has at h
            dsimp only at h
            rw [ok_bind] at h
            unfold Json.get at h
            dsimp only at h
            cases he : l.lookup (name "error") with
            | none =>
              rw [show l.lookup "error".toList = none from he] at h
              rw [if_neg (by simp)] at h
              cases hv : l.lookup (name "result") with
              | none => rw [show l.lookup "result".toList = none from hv] at h; cases h
              | some v => exact ⟨v, rfl, hs, hj, .inl rfl, rfl⟩
            | some err =>
              rw [show l.lookup "error".toList = some err from he] at h
              rw [if_pos (by simp), ok_bind] at h
              cases err with
              | null =>
                dsimp only at h
                cases hv : l.lookup (name "result") with
                | none => rw [show l.lookup "result".toList = none from hv] at h; cases h
                | some v => exact ⟨v, rfl, hs, hj, .inr rfl, rfl⟩
              | _ => cases h
          | _ => cases h
      · cases h
  · rintro ⟨reply, l, v, hr, hs, hj, he, hv⟩
    rw [hr]
    dsimp only
    rw [if_pos hs, hj, ok_bind]
    unfold Json.has Json.get
    dsimp only
    rw [ok_bind]
    rcases he with he | he <;> rw [show l.lookup "error".toList = _ from he, show l.lookup "result".toList = _ from hv]
    · exact ⟨v, rfl⟩
    · exact ⟨v, rfl⟩

/-- C98. `broadcast_tx` of a node gives `True` exactly if the node took the transaction, `False` if it refused it. The text
that the node gets is the text of the transaction. -/
theorem C98_broadcast (readFloat : Str → PyFloat) (post : Post) (s : NodeSettings) (answer : Rpc)
    (h : Serves readFloat post s.url answer) (text : Str) :
    (nodeBroadcast (s.rpc post) text = .ok true ↔ Took (answer (name "sendrawtransaction") [.str text])) ∧
    (Refused (answer (name "sendrawtransaction") [.str text]) → nodeBroadcast (s.rpc post) text = .ok false) := by
  have e := C98_call readFloat post s answer h (name "sendrawtransaction") [.str text]
    (by simp only [ProperList, Proper]; exact ⟨trivial, trivial⟩)
  rw [← e]
  constructor
  · rw [← rpcCall_ok]
    unfold nodeBroadcast
    show _ ↔ ∃ v, rpcCall (s.rpc post) "sendrawtransaction".toList [.str text] = .ok v
    cases rpcCall (s.rpc post) "sendrawtransaction".toList [.str text] with
    | ok v => exact ⟨fun _ => ⟨v, rfl⟩, fun _ => rfl⟩
    | error e =>
      constructor
      · intro h
        cases e <;> cases h
      · rintro ⟨v, h⟩
        cases h
  · rintro ⟨reply, hr, ⟨h1, h2⟩ | ⟨hs, l, err, hj, he, hn⟩⟩
    · have : rpcCall (s.rpc post) "sendrawtransaction".toList [.str text] = .error .nodeException := by
        unfold rpcCall
        rw [show s.rpc post "sendrawtransaction".toList [.str text] = _ from hr]
        dsimp only
        rw [if_neg (by rintro (h | h) <;> contradiction)]
      unfold nodeBroadcast
      rw [this]
    · exact C60_node_refusal hr hs hj (.step he (.here _)) hn

/-! ## A node and the chain -/

/-- Whenever the node answers about the address, it reports the unspent outputs with the script on the chain; with `up` it
answers. -/
def NodeReports (up : Bool) (answer : Rpc) (L : _root_.Spec.Ledger) (address : Str) (script : Bytes) : Prop :=
  ∃ (a : Account) (received : List Str), OnChain L script a ∧ Spec.Node up answer address a received

/-- It does so for the addresses of a key. -/
structure NodeReportsKey (up : Bool) (C : Crypto) (answer : Rpc) (L : _root_.Spec.Ledger) (k : PrivKey) : Prop where
  legacy : ∀ address, k.address C = .ok address → NodeReports up answer L address
    (_root_.Spec.p2pkhScript (C.ripemd160 (C.sha256 (k.publicKey C))))
  segwit : ∀ address, k.segwitAddress C = .ok (some address) → NodeReports up answer L address
    (_root_.Spec.p2shScript (C.ripemd160 (C.sha256 (_root_.Spec.witnessScript 0 (C.ripemd160 (C.sha256 (k.publicKey C)))))))

/-- A program is connected to the node at the URL: the node connected last for the network, among all `history`, is reached at the URL of
its settings, and unspents are asked for from what is connected. -/
structure Connected (C : Crypto) (post : Post) (s : NodeSettings) (net : Net) (history : List (Nat × Bool)) (o : Outside)
    (prec fuel : Nat) (ask : Ask) : Prop where
  node : ∃ n, lastNode net history = some n ∧ o.rpc n = s.rpc post
  asks : ∀ address r, networkUnspent C prec o (connected history) net fuel address = some r → ask address = r

/-- A node that answers is one that may answer. -/
theorem _root_.Bit.Spec.Node.weaken {rpc : Rpc} {address : Str} {a : Account} {received : List Str}
    (h : Spec.Node true rpc address a received) : Spec.Node false rpc address a received := by
  obtain ⟨⟨coins, h1, h2⟩, h3⟩ := h
  refine ⟨⟨coins, h1, ?_⟩, ?_⟩
  · rcases h2 with h | ⟨h, -⟩
    · exact .inl h
    · cases h
  · rcases h3 with h | ⟨h, -⟩
    · exact .inl h
    · cases h

theorem node_same {up : Bool} {rpc rpc' : Rpc} {address : Str} {a : Account} {received : List Str}
    (h : Spec.Node up rpc address a received)
    (e : rpc' (name "listunspent") [.int 0, .int 9999999, .arr [.str address]] =
      rpc (name "listunspent") [.int 0, .int 9999999, .arr [.str address]])
    (e' : rpc' (name "listreceivedbyaddress") [.int 0, .bool true, .bool true, .str address] =
      rpc (name "listreceivedbyaddress") [.int 0, .bool true, .bool true, .str address]) :
    Spec.Node up rpc' address a received := by
  obtain ⟨h1, h2⟩ := h
  rw [← e] at h1
  rw [← e'] at h2
  exact ⟨h1, h2⟩

/-- C98. What a program is told by a connected node that tells the truth about an address: exactly its unspent outputs on the chain;
or the query raises. -/
theorem C98_unspent {up : Bool} (C : Crypto) (readFloat : Str → PyFloat) {post : Post} {s : NodeSettings} {answer : Rpc}
    (hs : Serves readFloat post s.url answer) {net : Net} {history : List (Nat × Bool)} {o : Outside} {prec fuel : Nat} {ask : Ask}
    (hp : 1 ≤ prec) (h : Connected C post s net history o prec fuel ask) {L : _root_.Spec.Ledger} (hL : ∀ c ∈ L, c.value < 10 ^ prec)
    {address : Str} {script : Bytes} (hr : NodeReports up answer L address script) :
    Gives up (ask address) fun l => ∃ us, l = some us ∧
      (∃ cs, cs.Perm (L.coinsOf script) ∧ List.Forall₂ Tells cs us) ∧ ∀ u ∈ us, u.sequence = 0xffffffff := by
  obtain ⟨a, received, h1, h2⟩ := hr
  obtain ⟨⟨n, hn, ho⟩, hask⟩ := h
  have h2 : Spec.Node up (o.rpc n) address a received := by
    rw [ho]
    refine node_same h2 (C98_call readFloat post s answer hs _ _ ?_) (C98_call readFloat post s answer hs _ _ ?_)
    · simp only [ProperList, Proper]; exact ⟨trivial, trivial, ⟨trivial, trivial⟩, trivial⟩
    · simp only [ProperList, Proper]; exact ⟨trivial, trivial, trivial, trivial, trivial⟩
  have hcoin : ∀ c ∈ a.coins, c.value < 10 ^ prec := by
    intro c hc
    have := h1.coins.subset (List.mem_map_of_mem hc)
    obtain ⟨d, hd, e⟩ := List.mem_map.mp this
    have e : d.value = c.value := congrArg (fun p => p.2.2) e
    rw [← e]
    exact hL d (List.mem_of_mem_filter hd)
  obtain ⟨r, hr, hg⟩ := C71_connected_unspent C hp hn h2 hcoin fuel
  rw [hask address r hr]
  refine hg.imp ?_
  rintro l ⟨us, rfl, hu⟩
  refine ⟨us, rfl, tells_of_lists h1 hu, ?_⟩
  intro u hu'
  obtain ⟨c, -, hd⟩ := lists_mem hu hu'
  exact hd.2.2.2.2.2

theorem honest_node (C : Crypto) (readFloat : Str → PyFloat) {post : Post} {s : NodeSettings} {answer : Rpc}
    (hs : Serves readFloat post s.url answer) {k : PrivKey} {history : List (Nat × Bool)} {o : Outside} {prec fuel : Nat} {ask : Ask}
    (hp : 1 ≤ prec) (h : Connected C post s k.net history o prec fuel ask) {L : _root_.Spec.Ledger} (hL : ∀ c ∈ L, c.value < 10 ^ prec)
    (hr : NodeReportsKey false C answer L k) : Honest C k L ask := by
  have told : ∀ {address script l}, NodeReports false answer L address script → ask address = .ok (some l) →
      ∃ cs, cs.Perm (L.coinsOf script) ∧ List.Forall₂ Tells cs l := by
    intro address script l h' hl
    rcases C98_unspent C readFloat hs hp h hL h' with ⟨_, e, us, rfl, hu⟩ | ⟨-, e, he⟩
    · rw [hl] at e
      rw [Option.some.inj (Except.ok.inj e)]
      exact hu.1
    · rw [hl] at he
      cases he
  exact ⟨fun a _ ha hl => told (hr.legacy a ha) hl, fun a _ ha hl => told (hr.segwit a ha) hl⟩

open _root_.Spec.Ledger in
/-- C98. Paying over a node: a program is connected to a node, which reads JSON-RPC and whose wallet has the addresses of the key.
If the node tells the truth about these addresses whenever it answers, and `send` of a new key object returns, then what it
returned is the id of a transaction that spends coins of the key only and that the rules of the chain allow; and the node was given this
transaction, and took it. -/
theorem C98_send {Amount : Type} (C : Crypto) (k : PrivKey) (hk : KeyLaws C k) (L : _root_.Spec.Ledger) (hL : L.WF)
    (readFloat : Str → PyFloat) (post : Post) (s : NodeSettings) (answer : Rpc) (hs : Serves readFloat post s.url answer)
    (history : List (Nat × Bool)) (o : Outside) (prec fuel : Nat) (ask : Ask) (hp : 1 ≤ prec)
    (hc : Connected C post s k.net history o prec fuel ask) (hv : ∀ c ∈ L, c.value < 10 ^ prec)
    (hr : NodeReportsKey false C answer L k) (env : Env Amount)
    (hshuffle : ∀ l, (env.shuffle l).Perm l) (args : TxArgs Amount) (hfee : 0 ≤ askedFee env args)
    (hpay : args.outputs ≠ []) (w : Wallet) (hw : w.signer = .single k) (hempty : w.unspents = []) (id : Str)
    (h : (w.send C env args ask (connected history) (servicePush o k.net) .stored).2.2 = .ok id) :
    ∃ t : _root_.Spec.Tx, t.WF ∧ id = bytesToHex (t.txidWith C.doubleSha256).reverse ∧ Valid C.hashing L t ∧
      (∀ c ∈ L.spentBy t, c.script ∈ keyScripts C k) ∧
      Took (answer (name "sendrawtransaction") [.str (bytesToHex t.encode)]) := by
  obtain ⟨-, hcases⟩ := C65_send_cases C env args ask (connected history) (servicePush o k.net) w .stored
  rcases hcases with ⟨e, -, h2⟩ | ⟨text, h1, hcases⟩
  · rw [h2] at h; cases h
  rcases hcases with ⟨pre, sv, rest, g1, g2, g3, g4⟩ | ⟨pre, sv, rest, e, -, -, -, -, g5⟩ | ⟨-, g2⟩
  · have h1 : (w.createTransaction C env args ask (.given [])).2 = .ok text := by
      rw [← h1]
      unfold Wallet.createTransaction Wallet.source
      rw [hempty]
      rfl
    obtain ⟨t, e1, rfl, e3, e4, e5⟩ := C87_valid C k hk L hL env hshuffle args hfee ask
      (honest_node C readFloat hs hp hc hv hr) w hw text h1
    rw [g4] at h
    have := calcTxid_of C t e1 (!t.inputs.all fun i => i.witness.isEmpty)
    have e : (if (!t.inputs.all fun i => i.witness.isEmpty) = true then t.encodeExtended else t.encodeLegacy) =
        t.encode := by
      unfold _root_.Spec.Tx.encode
      cases t.inputs.all fun i => i.witness.isEmpty <;> rfl
    rw [e] at this
    dsimp only at h
    rw [this] at h
    refine ⟨t, e1, (Except.ok.inj h).symm, e5 (e4 hpay), e3, ?_⟩
    obtain ⟨n, hn, ho⟩ := hc.node
    rw [hw, show (Signer.single k).net = k.net from rfl, C61_connected, hn] at g1
    have hsv : sv = .node n := by
      have : sv ∈ [Service.node n] := by
        dsimp only at g1
        rw [g1]
        simp
      simpa using this
    subst hsv
    refine (C98_broadcast readFloat post s answer hs _).1.mp ?_
    rw [← ho]
    exact g3
  · rw [g5] at h; cases h
  · rw [g2] at h; cases h

open _root_.Spec.Ledger in
/-- C98. If the node answers, tells the truth about the addresses of the key, and takes what the rules of the chain allow, then a payment that is
in order and for which the key holds enough goes through: `send` of a new key object returns its id. -/
theorem C98_pays {Amount : Type} (C : Crypto) (k : PrivKey) (hk : KeyLaws C k) (hadd : OrdinaryAddresses C (.single k))
    (L : _root_.Spec.Ledger) (hL : L.WF) (hsane : Sane L) (readFloat : Str → PyFloat) (post : Post) (s : NodeSettings) (answer : Rpc)
    (hs : Serves readFloat post s.url answer) (history : List (Nat × Bool)) (o : Outside) (prec fuel : Nat) (ask : Ask)
    (hp : 1 ≤ prec) (hc : Connected C post s k.net history o prec fuel ask) (hv : ∀ c ∈ L, c.value < 10 ^ prec)
    (hr : NodeReportsKey true C answer L k)
    (htakes : ∀ t : _root_.Spec.Tx, Valid C.hashing L t →
      Took (answer (name "sendrawtransaction") [.str (bytesToHex t.encode)]))
    (w : Wallet) (hw : w.signer = .single k) (hempty : w.unspents = []) :
    ∃ us, (w.getUnspents C ask).2 = .ok us ∧ ∀ (env : Env Amount) (args : TxArgs Amount) (amounts : List Int)
      (scripts : List Bytes) (changeScript : Bytes), (∀ l, (env.shuffle l).Perm l) → args.outputs ≠ [] →
      InOrder C env args (.single k) us amounts scripts changeScript →
      needed env args us amounts scripts changeScript ≤ held C k L →
      ∃ t : _root_.Spec.Tx, Valid C.hashing L t ∧
        (w.send C env args ask (connected history) (servicePush o k.net) .stored).2.2 =
          .ok (bytesToHex (t.txidWith C.doubleSha256).reverse) := by
  have gets : ∀ {address script}, NodeReports true answer L address script → ∃ us, ask address = .ok (some us) ∧
      (∃ cs, cs.Perm (L.coinsOf script) ∧ List.Forall₂ Tells cs us) ∧ ∀ u ∈ us, u.sequence = 0xffffffff := by
    intro address script h'
    rcases C98_unspent C readFloat hs hp hc hv h' with ⟨_, e, us, rfl, hu⟩ | ⟨h, -⟩
    · exact ⟨us, e, hu⟩
    · cases h
  have told : ∀ {address script l}, NodeReports true answer L address script → ask address = .ok (some l) →
      (∃ cs, cs.Perm (L.coinsOf script) ∧ List.Forall₂ Tells cs l) ∧ ∀ u ∈ l, u.sequence = 0xffffffff := by
    intro address script l h' hl
    obtain ⟨us, e, hu⟩ := gets h'
    rw [hl] at e
    rw [Option.some.inj (Except.ok.inj e)]
    exact hu
  have hh : Honest C k L ask := ⟨fun a _ ha hl => (told (hr.legacy a ha) hl).1, fun a _ ha hl => (told (hr.segwit a ha) hl).1⟩
  have hseq : ∀ a l, k.address C = .ok a ∨ k.segwitAddress C = .ok (some a) → ask a = .ok (some l) → ∀ u ∈ l,
      0 ≤ u.sequence ∧ u.sequence < 2 ^ 32 := by
    rintro a l (ha | ha) hl u hu
    · rw [(told (hr.legacy a ha) hl).2 u hu]; decide
    · rw [(told (hr.segwit a ha) hl).2 u hu]; decide
  obtain ⟨w', us, hg⟩ : ∃ w' us, w.getUnspents C ask = (w', .ok us) := by
    obtain ⟨⟨a, ha⟩, ⟨seg, hseg⟩, -⟩ := key_addresses hk hadd
    obtain ⟨us, e1, -⟩ := gets (hr.legacy a ha)
    unfold Wallet.getUnspents
    rw [hw]
    dsimp only [Signer.kinds]
    rw [ha]
    dsimp only
    rw [e1]
    dsimp only [retype]
    rw [hseg]
    cases seg with
    | none => exact ⟨_, _, rfl⟩
    | some b =>
      obtain ⟨us', e2, -⟩ := gets (hr.segwit b hseg)
      dsimp only
      rw [e2]
      exact ⟨_, _, rfl⟩
  refine ⟨us, by rw [hg], ?_⟩
  intro env args amounts scripts changeScript hshuffle hpay ho hn
  obtain ⟨t, h1, h2⟩ := C88_on_chain C k hk hadd L hL hsane env hshuffle args hpay ask hh w w' hw hseq us hg amounts scripts
    changeScript ho hn
  obtain ⟨n, hnode, hrpc⟩ := hc.node
  have hstored : (w.createTransaction C env args ask .stored).2 = .ok (bytesToHex t.encode) := by
    rw [← h1]
    unfold Wallet.createTransaction Wallet.source
    rw [hempty]
    rfl
  have hpush : servicePush o k.net (.node n) (bytesToHex t.encode) = .ok true := by
    show nodeBroadcast (o.rpc n) _ = _
    rw [hrpc]
    exact (C98_broadcast readFloat post s answer hs _).1.mpr (htakes t h2)
  have hlist : connected history k.net .broadcast = [Service.node n] := by
    rw [C61_connected, hnode]
  refine ⟨t, h2, ?_⟩
  obtain ⟨-, hcases⟩ := C65_send_cases C env args ask (connected history) (servicePush o k.net) w .stored
  rw [hw, show (Signer.single k).net = k.net from rfl, hlist, hstored] at hcases
  have only : ∀ {pre sv rest}, [Service.node n] = pre ++ sv :: rest → sv = .node n := by
    intro pre sv rest e
    have : sv ∈ [Service.node n] := by rw [e]; simp
    simpa using this
  rcases hcases with ⟨e, h, -⟩ | ⟨text, h, hcases⟩
  · cases h
  obtain rfl := Except.ok.inj h
  rcases hcases with ⟨pre, sv, rest, -, -, -, g4⟩ | ⟨pre, sv, rest, e, g1, -, g3, -, -⟩ | ⟨g1, -⟩
  · rw [g4]
    have := calcTxid_of C t h2.wf (!t.inputs.all fun i => i.witness.isEmpty)
    have e : (if (!t.inputs.all fun i => i.witness.isEmpty) = true then t.encodeExtended else t.encodeLegacy) =
        t.encode := by
      unfold _root_.Spec.Tx.encode
      cases t.inputs.all fun i => i.witness.isEmpty <;> rfl
    rw [e] at this
    exact this
  · rw [only g1, hpush] at g3
    cases g3
  · have := g1 (.node n) (by simp)
    rw [hpush] at this
    rcases this with h | ⟨e, h, -⟩ <;> cases h

/-! ### A node for the sample key -/

/-- A server that reads calls and gives these replies. -/
def serverAt (url : Str) (answer : Rpc) : Post := fun url' text =>
  if url' = url then
    match jsonLoads exactFloat text with
    | .ok (.obj l) =>
      match l.lookup "jsonrpc".toList, l.lookup "method".toList, l.lookup "params".toList with
      | some (.str version), some (.str method), some (.arr params) =>
        if version = "2.0".toList then answer method params else .ok ⟨400, [], .error .valueError⟩
      | _, _, _ => .ok ⟨400, [], .error .valueError⟩
    | _ => .ok ⟨400, [], .error .valueError⟩
  else .error .requestsConnection

theorem serverAt_serves (url : Str) (answer : Rpc) : Serves exactFloat (serverAt url answer) url answer := by
  rintro text method params ⟨j, h1, h2, h3, h4⟩
  unfold serverAt
  rw [if_pos rfl, C79_loads exactFloat text j h1]
  cases h2 with
  | step g2 r2 =>
    cases r2
    cases h3 with
    | step g3 r3 =>
      cases r3
      cases h4 with
      | step g4 r4 =>
        cases r4
        dsimp only
        rw [show List.lookup "jsonrpc".toList _ = _ from g2, show List.lookup "method".toList _ = _ from g3,
          show List.lookup "params".toList _ = _ from g4]
        exact if_pos rfl

/-- A node that knows the chain of the samples and takes every transaction. -/
def answerB : Rpc := fun method params =>
  .ok ⟨200, [], .ok (.obj [("error".toList, .null), ("result".toList,
    if method = "listunspent".toList then
      match params with
      | [_, _, .arr [.str address]] => if address = legacyB then entries coinPlain "0.0007" else entries coinNested "0.0008"
      | _ => .arr []
    else if method = "listreceivedbyaddress".toList then .arr []
    else .str "taken".toList)])⟩
where
  entries (c : _root_.Spec.Utxo) (amount : String) : Json :=
    .arr [.obj [("amount".toList, .float (exactFloat amount.toList)),
      ("confirmations".toList, .int ((accountFor ledgerB c.script).confirmations ⟨bytesToHex c.txid.reverse, c.index, c.value,
        if c.index = 1 then some 699990 else none⟩)),
      ("scriptPubKey".toList, .str (bytesToHex c.script)), ("txid".toList, .str (bytesToHex c.txid.reverse)),
      ("vout".toList, .int c.index)]]

theorem answerB_coin (c : _root_.Spec.Utxo) (amount : String) (hc : ledgerB.coinsOf c.script = [c])
    (hn : Spec.Number (exactFloat amount.toList).repr ((c.value : ℚ) / 10 ^ 8)) (address : Str)
    (h : (if address = legacyB then answerB.entries coinPlain "0.0007" else answerB.entries coinNested "0.0008") =
      answerB.entries c amount) :
    NodeReports true answerB ledgerB address c.script := by
  refine ⟨accountFor ledgerB c.script, [], accountFor_onChain _ _, ⟨(accountFor ledgerB c.script).coins, .refl _, .inl
    ⟨_, _, answerB.entries c amount, rfl, rfl, rfl, .step rfl (.here _), .step (v := answerB.entries c amount) ?_ (.here _), _, rfl, ?_⟩⟩,
    .inl ⟨_, _, _, rfl, rfl, rfl, .step rfl (.here _), .step rfl (.here _), .inl ⟨rfl, rfl⟩⟩⟩
  · rw [← h]
    rfl
  · have e : (accountFor ledgerB c.script).coins = [⟨bytesToHex c.txid.reverse, c.index, c.value,
        if c.index = 1 then some 699990 else none⟩] := by
      unfold accountFor Account.coins
      rw [hc]
      rfl
    rw [e]
    exact .cons ⟨⟨_, .step rfl (.here _), hn⟩, .step rfl (.here _), .step rfl (.here _), .step rfl (.here _), .step rfl (.here _)⟩ .nil

theorem answerB_reports : NodeReportsKey true crypto answerB ledgerB keyB where
  legacy := fun address h => by
    rw [← scripts_of_B.1 address h]
    rw [legacyB_is] at h
    rw [← Except.ok.inj h, show scriptOfB legacyB = coinPlain.script from if_pos rfl]
    refine answerB_coin coinPlain "0.0007" (by decide +kernel) ?_ _ (if_pos rfl)
    refine .inl ⟨false, "0".toList, "0007".toList, ⟨by decide, by decide, by decide⟩, ?_⟩
    have h1 : Spec.digitsValue ("0".toList ++ "0007".toList) = 7 := by decide
    have h2 : "0007".toList.length = 4 := by decide
    unfold Spec.plainValue
    rw [h1, h2]
    show _ = ((70000 : Nat) : ℚ) / 10 ^ 8
    norm_num
  segwit := fun address h => by
    rw [← scripts_of_B.2 address h]
    rw [segwitB_is] at h
    rw [← Option.some.inj (Except.ok.inj h), show scriptOfB segwitB = coinNested.script from if_neg segwitB_other]
    refine answerB_coin coinNested "0.0008" (by decide +kernel) ?_ _ (if_neg segwitB_other)
    refine .inl ⟨false, "0".toList, "0008".toList, ⟨by decide, by decide, by decide⟩, ?_⟩
    have h1 : Spec.digitsValue ("0".toList ++ "0008".toList) = 8 := by decide
    have h2 : "0008".toList.length = 4 := by decide
    unfold Spec.plainValue
    rw [h1, h2]
    show _ = ((80000 : Nat) : ℚ) / 10 ^ 8
    norm_num

/-- The sample key is asked about at the node. -/
def settingsB : NodeSettings := ⟨"username".toList, "password".toList, "localhost".toList, 8332, false, []⟩

def outsideD : Outside := ⟨fun _ => .error .requestsConnection, fun _ => settingsB.rpc (serverAt settingsB.url answerB)⟩

def askD : Ask := fun address =>
  match networkUnspent crypto 28 outsideD (connected [(0, false)]) .main 3 address with
  | some r => r
  | none => .error .requestsConnection

theorem connectedD : Connected crypto (serverAt settingsB.url answerB) settingsB keyB.net [(0, false)] outsideD 28 3 askD :=
  ⟨⟨0, rfl, rfl⟩, fun address r h => by unfold askD; rw [show networkUnspent _ _ _ _ .main _ _ = _ from h]⟩

/-- For C98_send: `answerB` may also fail to answer. -/
example : NodeReportsKey false crypto answerB ledgerB keyB :=
  ⟨fun a h => let ⟨x, r, h1, h2⟩ := answerB_reports.legacy a h; ⟨x, r, h1, h2.weaken⟩,
    fun a h => let ⟨x, r, h1, h2⟩ := answerB_reports.segwit a h; ⟨x, r, h1, h2.weaken⟩⟩

/-- For C98_pays. -/
example (t : _root_.Spec.Tx) : Took (answerB (name "sendrawtransaction") [.str (bytesToHex t.encode)]) :=
  ⟨_, _, _, rfl, .inl rfl, rfl, .inr rfl, rfl⟩

def listedD : List Unspent := ((newWallet (.single keyB)).getUnspents crypto askD).2.toOption.getD []

theorem listedD_segwit : listedD.any (fun u => decide (u.segwit = some true)) = true := by decide +kernel

theorem listedD_enough : needed envB (argsB false) listedD [20000]
    [unhex "76a91477bff20c60e522dfaa3350c39b030a5d004e839a88ac"] (scriptNested keyB) ≤ held crypto keyB ledgerB := by
  decide +kernel

/-- The sample key pays 20000 satoshi over the node. -/
example : ∃ id, ((newWallet (.single keyB)).send crypto envB (argsB false) askD (connected [(0, false)])
    (servicePush outsideD keyB.net) .stored).2.2 = .ok id := by
  obtain ⟨us, h1, h2⟩ := C98_pays (Amount := Int) crypto keyB (toy_laws keyB (by decide)) keyB_ordinary ledgerB ledgerB_wf
    ⟨by decide +kernel, by decide, by decide +kernel⟩ exactFloat _ settingsB answerB (serverAt_serves _ _) [(0, false)] outsideD 28 3
    askD (by decide) connectedD ledgerB_values answerB_reports (fun _ _ => ⟨_, _, _, rfl, .inl rfl, rfl, .inr rfl, rfl⟩)
    (newWallet (.single keyB)) rfl rfl
  have e : us = listedD := by
    unfold listedD
    rw [h1]
    rfl
  obtain ⟨t, -, h⟩ := h2 envB (argsB false) [20000] _ _ (fun _ => List.Perm.refl _) (by decide +kernel)
    (inOrder_nested false (by rw [e]; exact listedD_segwit)) (by rw [e]; exact listedD_enough)
  exact ⟨_, h⟩

end Bit
