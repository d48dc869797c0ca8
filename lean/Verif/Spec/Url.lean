import Verif.Model.Node
import Verif.Spec.JsonGrammar
import Verif.Spec.Submit
/-
What C98 speaks about: the parts of a URL (RFC 3986), and servers that understand JSON-RPC.
-/
namespace Bit.Spec

/-- The three parts of a URL with an authority (RFC 3986, section 3): the authority ends before the first slash, question mark or
hash. -/
def IsUrl (text scheme authority rest : Str) : Prop :=
  text = scheme ++ "://".toList ++ authority ++ rest ∧ ':' ∉ scheme ∧ (∀ c ∈ authority, c ∉ ['/', '?', '#']) ∧
    ∀ c, rest.head? = some c → c ∈ ['/', '?', '#']

/-- The parts of an authority (RFC 3986, section 3.2): perhaps a name and a password, separated by the first colon and
followed by `@`; the host; perhaps a colon and the port. A percent sign in name or password stands for another
character; these are left out. -/
def Authority (text : Str) (login : Option (Str × Str)) (host : Str) (port : Option Str) : Prop :=
  ∃ place,
    (match login with
      | none => text = place
      | some (user, password) => text = user ++ ':' :: password ++ '@' :: place ∧ ':' ∉ user ∧ '%' ∉ user ++ password) ∧
    '@' ∉ place ∧
    match port with
      | none => place = host ∧ ':' ∉ host
      | some port => place = host ++ ':' :: port ∧ ':' ∉ port

/-- Name, password and host can stand in a URL as they are. -/
structure CanStand (s : NodeSettings) : Prop where
  user : ∀ c ∈ s.user, c ∉ ['/', '?', '#', '@', '%', ':']
  password : ∀ c ∈ s.password, c ∉ ['/', '?', '#', '@', '%']
  host : ∀ c ∈ s.host, c ∉ ['/', '?', '#', '@']

/-- A text for a call in JSON-RPC. -/
def RpcRequest (readFloat : Str → PyFloat) (text method : Str) (params : List Json) : Prop :=
  ∃ j, JsonText readFloat text j ∧ At j [name "jsonrpc"] (.str "2.0".toList) ∧ At j [name "method"] (.str method) ∧
    At j [name "params"] (.arr params)

/-- At the URL there is a server that reads the calls in JSON-RPC, in whichever layout, and gives these replies. -/
def Serves (readFloat : Str → PyFloat) (post : Post) (url : Str) (answer : Rpc) : Prop :=
  ∀ text method params, RpcRequest readFloat text method params → post url text = answer method params

end Bit.Spec
