import Verif.Model.Web
import Verif.Model.JsonText
/-
How a node is asked: `RPCHost` and `RPCMethod` of /repo/bit/network/services.py. In `Model/Web` a call of a node is a method
and its parameters (`Rpc`); here it is the text that is posted, and the URL.
-/
namespace Bit

mutual

/-- `json.dumps(j)`: as `Json.dumps`, with a space behind commas and colons. -/
def Json.dumpsSpaced : Json → Str
  | .null => ['n', 'u', 'l', 'l']
  | .bool true => ['t', 'r', 'u', 'e']
  | .bool false => ['f', 'a', 'l', 's', 'e']
  | .int n => intText n
  | .float f => f.repr
  | .str s => stringText s
  | .arr [] => ['[', ']']
  | .arr (j :: js) => '[' :: (j.dumpsSpaced ++ spacedElements js ++ [']'])
  | .obj [] => ['{', '}']
  | .obj ((k, j) :: js) => '{' :: (stringText k ++ ':' :: ' ' :: (j.dumpsSpaced ++ spacedMembers js ++ ['}']))

/-- The further elements of a list. -/
def spacedElements : List Json → Str
  | [] => []
  | j :: js => ',' :: ' ' :: (j.dumpsSpaced ++ spacedElements js)

/-- The further items of a dict. -/
def spacedMembers : List (Str × Json) → Str
  | [] => []
  | (k, j) :: js => ',' :: ' ' :: (stringText k ++ ':' :: ' ' :: (j.dumpsSpaced ++ spacedMembers js))

end

/-- The arguments of `connect_to_node` (bit/network/services.py:1020) that `RPCHost` gets. `https` is whether `use_https`
is true or a path of certificates. -/
structure NodeSettings where
  user : Str
  password : Str
  host : Str
  port : Int
  https : Bool
  path : Str

/-- `RPCHost.__init__`, bit/network/services.py:22-28: the URL. -/
def NodeSettings.url (s : NodeSettings) : Str :=
  "http".toList ++ (if s.https then ['s'] else []) ++ "://".toList ++ s.user ++ ":".toList ++ s.password ++ "@".toList ++
    s.host ++ ":".toList ++ intText s.port ++ "/".toList ++ s.path

/-- `RPCHost.__getattr__` (bit/network/services.py:30-31) and then `RPCMethod.__getattr__` (lines 89-91) for each further
name: the method that `node.first.second.third` calls. -/
def methodName (first : Str) (further : List Str) : Str := further.foldl (fun m a => m ++ '.' :: a) first

/-- The text that `RPCMethod.__call__` posts, bit/network/services.py:94. -/
def rpcPayload (method : Str) (params : List Json) : Str :=
  (Json.obj [("method".toList, .str method), ("params".toList, .arr params), ("jsonrpc".toList, .str "2.0".toList)]).dumpsSpaced

/-- What comes back when a text is posted to a URL. -/
abbrev Post := Str → Str → Py Reply

/-- A call of a method with parameters, bit/network/services.py:93-96; `rpcCall` is the rest of the function. -/
def NodeSettings.rpc (s : NodeSettings) (post : Post) : Rpc := fun method params => post s.url (rpcPayload method params)

end Bit
