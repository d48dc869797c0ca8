import Verif.Spec.Spend
/-
A script interpreter: what a Bitcoin node does to decide whether an input may spend an output
(BIP-16 pay-to-script-hash, BIP-141 witness programs, BIP-143 digests, BIP-147 empty dummy), for the
opcodes that occur in the scripts the library makes. Every other opcode is refused, so acceptance here is
no weaker than acceptance by a node. Written independently of the model.

Stacks are lists with the top first. A node's limits are kept: 520 bytes for an item, 10000 for a script, 201
opcodes that are not pushes (where every key of `OP_CHECKMULTISIG` counts), 1000 items on the stack. Left out:
`FindAndDelete`, hash types other than SIGHASH_ALL (refused) and witness versions above 0 (refused).
-/
namespace Spec

/-- The truth value of a stack item: some byte is not zero, where the last one may also be `80` (the
negative zero). -/
def truthy : List UInt8 → Bool
  | [] => false
  | [b] => b ≠ 0 && b ≠ 0x80
  | b :: bs => b ≠ 0 || truthy bs

/-- What a comparison leaves on the stack. -/
def boolItem (b : Bool) : List UInt8 := if b then [1] else []

/-- A stack item as the number of keys or signatures, at most 20. -/
def countItem : List UInt8 → Option Nat
  | [] => some 0
  | [b] => if b.toNat ≤ 20 then some b.toNat else none
  | _ => none

/-- Takes `n` items from the stack. -/
def popItems (n : Nat) (stack : List (List UInt8)) : Option (List (List UInt8) × List (List UInt8)) :=
  if n ≤ stack.length then some (stack.take n, stack.drop n) else none

/-- The loop of `OP_CHECKMULTISIG`: go through the keys; a key that fits the next signature uses it
up, any other is skipped. -/
def matchSigs (check : List UInt8 → List UInt8 → Bool) : List (List UInt8) → List (List UInt8) → Bool
  | _, [] => true
  | [], _ :: _ => false
  | key :: keys, sig :: sigs =>
    if check sig key then matchSigs check keys sigs else matchSigs check keys (sig :: sigs)

/-- One opcode that is not a data push. `check sig key` checks a signature. -/
def evalOp (H : Hashing) (check : List UInt8 → List UInt8 → Bool) (op : UInt8) (stack : List (List UInt8)) :
    Option (List (List UInt8)) :=
  if op = 0x76 then -- OP_DUP
    match stack with
    | x :: s => some (x :: x :: s)
    | [] => none
  else if op = 0xa9 then -- OP_HASH160
    match stack with
    | x :: s => some (H.hash160 x :: s)
    | [] => none
  else if op = 0x87 then -- OP_EQUAL
    match stack with
    | x :: y :: s => some (boolItem (x == y) :: s)
    | _ => none
  else if op = 0x88 then -- OP_EQUALVERIFY
    match stack with
    | x :: y :: s => if x = y then some s else none
    | _ => none
  else if op = 0xac then -- OP_CHECKSIG
    match stack with
    | key :: sig :: s => some (boolItem (check sig key) :: s)
    | _ => none
  else if op = 0xae then -- OP_CHECKMULTISIG
    match stack with
    | [] => none
    | n :: s => (countItem n).bind fun n => (popItems n s).bind fun (keys, s) =>
      match s with
      | [] => none
      | m :: s => (countItem m).bind fun m => if n < m then none else (popItems m s).bind fun (sigs, s) =>
        match s with
        | [] => none
        | dummy :: s => if dummy = [] then some (boolItem (matchSigs check keys sigs) :: s) else none
  else (smallInt op).map fun n => [UInt8.ofNat n] :: stack -- OP_1 .. OP_16

/-- What an opcode counts: nothing up to `OP_16`, else one, and one for every key of `OP_CHECKMULTISIG`. -/
def opCost (op : UInt8) (stack : List (List UInt8)) : Nat :=
  if op.toNat ≤ 0x60 then 0
  else if op = 0xae then
    match stack with
    | n :: _ => 1 + (countItem n).getD 0
    | [] => 1
  else 1

/-- Runs the rest of a script on a stack; `none` if it fails. `ops` is the count of opcodes so far. `fuel` bounds
the number of steps; the length of the script is always enough. -/
def evalSteps (H : Hashing) (check : List UInt8 → List UInt8 → Bool) :
    Nat → List UInt8 → Nat → List (List UInt8) → Option (List (List UInt8))
  | _, [], _, stack => some stack
  | 0, _ :: _, _, _ => none
  | fuel + 1, op :: s, ops, stack =>
    match parsePush (op :: s) with
    | some (d, rest) =>
      if d.length ≤ 520 ∧ stack.length + 1 ≤ 1000 then evalSteps H check fuel rest ops (d :: stack) else none
    | none =>
      if ops + opCost op stack ≤ 201 then
        match evalOp H check op stack with
        | none => none
        | some after => if after.length ≤ 1000 then evalSteps H check fuel s (ops + opCost op stack) after else none
      else none

/-- Runs a script on a stack. -/
def evalScript (H : Hashing) (check : List UInt8 → List UInt8 → Bool) (script : List UInt8)
    (stack : List (List UInt8)) : Option (List (List UInt8)) :=
  if script.length ≤ 10000 then evalSteps H check script.length script 0 stack else none

/-- Whether a signature (with hash type byte, which must be `01`) is valid for a message. -/
def checkSig (H : Hashing) (message sig key : List UInt8) : Bool :=
  match sig.getLast? with
  | none => false
  | some t => t == 0x01 && H.verify sig.dropLast (H.sha256 message) key

/-- `OP_HASH160 <20 bytes> OP_EQUAL`. -/
def isP2SH (script : List UInt8) : Bool :=
  script.length == 23 && script.take 2 == [0xa9, 0x14] && script.drop 22 == [0x87]

/-- A witness program (BIP-141): `OP_0` or `OP_1 .. OP_16`, then one direct push of 2 to 40 bytes and nothing
else. -/
def witnessProgram : List UInt8 → Option (Nat × List UInt8)
  | v :: n :: program =>
    if n.toNat = program.length ∧ 2 ≤ program.length ∧ program.length ≤ 40 then
      if v = 0x00 then some (0, program) else (smallInt v).map fun v => (v, program)
    else none
  | _ => none

/-- The script ran, one item is left and it is true. -/
def cleanTrue : Option (List (List UInt8)) → Bool
  | some [x] => truthy x
  | _ => false

/-- The script ran and the top item is true. -/
def topTrue : Option (List (List UInt8)) → Bool
  | some (x :: _) => truthy x
  | _ => false

/-- Only data pushes and `OP_1 .. OP_16`. -/
def pushOnly : Nat → List UInt8 → Bool
  | _, [] => true
  | 0, _ :: _ => false
  | fuel + 1, op :: s =>
    match parsePush (op :: s) with
    | some (_, rest) => pushOnly fuel rest
    | none => (smallInt op).isSome && pushOnly fuel s

/-- Runs a witness program of version 0: 20 bytes are the hash of the key (signed with the P2PKH script of
it), 32 bytes the hash of the script, which is the last item of the witness. -/
def acceptsWitness (H : Hashing) (t : Tx) (i : TxInput) (value : Nat) (version : Nat) (program : List UInt8) :
    Bool :=
  let run (script : List UInt8) (stack : List (List UInt8)) : Bool :=
    stack.all (fun x => x.length ≤ 520) &&
    cleanTrue (evalScript H
      (checkSig H (segwitMessage (fun b => H.sha256 (H.sha256 b)) t i script value)) script stack)
  if version ≠ 0 then false
  else if program.length = 20 then
    i.witness.length == 2 && run (p2pkhScript program) i.witness.reverse
  else if program.length = 32 then
    match i.witness.reverse with
    | [] => false
    | script :: stack => H.sha256 script == program && run script stack
  else false

/-- Whether input number `index` of `t`, which is `i`, may spend an output with this script and value. -/
def accepts (H : Hashing) (t : Tx) (index : Nat) (i : TxInput) (script : List UInt8) (value : Nat) : Bool :=
  let run (s : List UInt8) (stack : List (List UInt8)) : Option (List (List UInt8)) :=
    evalScript H (checkSig H (legacyMessage t index s)) s stack
  match run i.script [] with
  | none => false
  | some stack =>
    match witnessProgram script with
    | some (version, program) => i.script == [] && acceptsWitness H t i value version program
    | none =>
      if isP2SH script then
        pushOnly i.script.length i.script && topTrue (run script stack) &&
        match stack with
        | [] => false
        | redeem :: rest =>
          match witnessProgram redeem with
          | some (version, program) =>
            i.script == UInt8.ofNat redeem.length :: redeem && acceptsWitness H t i value version program
          | none => i.witness.isEmpty && cleanTrue (run redeem rest)
      else i.witness.isEmpty && cleanTrue (run script stack)

end Spec
