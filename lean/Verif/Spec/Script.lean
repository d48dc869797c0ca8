/-
Specification of Bitcoin script data pushes and of the compact-size integers, written from the
protocol, independent of the model.
-/
namespace Spec

/-- Little-endian value of bytes. -/
def leValue : List UInt8 → Nat
  | [] => 0
  | b :: bs => b.toNat + 256 * leValue bs

/-- Splits off `n` bytes if there are that many. -/
def splitOff (n : Nat) (s : List UInt8) : Option (List UInt8 × List UInt8) :=
  if n ≤ s.length then some (s.take n, s.drop n) else none

/-- One data push at the front of a script: direct push (opcodes 0..75), `OP_PUSHDATA1`,
`OP_PUSHDATA2`, `OP_PUSHDATA4`. Returns the pushed bytes and the rest of the script. -/
def parsePush : List UInt8 → Option (List UInt8 × List UInt8)
  | [] => none
  | op :: s =>
    if op.toNat ≤ 75 then splitOff op.toNat s
    else if op = 0x4c then (splitOff 1 s).bind fun (l, s) => splitOff (leValue l) s
    else if op = 0x4d then (splitOff 2 s).bind fun (l, s) => splitOff (leValue l) s
    else if op = 0x4e then (splitOff 4 s).bind fun (l, s) => splitOff (leValue l) s
    else none

/-- Compact-size integer at the front of a stream: one byte, or `fd`/`fe`/`ff` and 2/4/8 bytes
little-endian. Truncated streams are refused. -/
def parseCompact : List UInt8 → Option (Nat × List UInt8)
  | [] => none
  | b :: s =>
    if b.toNat < 253 then some (b.toNat, s)
    else (splitOff (if b = 0xfd then 2 else if b = 0xfe then 4 else 8) s).map
      fun (l, s) => (leValue l, s)

end Spec

namespace Spec

/-- Pay-to-public-key-hash: `OP_DUP OP_HASH160 <hash> OP_EQUALVERIFY OP_CHECKSIG`. -/
def p2pkhScript (hash : List UInt8) : List UInt8 :=
  [0x76, 0xa9, UInt8.ofNat hash.length] ++ hash ++ [0x88, 0xac]

/-- Pay-to-script-hash: `OP_HASH160 <hash> OP_EQUAL`. -/
def p2shScript (hash : List UInt8) : List UInt8 :=
  [0xa9, UInt8.ofNat hash.length] ++ hash ++ [0x87]

/-- Witness program output (BIP-141): `OP_0` or `OP_1 .. OP_16` (bytes 51 to 60), then a push of the
program. -/
def witnessScript (version : Nat) (program : List UInt8) : List UInt8 :=
  [if version = 0 then 0x00 else UInt8.ofNat (0x50 + version), UInt8.ofNat program.length] ++ program

end Spec

namespace Spec

/-- `OP_1 .. OP_16` (bytes 51 to 60) as a number. -/
def smallInt (op : UInt8) : Option Nat :=
  if 0x51 ≤ op.toNat ∧ op.toNat ≤ 0x60 then some (op.toNat - 0x50) else none

/-- Data pushes until something else follows; at most `fuel` of them. -/
def parsePushes : Nat → List UInt8 → List (List UInt8) × List UInt8
  | 0, s => ([], s)
  | fuel + 1, s =>
    match parsePush s with
    | none => ([], s)
    | some (d, rest) =>
      let (ds, rest) := parsePushes fuel rest
      (d :: ds, rest)

/-- Reads `m <key> ... <key> n OP_CHECKMULTISIG` and nothing after it; gives `m`, the keys and
`n`. -/
def parseMultisig : List UInt8 → Option (Nat × List (List UInt8) × Nat)
  | [] => none
  | op :: s =>
    match smallInt op, parsePushes s.length s with
    | some m, (keys, [opn, chk]) =>
      match smallInt opn with
      | some n => if chk = 0xae then some (m, keys, n) else none
      | none => none
    | _, _ => none

end Spec
