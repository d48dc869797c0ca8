import Verif.Model.Basic
/-
Model of /repo/bit/curve.py.
-/
namespace Bit

/-- bit/curve.py:3 `FIELD_SIZE`. -/
def fieldSize : Nat := 0xFFFFFFFFFFFFFFFFFFFFFFFFFFFFFFFFFFFFFFFFFFFFFFFFFFFFFFFEFFFFFC2F

/-- bit/curve.py:5 `TONELLI_SHANKS_CONSTANT`. -/
def tonelliShanks : Nat := (fieldSize + 1) / 4

/-- Python's `pow(b, e, m)` for `m > 1`: square and multiply over the bits of `e` (the fuel `e` is
enough; `Lemmas/Curve.powMod_eq` proves the result is `b ^ e % m`). -/
def powModAux (m : Nat) : Nat → Nat → Nat → Nat → Nat
  | 0, _, _, acc => acc
  | fuel + 1, b, e, acc =>
    if e = 0 then acc
    else powModAux m fuel (b * b % m) (e / 2) (if e % 2 = 1 then acc * b % m else acc)

/-- The number of rounds is the bit length of the exponent. -/
def powMod (b e m : Nat) : Nat := powModAux m (bitLength e) (b % m) e (1 % m)

/-- bit/curve.py:15-22 `x_to_y` (line 11 `parity`). Python computes with integers, so
`FIELD_SIZE - y` with `y = 0` is `FIELD_SIZE` itself. -/
def xToY (x yParity : Nat) : Nat :=
  let y := powMod (x ^ 3 + 7) tonelliShanks fieldSize
  if y % 2 ≠ yParity then fieldSize - y else y

end Bit
