import Verif.Model.Val
import Verif.Model.Time
/-!
# Floating point numbers

IEEE-754 doubles as CPython uses them.  Every finite double is a whole multiple of `2^-1074`,
so its value is kept as that integer multiple; sums of doubles are such multiples as well.
-/

namespace Verif

/-- `2^1074`: the number one, in units of the smallest double. -/
def floatOne : Int := 2 ^ 1074

/-- What a bit pattern stands for. -/
inductive FloatClass where
  | nan
  | inf (neg : Bool)
  /-- the value times `2^1074` -/
  | fin (scaled : Int)
  deriving DecidableEq, Repr

/-- Reading of the 64 bits of a double: sign, 11 bits of exponent, 52 bits of fraction. -/
def floatClass (bits : UInt64) : FloatClass :=
  let b := bits.toNat
  let neg := b / 2 ^ 63 == 1
  let e := b / 2 ^ 52 % 2 ^ 11
  let f := b % 2 ^ 52
  if e = 2047 then (if f = 0 then .inf neg else .nan)
  else
    let mag : Nat := if e = 0 then f else (2 ^ 52 + f) * 2 ^ (e - 1)
    .fin (if neg then -(mag : Int) else mag)

/-- Rounding of a magnitude to 53 significant bits, to nearest, ties to even. -/
def round53 (a : Nat) : Nat :=
  if a < 2 ^ 53 then a
  else
    let k := a.log2 - 52
    let q := a / 2 ^ k
    let r := a % 2 ^ k
    if 2 * r > 2 ^ k ∨ (2 * r = 2 ^ k ∧ q % 2 = 1) then (q + 1) * 2 ^ k else q * 2 ^ k

/-- Rounding of an exact (scaled) value to a double.  Simplification: no overflow to infinity;
see the uses. -/
def roundFloat (x : Int) : Int :=
  if x < 0 then -(round53 x.natAbs : Int) else round53 x.natAbs

/-- `f > n` for a float and an int; CPython compares them exactly. -/
def floatGt (f : UInt64) (n : Int) : Bool :=
  match floatClass f with
  | .nan => false
  | .inf neg => !neg
  | .fin v => decide (v > n * floatOne)

/-- `f + 900.0 < n` for a float and an int.  No overflow: 900 is less than half a unit in the last
place of the largest doubles. -/
def floatAdd900Lt (f : UInt64) (n : Int) : Bool :=
  match floatClass f with
  | .nan => false
  | .inf neg => neg
  | .fin v => decide (roundFloat (v + paymentTolerance * floatOne) < n * floatOne)

/-- `int` too large for a float: `float(i)` and `i + 900.0` raise `OverflowError`. -/
def intOverflowsFloat (i : Int) : Bool := decide (i.natAbs ≥ 2 ^ 1024 - 2 ^ 970)

/-- `i + 900.0 < n` for ints: `i` is converted to a float, then the sum is rounded. -/
def intAdd900Lt (i n : Int) : Bool :=
  decide (roundFloat (roundFloat (i * floatOne) + paymentTolerance * floatOne) < n * floatOne)

/-! ### Division of ints -/

/-- `int.bit_length`. -/
def bitLen (n : Nat) : Nat := if n = 0 then 0 else n.log2 + 1

/-- `a / b` of a non-negative and a positive Python integer as a binary floating point number
`(m, k)`, meaning `m * 2^k`: the quotient rounded to 53 significant bits, but never to finer
than `2^-1074`, ties to even (`int.__truediv__` is correctly rounded).  A quotient that rounds
to `2^1024` or more is an `OverflowError`. -/
def trueDiv (a b : Nat) : Res (Nat × Int) :=
  -- scale so that the integer quotient has 53 or 54 bits (fewer for tiny quotients)
  let s : Int := max ((bitLen a : Int) - bitLen b - 53) (-1074)
  let num := if s ≤ 0 then a * 2 ^ (-s).toNat else a
  let den := if s ≤ 0 then b else b * 2 ^ s.toNat
  let q := num / den
  let r := num % den
  let x : Nat × Int :=
    if q < 2 ^ 53 then
      -- round to nearest, ties to even
      let up := 2 * r > den || (2 * r == den && q % 2 == 1)
      (if up then q + 1 else q, s)
    else
      -- 54 bits: drop the last one
      let h := q / 2
      let up := q % 2 == 1 && (r > 0 || h % 2 == 1)
      ((if up then h + 1 else h), s + 1)
  if 0 ≤ x.2 ∧ 2 ^ 1024 ≤ x.1 * 2 ^ x.2.toNat then .error .overflowError else .ok x

end Verif
