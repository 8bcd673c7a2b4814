import Verif.Model.Exc
/-!
# Specification: doubles

The value of a double by its fields, as written in IEEE-754, independent of the model's reader.
-/

namespace Verif.Spec

/-- The bits are those of the finite double with value `x / 2^1074`: sign, exponent `e` and
fraction `f` with value `± 0.f * 2^-1022` (`e = 0`) or `± 1.f * 2^(e - 1023)`. -/
def IsDouble (bits : UInt64) (x : Int) : Prop :=
  ∃ (s e f : Nat), s < 2 ∧ e < 2047 ∧ f < 2 ^ 52 ∧ bits.toNat = s * 2 ^ 63 + e * 2 ^ 52 + f ∧
    x = (-1) ^ s * (if e = 0 then (f : Int) else (2 ^ 52 + f) * 2 ^ (e - 1))

/-- The bits of a NaN: exponent all ones, fraction not zero. -/
def IsNan (bits : UInt64) : Prop :=
  ∃ (s f : Nat), s < 2 ∧ 0 < f ∧ f < 2 ^ 52 ∧ bits.toNat = s * 2 ^ 63 + 2047 * 2 ^ 52 + f

/-- The bits of an infinity. -/
def IsInf (bits : UInt64) : Prop :=
  ∃ s : Nat, s < 2 ∧ bits.toNat = s * 2 ^ 63 + 2047 * 2 ^ 52

/-- The value of a finite double, times `2^1074`. -/
def doubleOf (bits : UInt64) : Option Int :=
  let s : Nat := bits.toNat / 2 ^ 63
  let e : Nat := bits.toNat / 2 ^ 52 % 2 ^ 11
  let f : Nat := bits.toNat % 2 ^ 52
  if e = 2047 then none
  else some ((-1) ^ s * (if e = 0 then (f : Int) else (2 ^ 52 + f) * 2 ^ (e - 1)))

end Verif.Spec
