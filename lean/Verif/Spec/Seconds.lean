import Mathlib.Analysis.SpecialFunctions.Log.Base
import Verif.Spec.Verification
/-! # Specification: whole seconds of a time that is known to the accuracy of doubles -/

namespace Verif.Spec

/-- `k` is the least whole number that reaches `x` as a double: a number that differs from `x` by `2^-53` of
it at most, or by `2^-1075` if that is more. -/
def CeilNear (x : ℝ) (k : Int) : Prop := ∃ v : ℝ, |v - x| ≤ max (|x| / 2 ^ 53) (1 / 2 ^ 1075) ∧ k = ⌈v⌉

end Verif.Spec
