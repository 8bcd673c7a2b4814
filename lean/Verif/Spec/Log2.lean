import Mathlib.Analysis.SpecialFunctions.Log.Base
import Verif.Model.Mask
/-!
# Specification: the platform's `log2`

`math.log2` calls the C library.  What is assumed of it: exact at powers of two, monotone, and
wrong by at most `2^-42`, which is one unit in the last place of the largest logarithms.
-/

namespace Verif.Spec

/-- The real number `m * 2^k`. -/
noncomputable def binValue (x : Nat × Int) : ℝ := x.1 * (2 : ℝ) ^ x.2

/-- `fl x` is the floor of what an accurate `log2` returns for `x`. -/
def AccurateLog2 (fl : Nat × Int → Int) : Prop :=
  ∃ log2 : ℝ → ℝ, (∀ x, fl x = ⌊log2 (binValue x)⌋) ∧
    (∀ e : ℤ, log2 (2 ^ e) = e) ∧
    (∀ x y, 0 < x → x ≤ y → log2 x ≤ log2 y) ∧
    (∀ x, 2 ^ (-1074 : ℤ) ≤ x → x < 2 ^ (1024 : ℤ) → |log2 x - Real.logb 2 x| ≤ 2 ^ (-42 : ℤ))

/-- `fl x` is the floor of the correctly rounded logarithm (the double nearest to it), the best a
library can do. -/
def RoundedLog2 (fl : Nat × Int → Int) : Prop :=
  ∀ x : Nat × Int, 0 < x.1 → ∃ y : ℝ, fl x = ⌊y⌋ ∧
    (∃ (m : Int) (j : Int), |m| < 2 ^ 53 ∧ -1074 ≤ j ∧ y = m * (2 : ℝ) ^ j) ∧
    ∀ (m : Int) (j : Int), |m| < 2 ^ 53 → -1074 ≤ j →
      |y - Real.logb 2 (binValue x)| ≤ |m * (2 : ℝ) ^ j - Real.logb 2 (binValue x)|

end Verif.Spec
