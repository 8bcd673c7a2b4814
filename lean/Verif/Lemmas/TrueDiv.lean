import Verif.Model.Float
/-! # Lemmas: division of ints -/

namespace Verif

theorem bitLen_spec {n : Nat} (h : 0 < n) :
    0 < bitLen n ∧ 2 ^ (bitLen n - 1) ≤ n ∧ n < 2 ^ bitLen n := by
  unfold bitLen
  rw [if_neg (by omega)]
  exact ⟨by omega, Nat.log2_self_le (by omega), Nat.lt_log2_self⟩

/-- Zero divided by anything. -/
theorem trueDiv_zero {b : Nat} (h : 0 < b) : ∃ k, trueDiv 0 b = .ok (0, k) := by
  unfold trueDiv
  have hl : (bitLen 0 : Int) = 0 := rfl
  have hb : b ≠ 0 := by omega
  rw [hl]
  have hs : max ((0 : Int) - bitLen b - 53) (-1074) ≤ 0 := by omega
  generalize max ((0 : Int) - bitLen b - 53) (-1074) = s at *
  refine ⟨s, ?_⟩
  simp [hs, hb]

end Verif
