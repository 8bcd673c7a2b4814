import Verif.Model.Float
import Verif.Spec.Float
/-!
# Lemmas: rounding to doubles
-/

namespace Verif

/-- `log2` brackets. -/
private theorem bracket {a : Nat} (h : ¬ a < 2 ^ 53) :
    1 ≤ a.log2 - 52 ∧ 2 ^ 52 * 2 ^ (a.log2 - 52) ≤ a ∧ a < 2 ^ 53 * 2 ^ (a.log2 - 52) := by
  have h0 : a ≠ 0 := by omega
  have h1 : 53 ≤ a.log2 := (Nat.le_log2 h0).2 (by omega)
  have h2 : 2 ^ a.log2 ≤ a := Nat.log2_self_le h0
  have h3 : a < 2 ^ (a.log2 + 1) := Nat.lt_log2_self
  refine ⟨by omega, ?_, ?_⟩
  · rw [← Nat.pow_add, show 52 + (a.log2 - 52) = a.log2 by omega]; exact h2
  · rw [← Nat.pow_add, show 53 + (a.log2 - 52) = a.log2 + 1 by omega]; exact h3

/-- Rounding does not pass below a number with 53 bits. -/
theorem le_round53 {a m j : Nat} (hm : m ≤ 2 ^ 53) (h : m * 2 ^ j ≤ a) :
    m * 2 ^ j ≤ round53 a := by
  by_cases ha : a < 2 ^ 53
  · unfold round53; rw [if_pos ha]; exact h
  · obtain ⟨_, b1, b2⟩ := bracket ha
    unfold round53
    rw [if_neg ha]
    dsimp only
    generalize hk : a.log2 - 52 = k at *
    have hpos : 0 < 2 ^ k := Nat.two_pow_pos k
    have hq : m * 2 ^ j ≤ a / 2 ^ k * 2 ^ k := by
      by_cases hj : k ≤ j
      · have e : m * 2 ^ j = m * 2 ^ (j - k) * 2 ^ k := by
          rw [Nat.mul_assoc, ← Nat.pow_add, show j - k + k = j by omega]
        rw [e] at h ⊢
        exact Nat.mul_le_mul_right _ ((Nat.le_div_iff_mul_le hpos).2 h)
      · have h1 : 2 ^ 52 ≤ a / 2 ^ k := (Nat.le_div_iff_mul_le hpos).2 b1
        have h2 : 2 ^ (j + 1) ≤ 2 ^ k := Nat.pow_le_pow_right (by omega) (by omega)
        calc m * 2 ^ j ≤ 2 ^ 53 * 2 ^ j := Nat.mul_le_mul_right _ hm
          _ = 2 ^ 52 * 2 ^ (j + 1) := by rw [Nat.pow_succ 2 j]; omega
          _ ≤ 2 ^ 52 * 2 ^ k := Nat.mul_le_mul_left _ h2
          _ ≤ _ := Nat.mul_le_mul_right _ h1
    split
    · exact Nat.le_trans hq (Nat.mul_le_mul_right _ (by omega))
    · exact hq

/-- Rounding does not pass above a number with 53 bits. -/
theorem round53_le {a m j : Nat} (hm : m ≤ 2 ^ 53) (h : a ≤ m * 2 ^ j) :
    round53 a ≤ m * 2 ^ j := by
  by_cases ha : a < 2 ^ 53
  · unfold round53; rw [if_pos ha]; exact h
  · obtain ⟨_, b1, b2⟩ := bracket ha
    unfold round53
    rw [if_neg ha]
    dsimp only
    generalize hk : a.log2 - 52 = k at *
    have hpos : 0 < 2 ^ k := Nat.two_pow_pos k
    have hdm : 2 ^ k * (a / 2 ^ k) + a % 2 ^ k = a := Nat.div_add_mod a (2 ^ k)
    have key : ∃ c, m * 2 ^ j = c * 2 ^ k := by
      by_cases hj : k ≤ j
      · exact ⟨m * 2 ^ (j - k), by rw [Nat.mul_assoc, ← Nat.pow_add, show j - k + k = j by omega]⟩
      · have h2 : 2 ^ (j + 1) ≤ 2 ^ k := Nat.pow_le_pow_right (by omega) (by omega)
        have h3 : m * 2 ^ j ≤ 2 ^ 53 * 2 ^ j := Nat.mul_le_mul_right _ hm
        have h4 : 2 ^ 53 * 2 ^ j = 2 ^ 52 * 2 ^ (j + 1) := by rw [Nat.pow_succ 2 j]; omega
        have h5 : 2 ^ 52 * 2 ^ (j + 1) ≤ 2 ^ 52 * 2 ^ k := Nat.mul_le_mul_left _ h2
        exact ⟨2 ^ 52, by omega⟩
    obtain ⟨c, hc⟩ := key
    rw [hc] at h ⊢
    have hle : a / 2 ^ k * 2 ^ k ≤ c * 2 ^ k := by
      rw [Nat.mul_comm (2 ^ k)] at hdm; omega
    split
    · rename_i hr
      refine Nat.mul_le_mul_right _ ?_
      have : a / 2 ^ k < c := by
        rw [Nat.mul_comm (2 ^ k)] at hdm
        exact Nat.lt_of_mul_lt_mul_right (a := 2 ^ k) (by omega)
      omega
    · exact hle

/-- The rounding error is at most `2^-53` of the number. -/
theorem round53_error (a : Nat) :
    2 ^ 53 * round53 a ≤ 2 ^ 53 * a + a ∧ 2 ^ 53 * a ≤ 2 ^ 53 * round53 a + a := by
  by_cases ha : a < 2 ^ 53
  · unfold round53; rw [if_pos ha]; omega
  · obtain ⟨_, b1, b2⟩ := bracket ha
    unfold round53
    rw [if_neg ha]
    dsimp only
    generalize a.log2 - 52 = k at *
    have hpos : 0 < 2 ^ k := Nat.two_pow_pos k
    have hdm : 2 ^ k * (a / 2 ^ k) + a % 2 ^ k = a := Nat.div_add_mod a (2 ^ k)
    have hlt : a % 2 ^ k < 2 ^ k := Nat.mod_lt _ hpos
    generalize a % 2 ^ k = r at *
    rw [Nat.mul_comm] at hdm
    split
    · rename_i hr
      rw [Nat.add_mul, Nat.one_mul]
      generalize a / 2 ^ k * 2 ^ k = y at *
      generalize 2 ^ k = z at *
      omega
    · rename_i hr
      have : 2 * r ≤ 2 ^ k := by omega
      generalize a / 2 ^ k * 2 ^ k = y at *
      generalize 2 ^ k = z at *
      omega

/-- Numbers with 53 significant bits. -/
def Rep53 (y : Int) : Prop := ∃ m j : Nat, m ≤ 2 ^ 53 ∧ y.natAbs = m * 2 ^ j

theorem le_roundFloat {x y : Int} (hy : Rep53 y) (h : y ≤ x) : y ≤ roundFloat x := by
  obtain ⟨m, j, hm, e⟩ := hy
  unfold roundFloat
  split
  · have h1 : round53 x.natAbs ≤ y.natAbs := by rw [e]; exact round53_le hm (by omega)
    omega
  · by_cases hn : y ≤ 0
    · omega
    · have h1 : y.natAbs ≤ round53 x.natAbs := by rw [e]; exact le_round53 hm (by omega)
      omega

theorem roundFloat_le {x y : Int} (hy : Rep53 y) (h : x ≤ y) : roundFloat x ≤ y := by
  obtain ⟨m, j, hm, e⟩ := hy
  unfold roundFloat
  split
  · by_cases hn : 0 ≤ y
    · omega
    · have h1 : y.natAbs ≤ round53 x.natAbs := by rw [e]; exact le_round53 hm (by omega)
      omega
  · have h1 : round53 x.natAbs ≤ y.natAbs := by rw [e]; exact round53_le hm (by omega)
    omega

theorem roundFloat_rep {y : Int} (hy : Rep53 y) : roundFloat y = y :=
  Int.le_antisymm (roundFloat_le hy (Int.le_refl _)) (le_roundFloat hy (Int.le_refl _))

theorem rep53_int {i : Int} (h : i.natAbs ≤ 2 ^ 53) : Rep53 (i * floatOne) :=
  ⟨i.natAbs, 1074, h, by
    rw [Int.natAbs_mul]
    exact congrArg (i.natAbs * ·) (by decide +kernel)⟩

theorem floatOne_pos : 0 < floatOne := by decide +kernel

/-- The comparison of integer payment timestamps is exact. -/
theorem intAdd900Lt_exact {i n : Int} (hi : i ≤ n) (h0 : 0 ≤ n) (hn : n < 2 ^ 53) :
    intAdd900Lt i n = decide (i + 900 < n) := by
  have hS := floatOne_pos
  unfold intAdd900Lt paymentTolerance
  by_cases h : i + 900 < n
  · rw [decide_eq_true h, decide_eq_true]
    by_cases hb : -2 ^ 53 ≤ i
    · rw [roundFloat_rep (rep53_int (i := i) (by omega)), ← Int.add_mul]
      rw [roundFloat_rep (rep53_int (by omega))]
      exact Int.mul_lt_mul_of_pos_right h hS
    · have h1 : roundFloat (i * floatOne) ≤ -2 ^ 53 * floatOne :=
        roundFloat_le (rep53_int (by omega)) (Int.mul_le_mul_of_nonneg_right (by omega) (by omega))
      have h2 : roundFloat (roundFloat (i * floatOne) + 900 * floatOne)
          ≤ (-2 ^ 53 + 900) * floatOne :=
        roundFloat_le (rep53_int (by omega)) (by rw [Int.add_mul]; omega)
      exact Int.lt_of_le_of_lt h2 (Int.mul_lt_mul_of_pos_right (by omega) hS)
  · rw [decide_eq_false h, decide_eq_false]
    rw [roundFloat_rep (rep53_int (i := i) (by omega)), ← Int.add_mul]
    have h1 : n * floatOne ≤ roundFloat ((i + 900) * floatOne) :=
      le_roundFloat (rep53_int (by omega)) (Int.mul_le_mul_of_nonneg_right (by omega) (by omega))
    omega

/-- What the sum with 900 decides about a float: exact from the lower end of the window on, and
wrong by at most `2^-18` below it. -/
theorem floatAdd900_window {v n : Int} (h0 : 0 ≤ n) (hn : n < 2 ^ 35) :
    (n * floatOne ≤ v + 900 * floatOne → ¬ roundFloat (v + 900 * floatOne) < n * floatOne) ∧
    (¬ roundFloat (v + 900 * floatOne) < n * floatOne →
      n * floatOne * 2 ^ 18 ≤ (v + 900 * floatOne) * 2 ^ 18 + floatOne) := by
  have hS := floatOne_pos
  have hlt : n * floatOne ≤ 2 ^ 35 * floatOne :=
    Int.mul_le_mul_of_nonneg_right (by omega) (by omega)
  have hnn : 0 ≤ n * floatOne := Int.mul_nonneg h0 (by omega)
  have hrep : Rep53 (n * floatOne) := rep53_int (by omega)
  have hone : Rep53 (-1) := ⟨1, 0, by omega, rfl⟩
  generalize v + 900 * floatOne = x at *
  refine ⟨fun h => Int.not_lt.2 (le_roundFloat hrep h), fun h => ?_⟩
  generalize n * floatOne = y at *
  by_cases hy : y ≤ x
  · generalize floatOne = S at *
    omega
  · by_cases hx : x < 0
    · have := roundFloat_le hone (x := x) (by omega)
      omega
    · obtain ⟨h1, _⟩ := round53_error x.natAbs
      unfold roundFloat at h
      rw [if_neg hx] at h
      generalize hr : round53 x.natAbs = r at *
      generalize floatOne = S at *
      omega

/-! ### The reader and the specification -/

open Spec

theorem floatClass_double {b : UInt64} {x : Int} (h : IsDouble b x) : floatClass b = .fin x := by
  obtain ⟨s, e, f, hs, he, hf, hb, hx⟩ := h
  have h1 : b.toNat / 2 ^ 63 = s := by omega
  have h2 : b.toNat / 2 ^ 52 % 2 ^ 11 = e := by omega
  have h3 : b.toNat % 2 ^ 52 = f := by omega
  unfold floatClass
  simp only [h1, h2, h3]
  rw [if_neg (by omega), hx]
  congr 1
  have hm : ((if e = 0 then f else (2 ^ 52 + f) * 2 ^ (e - 1) : Nat) : Int) =
      if e = 0 then (f : Int) else (2 ^ 52 + f) * 2 ^ (e - 1) := by
    split
    · rfl
    · simp
  rw [← hm]
  generalize (if e = 0 then f else (2 ^ 52 + f) * 2 ^ (e - 1) : Nat) = y
  rcases (by omega : s = 0 ∨ s = 1) with rfl | rfl
  · simp
  · simp

theorem floatClass_nan {b : UInt64} (h : IsNan b) : floatClass b = .nan := by
  obtain ⟨s, f, hs, h0, hf, hb⟩ := h
  have h2 : b.toNat / 2 ^ 52 % 2 ^ 11 = 2047 := by omega
  have h3 : b.toNat % 2 ^ 52 = f := by omega
  unfold floatClass
  simp only [h2, h3, if_true]
  rw [if_neg (by omega)]

theorem floatClass_inf {b : UInt64} (h : IsInf b) : ∃ neg, floatClass b = .inf neg := by
  obtain ⟨s, hs, hb⟩ := h
  have h2 : b.toNat / 2 ^ 52 % 2 ^ 11 = 2047 := by omega
  have h3 : b.toNat % 2 ^ 52 = 0 := by omega
  unfold floatClass
  simp only [h2, h3, if_true]
  exact ⟨_, rfl⟩

/-- Every bit pattern is a finite double, a NaN or an infinity. -/
theorem float_cases (b : UInt64) : (∃ x, IsDouble b x) ∨ IsNan b ∨ IsInf b := by
  have hb : b.toNat < 2 ^ 64 := b.toNat_lt
  have hd : b.toNat = b.toNat / 2 ^ 63 * 2 ^ 63 + b.toNat / 2 ^ 52 % 2 ^ 11 * 2 ^ 52
      + b.toNat % 2 ^ 52 := by omega
  have hs : b.toNat / 2 ^ 63 < 2 := by omega
  have he : b.toNat / 2 ^ 52 % 2 ^ 11 < 2 ^ 11 := by omega
  have hf : b.toNat % 2 ^ 52 < 2 ^ 52 := by omega
  generalize b.toNat / 2 ^ 63 = s at *
  generalize b.toNat / 2 ^ 52 % 2 ^ 11 = e at *
  generalize b.toNat % 2 ^ 52 = f at *
  by_cases he' : e = 2047
  · subst he'
    right
    by_cases hf' : f = 0
    · subst hf'; right; exact ⟨s, hs, hd⟩
    · left; exact ⟨s, f, hs, by omega, hf, hd⟩
  · left
    exact ⟨_, s, e, f, hs, by omega, hf, hd, rfl⟩

end Verif
