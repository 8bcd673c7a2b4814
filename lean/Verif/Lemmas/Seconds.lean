import Verif.Lemmas.Log2
import Verif.Model.Helpers
/-! # Lemmas: whole numbers next to the quotient of two ints -/

namespace Verif

open Spec

private theorem ceil_value (x : Nat × Int) : binValue x ≤ ceilBin x ∧ (ceilBin x : ℝ) < binValue x + 1 := by
  obtain ⟨m, k⟩ := x
  unfold binValue ceilBin
  dsimp only
  by_cases hk : 0 ≤ k
  · rw [if_pos hk]
    have : (2 : ℝ) ^ k = ((2 ^ k.toNat : ℕ) : ℝ) := by
      push_cast
      rw [← zpow_natCast (2 : ℝ) k.toNat, Int.toNat_of_nonneg hk]
    rw [this]
    push_cast
    exact ⟨le_refl _, by linarith⟩
  · rw [if_neg hk]
    obtain ⟨d, hd⟩ : ∃ d : Nat, 2 ^ (-k).toNat = d := ⟨_, rfl⟩
    have hdp : 0 < d := by rw [← hd]; exact Nat.two_pow_pos _
    have hdR : (0 : ℝ) < d := by exact_mod_cast hdp
    have : (2 : ℝ) ^ k = 1 / (d : ℝ) := by
      rw [← hd]
      push_cast
      rw [← zpow_natCast (2 : ℝ) (-k).toNat, Int.toNat_of_nonneg (by omega), zpow_neg]
      simp
    rw [this, hd, mul_one_div]
    have e := Nat.div_add_mod (m + d - 1) d
    have r := Nat.mod_lt (m + d - 1) hdp
    generalize (m + d - 1) / d = c at *
    generalize (m + d - 1) % d = t at *
    have h1 : m ≤ d * c := by omega
    have h2 : d * c < m + d := by omega
    have h1' : (m : ℝ) ≤ d * c := by exact_mod_cast h1
    have h2' : (d : ℝ) * c < m + d := by exact_mod_cast h2
    constructor
    · rw [div_le_iff₀ hdR]; linarith
    · rw [← sub_lt_iff_lt_add, lt_div_iff₀ hdR]; linarith

private theorem floor_value (x : Nat × Int) : (floorBin x : ℝ) ≤ binValue x ∧ binValue x < floorBin x + 1 := by
  obtain ⟨m, k⟩ := x
  unfold binValue floorBin
  dsimp only
  by_cases hk : 0 ≤ k
  · rw [if_pos hk]
    have : (2 : ℝ) ^ k = ((2 ^ k.toNat : ℕ) : ℝ) := by
      push_cast
      rw [← zpow_natCast (2 : ℝ) k.toNat, Int.toNat_of_nonneg hk]
    rw [this]
    push_cast
    exact ⟨le_refl _, by linarith⟩
  · rw [if_neg hk]
    obtain ⟨d, hd⟩ : ∃ d : Nat, 2 ^ (-k).toNat = d := ⟨_, rfl⟩
    have hdp : 0 < d := by rw [← hd]; exact Nat.two_pow_pos _
    have hdR : (0 : ℝ) < d := by exact_mod_cast hdp
    have : (2 : ℝ) ^ k = 1 / (d : ℝ) := by
      rw [← hd]
      push_cast
      rw [← zpow_natCast (2 : ℝ) (-k).toNat, Int.toNat_of_nonneg (by omega), zpow_neg]
      simp
    rw [this, hd, mul_one_div]
    have e := Nat.div_add_mod m d
    have r := Nat.mod_lt m hdp
    generalize m / d = c at *
    generalize m % d = t at *
    have h1 : d * c ≤ m := by omega
    have h2 : m < d * c + d := by omega
    have h1' : (d : ℝ) * c ≤ m := by exact_mod_cast h1
    have h2' : (m : ℝ) < d * c + d := by exact_mod_cast h2
    constructor
    · rw [le_div_iff₀ hdR]; linarith
    · rw [div_lt_iff₀ hdR]; linarith

private theorem whole_value (x : Nat × Int) :
    (ceilBin x : Int) = ⌈binValue x⌉ ∧ (floorBin x : Int) = ⌊binValue x⌋ := by
  obtain ⟨c1, c2⟩ := ceil_value x
  obtain ⟨f1, f2⟩ := floor_value x
  refine ⟨(Int.ceil_eq_iff.2 ⟨?_, ?_⟩).symm, (Int.floor_eq_iff.2 ⟨?_, ?_⟩).symm⟩
  · push_cast; linarith
  · push_cast; exact c1
  · push_cast; exact f1
  · push_cast; exact f2

private theorem near_large {a b : Nat} (ha : 0 < a) (hb : 0 < b) (hlow : -1021 ≤ (bitLen a : Int) - bitLen b) :
    (∃ q, ∃ v : ℝ, trueDiv a b = .ok q ∧ |v - a / b| ≤ a / b / 2 ^ 53 ∧ (ceilBin q : Int) = ⌈v⌉ ∧
      (floorBin q : Int) = ⌊v⌋) ∨
    (trueDiv a b = .error .overflowError ∧ (2 : ℝ) ^ 1023 ≤ a / b) := by
  obtain ⟨x, _, hi, lo, _, ho⟩ := trueDiv_value ha hb hlow
  have hbR : (0 : ℝ) < b := by exact_mod_cast hb
  have h53 : (2 : ℝ) ^ (-53 : ℤ) = 1 / 2 ^ 53 := by norm_num
  rw [h53] at hi lo
  have hq : (0 : ℝ) ≤ a / b := by positivity
  generalize (a / b : ℝ) = y at *
  rcases ho with ⟨h, big⟩ | ⟨h, _⟩
  · right
    refine ⟨h, ?_⟩
    have e : (2 : ℝ) ^ (1024 : ℤ) = 2 ^ 1023 * 2 := by
      rw [← pow_succ, ← zpow_natCast]
      rfl
    rw [e] at big
    generalize (2 : ℝ) ^ 1023 = N at *
    have : y * (1 + 1 / 2 ^ 53) ≤ y * 2 := by
      gcongr
      norm_num
    have := le_trans big (le_trans hi this)
    clear e
    linarith
  · left
    exact ⟨x, binValue x, h, abs_le.2 ⟨by linarith, by linarith⟩, whole_value x⟩

private theorem rounded {a b m n : Nat} (hb : 0 < b) (h1 : 2 * (a * 2 ^ n) ≤ (2 * m + 1) * b)
    (h2 : 2 * m * b ≤ 2 * (a * 2 ^ n) + b) :
    |(m : ℝ) * (1 / 2 ^ n) - a / b| ≤ 1 / 2 ^ (n + 1) := by
  have hbR : (0 : ℝ) < b := by exact_mod_cast hb
  have hn : (0 : ℝ) < 2 ^ n := by positivity
  have h1' : 2 * ((a : ℝ) * 2 ^ n) ≤ (2 * m + 1) * b := by exact_mod_cast h1
  have h2' : 2 * (m : ℝ) * b ≤ 2 * (a * 2 ^ n) + b := by exact_mod_cast h2
  have e : (m : ℝ) * (1 / 2 ^ n) - a / b = (2 * (m * b) - 2 * (a * 2 ^ n)) / (b * (2 ^ n * 2)) := by
    field_simp
  rw [pow_succ, e, abs_div, abs_of_pos (by positivity : (0 : ℝ) < b * (2 ^ n * 2)), div_le_div_iff₀ (by positivity) (by positivity),
    one_mul]
  exact mul_le_mul_of_nonneg_right (abs_le.2 ⟨by linarith, by linarith⟩) (by positivity)

private theorem near_small {a b : Nat} (hb : 0 < b) (hlow : (bitLen a : Int) - bitLen b < -1021) :
    ∃ q, ∃ v : ℝ, trueDiv a b = .ok q ∧ |v - a / b| ≤ 1 / 2 ^ 1075 ∧ (ceilBin q : Int) = ⌈v⌉ ∧
      (floorBin q : Int) = ⌊v⌋ := by
  have hq : a * 2 ^ 1074 / b < 2 ^ 53 := by
    by_cases ha : a = 0
    · subst ha
      rw [Nat.zero_mul, Nat.zero_div]
      decide
    obtain ⟨_, _, a2⟩ := bitLen_spec (show 0 < a by omega)
    obtain ⟨b0, b1, _⟩ := bitLen_spec hb
    rw [Nat.div_lt_iff_lt_mul hb]
    have h1 : a * 2 ^ 1074 < 2 ^ (bitLen a + 1074) := by
      rw [Nat.pow_add]
      exact Nat.mul_lt_mul_of_pos_right a2 (Nat.two_pow_pos _)
    have h2 : 2 ^ (bitLen a + 1074) ≤ 2 ^ (53 + (bitLen b - 1)) :=
      Nat.pow_le_pow_right (by decide) (by omega)
    rw [Nat.pow_add 2 53] at h2
    exact Nat.lt_of_lt_of_le h1 (Nat.le_trans h2 (Nat.mul_le_mul_left _ b1))
  have hs : max ((bitLen a : Int) - bitLen b - 53) (-1074) = -1074 := by omega
  obtain ⟨m, hm, h1, h2⟩ : ∃ m, trueDiv a b = .ok (m, -1074) ∧ 2 * (a * 2 ^ 1074) ≤ (2 * m + 1) * b ∧
      2 * m * b ≤ 2 * (a * 2 ^ 1074) + b := by
    unfold trueDiv
    rw [hs]
    dsimp only
    have hneg : (-1074 : Int) ≤ 0 := by decide
    rw [if_pos hneg, if_pos hneg]
    have ht : (- -1074 : Int).toNat = 1074 := rfl
    rw [ht]
    generalize a * 2 ^ 1074 = num at *
    rw [if_pos hq, if_neg (fun h => absurd (show (0 : Int) ≤ -1074 from h.1) (by decide))]
    have e := Nat.div_add_mod num b
    have r := Nat.mod_lt num hb
    generalize num / b = q at *
    generalize num % b = t at *
    have x1 : (2 * q + 1) * b = 2 * (b * q) + b := by rw [Nat.add_mul, Nat.mul_assoc, Nat.mul_comm q b, Nat.one_mul]
    have x2 : 2 * q * b = 2 * (b * q) := by rw [Nat.mul_assoc, Nat.mul_comm q b]
    have x3 : 2 * (q + 1) * b = 2 * (b * q) + 2 * b := by
      rw [Nat.mul_add, Nat.add_mul, Nat.mul_assoc, Nat.mul_comm q b]
    have x4 : (2 * (q + 1) + 1) * b = 2 * (b * q) + 3 * b := by
      rw [Nat.add_mul, x3, Nat.one_mul]
      omega
    by_cases up : (decide (2 * t > b) || (2 * t == b && q % 2 == 1)) = true
    · refine ⟨q + 1, by rw [if_pos up], ?_, ?_⟩
      · rw [x4]; omega
      · rw [x3]
        have : b ≤ 2 * t := by
          simp only [Bool.or_eq_true, decide_eq_true_eq, Bool.and_eq_true, beq_iff_eq] at up
          omega
        omega
    · refine ⟨q, by rw [if_neg up], ?_, ?_⟩
      · rw [x1]
        have : 2 * t ≤ b := by
          simp only [Bool.or_eq_true, decide_eq_true_eq, not_or] at up
          omega
        omega
      · rw [x2]; omega
  have hv : binValue (m, -1074) = (m : ℝ) * (1 / 2 ^ 1074) := by
    unfold binValue
    rw [show (-1074 : Int) = -((1074 : Nat) : Int) from rfl, zpow_neg, zpow_natCast, one_div]
  refine ⟨_, binValue (m, -1074), hm, ?_, whole_value _⟩
  rw [hv]
  exact rounded hb h1 h2

/-- The quotient of two ints as a double is off by `2^-53` of the quotient at most, or by `2^-1075`. -/
theorem trueDiv_near {a b : Nat} (ha : 0 < a) (hb : 0 < b) :
    (∃ q, ∃ v : ℝ, trueDiv a b = .ok q ∧ |v - a / b| ≤ max ((a : ℝ) / b / 2 ^ 53) (1 / 2 ^ 1075) ∧
      (ceilBin q : Int) = ⌈v⌉ ∧ (floorBin q : Int) = ⌊v⌋) ∨
    (trueDiv a b = .error .overflowError ∧ (2 : ℝ) ^ 1023 ≤ a / b) := by
  by_cases hlow : (bitLen a : Int) - bitLen b < -1021
  · obtain ⟨q, v, h1, h2, h3⟩ := near_small hb hlow
    exact .inl ⟨q, v, h1, le_max_of_le_right h2, h3⟩
  · rcases near_large ha hb (by omega) with ⟨q, v, h1, h2, h3⟩ | h
    · exact .inl ⟨q, v, h1, le_max_of_le_left h2, h3⟩
    · exact .inr h

end Verif
