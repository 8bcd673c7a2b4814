import Verif.Props.Mask
import Verif.Lemmas.Log2
import Mathlib.Analysis.Complex.ExponentialBounds
/-!
# C51: the mask for a task (`datastructures/masking.py:84-93`)

The code computes `floor(log2(desired / potential))` with doubles.  The division is modelled
exactly; of the C library's `log2` only accuracy is assumed (`AccurateLog2`).
-/

namespace Verif.Props

open Verif Spec

/-- C51: no bits without potential workers; otherwise a desired count of zero or less is refused,
and the mask has the least number `b` of bits with `desired * 2^b ≥ potential`, capped at 256.
Missing for the full claim: more than `2^40` potential workers and more than `2^1000` desired
ones, where it is false (see the refutations). -/
theorem mask_for_task_partial (sample : Sampler) (hs : SamplerOk sample)
    (fl : Nat × Int → Int) (hfl : AccurateLog2 fl) (desired potential : Int)
    (hd : |desired| ≤ 2 ^ 1000) (hp : potential ≤ 2 ^ 40) :
    (potential < 1 → Mask.forTask sample fl desired potential = .ok Mask.default ∧
      bitCount Mask.default.byteRepr = 0) ∧
    (1 ≤ potential → desired ≤ 0 →
      Mask.forTask sample fl desired potential = .error .valueError) ∧
    (1 ≤ potential → 0 < desired →
      ∃ m b, Mask.forTask sample fl desired potential = .ok m ∧
        potential ≤ desired * 2 ^ b ∧ (∀ j, j < b → desired * 2 ^ j < potential) ∧
        bitCount m.byteRepr = min b 256) := by
  have hdn : desired.natAbs ≤ 2 ^ 1000 := by
    have : ((desired.natAbs : Nat) : Int) ≤ ((2 ^ 1000 : Nat) : Int) := by
      rw [Int.natCast_natAbs]; exact_mod_cast hd
    exact_mod_cast this
  -- the quotient never overflows
  have quot : 1 ≤ potential → 0 < desired.natAbs →
      ∃ x : Nat × Int, 0 < x.1 ∧
        binValue x ≤ (desired.natAbs / potential.toNat : ℝ) * (1 + 2 ^ (-53 : ℤ)) ∧
        (∀ e : ℤ, (2 : ℝ) ^ e ≤ desired.natAbs / potential.toNat → (2 : ℝ) ^ e ≤ binValue x) ∧
        trueDiv desired.natAbs potential.toNat = .ok x := by
    intro h1 h2
    have hp1 : 0 < potential.toNat := by omega
    have hpn : potential.toNat < 2 ^ 41 := by omega
    obtain ⟨la0, _, _⟩ := bitLen_spec h2
    obtain ⟨lb0, lb1, _⟩ := bitLen_spec hp1
    have hlb : bitLen potential.toNat ≤ 41 := by
      by_contra h
      have : 2 ^ 41 ≤ 2 ^ (bitLen potential.toNat - 1) :=
        Nat.pow_le_pow_right (by decide) (by omega)
      omega
    obtain ⟨x, x1, x2, _, x3, x4⟩ := trueDiv_value h2 hp1 (by omega)
    refine ⟨x, x1, x2, x3, ?_⟩
    rcases x4 with ⟨_, ho⟩ | ⟨hk, _⟩
    · exfalso
      have h3 : (desired.natAbs / potential.toNat : ℝ) ≤ (2 : ℝ) ^ (1000 : ℤ) := by
        have hpR : (1 : ℝ) ≤ potential.toNat := by exact_mod_cast hp1
        have hdR : (desired.natAbs : ℝ) ≤ (2 : ℝ) ^ (1000 : ℤ) := by
          have h := (Nat.cast_le (α := ℝ)).2 hdn
          rw [Nat.cast_pow, Nat.cast_ofNat] at h
          rw [show (1000 : ℤ) = ((1000 : ℕ) : ℤ) from rfl, zpow_natCast]
          exact h
        exact le_trans (div_le_self (Nat.cast_nonneg _) hpR) hdR
      have h4 : (1 + (2 : ℝ) ^ (-53 : ℤ)) ≤ (2 : ℝ) ^ (1 : ℤ) := by norm_num
      have h5 : binValue x ≤ (2 : ℝ) ^ (1001 : ℤ) := by
        refine x2.trans ?_
        rw [show (1001 : ℤ) = 1000 + 1 from rfl, zpow_add₀ (by norm_num : (2 : ℝ) ≠ 0)]
        exact mul_le_mul h3 h4 (by positivity) (zpow_pos two_pos _).le
      have h6 : (2 : ℝ) ^ (1001 : ℤ) < (2 : ℝ) ^ (1024 : ℤ) :=
        zpow_lt_zpow_right₀ (by norm_num) (by norm_num)
      exact absurd (ho.trans h5) (not_le.2 h6)
    · exact hk
  unfold Mask.forTask
  refine ⟨?_, ?_, ?_⟩
  · intro h
    rw [if_pos h]
    refine ⟨rfl, ?_⟩
    have : bigEndian Mask.default.byteRepr = 0 := by decide
    unfold bitCount
    rw [List.countP_eq_zero]
    intro a _
    rw [bitOf, this, Nat.zero_testBit]
    simp
  · intro h1 h2
    rw [if_neg (by omega)]
    by_cases h0 : desired = 0
    · subst h0
      obtain ⟨k, hk⟩ := trueDiv_zero (show 0 < potential.toNat by omega)
      rw [show (0 : Int).natAbs = 0 from rfl, hk]
      simp
    · obtain ⟨x, _, _, _, hk⟩ := quot h1 (by omega)
      rw [hk]
      dsimp only
      rw [if_pos (Or.inl (by omega))]
  · intro h1 h2
    rw [if_neg (by omega)]
    obtain ⟨x, x1, x2, x3, hk⟩ := quot h1 (by omega)
    rw [hk]
    dsimp only
    rw [if_neg (by omega)]
    obtain ⟨d, rfl⟩ := Int.eq_ofNat_of_zero_le (a := desired) (by omega)
    obtain ⟨p, rfl⟩ := Int.eq_ofNat_of_zero_le (a := potential) (by omega)
    simp only [Int.natAbs_natCast, Int.toNat_natCast] at x2 x3
    have hd0 : 0 < d := by omega
    have hp0 : 0 < p := by omega
    have hpR : (0 : ℝ) < p := by exact_mod_cast hp0
    have hex : ∃ b, p ≤ d * 2 ^ b :=
      ⟨p, le_trans (Nat.lt_two_pow_self).le (Nat.le_mul_of_pos_left _ hd0)⟩
    obtain ⟨b, hb, hmin⟩ : ∃ b, p ≤ d * 2 ^ b ∧ ∀ j, j < b → d * 2 ^ j < p := by
      classical
      exact ⟨Nat.find hex, Nat.find_spec hex, fun j hj => not_le.1 (Nat.find_min hex hj)⟩
    have hlow : (2 : ℝ) ^ (-(b : ℤ)) ≤ binValue x := by
      apply x3
      rw [le_div_iff₀ hpR, zpow_neg, zpow_natCast, inv_mul_le_iff₀ (by positivity), mul_comm]
      exact_mod_cast hb
    obtain ⟨f1, f2⟩ := accurate_floor hfl (x := x)
    have hbits : max (-(fl x)) 0 = (b : Int) := by
      rcases Nat.eq_zero_or_pos b with rfl | hbp
      · have := f1 (by simpa using hlow)
        omega
      · have hlt := hmin (b - 1) (by omega)
        have hb40 : b ≤ 1000 := by
          by_contra hgt
          have h3 := hmin 41 (by omega)
          have : 1 * 2 ^ 41 ≤ d * 2 ^ 41 := Nat.mul_le_mul_right _ hd0
          have hp' : p ≤ 2 ^ 40 := by exact_mod_cast hp
          omega
        have hq : (d / p : ℝ) ≤ (2 : ℝ) ^ (1 - (b : ℤ)) * (1 - (2 : ℝ) ^ (-40 : ℤ)) := by
          have h3 : (d : ℝ) * 2 ^ (b - 1) ≤ p - 1 := by
            have : d * 2 ^ (b - 1) + 1 ≤ p := hlt
            have : (d : ℝ) * 2 ^ (b - 1) + 1 ≤ p := by exact_mod_cast this
            linarith
          have h4 : (p : ℝ) * (2 : ℝ) ^ (-40 : ℤ) ≤ 1 := by
            have hp' : (p : ℝ) ≤ 1099511627776 := by
              have : p ≤ 1099511627776 := by
                have hp' : (p : Int) ≤ 2 ^ 40 := hp
                omega
              exact_mod_cast this
            have : (2 : ℝ) ^ (-40 : ℤ) = 1 / 1099511627776 := by norm_num
            rw [this]
            linarith
          have h5 : (2 : ℝ) ^ (1 - (b : ℤ)) = ((2 : ℝ) ^ (b - 1))⁻¹ := by
            rw [show (1 - (b : ℤ)) = -((b - 1 : ℕ) : ℤ) by omega, zpow_neg, zpow_natCast]
          rw [h5, div_le_iff₀ hpR, mul_assoc, ← div_eq_inv_mul, le_div_iff₀ (by positivity)]
          linarith
        have := f2 b hb40 hlow (x2.trans ?_)
        · rw [this]; omega
        · have h6 : (1 - (2 : ℝ) ^ (-40 : ℤ)) * (1 + (2 : ℝ) ^ (-53 : ℤ)) ≤
              1 - (2 : ℝ) ^ (-41 : ℤ) := by norm_num
          calc (d / p : ℝ) * (1 + (2 : ℝ) ^ (-53 : ℤ))
              ≤ (2 : ℝ) ^ (1 - (b : ℤ)) * (1 - (2 : ℝ) ^ (-40 : ℤ)) * (1 + (2 : ℝ) ^ (-53 : ℤ)) := by
                gcongr
            _ = (2 : ℝ) ^ (1 - (b : ℤ)) *
                ((1 - (2 : ℝ) ^ (-40 : ℤ)) * (1 + (2 : ℝ) ^ (-53 : ℤ))) := by ring
            _ ≤ _ := by gcongr
    rw [hbits]
    obtain ⟨m, hm, _, hc⟩ := (mask_generate sample hs b).2 (by omega)
    refine ⟨m, b, hm, by exact_mod_cast hb, ?_, by omega⟩
    intro j hj
    exact_mod_cast hmin j hj

/-- The exact logarithm is accurate. -/
theorem accurate_exact : AccurateLog2 fun x => ⌊Real.logb 2 (binValue x)⌋ := by
  refine ⟨Real.logb 2, fun _ => rfl, fun e => ?_, fun x y h1 h2 => ?_, fun x _ _ => ?_⟩
  · rw [← Real.rpow_intCast, Real.logb_rpow (by norm_num) (by norm_num)]
  · exact Real.logb_le_logb_of_le (by norm_num) h1 h2
  · rw [sub_self, abs_zero]; positivity

/-- Non-vacuity: 5 of 100 workers need 5 bits (`5 * 16 < 100 ≤ 5 * 32`). -/
example : ∃ m, Mask.forTask (fun pop k => pop.take k) (fun x => ⌊Real.logb 2 (binValue x)⌋) 5 100
    = .ok m ∧ bitCount m.byteRepr = 5 := by
  obtain ⟨m, b, h, h1, h2, h3⟩ :=
    (mask_for_task_partial _ takeOk _ accurate_exact 5 100 (by decide +kernel) (by decide)).2.2
      (by decide) (by decide)
  refine ⟨m, h, ?_⟩
  have hb : b = 5 := by
    have : ¬ 5 < b := fun hlt => by have := h2 5 hlt; norm_num at this
    have : ¬ b < 5 := by
      intro hlt
      have : (2 : Int) ^ b ≤ 2 ^ 4 := pow_le_pow_right₀ (by norm_num) (by omega)
      omega
    omega
  rw [h3, hb]; rfl

/-- C51 is false for astronomic numbers, whatever the C library does: the division overflows, or
gives zero. -/
theorem mask_for_task_huge_refuted (sample : Sampler) (fl : Nat × Int → Int) :
    Mask.forTask sample fl (2 ^ 1024) 1 = .error .overflowError ∧
    Mask.forTask sample fl 1 (2 ^ 1075) = .error .valueError := by
  have h1 : trueDiv (2 ^ 1024 : Int).natAbs (1 : Int).toNat = .error .overflowError := by
    decide +kernel
  have h2 : trueDiv (1 : Int).natAbs (2 ^ 1075 : Int).toNat = .ok (0, -1074) := by decide +kernel
  constructor
  · unfold Mask.forTask
    rw [if_neg (by decide +kernel), h1]
  · unfold Mask.forTask
    rw [if_neg (by decide +kernel), h2]
    rfl

/-- C51 is false for large numbers even with a perfect library: for `2^51` desired and `2^53 + 1`
potential workers the correctly rounded logarithm of the quotient is `-2`, so the mask gets two
bits, but `2^51 * 2^2 < 2^53 + 1`. -/
theorem mask_for_task_rounding_refuted (sample : Sampler) (hs : SamplerOk sample)
    (fl : Nat × Int → Int) (hfl : RoundedLog2 fl) :
    ∃ m, Mask.forTask sample fl (2 ^ 51) (2 ^ 53 + 1) = .ok m ∧ bitCount m.byteRepr = 2 ∧
      ¬ ((2 ^ 53 + 1 : Int) ≤ 2 ^ 51 * 2 ^ 2) := by
  have hq : trueDiv (2 ^ 51 : Int).natAbs (2 ^ 53 + 1 : Int).toNat = .ok (2 ^ 53 - 1, -55) := by
    decide +kernel
  have hf : fl (2 ^ 53 - 1, -55) = -2 := by
    obtain ⟨y, hy, ⟨m, j, hm, hj, hyv⟩, hnear⟩ := hfl (2 ^ 53 - 1, -55) (by norm_num)
    have hbv : binValue (2 ^ 53 - 1, -55) =
        (2 : ℝ) ^ (-2 : ℤ) * (1 - 1 / 9007199254740992) := by
      unfold binValue
      norm_num
    have ht : (0 : ℝ) < 1 - 1 / 9007199254740992 := by norm_num
    have hlog : Real.logb 2 (binValue (2 ^ 53 - 1, -55)) =
        -2 + Real.logb 2 (1 - 1 / 9007199254740992) := by
      rw [hbv, Real.logb_mul (by positivity) ht.ne', ← Real.rpow_intCast,
        Real.logb_rpow (by norm_num) (by norm_num)]
      norm_num
    have hl2 : 0 < Real.log 2 := Real.log_pos (by norm_num)
    have hneg : Real.logb 2 (1 - 1 / 9007199254740992) < 0 :=
      Real.logb_neg (by norm_num) ht (by norm_num)
    have hlow : -(1.5 / 9007199254740992 : ℝ) ≤ Real.logb 2 (1 - 1 / 9007199254740992) := by
      rw [Real.logb, le_div_iff₀ hl2]
      have h1 := Real.one_sub_inv_le_log_of_pos ht
      have h2 := Real.log_two_gt_d9
      have h3 : (1 : ℝ) - (1 - 1 / 9007199254740992)⁻¹ = -(1 / 9007199254740991) := by norm_num
      rw [h3] at h1
      refine le_trans ?_ h1
      have h4 : (1.5 / 9007199254740992 : ℝ) * 0.6931471803 ≤
          1.5 / 9007199254740992 * Real.log 2 := by gcongr
      have h5 : (1 / 9007199254740991 : ℝ) ≤ 1.5 / 9007199254740992 * 0.6931471803 := by norm_num
      linarith
    have hn := hnear (-1) 1 (by norm_num) (by norm_num)
    rw [hlog] at hn
    generalize Real.logb 2 (1 - 1 / 9007199254740992) = l at *
    have hd : |((-1 : Int) : ℝ) * (2 : ℝ) ^ (1 : ℤ) - (-2 + l)| = -l := by
      norm_num
      exact hneg.le
    rw [hd] at hn
    obtain ⟨n1, n2⟩ := abs_le.1 hn
    have hy2 : y ≤ -2 := by linarith
    have hylo : -2 - 3 / 9007199254740992 ≤ y := by
      have : (1.5 / 9007199254740992 : ℝ) + 1.5 / 9007199254740992 = 3 / 9007199254740992 := by
        norm_num
      linarith
    -- doubles beyond -2 are multiples of 2^-51
    have hyeq : y = -2 := by
      by_contra hne
      have hlt : y < -2 := lt_of_le_of_ne hy2 hne
      have hmR : |(m : ℝ)| < 9007199254740992 := by exact_mod_cast hm
      have hpj : (0 : ℝ) < (2 : ℝ) ^ j := by positivity
      have hj51 : -51 ≤ j := by
        by_contra hjn
        have h1 : (2 : ℝ) ^ j ≤ (2 : ℝ) ^ (-52 : ℤ) := zpow_le_zpow_right₀ (by norm_num) (by omega)
        have h2 : |y| ≤ 9007199254740992 * (2 : ℝ) ^ (-52 : ℤ) := by
          rw [hyv, abs_mul, abs_of_pos hpj]
          exact mul_le_mul hmR.le h1 hpj.le (by norm_num)
        have h3 : (9007199254740992 : ℝ) * (2 : ℝ) ^ (-52 : ℤ) = 2 := by norm_num
        rw [h3] at h2
        have := (abs_le.1 h2).1
        linarith
      have hint : y * 2251799813685248 = ((m * 2 ^ (j + 51).toNat : Int) : ℝ) := by
        rw [hyv]
        push_cast
        rw [← zpow_natCast (2 : ℝ) (j + 51).toNat, Int.toNat_of_nonneg (by omega),
          zpow_add₀ (by norm_num : (2 : ℝ) ≠ 0)]
        norm_num
        ring
      have h1 : ((m * 2 ^ (j + 51).toNat : Int) : ℝ) < ((-4503599627370496 : Int) : ℝ) := by
        rw [← hint]; push_cast; linarith
      have h2 : m * 2 ^ (j + 51).toNat ≤ -4503599627370497 := by
        have := Int.cast_lt.1 h1
        omega
      have h3 : ((m * 2 ^ (j + 51).toNat : Int) : ℝ) ≤ ((-4503599627370497 : Int) : ℝ) :=
        Int.cast_le.2 h2
      rw [← hint] at h3
      push_cast at h3
      linarith
    rw [hy, hyeq]
    norm_num
  obtain ⟨m, hm, _, hc⟩ := (mask_generate sample hs 2).2 (by decide)
  refine ⟨m, ?_, by have : min (2 : Int) 256 = 2 := rfl
                    omega, by norm_num⟩
  unfold Mask.forTask
  rw [if_neg (by norm_num), hq]
  dsimp only
  rw [if_neg (by norm_num), hf]
  exact hm

/-- Non-vacuity: there is a nearest double to every real, so there is a correctly rounded
logarithm. -/
theorem rounded_exists : ∃ fl, RoundedLog2 fl := by
  suffices h : ∀ L : ℝ, ∃ y : ℝ,
      (∃ (m : Int) (j : Int), |m| < 2 ^ 53 ∧ -1074 ≤ j ∧ y = m * (2 : ℝ) ^ j) ∧
      ∀ (m : Int) (j : Int), |m| < 2 ^ 53 → -1074 ≤ j → |y - L| ≤ |m * (2 : ℝ) ^ j - L| by
    choose y hy using h
    exact ⟨fun x => ⌊y (Real.logb 2 (binValue x))⌋, fun x _ => ⟨_, rfl, hy _⟩⟩
  intro L
  obtain ⟨ε, hε⟩ : ∃ ε : ℝ, ε = (2 : ℝ) ^ (-1074 : ℤ) := ⟨_, rfl⟩
  have hεp : 0 < ε := by rw [hε]; exact zpow_pos two_pos _
  have hmul : ∀ (m j : Int), -1074 ≤ j → ∃ n : ℤ, (m : ℝ) * (2 : ℝ) ^ j = n * ε := by
    intro m j hj
    refine ⟨m * 2 ^ (j + 1074).toNat, ?_⟩
    push_cast
    rw [hε, mul_assoc, ← zpow_natCast (2 : ℝ) (j + 1074).toNat, Int.toNat_of_nonneg (by omega),
      ← zpow_add₀ two_ne_zero]
    congr 2
    omega
  let S : Set ℤ := {n | (∃ (m : Int) (j : Int), |m| < 2 ^ 53 ∧ -1074 ≤ j ∧
    (n : ℝ) * ε = m * (2 : ℝ) ^ j) ∧ |(n : ℝ) * ε - L| ≤ |L|}
  have hfin : S.Finite := by
    refine (Set.finite_Icc (⌊(L - |L|) / ε⌋) (⌈(L + |L|) / ε⌉)).subset ?_
    rintro n ⟨_, hn⟩
    obtain ⟨h1, h2⟩ := abs_le.1 hn
    constructor
    · apply Int.floor_le_iff.2
      have : (L - |L|) / ε ≤ n := by rw [div_le_iff₀ hεp]; linarith
      linarith
    · apply Int.le_ceil_iff.2
      have : (n : ℝ) ≤ (L + |L|) / ε := by rw [le_div_iff₀ hεp]; linarith
      linarith
  have h0 : (0 : ℤ) ∈ S := ⟨⟨0, 0, by norm_num, by norm_num, by simp⟩, by simp⟩
  obtain ⟨n, ⟨⟨m, j, hm, hj, hv⟩, hn⟩, hmin⟩ :=
    Set.exists_min_image S (fun n => |(n : ℝ) * ε - L|) hfin ⟨0, h0⟩
  refine ⟨n * ε, ⟨m, j, hm, hj, hv⟩, fun m' j' hm' hj' => ?_⟩
  obtain ⟨n', hn'⟩ := hmul m' j' hj'
  by_cases hc : |(n' : ℝ) * ε - L| ≤ |L|
  · rw [hn']
    exact hmin n' ⟨⟨m', j', hm', hj', hn'.symm⟩, hc⟩
  · rw [hn']
    exact hn.trans (not_le.1 hc).le

end Verif.Props
