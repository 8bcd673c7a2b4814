import Mathlib.Tactic.Linarith
import Mathlib.Tactic.Positivity
import Mathlib.Tactic.FieldSimp
import Mathlib.Tactic.NormNum
import Mathlib.Analysis.SpecialFunctions.Log.Base
import Mathlib.Analysis.SpecialFunctions.Log.Deriv
import Verif.Spec.Log2
import Verif.Lemmas.TrueDiv
/-! # Lemmas: the quotient of two ints as a double, and its logarithm -/

namespace Verif

open Spec

/-- The rounding step of `trueDiv`: `m * 2^i` with `i` zero or one is within half a unit of
`num / den`. -/
private theorem step (num den s : _) (hden : 0 < den) :
    ∃ m i : Nat, ((let q := num / den
      let r := num % den
      if q < 2 ^ 53 then
        let up := 2 * r > den || (2 * r == den && q % 2 == 1)
        ((if up then q + 1 else q : Nat), (s : Int))
      else
        let h := q / 2
        let up := q % 2 == 1 && (r > 0 || h % 2 == 1)
        ((if up then h + 1 else h), s + 1)) = (m, s + i)) ∧
      2 * (m * 2 ^ i * den) ≤ 2 * num + 2 ^ i * den ∧ 2 * num ≤ 2 * (m * 2 ^ i * den) + 2 ^ i * den ∧
      ((i = 0 ∧ num < 2 ^ 53 * den ∧ num / den ≤ m) ∨
        (i = 1 ∧ 2 ^ 53 * den ≤ num ∧ 2 ^ 53 ≤ 2 * m)) := by
  have hr := Nat.mod_lt num hden
  have hd := Nat.div_add_mod num den
  dsimp only
  generalize hq : num / den = q at *
  generalize num % den = r at *
  have hd' : q * den + r = num := by rw [Nat.mul_comm]; exact hd
  by_cases hc : q < 2 ^ 53
  · rw [if_pos hc]
    have h1 : num < 2 ^ 53 * den := by
      rw [← hq] at hc; exact (Nat.div_lt_iff_lt_mul hden).1 hc
    by_cases hu : (decide (2 * r > den) || (2 * r == den && q % 2 == 1)) = true
    · rw [if_pos hu]
      refine ⟨_, 0, by simp; rfl, ?_⟩
      simp only [Bool.or_eq_true, Bool.and_eq_true, decide_eq_true_eq, beq_iff_eq] at hu
      rw [Nat.pow_zero, Nat.mul_one, Nat.add_mul, Nat.one_mul]
      refine ⟨by omega, by omega, .inl ⟨rfl, h1, by omega⟩⟩
    · rw [if_neg hu]
      refine ⟨_, 0, by simp; rfl, ?_⟩
      simp only [Bool.or_eq_true, Bool.and_eq_true, decide_eq_true_eq, beq_iff_eq, not_or] at hu
      rw [Nat.pow_zero, Nat.mul_one, Nat.one_mul]
      refine ⟨by omega, by omega, .inl ⟨rfl, h1, by omega⟩⟩
  · rw [if_neg hc]
    have h1 : 2 ^ 53 * den ≤ num := by
      rw [← hq] at hc; exact (Nat.le_div_iff_mul_le hden).1 (by omega)
    have hpar : q = 2 * (q / 2) + q % 2 := by omega
    have hmod : q % 2 < 2 := by omega
    have hqd : q * den = 2 * (q / 2 * den) + q % 2 * den := by
      conv => lhs; rw [hpar]
      rw [Nat.add_mul, Nat.mul_assoc]
    generalize hh : q / 2 = h at *
    by_cases hu : (q % 2 == 1 && (decide (r > 0) || h % 2 == 1)) = true
    · rw [if_pos hu]
      refine ⟨_, 1, by simp; rfl, ?_⟩
      simp only [Bool.or_eq_true, Bool.and_eq_true, decide_eq_true_eq, beq_iff_eq] at hu
      rw [hu.1, Nat.one_mul] at hqd
      rw [Nat.pow_one, Nat.add_mul, Nat.one_mul, Nat.add_mul, Nat.mul_right_comm]
      refine ⟨by omega, by omega, .inr ⟨rfl, h1, by omega⟩⟩
    · rw [if_neg hu]
      refine ⟨_, 1, by simp; rfl, ?_⟩
      simp only [Bool.or_eq_true, Bool.and_eq_true, decide_eq_true_eq, beq_iff_eq, not_and,
        not_or] at hu
      rw [Nat.pow_one, Nat.mul_right_comm]
      refine ⟨by omega, ?_, .inr ⟨rfl, h1, by omega⟩⟩
      rcases (by omega : q % 2 = 0 ∨ q % 2 = 1) with e | e
      · rw [e, Nat.zero_mul] at hqd; omega
      · have := hu e
        rw [e, Nat.one_mul] at hqd; omega

/-- The quotient as a double: correct up to `2^-53` of its value, above and below, and not below a power of two
that the exact quotient reaches. -/
theorem trueDiv_value {a b : Nat} (ha : 0 < a) (hb : 0 < b)
    (hlow : -1021 ≤ (bitLen a : Int) - bitLen b) :
    ∃ x : Nat × Int, 0 < x.1 ∧ binValue x ≤ (a / b : ℝ) * (1 + 2 ^ (-53 : ℤ)) ∧
      (a / b : ℝ) * (1 - 2 ^ (-53 : ℤ)) ≤ binValue x ∧
      (∀ e : ℤ, (2 : ℝ) ^ e ≤ a / b → (2 : ℝ) ^ e ≤ binValue x) ∧
      ((trueDiv a b = .error .overflowError ∧ (2 : ℝ) ^ (1024 : ℤ) ≤ binValue x) ∨
        (trueDiv a b = .ok x ∧ binValue x < (2 : ℝ) ^ (1024 : ℤ))) := by
  obtain ⟨la0, la1, la2⟩ := bitLen_spec ha
  obtain ⟨lb0, lb1, lb2⟩ := bitLen_spec hb
  unfold trueDiv
  generalize bitLen a = la at *
  generalize bitLen b = lb at *
  rw [show max ((la : Int) - lb - 53) (-1074) = (la : Int) - lb - 53 by omega]
  obtain ⟨s, hs⟩ : ∃ s : Int, (la : Int) - lb - 53 = s := ⟨_, rfl⟩
  simp only [hs]
  have h2 : (2 : ℝ) ≠ 0 := two_ne_zero
  have hbR : (0 : ℝ) < b := by exact_mod_cast hb
  have haR : (0 : ℝ) < a := by exact_mod_cast ha
  -- the scaled quotient
  obtain ⟨num, hnum⟩ : ∃ n, (if s ≤ 0 then a * 2 ^ (-s).toNat else a) = n := ⟨_, rfl⟩
  obtain ⟨den, hden⟩ : ∃ n, (if s ≤ 0 then b else b * 2 ^ s.toNat) = n := ⟨_, rfl⟩
  simp only [hnum, hden]
  have hdpos : 0 < den := by
    rw [← hden]; split
    · exact hb
    · exact Nat.mul_pos hb (Nat.two_pow_pos _)
  have hdR : (0 : ℝ) < den := by exact_mod_cast hdpos
  have hu : (num : ℝ) / den = a / b * (2 : ℝ) ^ (-s) := by
    rw [← hnum, ← hden]
    by_cases h0 : s ≤ 0
    · rw [if_pos h0, if_pos h0]
      push_cast
      rw [← zpow_natCast (2 : ℝ) (-s).toNat, Int.toNat_of_nonneg (by omega)]
      ring
    · rw [if_neg h0, if_neg h0]
      push_cast
      rw [← zpow_natCast (2 : ℝ) s.toNat, Int.toNat_of_nonneg (by omega), zpow_neg]
      field_simp
  have hA1 : (2 : ℝ) ^ ((la : ℤ) - 1) ≤ a := by
    have : ((la : ℤ) - 1) = ((la - 1 : ℕ) : ℤ) := by omega
    rw [this, zpow_natCast]; exact_mod_cast la1
  have hA2 : (a : ℝ) < (2 : ℝ) ^ (la : ℤ) := by rw [zpow_natCast]; exact_mod_cast la2
  have hB1 : (2 : ℝ) ^ ((lb : ℤ) - 1) ≤ b := by
    have : ((lb : ℤ) - 1) = ((lb - 1 : ℕ) : ℤ) := by omega
    rw [this, zpow_natCast]; exact_mod_cast lb1
  have hB2 : (b : ℝ) < (2 : ℝ) ^ (lb : ℤ) := by rw [zpow_natCast]; exact_mod_cast lb2
  have hsp : (0 : ℝ) < (2 : ℝ) ^ (-s) := by positivity
  have hsp' : (0 : ℝ) < (2 : ℝ) ^ s := by positivity
  have ulo : (2 : ℝ) ^ (52 : ℤ) ≤ (num : ℝ) / den := by
    rw [hu, div_mul_eq_mul_div, le_div_iff₀ hbR]
    calc (2 : ℝ) ^ (52 : ℤ) * b ≤ (2 : ℝ) ^ (52 : ℤ) * (2 : ℝ) ^ (lb : ℤ) := by
          gcongr
      _ = (2 : ℝ) ^ ((la : ℤ) - 1) * (2 : ℝ) ^ (-s) := by
          rw [← zpow_add₀ h2, ← zpow_add₀ h2]; congr 1; omega
      _ ≤ a * (2 : ℝ) ^ (-s) := by gcongr
  have uhi : (num : ℝ) / den < (2 : ℝ) ^ (54 : ℤ) := by
    rw [hu, div_mul_eq_mul_div, div_lt_iff₀ hbR]
    calc a * (2 : ℝ) ^ (-s) < (2 : ℝ) ^ (la : ℤ) * (2 : ℝ) ^ (-s) := by gcongr
      _ = (2 : ℝ) ^ (54 : ℤ) * (2 : ℝ) ^ ((lb : ℤ) - 1) := by
          rw [← zpow_add₀ h2, ← zpow_add₀ h2]; congr 1; omega
      _ ≤ (2 : ℝ) ^ (54 : ℤ) * b := by gcongr
  have hq : (a / b : ℝ) = (num : ℝ) / den * (2 : ℝ) ^ s := by
    rw [hu, mul_assoc, ← zpow_add₀ h2]; simp
  obtain ⟨m, i, hx, r1, r2, hcase⟩ := step num den s hdpos
  dsimp only at hx
  simp only [hx]
  have hbin : binValue (m, s + i) = m * 2 ^ i * (2 : ℝ) ^ s := by
    unfold binValue
    simp only
    rw [zpow_add₀ h2, zpow_natCast]; ring
  have r1' : (m : ℝ) * 2 ^ i ≤ (num : ℝ) / den + 2 ^ i / 2 := by
    have : 2 * ((m : ℝ) * 2 ^ i * den) ≤ 2 * num + 2 ^ i * den := by exact_mod_cast r1
    rw [← sub_le_iff_le_add, le_div_iff₀ hdR]
    linarith
  have r2' : (num : ℝ) / den ≤ m * 2 ^ i + 2 ^ i / 2 := by
    have : 2 * (num : ℝ) ≤ 2 * (m * 2 ^ i * den) + 2 ^ i * den := by exact_mod_cast r2
    rw [div_le_iff₀ hdR]
    linarith
  have hlo52 : (2 : ℝ) ^ (52 : ℤ) = 4503599627370496 := by norm_num
  have hhi54 : (2 : ℝ) ^ (54 : ℤ) = 18014398509481984 := by norm_num
  have hnl : 2 ^ 52 * den ≤ num := by
    have h3 := (le_div_iff₀ hdR).1 ulo
    rw [hlo52] at h3
    have h4 : 4503599627370496 * den ≤ num := by exact_mod_cast h3
    omega
  have hmpos : 0 < m := by
    rcases hcase with ⟨_, _, h⟩ | ⟨_, _, h⟩
    · exact Nat.lt_of_lt_of_le (Nat.lt_of_lt_of_le (Nat.two_pow_pos 52)
        ((Nat.le_div_iff_mul_le hdpos).2 hnl)) h
    · omega
  refine ⟨(m, s + i), hmpos, ?_, ?_, ?_, ?_⟩
  · rw [hbin, hq, mul_right_comm ((num : ℝ) / den)]
    refine mul_le_mul_of_nonneg_right ?_ hsp'.le
    have h53 : (2 : ℝ) ^ (-53 : ℤ) = 1 / 9007199254740992 := by norm_num
    rw [h53]
    rw [hlo52] at ulo
    rcases hcase with ⟨rfl, _, _⟩ | ⟨rfl, h, _⟩
    · norm_num at r1' ⊢
      linarith
    · have h3 : (9007199254740992 : ℝ) ≤ (num : ℝ) / den := by
        rw [le_div_iff₀ hdR]; exact_mod_cast h
      norm_num at r1' ⊢
      linarith
  · rw [hbin, hq, mul_right_comm ((num : ℝ) / den)]
    refine mul_le_mul_of_nonneg_right ?_ hsp'.le
    have h53 : (2 : ℝ) ^ (-53 : ℤ) = 1 / 9007199254740992 := by norm_num
    rw [h53]
    rw [hlo52] at ulo
    rcases hcase with ⟨rfl, _, _⟩ | ⟨rfl, h, _⟩
    · norm_num at r2' ⊢
      linarith
    · have h3 : (9007199254740992 : ℝ) ≤ (num : ℝ) / den := by
        rw [le_div_iff₀ hdR]; exact_mod_cast h
      norm_num at r2' ⊢
      linarith
  · intro e he
    rw [hbin]
    have h3 : (2 : ℝ) ^ (e - s) ≤ (num : ℝ) / den := by
      rw [hq] at he
      rw [zpow_sub₀ h2, div_le_iff₀ hsp']; exact he
    have h4 : (2 : ℝ) ^ (e - s) ≤ m * 2 ^ i := by
      rcases hcase with ⟨rfl, h, hm⟩ | ⟨rfl, h, hm⟩
      · have h5 : (num : ℝ) / den < (2 : ℝ) ^ (53 : ℤ) := by
          rw [div_lt_iff₀ hdR]
          have : (2 : ℝ) ^ (53 : ℤ) = 9007199254740992 := by norm_num
          rw [this]; exact_mod_cast h
        have h6 : e - s < 53 := (zpow_lt_zpow_iff_right₀ (by norm_num)).1 (lt_of_le_of_lt h3 h5)
        have h7 : (2 : ℝ) ^ (e - s) ≤ (2 : ℝ) ^ (52 : ℤ) :=
          zpow_le_zpow_right₀ (by norm_num) (by omega)
        have h8 : 2 ^ 52 ≤ m := Nat.le_trans ((Nat.le_div_iff_mul_le hdpos).2 hnl) hm
        have h9 : (4503599627370496 : ℝ) ≤ m := by exact_mod_cast h8
        rw [hlo52] at h7
        norm_num
        linarith
      · have h6 : e - s < 54 := (zpow_lt_zpow_iff_right₀ (by norm_num)).1 (lt_of_le_of_lt h3 uhi)
        have h7 : (2 : ℝ) ^ (e - s) ≤ (2 : ℝ) ^ (53 : ℤ) :=
          zpow_le_zpow_right₀ (by norm_num) (by omega)
        have h9 : (9007199254740992 : ℝ) ≤ 2 * m := by exact_mod_cast hm
        have : (2 : ℝ) ^ (53 : ℤ) = 9007199254740992 := by norm_num
        rw [this] at h7
        norm_num
        linarith
    calc (2 : ℝ) ^ e = (2 : ℝ) ^ (e - s) * (2 : ℝ) ^ s := by rw [← zpow_add₀ h2]; simp
      _ ≤ _ := by gcongr
  · have hiff : (0 ≤ s + (i : Int) ∧ 2 ^ 1024 ≤ m * 2 ^ (s + (i : Int)).toNat) ↔
        (2 : ℝ) ^ (1024 : ℤ) ≤ binValue (m, s + i) := by
      have hml : (m : ℝ) < 2 ^ (60 : ℤ) := by
        have h60 : (2 : ℝ) ^ (60 : ℤ) = 1152921504606846976 := by norm_num
        rw [h60]
        rw [hhi54] at uhi
        rcases hcase with ⟨rfl, _, _⟩ | ⟨rfl, _, _⟩ <;> norm_num at r1' <;> linarith
      constructor
      · rintro ⟨h0, h⟩
        unfold binValue
        simp only
        rw [← Int.toNat_of_nonneg h0, zpow_natCast]
        exact_mod_cast h
      · intro h
        have h0 : 0 ≤ s + (i : Int) := by
          by_contra hn
          have h3 : binValue (m, s + i) ≤ m * 1 := by
            unfold binValue
            simp only
            gcongr
            exact zpow_le_one_of_nonpos₀ (by norm_num) (by omega)
          have h4 : (2 : ℝ) ^ (60 : ℤ) ≤ (2 : ℝ) ^ (1024 : ℤ) :=
            zpow_le_zpow_right₀ (by norm_num) (by norm_num)
          exact absurd (h4.trans (h.trans (h3.trans_eq (mul_one _)))) (not_le.2 hml)
        refine ⟨h0, ?_⟩
        unfold binValue at h
        simp only at h
        rw [← Int.toNat_of_nonneg h0, zpow_natCast] at h
        exact_mod_cast h
    by_cases ho : (2 : ℝ) ^ (1024 : ℤ) ≤ binValue (m, s + i)
    · left; rw [if_pos (hiff.2 ho)]; exact ⟨rfl, ho⟩
    · right; rw [if_neg (fun h => ho (hiff.1 h))]; exact ⟨rfl, not_le.1 ho⟩

/-- Logarithms of numbers away from the next power of two. -/
theorem accurate_floor {fl : Nat × Int → Int} (h : AccurateLog2 fl) {x : Nat × Int} :
    (1 ≤ binValue x → 0 ≤ fl x) ∧
    ∀ b : Nat, b ≤ 1000 → (2 : ℝ) ^ (-(b : ℤ)) ≤ binValue x →
      binValue x ≤ (2 : ℝ) ^ (1 - (b : ℤ)) * (1 - (2 : ℝ) ^ (-41 : ℤ)) → fl x = -(b : Int) := by
  obtain ⟨log2, hfl, hpow, hmono, hacc⟩ := h
  constructor
  · intro h1
    rw [hfl]
    have h0 : log2 1 = 0 := by have := hpow 0; simpa using this
    have := hmono 1 (binValue x) one_pos h1
    rw [h0] at this
    exact Int.floor_nonneg.2 this
  · intro b hb h1 h2
    rw [hfl, Int.floor_eq_iff]
    have hp : (0 : ℝ) < (2 : ℝ) ^ (-(b : ℤ)) := by positivity
    constructor
    · have := hmono _ _ hp h1
      rw [hpow] at this
      exact_mod_cast this
    · have h41 : (0 : ℝ) < 1 - (2 : ℝ) ^ (-41 : ℤ) := by norm_num
      have hx : 0 < binValue x := lt_of_lt_of_le hp h1
      have hL : Real.logb 2 (binValue x) ≤ (1 - (b : ℤ) : ℤ) - (2 : ℝ) ^ (-41 : ℤ) := by
        calc Real.logb 2 (binValue x)
            ≤ Real.logb 2 ((2 : ℝ) ^ (1 - (b : ℤ)) * (1 - (2 : ℝ) ^ (-41 : ℤ))) :=
              Real.logb_le_logb_of_le (by norm_num) hx h2
          _ = (1 - (b : ℤ) : ℤ) + Real.logb 2 (1 - (2 : ℝ) ^ (-41 : ℤ)) := by
              rw [Real.logb_mul (by positivity) h41.ne']
              congr 1
              rw [← Real.rpow_intCast, Real.logb_rpow (by norm_num) (by norm_num)]
          _ ≤ _ := by
              have h3 : Real.log (1 - (2 : ℝ) ^ (-41 : ℤ)) ≤ -(2 : ℝ) ^ (-41 : ℤ) := by
                have := Real.log_le_sub_one_of_pos h41
                linarith
              have h4 : Real.log 2 ≤ 1 := by
                have := Real.log_le_sub_one_of_pos (show (0 : ℝ) < 2 by norm_num)
                linarith
              have h5 : 0 < Real.log 2 := Real.log_pos (by norm_num)
              have h6 : Real.logb 2 (1 - (2 : ℝ) ^ (-41 : ℤ)) ≤ -(2 : ℝ) ^ (-41 : ℤ) := by
                rw [Real.logb, div_le_iff₀ h5]
                have h7 : (0 : ℝ) < (2 : ℝ) ^ (-41 : ℤ) := by positivity
                nlinarith
              linarith
      have hlo : (2 : ℝ) ^ (-1074 : ℤ) ≤ binValue x :=
        le_trans (zpow_le_zpow_right₀ (by norm_num) (by omega)) h1
      have hhi : binValue x < (2 : ℝ) ^ (1024 : ℤ) := by
        refine lt_of_le_of_lt h2 (lt_of_lt_of_le (b := (2 : ℝ) ^ (1 - (b : ℤ)) * 1) ?_ ?_)
        · gcongr
          have : (0 : ℝ) < (2 : ℝ) ^ (-41 : ℤ) := by positivity
          linarith
        · rw [mul_one]
          exact zpow_le_zpow_right₀ (by norm_num) (by omega)
      have ha := (abs_le.1 (hacc _ hlo hhi)).2
      have hgap : (2 : ℝ) ^ (-42 : ℤ) < (2 : ℝ) ^ (-41 : ℤ) :=
        zpow_lt_zpow_right₀ (by norm_num) (by norm_num)
      push_cast at hL ⊢
      linarith

end Verif
