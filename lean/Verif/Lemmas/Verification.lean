import Verif.Model.Helpers
import Verif.Lemmas.Float
import Verif.Lemmas.TrueDiv
import Verif.Spec.Verification
/-! # Lemmas: moments -/

namespace Verif

open Spec

theorem roundHalfEven_near (x : Int) {u : Int} (hu : 0 < u) :
    2 * (roundHalfEven x u * u - x) ≤ u ∧ 2 * (x - roundHalfEven x u * u) ≤ u := by
  have h1 : u * (x / u) + x % u = x := Int.mul_ediv_add_emod x u
  have h2 : x % u < u := Int.emod_lt_of_pos _ hu
  have h3 : 0 ≤ x % u := Int.emod_nonneg _ (by omega)
  unfold roundHalfEven
  dsimp only
  generalize x % u = r at *
  rw [Int.mul_comm] at h1
  split
  · rw [Int.add_mul, Int.one_mul]
    generalize x / u * u = y at *
    omega
  · generalize x / u * u = y at *
    omega

theorem roundHalfEven_mul (k : Int) {u : Int} (hu : 0 < u) : roundHalfEven (k * u) u = k := by
  unfold roundHalfEven
  dsimp only
  rw [Int.mul_emod_left, Int.mul_ediv_cancel _ (by omega), if_neg (by omega)]

theorem roundHalfEven_half (us : Int) : Half us (roundHalfEven us 2) := by
  unfold roundHalfEven Half
  dsimp only
  split <;> omega

theorem roundFloat_error (x : Int) :
    2 ^ 53 * (roundFloat x - x) ≤ x.natAbs ∧ 2 ^ 53 * (x - roundFloat x) ≤ x.natAbs := by
  obtain ⟨h1, h2⟩ := round53_error x.natAbs
  unfold roundFloat
  split
  · generalize round53 x.natAbs = r at *
    omega
  · generalize round53 x.natAbs = r at *
    omega

/-- The fraction of a second of a float, in microseconds. -/
theorem micro_frac {frac one : Int} (hone : one = floatOne) (h1 : -one < frac) (h2 : frac < one) :
    Microseconds frac (roundHalfEven (roundFloat (frac * 1000000)) one) := by
  have hpos : 0 < one := by rw [hone]; exact floatOne_pos
  have e : (2 ^ 1074 : Int) = one := hone.symm
  unfold Microseconds
  rw [e]
  obtain ⟨a1, a2⟩ := roundFloat_error (frac * 1000000)
  obtain ⟨b1, b2⟩ := roundHalfEven_near (roundFloat (frac * 1000000)) hpos
  refine ⟨?_, ?_, ?_⟩
  · generalize roundHalfEven (roundFloat (frac * 1000000)) one * one = y at *
    generalize roundFloat (frac * 1000000) = z at *
    omega
  · generalize roundHalfEven (roundFloat (frac * 1000000)) one * one = y at *
    generalize roundFloat (frac * 1000000) = z at *
    omega
  · intro k hk
    have hrep : Rep53 (k * floatOne) := by
      apply rep53_int
      have h3 : k * one < 1000000 * one := by rw [← hk]; omega
      have h4 : -1000000 * one < k * one := by rw [← hk]; omega
      have h5 := Int.lt_of_mul_lt_mul_right h3 (by omega)
      have h6 := Int.lt_of_mul_lt_mul_right h4 (by omega)
      omega
    rw [hk, hone, roundFloat_rep hrep, roundHalfEven_mul _ floatOne_pos]

theorem micro_add {frac us one : Int} (w : Int) (hone : one = 2 ^ 1074) (h : Microseconds frac us) :
    Microseconds (w * one + frac) (w * 1000000 + us) := by
  unfold Microseconds at *
  rw [← hone] at *
  have e1 : (w * 1000000 + us) * one = w * one * 1000000 + us * one := by
    rw [Int.add_mul, Int.mul_right_comm]
  rw [Int.add_mul (w * one), e1]
  obtain ⟨h1, h2, h3⟩ := h
  refine ⟨?_, ?_, ?_⟩
  · generalize w * one * 1000000 = y at *
    omega
  · generalize w * one * 1000000 = y at *
    omega
  · intro k hk
    have := h3 (k - w * 1000000) (by
      rw [Int.sub_mul, Int.mul_right_comm w 1000000 one, ← hk]
      generalize w * one * 1000000 = y
      omega)
    omega

theorem micro_int (i : Int) : Microseconds (i * 2 ^ 1074) (i * 1000000) := by
  have h0 : Microseconds 0 0 := by
    unfold Microseconds
    have hp : (0 : Int) < 2 ^ 1074 := floatOne_pos
    refine ⟨by omega, by omega, fun k hk => ?_⟩
    rcases Int.mul_eq_zero.1 hk.symm with h | h
    · omega
    · exact absurd h (Int.ne_of_gt hp)
  simpa using micro_add i rfl h0

theorem utcChecked_ok {x us : Int} (hc : InCalendar x) (h : Microseconds x us) : utcChecked us = .ok us := by
  obtain ⟨c1, c2⟩ := hc
  obtain ⟨h1, h2, _⟩ := h
  have hp : (0 : Int) < 2 ^ 1074 := floatOne_pos
  generalize (2 ^ 1074 : Int) = one at *
  have u1 : us * one < (253402300799000000 + 1) * one := by
    rw [Int.add_mul]; omega
  have u2 : (-62135596800000000 - 1) * one < us * one := by
    rw [Int.sub_mul]; omega
  have u3 := Int.lt_of_mul_lt_mul_right u1 (by omega)
  have u4 := Int.lt_of_mul_lt_mul_right u2 (by omega)
  unfold utcChecked
  dsimp only
  rw [if_neg (by omega), if_neg (by omega), if_neg (by omega)]

theorem tdiv_frac (x : Int) {one : Int} (h : 0 < one) :
    -one < x - x.tdiv one * one ∧ x - x.tdiv one * one < one := by
  have e : x - x.tdiv one * one = x.tmod one := by
    have := Int.tmod_add_mul_tdiv x one
    rw [Int.mul_comm] at this
    omega
  rw [e]
  constructor
  · have := Int.lt_tmod_of_pos x h
    omega
  · exact Int.tmod_lt_of_pos x h

/-- A number of seconds in the calendar is a moment, exact to the microsecond. -/
theorem utc_num {v : Val} {x : Int} (h : Num v x) (hc : InCalendar x) :
    ∃ us, utcFromTimestamp v = .ok us ∧ Microseconds x us := by
  cases h with
  | int i => exact ⟨_, utcChecked_ok hc (micro_int i), micro_int i⟩
  | bool b =>
    have hm := micro_int (if b then 1 else 0)
    refine ⟨_, ?_, hm⟩
    unfold utcFromTimestamp
    dsimp only
    rw [show (if b = true then (1000000 : Int) else 0) = (if b then 1 else 0) * 1000000 by cases b <;> rfl]
    exact utcChecked_ok hc hm
  | float f x hd =>
    have hf := tdiv_frac x floatOne_pos
    have hm := micro_add (x.tdiv floatOne) (show floatOne = 2 ^ 1074 from rfl) (micro_frac rfl hf.1 hf.2)
    rw [show x.tdiv floatOne * floatOne + (x - x.tdiv floatOne * floatOne) = x by omega] at hm
    refine ⟨_, ?_, hm⟩
    unfold utcFromTimestamp
    dsimp only
    rw [floatClass_double hd]
    exact utcChecked_ok hc hm

theorem utc_notFinite {v : Val} {e : Exc} (h : NotFinite v e) : utcFromTimestamp v = .error e := by
  unfold utcFromTimestamp
  cases h with
  | nan f hf => dsimp only; rw [floatClass_nan hf]
  | inf f hf =>
    obtain ⟨n, hn⟩ := floatClass_inf hf
    dsimp only; rw [hn]

theorem utc_noNumber {v : Val} (h : NoNumber v) : utcFromTimestamp v = .error .typeError := by
  cases v <;> first | rfl | exact h.elim

theorem seconds_notFinite {v : Val} {e : Exc} (h : NotFinite v e) : sizeSeconds v = .error e := by
  unfold sizeSeconds
  cases h with
  | nan f hf => dsimp only; rw [floatClass_nan hf]
  | inf f hf =>
    obtain ⟨n, hn⟩ := floatClass_inf hf
    dsimp only; rw [hn]

theorem seconds_noNumber {v : Val} (h : NoNumber v) : sizeSeconds v = .error .typeError := by
  cases v <;> first | rfl | exact h.elim

/-- Numbers of seconds out of the calendar are refused. -/
theorem utc_outside {v : Val} {x : Int} (h : Num v x)
    (hc : x ≤ -62135596801 * 2 ^ 1074 ∨ 253402300800 * 2 ^ 1074 ≤ x) :
    ∃ e, utcFromTimestamp v = .error e ∧ (e = .valueError ∨ e = .overflowError ∨ e = .otherError) := by
  have key : ∀ us, Microseconds x us →
      ∃ e, utcChecked us = .error e ∧ (e = .valueError ∨ e = .overflowError ∨ e = .otherError) := by
    rintro us ⟨h1, h2, _⟩
    have hp : (0 : Int) < 2 ^ 1074 := floatOne_pos
    have hus : us < -62135596800000000 ∨ 253402300800000000 ≤ us := by
      generalize (2 ^ 1074 : Int) = one at *
      rcases hc with hc | hc
      · left
        have u1 : us * one < (-62135596801000000 + 1) * one := by
          rw [Int.add_mul]; omega
        have u3 := Int.lt_of_mul_lt_mul_right u1 (by omega)
        omega
      · right
        have u1 : (253402300800000000 - 1) * one < us * one := by
          rw [Int.sub_mul]; omega
        have u3 := Int.lt_of_mul_lt_mul_right u1 (by omega)
        omega
    unfold utcChecked
    dsimp only
    by_cases c1 : us / 1000000 < -2 ^ 63 ∨ 2 ^ 63 ≤ us / 1000000
    · rw [if_pos c1]; exact ⟨_, rfl, .inr (.inl rfl)⟩
    · rw [if_neg c1]
      by_cases c2 : us / 1000000 < -67768040609740800 ∨ 67768036191676799 < us / 1000000
      · rw [if_pos c2]; exact ⟨_, rfl, .inr (.inr rfl)⟩
      · rw [if_neg c2, if_pos (by omega)]; exact ⟨_, rfl, .inl rfl⟩
  cases h with
  | int i => exact key _ (micro_int i)
  | bool b =>
    have := key _ (micro_int (if b then 1 else 0))
    rwa [show (if b = true then (1 : Int) else 0) * 1000000 = (if b then 1000000 else 0) by cases b <;> rfl] at this
  | float f x hd =>
    have hf := tdiv_frac x floatOne_pos
    have hm := micro_add (x.tdiv floatOne) (show floatOne = 2 ^ 1074 from rfl) (micro_frac rfl hf.1 hf.2)
    rw [show x.tdiv floatOne * floatOne + (x - x.tdiv floatOne * floatOne) = x by omega] at hm
    unfold utcFromTimestamp
    dsimp only
    rw [floatClass_double hd]
    exact key _ hm

/-- The quotient of a multiple is exact. -/
theorem trueDiv_multiple (n : Nat) {b : Nat} (hb : 0 < b) (hn : n < 2 ^ 53) :
    ∃ q, trueDiv (n * b) b = .ok q ∧ ceilBin q = n ∧ floorBin q = n := by
  by_cases h0 : n = 0
  · subst h0
    obtain ⟨k, e⟩ := trueDiv_zero hb
    rw [Nat.zero_mul]
    refine ⟨_, e, ?_⟩
    unfold ceilBin floorBin
    dsimp only
    split
    · simp
    · refine ⟨?_, Nat.zero_div _⟩
      have := Nat.two_pow_pos (-k).toNat
      exact Nat.div_eq_of_lt (by omega)
  · obtain ⟨la0, la1, la2⟩ := bitLen_spec (show 0 < n * b from Nat.mul_pos (by omega) hb)
    obtain ⟨lb0, lb1, lb2⟩ := bitLen_spec hb
    unfold trueDiv
    generalize bitLen (n * b) = la at *
    generalize bitLen b = lb at *
    have hla : la ≤ 53 + lb := by
      apply Classical.byContradiction
      intro h
      have h1 : n * b < 2 ^ 53 * 2 ^ lb := Nat.mul_lt_mul'' hn lb2
      rw [← Nat.pow_add] at h1
      have h2 : 2 ^ (53 + lb) ≤ 2 ^ (la - 1) := Nat.pow_le_pow_right (by decide) (by omega)
      omega
    obtain ⟨t, ht⟩ : ∃ t : Nat, max ((la : Int) - lb - 53) (-1074) = -(t : Int) :=
      ⟨(-max ((la : Int) - lb - 53) (-1074)).toNat, by omega⟩
    simp only [ht]
    simp only [if_pos (show -(t : Int) ≤ 0 by omega), show (- -(t : Int)).toNat = t by omega]
    have e1 : n * b * 2 ^ t / b = n * 2 ^ t := by
      rw [Nat.mul_right_comm]; exact Nat.mul_div_cancel _ hb
    have e2 : n * b * 2 ^ t % b = 0 := by
      rw [Nat.mul_right_comm]; exact Nat.mul_mod_left _ _
    rw [e1, e2]
    have exact0 : ∀ T : Nat, ceilBin (n * 2 ^ T, -(T : Int)) = n ∧ floorBin (n * 2 ^ T, -(T : Int)) = n := by
      intro T
      unfold ceilBin floorBin
      dsimp only
      rw [show (- -(T : Int)).toNat = T by omega]
      have hp := Nat.two_pow_pos T
      by_cases hT : T = 0
      · subst hT; simp
      · rw [if_neg (by omega), if_neg (by omega), Nat.mul_div_cancel _ hp, Nat.add_sub_assoc (by omega),
          Nat.add_comm, Nat.add_mul_div_right _ _ hp, Nat.div_eq_of_lt (by omega)]
        omega
    by_cases hq : n * 2 ^ t < 2 ^ 53
    · rw [if_pos hq]
      have hup : (decide (2 * 0 > b) || (2 * 0 == b && n * 2 ^ t % 2 == 1)) = false := by
        have : ¬ (0 = b) := by omega
        simp [this]
      rw [hup]
      simp only [Bool.false_eq_true, if_false]
      rw [if_neg]
      · exact ⟨_, rfl, exact0 t⟩
      · rintro ⟨hz, hbig⟩
        have : t = 0 := by omega
        subst this
        simp only [Nat.pow_zero, Nat.mul_one] at hbig
        have : (2 : Nat) ^ 53 ≤ 2 ^ 1024 := Nat.pow_le_pow_right (by decide) (by decide)
        have h5 : n * 2 ^ (-((0 : Nat) : Int)).toNat = n := by simp
        rw [h5] at hbig
        omega
    · rw [if_neg hq]
      obtain ⟨T, rfl⟩ : ∃ T, t = T + 1 := ⟨t - 1, by
        have : t ≠ 0 := by
          rintro rfl
          exact hq (by simpa using hn)
        omega⟩
      have e3 : n * 2 ^ (T + 1) = n * 2 ^ T * 2 := by rw [Nat.pow_succ, Nat.mul_assoc]
      have e4 : n * 2 ^ (T + 1) / 2 = n * 2 ^ T := by rw [e3]; omega
      have e5 : n * 2 ^ (T + 1) % 2 = 0 := by rw [e3]; omega
      rw [e4, e5]
      have hs : -((T + 1 : Nat) : Int) + 1 = -(T : Int) := by omega
      rw [hs]
      simp only [show ((0 : Nat) == 1) = false from rfl, Bool.false_and, Bool.false_eq_true, if_false]
      rw [if_neg]
      · exact ⟨_, rfl, exact0 T⟩
      · rintro ⟨hz, hbig⟩
        have : T = 0 := by omega
        subst this
        have h5 : n * 2 ^ 0 * 2 ^ (-((0 : Nat) : Int)).toNat = n := by simp
        rw [h5] at hbig
        have : (2 : Nat) ^ 53 ≤ 2 ^ 1024 := Nat.pow_le_pow_right (by decide) (by decide)
        omega

theorem mkDelta_span (us : Int) : (Span us → mkDelta us = .ok us) ∧ (¬ Span us → mkDelta us = .error .overflowError) := by
  unfold mkDelta Span
  constructor
  · intro h; rw [if_pos (by omega)]
  · intro h; rw [if_neg (by omega)]

end Verif
