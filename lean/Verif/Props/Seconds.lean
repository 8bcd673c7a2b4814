import Verif.Lemmas.Seconds
import Verif.Spec.Seconds
import Verif.Props.Verification
/-!
# C52, C106: download times of all sizes, to the accuracy of doubles
-/

namespace Verif.Props

open Verif Spec

private theorem near_self (x : ℝ) : |x - x| ≤ max (|x| / 2 ^ 53) (1 / 2 ^ 1075) := by
  rw [sub_self, abs_zero]
  exact le_max_of_le_left <| div_nonneg (abs_nonneg x) (pow_nonneg (by norm_num) 53)

private theorem near_zero : CeilNear 0 0 := ⟨0, near_self 0, Int.ceil_zero.symm⟩

/-- C52: for every size and rate, also where the division of doubles is not exact, the time is one minute and
the seconds the download takes, give or take `2^-53` of them (or `2^-1075`) before rounding up; or an
`OverflowError` if a `timedelta` cannot be that long. -/
theorem download_time_near (size rate : Nat) (hr : 0 < rate) :
    ∃ n : Nat, CeilNear (size / (rate * 1024)) n ∧
      (Span ((60 + n) * 1000000) → maximumDownloadTime size rate = .ok (60 + n)) ∧
      (¬ Span ((60 + n) * 1000000) → maximumDownloadTime size rate = .error .overflowError) := by
  have hb : rate <<< 10 = rate * 1024 := by rw [Nat.shiftLeft_eq]
  unfold maximumDownloadTime
  rw [if_neg (by omega), hb]
  by_cases h0 : size = 0
  · subst h0
    obtain ⟨k, e⟩ := trueDiv_zero (show 0 < rate * 1024 by omega)
    have hz : ceilBin (0, k) = 0 := by
      unfold ceilBin
      dsimp only
      split
      · omega
      · exact Nat.div_eq_of_lt (by have := Nat.two_pow_pos (-k).toNat; omega)
    refine ⟨0, by simpa using near_zero, ?_, ?_⟩
    · intro _
      rw [e]
      dsimp only
      rw [hz]
      rfl
    · intro h
      exact absurd (by unfold Span; omega) h
  have hpos : (0 : ℝ) ≤ (size : ℝ) / (rate * 1024) := by positivity
  have hcast : ((rate * 1024 : Nat) : ℝ) = (rate : ℝ) * 1024 := by push_cast; rfl
  rcases trueDiv_near (show 0 < size by omega) (show 0 < rate * 1024 by omega) with
    ⟨q, v, e, hv, hc, _⟩ | ⟨e, big⟩
  · rw [hcast] at hv
    refine ⟨ceilBin q, ⟨v, by rwa [abs_of_nonneg hpos], hc⟩, ?_, ?_⟩
    · intro h
      rw [e]
      dsimp only
      unfold maxDelta
      unfold Span at h
      rw [if_neg (by omega)]
    · intro h
      rw [e]
      dsimp only
      unfold maxDelta
      unfold Span at h
      rw [if_pos (by omega)]
  · rw [hcast] at big
    refine ⟨⌈(size : ℝ) / (rate * 1024)⌉₊, ⟨_, near_self _, ?_⟩, ?_, ?_⟩
    · exact (Int.natCast_ceil_eq_ceil hpos)
    · intro h
      exfalso
      have h1 : (2 : ℝ) ^ 1023 ≤ ⌈(size : ℝ) / (rate * 1024)⌉₊ := le_trans big (Nat.le_ceil _)
      have h2 : 2 ^ 1023 ≤ ⌈(size : ℝ) / (rate * 1024)⌉₊ := by exact_mod_cast h1
      have h3 : (2 : Nat) ^ 64 ≤ 2 ^ 1023 := Nat.pow_le_pow_right (by decide) (by decide)
      unfold Span at h
      omega
    · intro _
      rw [e]

/-- One byte more than `2^53`, whose last byte is lost: the seconds are a power of two, not one more. -/
example : maximumDownloadTime (2 ^ 53 + 1) 1 = .ok (60 + 2 ^ 43) ∧ Span ((60 + 2 ^ 43) * 1000000) := by
  unfold Span
  decide +kernel

private theorem quotient_near (n : Int) (unit : Nat) (hu : 0 < unit) :
    (∃ k, CeilNear (n / (unit * 49152)) k ∧ sizeSeconds.quotient n unit = .ok k) ∨
    (sizeSeconds.quotient n unit = .error .overflowError ∧ (2 : ℝ) ^ 1023 ≤ |(n : ℝ) / (unit * 49152)|) := by
  have hb : unit * (defaultUploadRate <<< 10) = unit * 49152 := rfl
  unfold sizeSeconds.quotient
  rw [hb]
  by_cases h0 : n = 0
  · subst h0
    left
    obtain ⟨k, e⟩ := trueDiv_zero (show 0 < unit * 49152 by omega)
    have hz : ceilBin (0, k) = 0 := by
      unfold ceilBin
      dsimp only
      split
      · omega
      · exact Nat.div_eq_of_lt (by have := Nat.two_pow_pos (-k).toNat; omega)
    refine ⟨0, by simpa using near_zero, ?_⟩
    rw [show (0 : Int).natAbs = 0 from rfl, e]
    dsimp only
    rw [hz]
    rfl
  have hden : (0 : ℝ) < (unit : ℝ) * 49152 := by
    have : (0 : ℝ) < unit := by exact_mod_cast hu
    linarith
  have habs : ((n.natAbs : Nat) : ℝ) / ((unit * 49152 : Nat) : ℝ) = |(n : ℝ) / (unit * 49152)| := by
    rw [abs_div, abs_of_pos hden, Nat.cast_natAbs]
    push_cast
    rfl
  rcases trueDiv_near (show 0 < n.natAbs by omega) (show 0 < unit * 49152 by omega) with
    ⟨q, v, e, hv, hc, hf⟩ | ⟨e, big⟩
  · left
    rw [habs] at hv
    rw [e]
    dsimp only
    by_cases hn : n < 0
    · rw [if_pos hn]
      have hneg : (n : ℝ) / (unit * 49152) ≤ 0 := by
        apply div_nonpos_of_nonpos_of_nonneg _ hden.le
        exact_mod_cast hn.le
      refine ⟨_, ⟨-v, ?_, ?_⟩, rfl⟩
      · rw [abs_of_nonpos hneg] at hv
        rw [abs_of_nonpos hneg, ← abs_neg]
        rwa [show -(-v - (n : ℝ) / (unit * 49152)) = v - -((n : ℝ) / (unit * 49152)) by ring]
      · rw [hf, Int.ceil_neg]
    · rw [if_neg hn]
      have hpos : 0 ≤ (n : ℝ) / (unit * 49152) := by
        apply div_nonneg _ hden.le
        exact_mod_cast (by omega : 0 ≤ n)
      refine ⟨_, ⟨v, ?_, hc⟩, rfl⟩
      rwa [abs_of_nonneg hpos] at hv ⊢
  · right
    rw [habs] at big
    rw [e]
    exact ⟨rfl, big⟩

private theorem seconds_near {size : Val} {y : Int} (hs : Num size y) :
    (∃ k, CeilNear ((y : ℝ) / 2 ^ 1074 / 49152) k ∧ sizeSeconds size = .ok k) ∨
    (sizeSeconds size = .error .overflowError ∧ (2 : ℝ) ^ 1023 ≤ |(y : ℝ) / 2 ^ 1074 / 49152|) := by
  have whole : ∀ i : Int, ((i * 2 ^ 1074 : Int) : ℝ) / 2 ^ 1074 / 49152 = (i : ℝ) / ((1 : Nat) * 49152) := by
    intro i
    push_cast
    rw [one_mul]
    congr 1
    exact mul_div_cancel_right₀ _ (pow_ne_zero _ two_ne_zero)
  cases hs with
  | int i =>
    rw [whole]
    exact quotient_near i 1 (by decide)
  | bool b =>
    rw [whole]
    exact quotient_near _ 1 (by decide)
  | float f x hf =>
    have e : (y : ℝ) / 2 ^ 1074 / 49152 = (y : ℝ) / ((2 ^ 1074 : Nat) * 49152) := by
      push_cast
      rw [div_div]
    rw [e]
    have hc := floatClass_double hf
    unfold sizeSeconds
    dsimp only
    rw [hc]
    exact quotient_near y (2 ^ 1074) (Nat.two_pow_pos _)

/-- C106: the time for verification for every size that is a number, negative ones, floats and those from
`2^53` on included: sixteen minutes, three download times and half of the time to the deadline, with the
seconds of the download correct up to `2^-53` of them (or `2^-1075`) before rounding up; or an `OverflowError` if one of the times it is the sum of is too long for a `timedelta`. -/
theorem verification_time_near (m : Msg) (size deadline : Val) (start x y : Int)
    (h : Reports m size deadline start) (hs : Num size y)
    (hstart : InCalendar (start * 2 ^ 1074)) (hx : Num deadline x) (hc : InCalendar x) :
    ∃ k, CeilNear ((y : ℝ) / 2 ^ 1074 / 49152) k ∧
      ∃ stop, Microseconds x stop ∧ ∃ half, Half (stop - start * 1000000) half ∧
      let times := [k * 1000000, (60 + k) * 1000000, 3 * (60 + k) * 1000000, (960 + 3 * (60 + k)) * 1000000,
        (960 + 3 * (60 + k)) * 1000000 + half]
      ((∀ t ∈ times, Span t) → subtaskVerificationTime m = .ok ((960 + 3 * (60 + k)) * 1000000 + half)) ∧
      (¬ (∀ t ∈ times, Span t) → subtaskVerificationTime m = .error .overflowError) := by
  rcases seconds_near hs with ⟨k, hk, e⟩ | ⟨e, big⟩
  · exact ⟨k, hk, times_of_seconds m size k deadline start x h e hstart hx hc⟩
  · have herr : subtaskVerificationTime m = .error .overflowError := by
      unfold subtaskVerificationTime downloadTime
      rw [h.size, e]
      rfl
    obtain ⟨stop, _, hm⟩ := utc_num hx hc
    refine ⟨⌈(y : ℝ) / 2 ^ 1074 / 49152⌉, ⟨_, near_self _, rfl⟩, stop, hm, _, roundHalfEven_half _, ?_⟩
    refine ⟨fun hall => ?_, fun _ => herr⟩
    exfalso
    have hsp := hall _ (List.mem_cons_self ..)
    generalize (y : ℝ) / 2 ^ 1074 / 49152 = r at *
    have h1 : r ≤ ⌈r⌉ := Int.le_ceil r
    have h2 : (⌈r⌉ : ℝ) < r + 1 := Int.ceil_lt_add_one r
    have h64 : (18446744073709551616 : ℝ) ≤ 2 ^ 1023 := by
      have : (2 : ℝ) ^ 64 ≤ 2 ^ 1023 := pow_le_pow_right₀ (by norm_num) (by decide)
      norm_num at this ⊢
      exact this
    unfold Span at hsp
    rcases le_abs'.1 (le_trans h64 big) with hr | hr
    · have h3 : ((⌈r⌉ : Int) : ℝ) < ((-18446744073709551615 : Int) : ℝ) := by
        push_cast
        linarith
      have h4 : ⌈r⌉ < -18446744073709551615 := by exact_mod_cast h3
      omega
    · have h3 : ((18446744073709551616 : Int) : ℝ) ≤ ((⌈r⌉ : Int) : ℝ) := by
        push_cast
        linarith
      have h4 : 18446744073709551616 ≤ ⌈r⌉ := by exact_mod_cast h3
      omega

private def odd (size : Val) : Msg where
  cls := .ReportComputedTask
  ty := .int 2004
  ts := .int 1500000060
  enc := .bool false
  sig := .none
  attrs := [(p!"size", size), (p!"task_to_compute", .msg .TaskToCompute (.int 2002) (.int 1500000000) (.bool false)
    .none [(p!"compute_task_def", .fdict .computeTaskDef [(p!"deadline", .int 1500000720)])])]

private theorem odd_reports (size : Val) : Reports (odd size) size (.int 1500000720) 1500000000 :=
  ⟨rfl, ⟨.TaskToCompute, .int 2002, .int 1500000000, .bool false, .none, _⟩, rfl, rfl,
    [(p!"deadline", .int 1500000720)], rfl, rfl⟩

/-- Reports of a float of one and a half seconds less than nothing and of one byte more than `2^53`, with the
times of minus one second and of `2^53` bytes over 48 KiB, rounded up. -/
example : Reports (odd (.float 0xc0f2000000000000)) (.float 0xc0f2000000000000) (.int 1500000720) 1500000000 ∧
    Num (.float 0xc0f2000000000000) (-73728 * 2 ^ 1074) ∧
    InCalendar (1500000000 * 2 ^ 1074) ∧ InCalendar (1500000720 * 2 ^ 1074) ∧
    subtaskVerificationTime (odd (.float 0xc0f2000000000000)) = .ok ((960 + 3 * (60 + -1) + 360) * 1000000) ∧
    subtaskVerificationTime (odd (.int (2 ^ 53 + 1))) = .ok ((960 + 3 * (60 + 183251937963) + 360) * 1000000) := by
  refine ⟨odd_reports _, .float _ _ ⟨1, 0x40f, 0x2000000000000, by decide +kernel⟩, ?_, ?_, ?_, ?_⟩
  · unfold InCalendar; decide +kernel
  · unfold InCalendar; decide +kernel
  · decide +kernel
  · decide +kernel

end Verif.Props
