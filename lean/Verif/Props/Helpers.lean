import Verif.Model.Misc
import Verif.Lemmas.TrueDiv
/-!
# C52: time and deposit helpers (`helpers.py`)
-/

set_option linter.unusedSimpArgs false

namespace Verif.Props

open Verif

/-- The smallest `n` with `m ≤ n * d`. -/
private theorem ceilDiv_eq {m d n : Nat} (hd : 0 < d) (h1 : m ≤ n * d) (h2 : (n - 1) * d < m)
    (hn : 0 < n) : (m + d - 1) / d = n := by
  obtain ⟨k, rfl⟩ : ∃ k, n = k + 1 := ⟨n - 1, by omega⟩
  rw [Nat.add_mul] at h1
  rw [Nat.add_sub_cancel] at h2
  apply Nat.le_antisymm
  · apply Nat.le_of_lt_succ
    rw [Nat.div_lt_iff_lt_mul hd, Nat.succ_mul, Nat.add_mul]
    omega
  · rw [Nat.le_div_iff_mul_le hd, Nat.add_mul]
    omega

/-- The ceiling of the correctly rounded quotient is the ceiling of the exact quotient
for dividends below `2^53`. -/
private theorem ceil_exact (a b : Nat) (ha : 0 < a) (ha' : a < 2 ^ 53) (hb : 1024 ≤ b) (hbu : b < 2 ^ 1021)
    (n : Nat) (hn : 0 < n) (h1 : a ≤ n * b) (h2 : (n - 1) * b < a) :
    ∃ x, trueDiv a b = .ok x ∧ ceilBin x = n := by
  obtain ⟨la0, la1, la2⟩ := bitLen_spec ha
  obtain ⟨lb0, lb1, lb2⟩ := bitLen_spec (show 0 < b by omega)
  unfold trueDiv
  generalize bitLen a = la at *
  generalize bitLen b = lb at *
  have hlb' : lb ≤ 1021 := by
    apply Classical.byContradiction
    intro h
    exact absurd (Nat.lt_of_le_of_lt
      (Nat.le_trans (Nat.pow_le_pow_right (by decide) (by omega)) lb1) hbu) (Nat.lt_irrefl _)
  rw [show max ((la : Int) - lb - 53) (-1074) = (la : Int) - lb - 53 by omega]
  have hla : la ≤ 53 := by
    apply Classical.byContradiction
    intro h
    have : 2 ^ 53 ≤ 2 ^ (la - 1) := Nat.pow_le_pow_right (by decide) (by omega)
    omega
  have hlb : 11 ≤ lb := by
    apply Classical.byContradiction
    intro h
    have : 2 ^ lb ≤ 2 ^ 10 := Nat.pow_le_pow_right (by decide) (by omega)
    omega
  obtain ⟨t, ht⟩ : ∃ t : Nat, (la : Int) - lb - 53 = -(t : Int) := ⟨53 + lb - la, by omega⟩
  have htl : lb ≤ t := by omega
  have hbt : b < 2 ^ t := Nat.lt_of_lt_of_le lb2 (Nat.pow_le_pow_right (by decide) htl)
  simp only [ht]
  have hneg : (-(t : Int) ≤ 0) := by omega
  simp only [if_pos hneg, show (- -(t : Int)).toNat = t by omega]
  have hbpos : 0 < b := by omega
  have hr : a * 2 ^ t % b < b := Nat.mod_lt _ hbpos
  have hqr : b * (a * 2 ^ t / b) + a * 2 ^ t % b = a * 2 ^ t := Nat.div_add_mod _ _
  generalize hq : a * 2 ^ t / b = q at *
  generalize a * 2 ^ t % b = r at *
  obtain ⟨k, rfl⟩ : ∃ k, n = k + 1 := ⟨n - 1, by omega⟩
  rw [Nat.add_sub_cancel] at h2
  -- bounds on the integer quotient
  have up : b * q + r ≤ b * ((k + 1) * 2 ^ t) := by
    rw [hqr, ← Nat.mul_assoc, Nat.mul_comm b]
    exact Nat.mul_le_mul_right _ h1
  have lo : b * (k * 2 ^ t) + 2 ^ t ≤ b * q + r := by
    rw [hqr, ← Nat.mul_assoc, Nat.mul_comm b]
    have : (k * b + 1) * 2 ^ t ≤ a * 2 ^ t := Nat.mul_le_mul_right _ h2
    rw [Nat.add_mul, Nat.one_mul] at this
    exact this
  have qup : q ≤ (k + 1) * 2 ^ t := by
    apply Nat.le_of_mul_le_mul_left _ hbpos; omega
  have qlo : k * 2 ^ t + 1 ≤ q := by
    apply Nat.lt_of_mul_lt_mul_left (a := b)
    apply Classical.byContradiction
    intro hge
    have h3 : b * q ≤ b * (k * 2 ^ t) := by omega
    omega
  have rne : q = k * 2 ^ t + 1 → 0 < r := by
    intro e
    apply Classical.byContradiction
    intro hr0
    rw [e, Nat.mul_add] at lo
    omega
  have rup : 0 < r → q + 1 ≤ (k + 1) * 2 ^ t := by
    intro hr0
    apply Nat.lt_of_mul_lt_mul_left (a := b)
    omega
  by_cases hcase : q < 2 ^ 53
  · rw [if_pos hcase]
    rw [if_neg (by rintro ⟨h, _⟩; simp only at h; omega)]
    refine ⟨_, rfl, ?_⟩
    unfold ceilBin
    simp only
    rw [if_neg (by omega), show (- -(t : Int)).toNat = t by omega]
    apply ceilDiv_eq (Nat.two_pow_pos t) _ _ (by omega)
    · split
      · rename_i hu
        apply rup
        simp only [Bool.or_eq_true, Bool.and_eq_true, decide_eq_true_eq, beq_iff_eq] at hu
        omega
      · exact qup
    · rw [Nat.add_sub_cancel]
      split <;> omega
  · rw [if_neg hcase]
    obtain ⟨T, rfl⟩ : ∃ T, t = T + 1 := ⟨t - 1, by omega⟩
    rw [if_neg (by rintro ⟨h, _⟩; simp only at h; omega)]
    refine ⟨_, rfl, ?_⟩
    unfold ceilBin
    simp only
    rw [if_neg (by omega), show (-(-((T + 1 : Nat) : Int) + 1)).toNat = T by omega]
    have e1 : (k + 1) * 2 ^ (T + 1) = 2 * ((k + 1) * 2 ^ T) := by
      rw [Nat.pow_succ, ← Nat.mul_assoc, Nat.mul_comm]
    have e2 : k * 2 ^ (T + 1) = 2 * (k * 2 ^ T) := by
      rw [Nat.pow_succ, ← Nat.mul_assoc, Nat.mul_comm]
    rw [e1] at qup rup
    rw [e2] at qlo rne
    apply ceilDiv_eq (Nat.two_pow_pos T) _ _ (by omega)
    · split
      · rename_i hu
        simp only [Bool.or_eq_true, Bool.and_eq_true, decide_eq_true_eq, beq_iff_eq] at hu
        omega
      · omega
    · rw [Nat.add_sub_cancel]
      split
      · omega
      · rename_i hu
        simp only [Bool.or_eq_true, Bool.and_eq_true, decide_eq_true_eq, beq_iff_eq,
          not_and, not_or] at hu
        apply Classical.byContradiction
        intro hlt
        have hq1 : q = 2 * (k * 2 ^ T) + 1 := by omega
        have := rne hq1
        have := (hu (by omega)).1
        omega

/-- `maximum_download_time` is one minute plus the least whole number of seconds in which
`size` bytes fit at `rate` KiB per second.  Missing for the full claim: sizes of `2^53`
bytes and more, where the code divides in floating point, and rates of `2^1011` KiB per second
and more, where the quotient may vanish (see the refutations). -/
theorem download_time_partial (size rate : Nat) (hs : size < 2 ^ 53) (hr : 0 < rate)
    (hu : rate < 2 ^ 1011) :
    ∃ n, maximumDownloadTime size rate = .ok (60 + n) ∧ size ≤ n * (rate * 1024) ∧
      ∀ k, size ≤ k * (rate * 1024) → n ≤ k := by
  have hb : rate <<< 10 = rate * 1024 := by rw [Nat.shiftLeft_eq]
  unfold maximumDownloadTime
  rw [if_neg (by omega), hb]
  by_cases h0 : size = 0
  · subst h0
    refine ⟨0, ?_, by omega, fun k _ => by omega⟩
    obtain ⟨k, e⟩ := trueDiv_zero (show 0 < rate * 1024 by omega)
    rw [e]
    have : ceilBin (0, k) = 0 := by
      unfold ceilBin
      split
      · simp
      · have := Nat.two_pow_pos (-k).toNat
        dsimp only
        exact Nat.div_eq_of_lt (by omega)
    simp only [this]
    rfl
  · generalize hbb : rate * 1024 = b at *
    have hb1 : 1024 ≤ b := by omega
    obtain ⟨n, hn, h1, h2⟩ : ∃ n, 0 < n ∧ size ≤ n * b ∧ (n - 1) * b < size := by
      refine ⟨(size - 1) / b + 1, Nat.succ_pos _, ?_, ?_⟩
      · have := Nat.div_add_mod (size - 1) b
        have := Nat.mod_lt (size - 1) (show 0 < b by omega)
        rw [Nat.add_mul, Nat.mul_comm ((size - 1) / b)]
        omega
      · have := Nat.div_add_mod (size - 1) b
        rw [Nat.add_sub_cancel, Nat.mul_comm]
        omega
    refine ⟨n, ?_, h1, ?_⟩
    · obtain ⟨x, e, hx⟩ := ceil_exact size b (by omega) hs hb1 (by
        rw [← hbb, show (2 : Nat) ^ 1021 = 2 ^ 1011 * 1024 from by decide +kernel]
        exact Nat.mul_lt_mul_of_pos_right hu (by omega)) n hn h1 h2
      rw [e]
      dsimp only
      rw [hx, if_neg]
      unfold maxDelta
      have : (n - 1) * 1024 ≤ (n - 1) * b := Nat.mul_le_mul_left _ hb1
      omega
    · intro k hk
      apply Classical.byContradiction
      intro hlt
      have : k * b ≤ (n - 1) * b := Nat.mul_le_mul_right _ (by omega)
      omega

/-- The full statement is false for large sizes: `2^53 + 1` bytes at 1 KiB per second need
`2^43 + 1` seconds, the code allows `2^43`. -/
theorem download_time_refuted :
    maximumDownloadTime (2 ^ 53 + 1) 1 = .ok (60 + 2 ^ 43) ∧
    ¬ (2 ^ 53 + 1 ≤ 2 ^ 43 * (1 * 1024)) := by
  decide +kernel

/-- The full statement is also false for astronomic rates: the quotient underflows to zero and no
second is allowed for the one byte. -/
theorem download_underflow_refuted :
    maximumDownloadTime 1 (2 ^ 1065) = .ok 60 ∧ ¬ (1 ≤ 0 * (2 ^ 1065 * 1024)) := by
  decide +kernel

/-- Monotone in the size, antitone in the rate (sizes below `2^53`, rates below `2^1011`). -/
theorem download_time_monotone (s s' r r' : Nat) (hs : s ≤ s') (hs' : s' < 2 ^ 53) (hr : 0 < r)
    (hr' : r ≤ r') (hu : r' < 2 ^ 1011) :
    ∃ t t', maximumDownloadTime s r' = .ok t ∧ maximumDownloadTime s' r = .ok t' ∧ t ≤ t' := by
  obtain ⟨n, e, _, least⟩ := download_time_partial s r' (by omega) (by omega) hu
  obtain ⟨n', e', fits, _⟩ := download_time_partial s' r hs' hr (Nat.lt_of_le_of_lt hr' hu)
  refine ⟨_, _, e, e', ?_⟩
  have := least n' (by
    have : n' * (r * 1024) ≤ n' * (r' * 1024) :=
      Nat.mul_le_mul_left _ (Nat.mul_le_mul_right _ hr')
    omega)
  omega

/-- A rate of zero is a `ZeroDivisionError`. -/
theorem download_time_zero_rate (size : Nat) :
    maximumDownloadTime size 0 = .error .zeroDivisionError := by
  rfl

/-- Deposits: required and suggested amounts. -/
theorem deposits (price : Int) :
    requestorDeposit price = (price + price, price + price + price + price) ∧
    providerDeposit price = (price, price + price + price + price) := by
  unfold requestorDeposit providerDeposit
  constructor <;> congr 1 <;> omega

/-- Non-vacuity: 48 KiB take one second, one byte more two. -/
example : (∃ n, maximumDownloadTime 49152 48 = .ok (60 + n) ∧ n = 1) ∧
    (∃ n, maximumDownloadTime 49153 48 = .ok (60 + n) ∧ n = 2) := by
  constructor
  · obtain ⟨n, e, a, b⟩ := download_time_partial 49152 48 (by decide) (by decide) (by decide +kernel)
    have := b 1 (by decide)
    exact ⟨n, e, by omega⟩
  · obtain ⟨n, e, a, b⟩ := download_time_partial 49153 48 (by decide) (by decide) (by decide +kernel)
    have := b 2 (by decide)
    exact ⟨n, e, by omega⟩

end Verif.Props
