import Verif.Lemmas.Float
import Verif.Lemmas.Widen
import Verif.Spec.Data
/-! # Numbers as keys of dictionaries -/

set_option linter.unusedSimpArgs false
set_option exponentiation.threshold 1100

namespace Verif

open Spec

theorem doubleOf_double {b : UInt64} {x : Int} (h : IsDouble b x) : doubleOf b = some x := by
  obtain ⟨s, e, f, hs, he, hf, hb, hx⟩ := h
  have h1 : b.toNat / 2 ^ 63 = s := by omega
  have h2 : b.toNat / 2 ^ 52 % 2 ^ 11 = e := by omega
  have h3 : b.toNat % 2 ^ 52 = f := by omega
  unfold doubleOf
  simp only [h1, h2, h3]
  rw [if_neg (by omega), hx]

theorem doubleOf_other {b : UInt64} (h : IsNan b ∨ IsInf b) : doubleOf b = none := by
  have h2 : b.toNat / 2 ^ 52 % 2 ^ 11 = 2047 := by
    rcases h with ⟨s, f, hs, h0, hf, hb⟩ | ⟨s, hs, hb⟩ <;> omega
  unfold doubleOf
  simp only [h2, if_true]

/-- The magnitude of a double that is whole. -/
private theorem whole_mag (m k : Nat) :
    (if k ≥ 1075 then some (m * 2 ^ (k - 1075))
      else if m % 2 ^ (1075 - k) = 0 then some (m / 2 ^ (1075 - k)) else none) =
    if 1 ≤ k then (if m * 2 ^ (k - 1) % 2 ^ 1074 = 0 then some (m * 2 ^ (k - 1) / 2 ^ 1074) else none)
    else (if m % 2 ^ (1075 - k) = 0 then some (m / 2 ^ (1075 - k)) else none) := by
  by_cases h : k ≥ 1075
  · rw [if_pos h, if_pos (by omega)]
    have e : m * 2 ^ (k - 1) = m * 2 ^ (k - 1075) * 2 ^ 1074 := by
      rw [Nat.mul_assoc, ← Nat.pow_add]; congr 2; omega
    rw [e, Nat.mul_mod_left, if_pos rfl, Nat.mul_div_cancel _ (Nat.two_pow_pos _)]
  · rw [if_neg h]
    by_cases h1 : 1 ≤ k
    · rw [if_pos h1]
      have e : (2 : Nat) ^ 1074 = 2 ^ (1075 - k) * 2 ^ (k - 1) := by
        rw [← Nat.pow_add]; congr 1; omega
      have hp := Nat.two_pow_pos (k - 1)
      rw [e, Nat.mul_mod_mul_right, Nat.mul_div_mul_right _ _ hp]
      have : (m % 2 ^ (1075 - k) * 2 ^ (k - 1) = 0) = (m % 2 ^ (1075 - k) = 0) := by
        simp only [Nat.mul_eq_zero, eq_iff_iff]
        omega
      simp only [this]
    · rw [if_neg h1]

private theorem neg_mod {M S : Nat} : -(M : Int) % (S : Int) = 0 ↔ M % S = 0 := by
  rw [← Int.dvd_iff_emod_eq_zero, Int.dvd_neg, Int.natCast_dvd_natCast]
  exact Nat.dvd_iff_mod_eq_zero

theorem floatToInt_double {b : UInt64} {x : Int} (h : IsDouble b x) :
    floatToInt? b = if x % 2 ^ 1074 = 0 then some (x / 2 ^ 1074) else none := by
  obtain ⟨s, e, f, hs, he, hf, hb, hx⟩ := h
  have h1 : b.toNat / 2 ^ 63 = s := by omega
  have h2 : b.toNat / 2 ^ 52 % 2 ^ 11 = e := by omega
  have h3 : b.toNat % 2 ^ 52 = f := by omega
  unfold floatToInt?
  simp only [h1, h2, h3]
  rw [if_neg (by omega), whole_mag, if_pos (by split <;> omega)]
  have hm : (if e = 0 then (f : Int) else (2 ^ 52 + f) * 2 ^ (e - 1)) =
      (((if e = 0 then f else 2 ^ 52 + f) * 2 ^ ((if e = 0 then 1 else e) - 1) : Nat) : Int) := by
    split
    · simp
    · simp
  rw [hm] at hx
  have hS : (2 ^ 1074 : Int) = ((2 ^ 1074 : Nat) : Int) := by simp
  have hpos : 0 < 2 ^ 1074 := Nat.two_pow_pos _
  rw [hS]
  generalize (2 ^ 1074 : Nat) = S at *
  generalize (if e = 0 then f else 2 ^ 52 + f) * 2 ^ ((if e = 0 then 1 else e) - 1) = M at *
  have key : ((-1 : Int) ^ s * M = M ∧ s = 0) ∨ ((-1 : Int) ^ s * M = -M ∧ s = 1) := by
    rcases (by omega : s = 0 ∨ s = 1) with rfl | rfl <;> simp
  rcases key with ⟨k, rfl⟩ | ⟨k, rfl⟩
  · rw [hx, k]
    by_cases hz : M % S = 0
    · rw [if_pos hz, if_pos (by omega)]
      simp
    · rw [if_neg hz, if_neg (by omega)]
      rfl
  · rw [hx, k]
    by_cases hz : M % S = 0
    · rw [if_pos hz, if_pos (neg_mod.2 hz)]
      obtain ⟨q, rfl⟩ := Nat.dvd_of_mod_eq_zero hz
      rw [Nat.mul_div_cancel_left _ hpos, Int.natCast_mul, ← Int.mul_neg,
        Int.mul_ediv_cancel_left _ (by omega)]
      rfl
    · rw [if_neg hz, if_neg (mt neg_mod.1 hz)]
      rfl

theorem floatToInt_other {b : UInt64} (h : IsNan b ∨ IsInf b) : floatToInt? b = none := by
  have h2 : b.toNat / 2 ^ 52 % 2 ^ 11 = 2047 := by
    rcases h with ⟨s, f, hs, h0, hf, hb⟩ | ⟨s, hs, hb⟩ <;> omega
  unfold floatToInt?
  simp only [h2, if_true]

/-- Bits are those of a finite double, or have the exponent of infinities and NaNs. -/
theorem double_cases (b : UInt64) :
    (∃ x, IsDouble b x) ∨ (doubleOf b = none ∧ floatToInt? b = none) := by
  by_cases h : b.toNat / 2 ^ 52 % 2 ^ 11 = 2047
  · right
    constructor
    · unfold doubleOf; simp only [h, if_true]
    · unfold floatToInt?; simp only [h, if_true]
  · left
    have := b.toNat_lt
    exact ⟨_, b.toNat / 2 ^ 63, b.toNat / 2 ^ 52 % 2 ^ 11, b.toNat % 2 ^ 52, by omega, by omega,
      by omega, by omega, rfl⟩

private theorem scale_pos : (0 : Int) < 2 ^ 1074 := by decide +kernel

/-- The double that is no whole number is fixed by its value. -/
theorem double_inj {d d' : UInt64} {x : Int} (h : IsDouble d x) (h' : IsDouble d' x)
    (hx : x ≠ 0) : d = d' := by
  refine double_unique h h' ?_
  have key : ∀ {d : UInt64}, IsDouble d x → (d.toNat / 2 ^ 63 = 0 ∧ 0 < x) ∨
      (d.toNat / 2 ^ 63 = 1 ∧ x < 0) := by
    intro d ⟨s, e, f, hs, he, hf, hb, hv⟩
    have hn : 0 ≤ (if e = 0 then (f : Int) else (2 ^ 52 + f) * 2 ^ (e - 1)) := by
      split
      · omega
      · exact Int.mul_nonneg (by omega) (Int.le_of_lt (Int.pow_pos (by omega)))
    generalize (if e = 0 then (f : Int) else (2 ^ 52 + f) * 2 ^ (e - 1)) = m at *
    rcases (by omega : s = 0 ∨ s = 1) with rfl | rfl
    · simp at hv; left; omega
    · simp at hv; right; omega
  rcases key h with ⟨a, b⟩ | ⟨a, b⟩ <;> rcases key h' with ⟨c, e⟩ | ⟨c, e⟩ <;> omega

/-- What a key is compared by. -/
theorem keyNorm_num {a : Val} {x : Int} (h : numValue a = some x) :
    (∃ i : Int, x = i * 2 ^ 1074 ∧ a.keyNorm = .int i) ∨
    (x % 2 ^ 1074 ≠ 0 ∧ ∃ f, IsDouble f x ∧ a.keyNorm = .float f) := by
  unfold numValue at h
  split at h
  · injection h with h
    exact .inl ⟨_, h.symm, rfl⟩
  · injection h with h
    exact .inl ⟨_, h.symm, rfl⟩
  · rename_i f
    rcases double_cases f with ⟨y, hy⟩ | ⟨hn, _⟩
    · rw [doubleOf_double hy] at h
      injection h with h
      subst h
      have e := floatToInt_double hy
      by_cases hz : y % 2 ^ 1074 = 0
      · rw [if_pos hz] at e
        refine .inl ⟨y / 2 ^ 1074, ?_, by unfold Val.keyNorm; simp only [e]⟩
        exact (Int.ediv_mul_cancel (Int.dvd_of_emod_eq_zero hz)).symm
      · rw [if_neg hz] at e
        exact .inr ⟨hz, f, hy, by unfold Val.keyNorm; simp only [e]⟩
    · rw [hn] at h; cases h
  · cases h

theorem keyNorm_other {a : Val} (h : numValue a = none) :
    a.keyNorm = a ∧ (∀ i, a ≠ .int i) ∧ ∀ f x, IsDouble f x → a ≠ .float f := by
  cases a <;> first | (cases h; done) | skip
  case float f =>
    rcases double_cases f with ⟨y, hy⟩ | ⟨hn, hi⟩
    · change doubleOf f = none at h
      rw [doubleOf_double hy] at h; cases h
    · refine ⟨by unfold Val.keyNorm; simp only [hi], fun _ => nofun, ?_⟩
      intro g x hg e
      injection e with e
      subst e
      rw [doubleOf_double hg] at hn; cases hn
  all_goals exact ⟨rfl, fun _ => nofun, fun _ _ _ => nofun⟩

theorem keyEq_iff {a b : Val} : a.keyEq b = true ↔ a.keyNorm = b.keyNorm := by
  unfold Val.keyEq; simp

/-- The model's equality of keys is Python's: that of their values. -/
theorem sameKey_keyEq (a b : Val) : sameKey a b = a.keyEq b := by
  rw [Bool.eq_iff_iff, keyEq_iff]
  unfold sameKey
  cases ha : numValue a with
  | none =>
    obtain ⟨ea, ia, fa⟩ := keyNorm_other ha
    cases hb : numValue b with
    | none =>
      obtain ⟨eb, _⟩ := keyNorm_other hb
      rw [ea, eb]; simp
    | some y =>
      rw [ea]
      refine ⟨nofun, fun e => ?_⟩
      rcases keyNorm_num hb with ⟨i, _, h⟩ | ⟨_, f, hf, h⟩
      · exact absurd (e.trans h) (ia i)
      · exact absurd (e.trans h) (fa f _ hf)
  | some x =>
    cases hb : numValue b with
    | none =>
      obtain ⟨eb, ib, fb⟩ := keyNorm_other hb
      rw [eb]
      refine ⟨nofun, fun e => ?_⟩
      rcases keyNorm_num ha with ⟨i, _, h⟩ | ⟨_, f, hf, h⟩
      · exact absurd (e.symm.trans h) (ib i)
      · exact absurd (e.symm.trans h) (fb f _ hf)
    | some y =>
      have hp := scale_pos
      simp only [beq_iff_eq]
      rcases keyNorm_num ha with ⟨i, hi, h⟩ | ⟨hx, f, hf, h⟩ <;>
        rcases keyNorm_num hb with ⟨j, hj, h'⟩ | ⟨hy, g, hg, h'⟩ <;> rw [h, h']
      · rw [hi, hj]
        generalize (2 : Int) ^ 1074 = S at *
        refine ⟨fun e => by rw [Int.eq_of_mul_eq_mul_right (by omega) e], fun e => ?_⟩
        injection e with e; rw [e]
      · refine ⟨fun e => ?_, nofun⟩
        rw [← e, hi, Int.mul_emod_left] at hy; exact absurd rfl hy
      · refine ⟨fun e => ?_, nofun⟩
        rw [e, hj, Int.mul_emod_left] at hx; exact absurd rfl hx
      · constructor
        · intro e
          subst e
          rw [double_inj hf hg (by rintro rfl; simp at hx)]
        · intro e
          injection e with e
          subst e
          have := (doubleOf_double hf).symm.trans (doubleOf_double hg)
          injection this

end Verif
