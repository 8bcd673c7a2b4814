import Verif.Lemmas.Float
/-!
# Lemmas: sums that round up to a whole number
-/

namespace Verif

open Spec

/-- Between a whole number and the double before it, rounding gives the nearer of the two; the whole
number if both are equally near. -/
private theorem between {t j a : Nat} (h1 : 2 ^ j < t) (h2 : t ≤ 2 ^ (j + 1)) (hj : j < 52)
    (ha : t * 2 ^ 1074 < a + 2 ^ (j + 1022)) (hb : a < t * 2 ^ 1074) :
    round53 a = if 2 * (t * 2 ^ 1074) ≤ 2 * a + 2 ^ (j + 1022) then t * 2 ^ 1074
      else t * 2 ^ 1074 - 2 ^ (j + 1022) := by
  have hT : t * 2 ^ 1074 = t * 2 ^ (52 - j) * 2 ^ (j + 1022) := by
    rw [Nat.mul_assoc, ← Nat.pow_add, show 52 - j + (j + 1022) = 1074 by omega]
  have heven : ∃ u, t * 2 ^ (52 - j) = 2 * u := by
    refine ⟨t * 2 ^ (51 - j), ?_⟩
    rw [show 52 - j = 51 - j + 1 by omega, Nat.pow_succ]
    rw [← Nat.mul_assoc]; omega
  obtain ⟨u, hu⟩ := heven
  rw [hu] at hT
  have hlow : 2 ^ (j + 1074) + 2 ^ (j + 1022) ≤ t * 2 ^ 1074 := by
    have : (2 ^ j + 1) * 2 ^ 1074 ≤ t * 2 ^ 1074 := Nat.mul_le_mul_right _ h1
    rw [Nat.add_mul, ← Nat.pow_add] at this
    have h3 : (2 : Nat) ^ (j + 1022) ≤ 1 * 2 ^ 1074 := by
      rw [Nat.one_mul]; exact Nat.pow_le_pow_right (by omega) (by omega)
    omega
  have hhigh : t * 2 ^ 1074 ≤ 2 ^ (j + 1074 + 1) := by
    have : t * 2 ^ 1074 ≤ 2 ^ (j + 1) * 2 ^ 1074 := Nat.mul_le_mul_right _ h2
    rw [← Nat.pow_add] at this
    rw [show j + 1074 + 1 = j + 1 + 1074 by omega]
    exact this
  have hlog : a.log2 = j + 1074 := by
    have h0 : a ≠ 0 := by
      have := Nat.two_pow_pos (j + 1074)
      omega
    rw [Nat.log2_eq_iff h0]
    omega
  have hbig : ¬ a < 2 ^ 53 := by
    have : (2 : Nat) ^ 53 ≤ 2 ^ (j + 1074) := Nat.pow_le_pow_right (by omega) (by omega)
    omega
  unfold round53
  rw [if_neg hbig, hlog]
  dsimp only
  rw [show j + 1074 - 52 = j + 1022 by omega]
  have hpos : 0 < 2 ^ (j + 1022) := Nat.two_pow_pos _
  rw [hT] at ha hb ⊢
  generalize 2 ^ (j + 1022) = s at *
  have hq : a / s = 2 * u - 1 := by
    rw [Nat.div_eq_iff hpos]
    have h5 : (2 * u - 1) * s = 2 * u * s - s := by rw [Nat.sub_mul, Nat.one_mul]
    rw [h5]
    omega
  have hdm := Nat.div_add_mod a s
  have hu1 : 1 ≤ u := by
    rcases u with _ | u
    · simp at hb
    · omega
  have hm : s * (a / s) = 2 * u * s - s := by
    rw [hq, Nat.mul_comm, Nat.sub_mul, Nat.one_mul]
  rw [hm] at hdm
  have e1 : (2 * u - 1 + 1) * s = 2 * u * s := by rw [show 2 * u - 1 + 1 = 2 * u by omega]
  have e2 : (2 * u - 1) * s = 2 * u * s - s := by rw [Nat.sub_mul, Nat.one_mul]
  have e3 : (2 * u - 1) % 2 = 1 := by omega
  have hs : s ≤ 2 * u * s := by
    have := Nat.mul_le_mul_right s (show 1 ≤ 2 * u by omega)
    omega
  rw [hq, e1, e2, e3]
  generalize a % s = r at *
  generalize 2 * u * s = T at *
  by_cases h : 2 * T ≤ 2 * a + s
  · rw [if_pos h, if_pos (by omega)]
  · rw [if_neg h, if_neg (by omega)]

/-- Every finite double has 53 significant bits. -/
theorem double_rep {g : UInt64} {y : Int} (h : IsDouble g y) : Rep53 y := by
  obtain ⟨s, e, f, hs, _, hf, _, rfl⟩ := h
  have hsign : ∀ z : Nat, ((-1 : Int) ^ s * (z : Int)).natAbs = z := by
    intro z
    rcases s with _ | _ | s
    · simp
    · simp
    · omega
  by_cases he : e = 0
  · rw [if_pos he]
    exact ⟨f, 0, by omega, by rw [hsign]; simp⟩
  · rw [if_neg he]
    refine ⟨2 ^ 52 + f, e - 1, by omega, ?_⟩
    have := hsign ((2 ^ 52 + f) * 2 ^ (e - 1))
    rw [← this]
    congr 1

/-- The double before a whole number. -/
private theorem before {t j : Nat} (h1 : 2 ^ j < t) (h2 : t ≤ 2 ^ (j + 1)) (hj : j < 52) :
    ∃ g, IsDouble g ((t : Int) * 2 ^ 1074 - 2 ^ (j + 1022)) := by
  have hm : 2 ^ 52 < t * 2 ^ (52 - j) := by
    have : (2 ^ j + 1) * 2 ^ (52 - j) ≤ t * 2 ^ (52 - j) := Nat.mul_le_mul_right _ h1
    rw [Nat.add_mul, ← Nat.pow_add, show j + (52 - j) = 52 by omega] at this
    have := Nat.two_pow_pos (52 - j)
    omega
  have hM : t * 2 ^ (52 - j) ≤ 2 ^ 53 := by
    have : t * 2 ^ (52 - j) ≤ 2 ^ (j + 1) * 2 ^ (52 - j) := Nat.mul_le_mul_right _ h2
    rw [← Nat.pow_add, show j + 1 + (52 - j) = 53 by omega] at this
    exact this
  have hT : t * 2 ^ 1074 = t * 2 ^ (52 - j) * 2 ^ (j + 1022) := by
    rw [Nat.mul_assoc, ← Nat.pow_add, show 52 - j + (j + 1022) = 1074 by omega]
  generalize t * 2 ^ (52 - j) = M at *
  refine ⟨UInt64.ofNat ((j + 1023) * 2 ^ 52 + (M - 1 - 2 ^ 52)), 0, j + 1023, M - 1 - 2 ^ 52, by omega, by omega,
    by omega, ?_, ?_⟩
  · rw [UInt64.toNat_ofNat']
    rw [Nat.mod_eq_of_lt (by omega)]
    omega
  · rw [if_neg (by omega), show j + 1023 - 1 = j + 1022 by omega]
    have h3 : ((2 : Int) ^ 52 + ((M - 1 - 2 ^ 52 : Nat) : Int)) = (M : Int) - 1 := by omega
    rw [h3]
    have h4 : (t : Int) * 2 ^ 1074 = (M : Int) * 2 ^ (j + 1022) := by
      have := congrArg (Nat.cast (R := Int)) hT
      simpa [Int.natCast_mul, Int.natCast_pow] using this
    rw [h4]
    simp [Int.sub_mul]

private theorem binade {t : Nat} (h0 : 1 < t) (hn : t < 2 ^ 52) : ∃ j, j < 52 ∧ 2 ^ j < t ∧ t ≤ 2 ^ (j + 1) := by
  have hne : t - 1 ≠ 0 := by omega
  refine ⟨(t - 1).log2, ?_, ?_, ?_⟩
  · exact (Nat.log2_lt hne).mpr (by omega)
  · have := Nat.log2_self_le hne
    omega
  · have := Nat.lt_log2_self (n := t - 1)
    omega

/-- A sum rounds to less than a whole number exactly if some double below that number is nearer. -/
theorem round_below {z : Int} {t : Nat} (h0 : 1 < t) (hn : t < 2 ^ 52) :
    roundFloat z < (t : Int) * 2 ^ 1074 ↔
      ∃ g y, IsDouble g y ∧ y < (t : Int) * 2 ^ 1074 ∧ ((z - y).natAbs : Int) < (t : Int) * 2 ^ 1074 - z := by
  obtain ⟨j, hj, h1, h2⟩ := binade h0 hn
  have hrep : Rep53 ((t : Int) * 2 ^ 1074) := rep53_int (by omega)
  obtain ⟨g, hg⟩ := before h1 h2 hj
  have hbet : ∀ a : Int, (t : Int) * 2 ^ 1074 - 2 ^ (j + 1022) < a → a < (t : Int) * 2 ^ 1074 →
      roundFloat a = if 2 * ((t : Int) * 2 ^ 1074) ≤ 2 * a + 2 ^ (j + 1022) then (t : Int) * 2 ^ 1074
        else (t : Int) * 2 ^ 1074 - 2 ^ (j + 1022) := by
    intro a ha hb
    have hT : (2 : Nat) ^ (j + 1022) ≤ t * 2 ^ 1074 := by
      have h3 : (2 : Nat) ^ (j + 1022) ≤ 1 * 2 ^ 1074 := by
        rw [Nat.one_mul]; exact Nat.pow_le_pow_right (by omega) (by omega)
      exact Nat.le_trans h3 (Nat.mul_le_mul_right _ (by omega))
    have key := fun a => between (a := a) h1 h2 hj
    have c1 : (t : Int) * 2 ^ 1074 = ((t * 2 ^ 1074 : Nat) : Int) := by
      rw [Int.natCast_mul, Int.natCast_pow]; rfl
    have c2 : (2 : Int) ^ (j + 1022) = ((2 ^ (j + 1022) : Nat) : Int) := by
      rw [Int.natCast_pow]; rfl
    rw [c1] at ha hb ⊢
    rw [c2] at ha ⊢
    generalize t * 2 ^ 1074 = T at *
    generalize 2 ^ (j + 1022) = s at *
    have hpos : ¬ a < 0 := by omega
    unfold roundFloat
    rw [if_neg hpos, key a.natAbs (by omega) (by omega)]
    by_cases hc : 2 * T ≤ 2 * a.natAbs + s
    · rw [if_pos hc, if_pos (by omega)]
    · rw [if_neg hc, if_neg (by omega)]
      omega
  have hspos : (0 : Int) < 2 ^ (j + 1022) := by
    have : (2 : Int) ^ (j + 1022) = ((2 ^ (j + 1022) : Nat) : Int) := by
      rw [Int.natCast_pow]; rfl
    have := Nat.two_pow_pos (j + 1022)
    omega
  have hle : ∀ g' y, IsDouble g' y → y < (t : Int) * 2 ^ 1074 → y ≤ (t : Int) * 2 ^ 1074 - 2 ^ (j + 1022) := by
    intro g' y hy hlt
    refine Int.not_lt.mp fun hgt => ?_
    have e1 := hbet y hgt hlt
    rw [roundFloat_rep (double_rep hy)] at e1
    split at e1 <;> omega
  have hb := double_rep hg
  have hbet := hbet z
  have hup := fun h => le_roundFloat (x := z) hrep h
  have hdown := fun h => roundFloat_le (x := z) hb h
  generalize (2 : Int) ^ (j + 1022) = s at *
  generalize (t : Int) * 2 ^ 1074 = T at *
  constructor
  · intro h
    refine ⟨g, T - s, hg, by omega, ?_⟩
    have hz : z < T := Int.not_le.mp fun h' => absurd (hup h') (by omega)
    by_cases hzs : T - s < z
    · have := hbet hzs hz
      rw [this] at h
      split at h <;> omega
    · omega
  · rintro ⟨g', y, hy, hlt, hnear⟩
    have := hle g' y hy hlt
    by_cases hzs : T - s < z
    · rw [hbet hzs (by omega), if_neg (by omega)]
      omega
    · have := hdown (by omega)
      omega

end Verif
