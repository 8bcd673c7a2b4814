import Verif.Model.Cbor
import Verif.Spec.CborItem
/-! # Half and single precision numbers as doubles -/

namespace Verif

open Spec

private theorem mul_add_mod' {a n f : Nat} (h : f < n) : (a * n + f) % n = f := by
  rw [Nat.mul_comm, Nat.mul_add_mod, Nat.mod_eq_of_lt h]

/-- Magnitude of a double by its fields. -/
private def mag (e f : Nat) : Nat := if e = 0 then f else (2 ^ 52 + f) * 2 ^ (e - 1)

private theorem mag_lt {e f e' f' : Nat} (hf : f < 2 ^ 52) (h : e < e') : mag e f < mag e' f' := by
  unfold mag
  rw [if_neg (show e' ≠ 0 by omega)]
  have h1 : 2 ^ 52 * 2 ^ (e' - 1) ≤ (2 ^ 52 + f') * 2 ^ (e' - 1) :=
    Nat.mul_le_mul_right _ (by omega)
  have hp : 0 < 2 ^ (e' - 1) := Nat.two_pow_pos _
  split
  · have : 2 ^ 52 * 1 ≤ 2 ^ 52 * 2 ^ (e' - 1) := Nat.mul_le_mul_left _ hp
    omega
  · have h2 : (2 ^ 52 + f) * 2 ^ (e - 1) < 2 ^ 53 * 2 ^ (e - 1) :=
      Nat.mul_lt_mul_of_pos_right (by omega) (Nat.two_pow_pos _)
    have h3 : 2 ^ 53 * 2 ^ (e - 1) = 2 ^ 52 * 2 ^ e := by
      rw [← Nat.pow_add, ← Nat.pow_add]; congr 1; omega
    have h4 : 2 ^ 52 * 2 ^ e ≤ 2 ^ 52 * 2 ^ (e' - 1) :=
      Nat.mul_le_mul_left _ (Nat.pow_le_pow_right (by omega) (by omega))
    omega

private theorem mag_inj {e f e' f' : Nat} (hf : f < 2 ^ 52) (hf' : f' < 2 ^ 52)
    (h : mag e f = mag e' f') : e = e' ∧ f = f' := by
  have he : e = e' := by
    rcases Nat.lt_trichotomy e e' with h1 | h1 | h1
    · have := mag_lt (f' := f') hf h1; omega
    · exact h1
    · have := mag_lt (f' := f) hf' h1; omega
  subst he
  refine ⟨rfl, ?_⟩
  unfold mag at h
  split at h
  · exact h
  · have := Nat.eq_of_mul_eq_mul_right (Nat.two_pow_pos _) h
    omega

private theorem mag_cast (e f : Nat) :
    (if e = 0 then (f : Int) else (2 ^ 52 + f) * 2 ^ (e - 1)) = ((mag e f : Nat) : Int) := by
  unfold mag
  split
  · rfl
  · simp

private theorem sgn_cancel {s : Nat} {a b : Nat} (hs : s < 2)
    (h : (-1 : Int) ^ s * a = (-1) ^ s * b) : a = b := by
  have : s = 0 ∨ s = 1 := by omega
  rcases this with rfl | rfl
  · have : (a : Int) = b := by simpa using h
    omega
  · simp at h; omega

/-- A double is fixed by its sign and value. -/
theorem double_unique {d d' : UInt64} {v : Int} (h : IsDouble d v) (h' : IsDouble d' v)
    (hs : d.toNat / 2 ^ 63 = d'.toNat / 2 ^ 63) : d = d' := by
  obtain ⟨s, e, f, s2, e2, f2, ht, hv⟩ := h
  obtain ⟨s', e', f', s2', e2', f2', ht', hv'⟩ := h'
  have hss : s = s' := by omega
  subst hss
  rw [mag_cast] at hv hv'
  obtain ⟨rfl, rfl⟩ := mag_inj f2 f2' (sgn_cancel s2 (hv.symm.trans hv'))
  exact UInt64.toNat_inj.1 (ht.trans ht'.symm)

/-- A number has one double. -/
theorem widened_unique {eb mb x : Nat} {d d' : UInt64} (h : Widened eb mb x d)
    (h' : Widened eb mb x d') : d = d' := by
  obtain ⟨s, e, f, s2, e2, f2, hx, hd, hc⟩ := h
  obtain ⟨s', e', f', s2', e2', f2', hx', hd', hc'⟩ := h'
  have hpow : 2 ^ (eb + mb) = 2 ^ eb * 2 ^ mb := Nat.pow_add ..
  have hm : ∀ {s e f : Nat}, f < 2 ^ mb → s * 2 ^ (eb + mb) + e * 2 ^ mb + f =
      (s * 2 ^ eb + e) * 2 ^ mb + f := by
    intro s e f _; rw [hpow, Nat.add_mul, Nat.mul_assoc]
  rw [hm f2] at hx
  rw [hm f2'] at hx'
  have hf : f = f' := by
    have h1 : x % 2 ^ mb = f := by rw [hx, mul_add_mod' f2]
    have h2 : x % 2 ^ mb = f' := by rw [hx', mul_add_mod' f2']
    omega
  subst hf
  have hse : s * 2 ^ eb + e = s' * 2 ^ eb + e' :=
    Nat.eq_of_mul_eq_mul_right (Nat.two_pow_pos mb) (by omega)
  have he : e = e' := by
    have h1 := mul_add_mod' (a := s) e2
    have h2 := mul_add_mod' (a := s') e2'
    rw [hse] at h1; omega
  subst he
  have hs : s = s' := Nat.eq_of_mul_eq_mul_right (Nat.two_pow_pos eb) (by omega)
  subst hs
  by_cases h1 : e = 2 ^ eb - 1
  · rw [if_pos h1] at hc hc'
    exact UInt64.toNat_inj.1 (hc.trans hc'.symm)
  · rw [if_neg h1] at hc hc'
    exact double_unique hc hc' (hd.trans hd'.symm)

private theorem ofNat_toNat {n : Nat} (h : n < 2 ^ 64) : (UInt64.ofNat n).toNat = n := by
  rw [UInt64.toNat_ofNat']; exact Nat.mod_eq_of_lt h

private theorem ofNat_toNat' {n m : Nat} (h : n < 2 ^ 64) (e : n = m) :
    (UInt64.ofNat n).toNat = m := e ▸ ofNat_toNat h

/-- The model's conversion, for formats that fit into doubles. -/
private theorem widen_exists {eb mb x : Nat} (B : Nat) (hB : 2 ^ eb = 2 * B) (hB' : 2 ^ (eb - 1) = B)
    (b2 : 2 ≤ B) (b5 : B + mb ≤ 512) (hmb : mb ≤ 52) (hx : x < 2 * 2 ^ (eb + mb)) :
    Widened eb mb x (widenFloat eb mb x) := by
  have hpow : 2 ^ (eb + mb) = 2 ^ eb * 2 ^ mb := Nat.pow_add ..
  have hm0 : 0 < 2 ^ mb := Nat.two_pow_pos mb
  have s2 : x / 2 ^ (eb + mb) < 2 := Nat.div_lt_of_lt_mul (by rw [Nat.mul_comm]; exact hx)
  have e2 : x / 2 ^ mb % 2 ^ eb < 2 ^ eb := Nat.mod_lt _ (Nat.two_pow_pos eb)
  have f2 : x % 2 ^ mb < 2 ^ mb := Nat.mod_lt _ hm0
  have hsum : x = x / 2 ^ (eb + mb) * 2 ^ (eb + mb) + x / 2 ^ mb % 2 ^ eb * 2 ^ mb + x % 2 ^ mb := by
    have h1 := Nat.div_add_mod x (2 ^ mb)
    have h2 := Nat.div_add_mod (x / 2 ^ mb) (2 ^ eb)
    rw [Nat.div_div_eq_div_mul, Nat.mul_comm (2 ^ mb), ← hpow] at h2
    calc x = 2 ^ mb * (x / 2 ^ mb) + x % 2 ^ mb := h1.symm
      _ = 2 ^ mb * (2 ^ eb * (x / 2 ^ (eb + mb)) + x / 2 ^ mb % 2 ^ eb) + x % 2 ^ mb := by rw [h2]
      _ = _ := by
        rw [hpow, Nat.mul_add]
        congr 1
        rw [Nat.mul_comm (2 ^ mb) (x / 2 ^ mb % 2 ^ eb)]
        congr 1
        rw [Nat.mul_comm, Nat.mul_comm (2 ^ eb), Nat.mul_assoc]
  have c1 : 2 ^ (mb + (52 - mb)) = 2 ^ 52 := by congr 1; omega
  have hmb52 : 2 ^ mb * 2 ^ (52 - mb) = 2 ^ 52 := by rw [← Nat.pow_add]; exact c1
  unfold widenFloat
  dsimp only
  generalize x / 2 ^ (eb + mb) = s at *
  generalize x / 2 ^ mb % 2 ^ eb = e at *
  generalize x % 2 ^ mb = f at *
  refine ⟨s, e, f, s2, e2, f2, hsum, ?_⟩
  have hf52 : f * 2 ^ (52 - mb) < 2 ^ 52 := by
    rw [← hmb52]; exact Nat.mul_lt_mul_of_pos_right f2 (Nat.two_pow_pos _)
  rw [hB'] at *
  rw [hB] at *
  by_cases he : e = 0
  · rw [if_pos he, if_neg (show ¬ e = 2 * B - 1 by omega), if_pos he]
    subst he
    by_cases hf : f = 0
    · subst hf
      rw [if_pos rfl, ofNat_toNat (by omega)]
      exact ⟨by omega, s, 0, 0, s2, by omega, by omega, ofNat_toNat' (by omega) (by omega),
        by simp⟩
    · rw [if_neg hf]
      have k1 : 2 ^ f.log2 ≤ f := Nat.log2_self_le hf
      have k2 : f < 2 ^ (f.log2 + 1) := Nat.lt_log2_self
      have k3 : f.log2 < mb := (Nat.log2_lt hf).2 f2
      generalize f.log2 = k at *
      have hp : 2 ^ k * 2 ^ (52 - k) = 2 ^ 52 := by rw [← Nat.pow_add]; congr 1; omega
      have hlt : (f - 2 ^ k) * 2 ^ (52 - k) < 2 ^ 52 := by
        rw [← hp]
        exact Nat.mul_lt_mul_of_pos_right (by rw [Nat.pow_succ] at k2; omega) (Nat.two_pow_pos _)
      have hsub : 2 ^ 52 + (f - 2 ^ k) * 2 ^ (52 - k) = f * 2 ^ (52 - k) := by
        rw [← hp, ← Nat.add_mul]; congr 1; omega
      generalize hg : (f - 2 ^ k) * 2 ^ (52 - k) = g at *
      generalize hE : k + 1024 - (B - 1) - mb = E
      have hE1 : E < 2047 := by omega
      have hE0 : E ≠ 0 := by omega
      rw [ofNat_toNat (by omega)]
      refine ⟨by omega, s, E, g, s2, hE1, hlt, ?_, ?_⟩
      · rw [ofNat_toNat (by omega)]; omega
      · rw [if_neg hE0]
        congr 1
        have hn : f * 2 ^ (1074 - (B - 2 + mb)) = (2 ^ 52 + g) * 2 ^ (E - 1) := by
          rw [hsub, Nat.mul_assoc, ← Nat.pow_add]
          congr 2; omega
        have := congrArg (fun n : Nat => (n : Int)) hn
        simpa using this
  · rw [if_neg he]
    by_cases hi : e = 2 * B - 1
    · rw [if_pos hi, if_pos hi]
      generalize f * 2 ^ (52 - mb) = g at *
      rw [ofNat_toNat (by omega)]
      refine ⟨by omega, by omega⟩
    · rw [if_neg hi, if_neg hi, if_neg he]
      generalize hg : f * 2 ^ (52 - mb) = g at *
      generalize hE : e + 1023 - (B - 1) = E
      have hE1 : E < 2047 := by omega
      have hE0 : E ≠ 0 := by omega
      rw [ofNat_toNat (by omega)]
      refine ⟨by omega, s, E, g, s2, hE1, hf52, ?_, ?_⟩
      · rw [ofNat_toNat (by omega)]; omega
      · rw [if_neg hE0]
        congr 1
        have hn : (2 ^ mb + f) * 2 ^ (e - 1) * 2 ^ (1074 - (B - 2 + mb)) =
            (2 ^ 52 + g) * 2 ^ (E - 1) := by
          rw [← hg, ← hmb52, ← Nat.add_mul, Nat.mul_assoc, Nat.mul_assoc, ← Nat.pow_add,
            ← Nat.pow_add]
          congr 2; omega
        have := congrArg (fun n : Nat => (n : Int)) hn
        simpa using this

theorem widen_half {x : Nat} (hx : x < 2 ^ 16) (d : UInt64) :
    Widened 5 10 x d ↔ d = widenFloat 5 10 x := by
  have h := widen_exists (eb := 5) (mb := 10) (x := x) 16 rfl rfl (by omega) (by omega) (by omega)
    (by omega)
  exact ⟨fun h' => widened_unique h' h, fun e => e ▸ h⟩

theorem widen_single {x : Nat} (hx : x < 2 ^ 32) (d : UInt64) :
    Widened 8 23 x d ↔ d = widenFloat 8 23 x := by
  have h := widen_exists (eb := 8) (mb := 23) (x := x) 128 rfl rfl (by omega) (by omega) (by omega)
    (by omega)
  exact ⟨fun h' => widened_unique h' h, fun e => e ▸ h⟩

end Verif
