import Verif.Model.Unicode
import Verif.Spec.Unicode
/-! # Lemmas: decimal digits of any script -/

namespace Verif

open Spec

private theorem zeros_apart : ∀ z ∈ decimalZeros, ∀ z' ∈ decimalZeros,
    z = z' ∨ z + 10 ≤ z' ∨ z' + 10 ≤ z := by decide +kernel

private theorem scripts_zeros : digitScripts =
    decimalZeros.map fun z => (List.range 10).map fun d => Char.ofNat (z + d) := by decide +kernel

private theorem zeros_small : ∀ z ∈ decimalZeros, z + 9 < 0xd800 ∨ (0xdfff < z ∧ z + 9 < 0x110000) := by
  decide +kernel

/-- A digit by its distance from the zero of its script. -/
theorem decimal_zeros (c : Char) (d : Nat) : Decimal c d ↔ d < 10 ∧ ∃ z ∈ decimalZeros, c.toNat = z + d := by
  unfold Decimal
  rw [scripts_zeros]
  simp only [List.mem_map]
  have key : ∀ z ∈ decimalZeros, ∀ d, d < 10 → (Char.ofNat (z + d)).toNat = z + d := by
    intro z hz d hd
    have : (z + d).isValidChar := by
      rcases zeros_small z hz with h | h
      · left; omega
      · right; omega
    simp only [Char.ofNat, this, dite_true, Char.toNat, Char.ofNatAux]
    rfl
  constructor
  · rintro ⟨_, ⟨z, hz, rfl⟩, h⟩
    rw [List.getElem?_map] at h
    by_cases hd : d < 10
    · rw [List.getElem?_range hd] at h
      simp only [Option.map_some, Option.some.injEq] at h
      exact ⟨hd, z, hz, by rw [← h]; exact key z hz d hd⟩
    · rw [List.getElem?_eq_none (by simp; omega)] at h
      cases h
  · rintro ⟨hd, z, hz, h⟩
    refine ⟨_, ⟨z, hz, rfl⟩, ?_⟩
    rw [List.getElem?_map, List.getElem?_range hd]
    simp only [Option.map_some, Option.some.injEq]
    apply Char.ext
    exact UInt32.toNat.inj ((key z hz d hd).trans h.symm)

theorem Spec.Decimal.lt {c : Char} {d : Nat} (h : Decimal c d) : d < 10 := ((decimal_zeros c d).mp h).1

/-- White space by code points. -/
theorem wide_blanks (c : Char) : c ∈ wideBlanks ↔ c.toNat ∈ wideSpaces := by
  have h : ∀ n ∈ wideSpaces, ∃ x ∈ wideBlanks, x.toNat = n := by decide
  constructor
  · revert c; decide
  · intro hc
    obtain ⟨x, hx, e⟩ := h _ hc
    have : x = c := Char.ext (UInt32.toNat.inj e)
    exact this ▸ hx

theorem decimalVal_iff (c : Char) (d : Nat) : decimalVal c = some d ↔ Decimal c d := by
  rw [decimal_zeros]
  unfold decimalVal
  constructor
  · intro h
    split at h
    · rename_i z hz
      injection h with h
      have hm := List.mem_of_find?_eq_some hz
      have hp := List.find?_some hz
      simp only [Bool.and_eq_true, decide_eq_true_eq] at hp
      exact ⟨by omega, z, hm, by omega⟩
    · cases h
  · rintro ⟨hd, z, hz, he⟩
    split
    · rename_i w hw
      have hm := List.mem_of_find?_eq_some hw
      have hp := List.find?_some hw
      simp only [Bool.and_eq_true, decide_eq_true_eq] at hp
      have := zeros_apart z hz w hm
      congr 1
      omega
    · rename_i hn
      rw [List.find?_eq_none] at hn
      have := hn z hz
      simp only [Bool.and_eq_true, decide_eq_true_eq, not_and] at this
      omega

theorem decimal_ascii {c : Char} {d : Nat} (h : Decimal c d) (hc : c.toNat < 127) :
    c.toNat = 48 + d := by
  obtain ⟨hd, z, hz, he⟩ := (decimal_zeros _ _).mp h
  have : ∀ z ∈ decimalZeros, z = 48 ∨ 127 ≤ z := by decide +kernel
  rcases this z hz with rfl | h
  · exact he
  · omega

theorem decimal_of_ascii {c : Char} {d : Nat} (hd : d < 10) (h : c.toNat = 48 + d) : Decimal c d :=
  (decimal_zeros c d).mpr ⟨hd, 48, by decide, h⟩

theorem decimal_not_space {c : Char} {d : Nat} (h : Decimal c d) : c.toNat ∉ wideSpaces := by
  obtain ⟨hd, z, hz, he⟩ := (decimal_zeros _ _).mp h
  have : ∀ z ∈ decimalZeros, ∀ w ∈ wideSpaces, w < z ∨ z + 10 ≤ w := by decide +kernel
  intro hw
  have := this z hz _ hw
  omega

theorem ofNat_digit {d : Nat} (h : d < 10) : (Char.ofNat (48 + d)).toNat = 48 + d := by
  have : (48 + d).isValidChar := by left; omega
  simp [Char.ofNat, this, Char.toNat, Char.ofNatAux]
  omega

/-- How `int` reads a character. -/
theorem asciiOf_cases (c : Char) :
    (c.toNat < 127 ∧ asciiOf c = c) ∨ (127 ≤ c.toNat ∧ c.toNat ∈ wideSpaces ∧ asciiOf c = ' ') ∨
    (127 ≤ c.toNat ∧ ∃ d, Decimal c d ∧ asciiOf c = Char.ofNat (48 + d)) ∨
    (127 ≤ c.toNat ∧ c.toNat ∉ wideSpaces ∧ (∀ d, ¬ Decimal c d) ∧ asciiOf c = '?') := by
  unfold asciiOf
  by_cases h1 : c.toNat < 127
  · exact Or.inl ⟨h1, if_pos h1⟩
  · rw [if_neg h1]
    have h1' : 127 ≤ c.toNat := by omega
    by_cases h2 : c.toNat ∈ wideSpaces
    · rw [if_pos (by simpa using h2)]
      exact Or.inr (Or.inl ⟨h1', h2, rfl⟩)
    · rw [if_neg (by simpa using h2)]
      cases h3 : decimalVal c with
      | some d => exact Or.inr (Or.inr (Or.inl ⟨h1', d, (decimalVal_iff c d).mp h3, rfl⟩))
      | none =>
        refine Or.inr (Or.inr (Or.inr ⟨h1', h2, ?_, rfl⟩))
        intro d hd
        rw [(decimalVal_iff c d).mpr hd] at h3
        cases h3

theorem decimal_unique {c : Char} {d e : Nat} (h : Decimal c d) (h' : Decimal c e) : d = e := by
  have a := (decimalVal_iff c d).mpr h
  rw [(decimalVal_iff c e).mpr h'] at a
  exact (Option.some.inj a).symm

theorem asciiOf_ascii {c : Char} (h : c.toNat < 127) : asciiOf c = c := if_pos h

/-- Reading a character changes nothing that matters in a number. -/
theorem asciiOf_eq {c x : Char} (hx : x.toNat < 127) (hb : x ≠ ' ') (hq : x ≠ '?')
    (hd : ¬ (48 ≤ x.toNat ∧ x.toNat ≤ 57)) : asciiOf c = x ↔ c = x := by
  constructor
  · intro h
    rcases asciiOf_cases c with ⟨_, e⟩ | ⟨_, _, e⟩ | ⟨_, d, hdd, e⟩ | ⟨_, _, _, e⟩
    · rw [← h, e]
    · exact absurd (h.symm.trans e) hb
    · rw [h] at e
      have := ofNat_digit hdd.lt
      rw [← e] at this
      have := hdd.lt
      omega
    · exact absurd (h.symm.trans e) hq
  · rintro rfl; exact asciiOf_ascii hx

theorem asciiOf_zero (c : Char) : asciiOf c = '0' ↔ Decimal c 0 := by
  constructor
  · intro h
    rcases asciiOf_cases c with ⟨_, e⟩ | ⟨_, _, e⟩ | ⟨_, d, hdd, e⟩ | ⟨_, _, _, e⟩
    · rw [h] at e
      subst e
      exact decimal_of_ascii (by decide) rfl
    · rw [h] at e; exact absurd e (by decide)
    · rw [h] at e
      have h2 := ofNat_digit hdd.lt
      rw [← e] at h2
      have h3 : ('0' : Char).toNat = 48 := rfl
      have : d = 0 := by omega
      subst this
      exact hdd
    · rw [h] at e; exact absurd e (by decide)
  · intro h
    rcases asciiOf_cases c with ⟨hc, e⟩ | ⟨_, hs, e⟩ | ⟨_, d, hdd, e⟩ | ⟨_, _, hn, e⟩
    · rw [e]
      have := decimal_ascii h hc
      apply Char.ext
      exact UInt32.toNat.inj this
    · exact absurd hs (decimal_not_space h)
    · rw [decimal_unique hdd h] at e; exact e
    · exact absurd h (hn 0)

end Verif
