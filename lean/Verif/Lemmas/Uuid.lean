import Verif.Lemmas.Hex
import Verif.Spec.Uuid
/-! # Lemmas: how UUID texts are read -/

set_option linter.unusedSimpArgs false

namespace Verif

open Spec

/-! ### Numbers -/

theorem wideNibble_iff (c : Char) (d : Nat) : hexVal (asciiOf c) = some d ↔ WideNibble c d := by
  unfold WideNibble
  rw [hexVal_iff]
  have nib : ∀ c d, Nibble c d → c.toNat < 127 := by
    intro c d h
    have hm : (∀ c ∈ hexLower, c.toNat < 127) ∧ (∀ c ∈ hexUpper, c.toNat < 127) := by decide
    rcases h with h | h
    · exact hm.1 c (List.mem_of_getElem? h)
    · exact hm.2 c (List.mem_of_getElem? h)
  have dec : ∀ d, d < 10 → Nibble (Char.ofNat (48 + d)) d := by unfold Nibble; decide
  rcases asciiOf_cases c with ⟨hc, e⟩ | ⟨hc, hs, e⟩ | ⟨hc, d', hd, e⟩ | ⟨hc, _, hn, e⟩
  · rw [e]
    constructor
    · exact Or.inl
    · rintro (h | h)
      · exact h
      · have := decimal_ascii h hc
        have hcc : c = Char.ofNat (48 + d) := char_ext (by rw [this, ofNat_digit h.lt])
        rw [hcc]
        exact dec d h.lt
  · rw [e]
    constructor
    · intro h
      have h := (hexVal_iff _ _).mpr h
      rw [show hexVal ' ' = none by decide] at h
      cases h
    · rintro (h | h)
      · have := nib c d h; omega
      · exact absurd hs (decimal_not_space h)
  · rw [e]
    constructor
    · intro h
      have h1 := (hexVal_iff _ _).mpr h
      rw [(hexVal_iff _ _).mpr (dec d' hd.lt)] at h1
      injection h1 with h1
      subst h1
      exact Or.inr hd
    · rintro (h | h)
      · have := nib c d h; omega
      · rw [decimal_unique h hd]; exact dec d' hd.lt
  · rw [e]
    constructor
    · intro h
      have h := (hexVal_iff _ _).mpr h
      rw [show hexVal '?' = none by decide] at h
      cases h
    · rintro (h | h)
      · have := nib c d h; omega
      · exact absurd h (hn d)

theorem asciiOf_underscore (c : Char) : asciiOf c = '_' ↔ c = '_' :=
  asciiOf_eq (by decide) (by decide) (by decide) (by decide)

theorem wideNibble_not_underscore {d : Nat} : ¬ WideNibble '_' d := by
  intro h
  have := (wideNibble_iff '_' d).mpr h
  rw [show hexVal (asciiOf '_') = none by decide] at this
  cases this

private theorem digits_sound (s : PStr) : ∀ (acc : Nat) {n : Nat},
    (hexDigitsVal acc true (s.map asciiOf) = some n → ∀ p, HexRun p acc → HexRun (p ++ s) n) ∧
    (hexDigitsVal acc false (s.map asciiOf) = some n →
      (∀ p, HexRun p acc → HexRun (p ++ '_' :: s) n) ∧ (acc = 0 → HexRun s n)) := by
  induction s with
  | nil =>
    intro acc n
    constructor
    · intro h p hp
      simp only [List.map_nil, hexDigitsVal, if_true] at h
      injection h with h
      subst h
      simpa using hp
    · intro h
      simp [hexDigitsVal] at h
  | cons c cs ih =>
    intro acc n
    rw [List.map_cons]
    constructor
    · intro h p hp
      rw [hexDigitsVal] at h
      split at h
      · rename_i hc
        rw [asciiOf_underscore] at hc
        subst hc
        exact ((ih acc).2 h).1 p hp
      · split at h
        · rename_i d hd
          have := (ih _).1 h (p ++ [c]) (by
            have := HexRun.more hp ((wideNibble_iff c d).mp hd)
            rwa [Nat.mul_comm] at this)
          simpa using this
        · cases h
    · intro h
      rw [hexDigitsVal] at h
      split at h
      · cases h
      · split at h
        · rename_i d hd
          have hw := (wideNibble_iff c d).mp hd
          constructor
          · intro p hp
            have := (ih _).1 h (p ++ ['_', c]) (by
              have := HexRun.sep hp hw
              rwa [Nat.mul_comm] at this)
            simpa using this
          · rintro rfl
            have := (ih _).1 h [c] (by simpa using HexRun.one hw)
            simpa using this
        · cases h

private theorem digits_complete {s : PStr} {n : Nat} (h : HexRun s n) : ∀ rest : PStr,
    hexDigitsVal 0 false (s.map asciiOf ++ rest) = hexDigitsVal n true rest := by
  have step : ∀ {c d acc prev} (rest : PStr), WideNibble c d →
      hexDigitsVal acc prev (asciiOf c :: rest) = hexDigitsVal (acc * 16 + d) true rest := by
    intro c d acc prev rest hw
    have hne : asciiOf c ≠ '_' := by
      rw [Ne, asciiOf_underscore]
      rintro rfl
      exact wideNibble_not_underscore hw
    rw [hexDigitsVal, if_neg hne, (wideNibble_iff c d).mpr hw]
  induction h with
  | one hw =>
    intro rest
    have := step (acc := 0) (prev := false) rest hw
    simpa using this
  | @more s n c d _ hw ih =>
    intro rest
    rw [List.map_append, List.append_assoc, ih]
    have := step (acc := n) (prev := true) rest hw
    rw [Nat.mul_comm] at this
    simpa using this
  | @sep s n c d _ hw ih =>
    intro rest
    rw [List.map_append, List.append_assoc, ih]
    have h_ : asciiOf '_' = '_' := asciiOf_ascii (by decide)
    simp only [List.map_cons, List.map_nil, List.cons_append, List.nil_append, h_]
    rw [hexDigitsVal, if_pos rfl, if_pos rfl, step rest hw, Nat.mul_comm]

theorem hexRun_iff (s : PStr) (n : Nat) :
    hexDigitsVal 0 false (s.map asciiOf) = some n ↔ HexRun s n := by
  constructor
  · intro h
    exact ((digits_sound s 0).2 h).2 rfl
  · intro h
    have := digits_complete h []
    simpa [hexDigitsVal] using this

theorem hexRun_chars {s : PStr} {n : Nat} (h : HexRun s n) :
    s ≠ [] ∧ ∀ c ∈ s, c = '_' ∨ ∃ d, WideNibble c d := by
  induction h with
  | one hw => exact ⟨by simp, by simpa using Or.inr ⟨_, hw⟩⟩
  | more _ hw ih =>
    refine ⟨by simp, ?_⟩
    intro c hc
    rcases List.mem_append.mp hc with hc | hc
    · exact ih.2 c hc
    · simp at hc; subst hc; exact Or.inr ⟨_, hw⟩
  | sep _ hw ih =>
    refine ⟨by simp, ?_⟩
    intro c hc
    rcases List.mem_append.mp hc with hc | hc
    · exact ih.2 c hc
    · simp at hc
      rcases hc with rfl | rfl
      · exact Or.inl rfl
      · exact Or.inr ⟨_, hw⟩

theorem hexRun_head {s : PStr} {n : Nat} (h : HexRun ('_' :: s) n) : False := by
  have := (hexRun_iff _ _).mpr h
  rw [List.map_cons, asciiOf_ascii (by decide)] at this
  simp [hexDigitsVal] at this

theorem wideNibble_lt {c : Char} {d : Nat} (h : WideNibble c d) : d < 16 := by
  rcases h with h | h
  · exact nibble_lt h
  · have := h.lt; omega

theorem hexRun_lt {s : PStr} {n : Nat} (h : HexRun s n) : n < 16 ^ s.length := by
  induction h with
  | one hw => simpa using wideNibble_lt hw
  | @more s n c d _ hw ih =>
    have := wideNibble_lt hw
    simp only [List.length_append, List.length_singleton, Nat.pow_succ]
    omega
  | @sep s n c d _ hw ih =>
    have := wideNibble_lt hw
    simp only [List.length_append, List.length_cons, List.length_nil, Nat.pow_succ]
    omega

theorem asciiOf_x {c x : Char} (h : x = 'x' ∨ x = 'X') : asciiOf c = x ↔ c = x := by
  rcases h with rfl | rfl <;> exact asciiOf_eq (by decide) (by decide) (by decide) (by decide)

theorem wideNibble_not_x {x : Char} {d : Nat} (h : x = 'x' ∨ x = 'X') : ¬ WideNibble x d := by
  intro hw
  have := (wideNibble_iff x d).mpr hw
  rcases h with rfl | rfl
  · rw [show hexVal (asciiOf 'x') = none by decide] at this
    cases this
  · rw [show hexVal (asciiOf 'X') = none by decide] at this
    cases this

theorem map_cons_inv {f : Char → Char} {s : PStr} {x : Char} {xs : PStr}
    (h : s.map f = x :: xs) : ∃ c cs, s = c :: cs ∧ f c = x ∧ cs.map f = xs := by
  cases s with
  | nil => cases h
  | cons c cs =>
    rw [List.map_cons] at h
    injection h with h1 h2
    exact ⟨c, cs, rfl, h1, h2⟩

theorem hexNumber_iff (s : PStr) (n : Nat) :
    intUnsigned16 (s.map asciiOf) = some n ↔ HexNumber s n := by
  have pre : ∀ {x : Char} {cs : PStr}, x = 'x' ∨ x = 'X' → s.map asciiOf = '0' :: x :: cs →
      ∃ z s', s = z :: x :: s' ∧ Decimal z 0 ∧ s'.map asciiOf = cs := by
    intro x cs hx he
    obtain ⟨z, s1, rfl, hz, he1⟩ := map_cons_inv he
    obtain ⟨y, s2, rfl, hy, he2⟩ := map_cons_inv he1
    rw [asciiOf_x hx] at hy
    subst hy
    exact ⟨z, s2, rfl, (asciiOf_zero z).mp hz, he2⟩
  constructor
  · intro h
    have preU : ∀ {x : Char} {cs : PStr}, x = 'x' ∨ x = 'X' → s.map asciiOf = '0' :: x :: '_' :: cs →
        hexDigitsVal 0 false cs = some n → HexNumber s n := by
      intro x cs hx he hh
      obtain ⟨z, s', rfl, hz, he⟩ := pre hx he
      obtain ⟨u, s'', rfl, hu, he2⟩ := map_cons_inv he
      rw [asciiOf_underscore] at hu
      subst hu
      subst he2
      exact .markedSep hz hx ((hexRun_iff _ _).mp hh)
    have preP : ∀ {x : Char} {cs : PStr}, x = 'x' ∨ x = 'X' → s.map asciiOf = '0' :: x :: cs →
        hexDigitsVal 0 false cs = some n → HexNumber s n := by
      intro x cs hx he hh
      obtain ⟨z, s', rfl, hz, he⟩ := pre hx he
      subst he
      exact .marked hz hx ((hexRun_iff _ _).mp hh)
    unfold intUnsigned16 at h
    split at h
    · rename_i e; exact preU (Or.inl rfl) e h
    · rename_i e; exact preU (Or.inr rfl) e h
    · rename_i e; exact preP (Or.inl rfl) e h
    · rename_i e; exact preP (Or.inr rfl) e h
    · exact .plain ((hexRun_iff _ _).mp h)
  · intro h
    cases h with
    | plain h =>
      have hno : ∀ {x : Char} {cs : PStr}, x = 'x' ∨ x = 'X' → s.map asciiOf = '0' :: x :: cs → False := by
        intro x cs hx he
        obtain ⟨z, s', rfl, hz, he⟩ := pre hx he
        rcases (hexRun_chars h).2 x (by simp) with hc | ⟨d, hd⟩
        · rcases hx with rfl | rfl <;> exact absurd hc (by decide)
        · exact wideNibble_not_x hx hd
      unfold intUnsigned16
      split
      · rename_i e; exact (hno (Or.inl rfl) e).elim
      · rename_i e; exact (hno (Or.inr rfl) e).elim
      · rename_i e; exact (hno (Or.inl rfl) e).elim
      · rename_i e; exact (hno (Or.inr rfl) e).elim
      · exact (hexRun_iff _ _).mpr h
    | @marked z x s n hz hx h =>
      have hr := (hexRun_iff _ _).mpr h
      have hne : ∀ cs, s.map asciiOf ≠ '_' :: cs := by
        intro cs he
        obtain ⟨u, s', rfl, hu, _⟩ := map_cons_inv he
        rw [asciiOf_underscore] at hu
        subst hu
        exact hexRun_head h
      rw [List.map_cons, List.map_cons, (asciiOf_zero z).mpr hz, (asciiOf_x hx).mpr rfl]
      revert hr hne
      generalize s.map asciiOf = t
      intro hr hne
      rcases hx with rfl | rfl
      · unfold intUnsigned16
        split
        · rename_i e; injection e with _ e; injection e with _ e; exact absurd e (hne _)
        · rename_i e; injection e with _ e; injection e with e _; exact absurd e (by decide)
        · rename_i e; injection e with _ e; injection e with _ e; rw [← e]; exact hr
        · rename_i e; injection e with _ e; injection e with e _; exact absurd e (by decide)
        · rename_i e _; exact (e t rfl).elim
      · unfold intUnsigned16
        split
        · rename_i e; injection e with _ e; injection e with e _; exact absurd e (by decide)
        · rename_i e; injection e with _ e; injection e with _ e; exact absurd e (hne _)
        · rename_i e; injection e with _ e; injection e with e _; exact absurd e (by decide)
        · rename_i e; injection e with _ e; injection e with _ e; rw [← e]; exact hr
        · rename_i e; exact (e t rfl).elim
    | @markedSep z x s n hz hx h =>
      have hr := (hexRun_iff _ _).mpr h
      rw [List.map_cons, List.map_cons, List.map_cons, (asciiOf_zero z).mpr hz,
        (asciiOf_x hx).mpr rfl, (asciiOf_underscore '_').mpr rfl]
      rcases hx with rfl | rfl
      · exact hr
      · exact hr

theorem hexNumber_chars {s : PStr} {n : Nat} (h : HexNumber s n) :
    s ≠ [] ∧ (∀ c ∈ s, c ∈ p!"_xX" ∨ ∃ d, WideNibble c d) ∧ n < 16 ^ s.length := by
  have run : ∀ {s : PStr} {n : Nat}, HexRun s n → ∀ c ∈ s, c ∈ p!"_xX" ∨ ∃ d, WideNibble c d := by
    intro s n h c hc
    rcases (hexRun_chars h).2 c hc with rfl | hw
    · left; simp
    · exact Or.inr hw
  have up : ∀ a b : Nat, a ≤ b → 16 ^ a ≤ 16 ^ b := fun a b h => Nat.pow_le_pow_right (by decide) h
  cases h with
  | plain h => exact ⟨(hexRun_chars h).1, run h, hexRun_lt h⟩
  | marked hz hx h =>
    refine ⟨by simp, ?_, Nat.lt_of_lt_of_le (hexRun_lt h) (up _ _ (by simp; omega))⟩
    intro c hc
    simp only [List.mem_cons] at hc
    rcases hc with rfl | rfl | hc
    · exact Or.inr ⟨0, Or.inr hz⟩
    · left; rcases hx with rfl | rfl <;> simp
    · exact run h c hc
  | markedSep hz hx h =>
    refine ⟨by simp, ?_, Nat.lt_of_lt_of_le (hexRun_lt h) (up _ _ (by simp; omega))⟩
    intro c hc
    simp only [List.mem_cons] at hc
    rcases hc with rfl | rfl | rfl | hc
    · exact Or.inr ⟨0, Or.inr hz⟩
    · left; rcases hx with rfl | rfl <;> simp
    · left; simp
    · exact run h c hc

theorem hexNumber_not_sign {s : PStr} {n : Nat} (x : Char) (hx : x = '+' ∨ x = '-') :
    ¬ HexNumber (x :: s) n := by
  intro h
  rcases (hexNumber_chars h).2.1 x (by simp) with hc | ⟨d, hd⟩
  · rcases hx with rfl | rfl <;> simp at hc
  · have := (wideNibble_iff x d).mpr hd
    rcases hx with rfl | rfl
    · rw [show hexVal (asciiOf '+') = none by decide] at this
      cases this
    · rw [show hexVal (asciiOf '-') = none by decide] at this
      cases this

/-! ### White space and braces -/

theorem strip_iff {p : Char → Bool} (s t : PStr) :
    ((s.dropWhile p).reverse.dropWhile p).reverse = t ↔
      ∃ a b, s = a ++ t ++ b ∧ (∀ c ∈ a, p c = true) ∧ (∀ c ∈ b, p c = true) ∧
        (∀ c, t.head? = some c → p c = false) ∧ (∀ c, t.getLast? = some c → p c = false) := by
  have headDrop : ∀ (s : PStr) c, (s.dropWhile p).head? = some c → p c = false := by
    intro s
    induction s with
    | nil => intro c h; simp at h
    | cons x xs ih =>
      intro c h
      by_cases hx : p x = true
      · rw [List.dropWhile_cons_of_pos hx] at h; exact ih c h
      · rw [List.dropWhile_cons_of_neg hx] at h
        simp at h; subst h; simpa using hx
  constructor
  · rintro rfl
    refine ⟨s.takeWhile p, ((s.dropWhile p).reverse.takeWhile p).reverse, ?_, takeWhile_forall s, ?_, ?_, ?_⟩
    · rw [List.append_assoc, ← List.reverse_append, List.takeWhile_append_dropWhile,
        List.reverse_reverse, List.takeWhile_append_dropWhile]
    · intro c hc
      exact takeWhile_forall _ c (List.mem_reverse.mp hc)
    · intro c hc
      rw [List.head?_reverse] at hc
      -- the first character survives the second stripping
      have e : (s.dropWhile p).reverse.takeWhile p ++ (s.dropWhile p).reverse.dropWhile p =
          (s.dropWhile p).reverse := List.takeWhile_append_dropWhile
      have hl : (s.dropWhile p).reverse.getLast? = some c := by
        rw [← e, List.getLast?_append, hc]; rfl
      rw [List.getLast?_reverse] at hl
      exact headDrop s c hl
    · intro c hc
      rw [List.getLast?_reverse] at hc
      exact headDrop _ c hc
  · rintro ⟨a, b, rfl, ha, hb, hh, hl⟩
    have dropAll : ∀ (a b : PStr), (∀ c ∈ a, p c = true) → (a ++ b).dropWhile p = b.dropWhile p := by
      intro a b h
      induction a with
      | nil => rfl
      | cons x xs ih =>
        rw [List.cons_append, List.dropWhile_cons_of_pos (h x (by simp)),
          ih fun c hc => h c (by simp [hc])]
    have stay : ∀ (t : PStr), (∀ c, t.head? = some c → p c = false) → t ≠ [] →
        ∀ b, (t ++ b).dropWhile p = t ++ b := by
      intro t h hne b
      cases t with
      | nil => exact absurd rfl hne
      | cons x xs =>
        rw [List.cons_append, List.dropWhile_cons_of_neg (by rw [h x rfl]; simp)]
    have all : ∀ (b : PStr), (∀ c ∈ b, p c = true) → b.dropWhile p = [] := by
      intro b hb
      have := dropAll b [] hb
      simpa using this
    rw [List.append_assoc, dropAll a _ ha]
    by_cases ht : t = []
    · subst ht
      rw [List.nil_append, all b hb]
      rfl
    · rw [stay t hh ht b, List.reverse_append,
        dropAll _ _ (fun c hc => hb c (List.mem_reverse.mp hc))]
      have := stay t.reverse (by intro c hc; rw [List.head?_reverse] at hc; exact hl c hc)
        (by simpa using ht) []
      rw [List.append_nil] at this
      rw [this, List.reverse_reverse]

theorem dropWhile_map {p : Char → Bool} {f : Char → Char} (s : PStr) :
    (s.map f).dropWhile p = (s.dropWhile (fun c => p (f c))).map f := by
  induction s with
  | nil => rfl
  | cons c cs ih =>
    by_cases h : p (f c) = true
    · rw [List.map_cons, List.dropWhile_cons_of_pos h, List.dropWhile_cons_of_pos (by simpa using h), ih]
    · rw [List.map_cons, List.dropWhile_cons_of_neg h, List.dropWhile_cons_of_neg (by simpa using h),
        List.map_cons]

theorem blank_iff (c : Char) : isSpaceC (asciiOf c) = true ↔ Blank c := by
  unfold Blank
  rw [wide_blanks]
  have hw : ∀ n ∈ wideSpaces, 127 ≤ n := by decide
  have small : ∀ x : Char, isSpaceC x = true ↔ x = ' ' ∨ (9 ≤ x.toNat ∧ x.toNat ≤ 13) := by
    intro x; simp [isSpaceC]
  rcases asciiOf_cases c with ⟨hc, e⟩ | ⟨hc, hs, e⟩ | ⟨hc, d', hd, e⟩ | ⟨hc, hn, _, e⟩
  · rw [e, small]
    constructor
    · rintro (h | h)
      · exact Or.inl h
      · exact Or.inr (Or.inl h)
    · rintro (h | h | h)
      · exact Or.inl h
      · exact Or.inr h
      · have := hw _ h; omega
  · rw [e]
    exact ⟨fun _ => Or.inr (Or.inr hs), fun _ => by decide⟩
  · rw [e, small]
    have h2 := ofNat_digit hd.lt
    constructor
    · rintro (h | h)
      · rw [h] at h2
        have : (' ' : Char).toNat = 32 := rfl
        omega
      · omega
    · rintro (rfl | h | h)
      · exact absurd hc (by decide)
      · omega
      · exact absurd h (decimal_not_space hd)
  · rw [e]
    constructor
    · intro h; exact absurd h (by decide)
    · rintro (rfl | h | h)
      · exact absurd hc (by decide)
      · omega
      · exact absurd h hn

theorem signedHex_chars {s : PStr} {i : Int} (h : SignedHex s i) :
    ∀ c ∈ s, c ∈ p!"_xX+-" ∨ ∃ d, WideNibble c d := by
  have num : ∀ {s : PStr} {n : Nat}, HexNumber s n → ∀ c ∈ s, c ∈ p!"_xX+-" ∨ ∃ d, WideNibble c d := by
    intro s n h c hc
    rcases (hexNumber_chars h).2.1 c hc with h | h
    · left; simp at h ⊢; rcases h with h | h | h <;> simp [h]
    · exact Or.inr h
  intro c hc
  cases h with
  | plain h => exact num h c hc
  | plus h =>
    rcases List.mem_cons.mp hc with rfl | hc
    · left; simp
    · exact num h c hc
  | minus h =>
    rcases List.mem_cons.mp hc with rfl | hc
    · left; simp
    · exact num h c hc

theorem wideNibble_not_blank {c : Char} {d : Nat} (h : WideNibble c d) : ¬ Blank c := by
  intro hb
  have h1 := (wideNibble_iff c d).mpr h
  have h2 := (blank_iff c).mpr hb
  have h3 := hexVal_iff (asciiOf c) d
  have hm : (∀ c ∈ hexLower, isSpaceC c = false) ∧ (∀ c ∈ hexUpper, isSpaceC c = false) := by decide
  rcases h3.mp h1 with h | h
  · rw [hm.1 _ (List.mem_of_getElem? h)] at h2; cases h2
  · rw [hm.2 _ (List.mem_of_getElem? h)] at h2; cases h2

theorem signedHex_not_blank {s : PStr} {i : Int} (h : SignedHex s i) : ∀ c ∈ s, ¬ Blank c := by
  intro c hc
  rcases signedHex_chars h c hc with hm | ⟨d, hd⟩
  · have : ∀ c ∈ p!"_xX+-", ¬ isSpaceC (asciiOf c) = true := by decide
    rw [← blank_iff]
    exact this c hm
  · exact wideNibble_not_blank hd

theorem hexInt_iff (s : PStr) (i : Int) : pyInt16 s = some i ↔ HexInt s i := by
  have sign : ∀ (t : PStr), intSigned16 (t.map asciiOf) = some i ↔ SignedHex t i := by
    intro t
    unfold intSigned16
    have plus : ∀ c, asciiOf c = '+' ↔ c = '+' := fun c =>
      asciiOf_eq (by decide) (by decide) (by decide) (by decide)
    have minus : ∀ c, asciiOf c = '-' ↔ c = '-' := fun c =>
      asciiOf_eq (by decide) (by decide) (by decide) (by decide)
    constructor
    · intro h
      split at h
      · rename_i cs e
        obtain ⟨c, t', rfl, hc, rfl⟩ := map_cons_inv e
        rw [plus] at hc
        subst hc
        obtain ⟨n, hn, rfl⟩ := Option.map_eq_some_iff.mp h
        exact .plus ((hexNumber_iff _ _).mp hn)
      · rename_i cs e
        obtain ⟨c, t', rfl, hc, rfl⟩ := map_cons_inv e
        rw [minus] at hc
        subst hc
        obtain ⟨n, hn, rfl⟩ := Option.map_eq_some_iff.mp h
        exact .minus ((hexNumber_iff _ _).mp hn)
      · obtain ⟨n, hn, rfl⟩ := Option.map_eq_some_iff.mp h
        exact .plain ((hexNumber_iff _ _).mp hn)
    · intro h
      cases h with
      | @plain _ n h =>
        have hn := (hexNumber_iff _ _).mpr h
        split
        · rename_i cs e
          obtain ⟨c, t', rfl, hc, rfl⟩ := map_cons_inv e
          rw [plus] at hc
          subst hc
          exact absurd h (hexNumber_not_sign _ (Or.inl rfl))
        · rename_i cs e
          obtain ⟨c, t', rfl, hc, rfl⟩ := map_cons_inv e
          rw [minus] at hc
          subst hc
          exact absurd h (hexNumber_not_sign _ (Or.inr rfl))
        · rw [hn]; rfl
      | @plus s n h =>
        have hn := (hexNumber_iff _ _).mpr h
        rw [List.map_cons, (plus '+').mpr rfl]
        simp only [hn]
        rfl
      | @minus s n h =>
        have hn := (hexNumber_iff _ _).mpr h
        rw [List.map_cons, (minus '-').mpr rfl]
        simp only [hn]
        rfl
  have strip : ((((s.map asciiOf).dropWhile isSpaceC).reverse.dropWhile isSpaceC).reverse) =
      (((s.dropWhile fun c => isSpaceC (asciiOf c)).reverse.dropWhile
        fun c => isSpaceC (asciiOf c)).reverse).map asciiOf := by
    rw [dropWhile_map, ← List.map_reverse, dropWhile_map, ← List.map_reverse]
  unfold pyInt16
  simp only
  rw [strip, sign]
  have hst := strip_iff (p := fun c => isSpaceC (asciiOf c)) s
  unfold HexInt
  constructor
  · intro h
    obtain ⟨a, b, e, ha, hb, _⟩ := (hst _).mp rfl
    exact ⟨a, _, b, e, fun c hc => (blank_iff c).mp (ha c hc), fun c hc => (blank_iff c).mp (hb c hc), h⟩
  · rintro ⟨a, t, b, e, ha, hb, h⟩
    have hnb := signedHex_not_blank h
    have no : ∀ c ∈ t, isSpaceC (asciiOf c) = false := by
      intro c hc
      have := hnb c hc
      rw [← blank_iff] at this
      simpa using this
    rw [(hst t).mpr ⟨a, b, e, fun c hc => (blank_iff c).mpr (ha c hc),
      fun c hc => (blank_iff c).mpr (hb c hc), fun c hc => no c (List.mem_of_head? hc),
      fun c hc => no c (List.mem_of_getLast? hc)⟩]
    exact h

/-! ### Cutting -/

theorem removeAll_skip (p s : PStr) : ∀ n, removeAll p n s = removeAll p 0 (s.drop n) := by
  induction s with
  | nil => intro n; cases n <;> rfl
  | cons c cs ih =>
    intro n
    cases n with
    | zero => rfl
    | succ n => rw [removeAll, ih, List.drop_succ_cons]

theorem cut_iff (p : PStr) (hp : p ≠ []) (s t : PStr) : removeAll p 0 s = t ↔ Cut p s t := by
  obtain ⟨q, ps, rfl⟩ : ∃ q ps, p = q :: ps := by
    cases p with
    | nil => exact absurd rfl hp
    | cons q ps => exact ⟨q, ps, rfl⟩
  constructor
  · rintro rfl
    have key : ∀ (k : Nat) (s : PStr), s.length ≤ k → Cut (q :: ps) s (removeAll (q :: ps) 0 s) := by
      intro k
      induction k with
      | zero =>
        intro s hs
        have : s = [] := List.length_eq_zero_iff.mp (by omega)
        subst this
        exact .nil
      | succ k ih =>
        intro s hs
        cases s with
        | nil => exact .nil
        | cons c cs =>
          rw [removeAll]
          by_cases h : (q :: ps).isPrefixOf (c :: cs) = true
          · rw [if_pos h]
            obtain ⟨r, hr⟩ := List.isPrefixOf_iff_prefix.mp h
            rw [removeAll_skip]
            have hd : cs.drop ((q :: ps).length - 1) = r := by
              rw [List.cons_append] at hr
              injection hr with _ hr
              rw [← hr]
              simp
            rw [hd, ← hr]
            refine .hit (ih r ?_)
            have := congrArg List.length hr
            simp at this hs
            omega
          · rw [if_neg h]
            refine .keep ?_ (ih cs (by simp at hs; omega))
            rw [← List.isPrefixOf_iff_prefix]
            exact h
    exact key _ s (Nat.le_refl _)
  · intro h
    induction h with
    | nil => rfl
    | @hit s t _ ih =>
      rw [List.cons_append, removeAll, if_pos (by
        rw [List.isPrefixOf_iff_prefix]; exact ⟨s, rfl⟩), removeAll_skip]
      simpa using ih
    | @keep c s t hn _ ih =>
      rw [removeAll, if_neg (by rw [List.isPrefixOf_iff_prefix]; exact hn), ih]

theorem unbraced_iff (s t : PStr) : stripBraces s = t ↔ Unbraced s t := by
  have hb : ∀ c : Char, (c == '{' || c == '}') = true ↔ Brace c := by
    intro c; simp [Brace]
  have hn : ∀ c : Char, (c == '{' || c == '}') = false ↔ ¬ Brace c := by
    intro c; rw [← hb]; simp
  unfold stripBraces Unbraced
  simp only [strip_iff, hb, hn]

/-- `uuid.UUID(text)` reads exactly the texts of the grammar. -/
theorem parseUuid_iff (s : PStr) (u : Nat) : parseUuid s = some u ↔ UuidText s u := by
  have e1 : Cut p!"urn:" s (removeAll p!"urn:" 0 s) := (cut_iff _ (by simp) _ _).mp rfl
  have e2 : ∀ a, Cut p!"uuid:" a (removeAll p!"uuid:" 0 a) := fun a => (cut_iff _ (by simp) _ _).mp rfl
  have e3 : ∀ b, Unbraced b (stripBraces b) := fun b => (unbraced_iff _ _).mp rfl
  unfold parseUuid
  simp only
  rw [removeAll_dash]
  constructor
  · intro h
    split at h
    · cases h
    rename_i hl
    split at h
    · rename_i i hi
      split at h
      · rename_i hr
        injection h with h
        refine ⟨_, _, _, e1, e2 _, e3 _, Classical.not_not.mp hl, ?_⟩
        have := (hexInt_iff _ _).mp hi
        have hu : (u : Int) = i := by omega
        rw [hu]
        exact this
      · cases h
    · cases h
  · rintro ⟨a, b, c, h1, h2, h3, h4, h5⟩
    have ha := (cut_iff _ (by simp) _ _).mpr h1
    subst ha
    have hb := (cut_iff _ (by simp) _ _).mpr h2
    subst hb
    have hc := (unbraced_iff _ _).mpr h3
    subst hc
    rw [if_neg (by rw [h4]; simp), (hexInt_iff _ _).mpr h5]
    have hlt : (u : Int) < 2 ^ 128 := by
      obtain ⟨x, t, y, e, _, _, hs⟩ := h5
      have hlen : t.length ≤ 32 := by
        rw [e] at h4
        simp only [List.length_append] at h4
        omega
      have pow : ∀ k : Nat, k ≤ 32 → (16 : Nat) ^ k ≤ 2 ^ 128 := by
        intro k hk
        have : (16 : Nat) ^ k ≤ 16 ^ 32 := Nat.pow_le_pow_right (by decide) hk
        have e : (16 : Nat) ^ 32 = 2 ^ 128 := by decide
        omega
      generalize hu : (u : Int) = i at hs
      cases hs with
      | plain h =>
        have := (hexNumber_chars h).2.2
        have := pow _ hlen
        omega
      | @plus s n h =>
        have := (hexNumber_chars h).2.2
        have := pow s.length (by simp at hlen; omega)
        omega
      | minus h => omega
    simp only
    rw [if_pos ⟨by omega, hlt⟩]
    simp

theorem uuidText_lt {s : PStr} {u : Nat} (h : UuidText s u) : u < 2 ^ 128 := by
  have h := (parseUuid_iff s u).mpr h
  unfold parseUuid at h
  dsimp only at h
  split at h
  · cases h
  split at h
  · split at h
    · rename_i hi
      injection h with h
      omega
    · cases h
  · cases h

theorem uuidText_unique {s : PStr} {u v : Nat} (h : UuidText s u) (h' : UuidText s v) : u = v := by
  have a := (parseUuid_iff s u).mpr h
  rw [(parseUuid_iff s v).mpr h'] at a
  exact (Option.some.inj a).symm

/-! ### Characters -/

theorem cut_chars {p s t : PStr} (h : Cut p s t) :
    (∀ c ∈ s, c ∈ t ∨ c ∈ p) ∧ t.length ≤ s.length := by
  induction h with
  | nil => simp
  | hit _ ih =>
    constructor
    · intro c hc
      rcases List.mem_append.mp hc with hc | hc
      · exact Or.inr hc
      · exact ih.1 c hc
    · simp; omega
  | keep _ _ ih =>
    constructor
    · intro c hc
      rcases List.mem_cons.mp hc with rfl | hc
      · left; simp
      · rcases ih.1 c hc with h | h
        · left; simp [h]
        · exact Or.inr h
    · simp; omega

end Verif
