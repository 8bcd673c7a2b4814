import Verif.Model.Version
import Verif.Spec.Version
import Verif.Lemmas.Unicode
/-! # Lemmas: the version parser against the version grammar -/

set_option linter.unusedSimpArgs false

namespace Verif

open Spec

theorem char_le_iff (a b : Char) : a ≤ b ↔ a.toNat ≤ b.toNat := by
  rw [Char.le_def, UInt32.le_iff_toNat_le]; rfl

theorem char_ext {a b : Char} (h : a.toNat = b.toNat) : a = b := by
  apply Char.ext
  exact UInt32.toNat.inj h

theorem isDig_iff (c : Char) : isDig c = true ↔ '0' ≤ c ∧ c ≤ '9' := by
  simp [isDig]

theorem isDig_nat (c : Char) : isDig c = true ↔ 48 ≤ c.toNat ∧ c.toNat ≤ 57 := by
  rw [isDig_iff, char_le_iff, char_le_iff]; rfl

theorem isIdChar_iff (c : Char) : isIdChar c = true ↔ IdChar c ∨ c = '.' := by
  simp [isIdChar, IdChar, isDig, or_assoc]
  constructor
  · rintro (h | h | h | h | h) <;> simp [h]
  · rintro (h | h | h | h | h) <;> simp [h]

theorem toNat_digit {n : Nat} (h : n < 10) : (digit n).toNat = 48 + n := by
  unfold digit
  have : (48 + n).isValidChar := by left; omega
  simp [Char.ofNat, this, Char.toNat, Char.ofNatAux]
  omega

theorem isDig_digit {n : Nat} (h : n < 10) : isDig (digit n) = true := by
  rw [isDig_nat, toNat_digit h]; omega

theorem decimal_ne_nil (n : Nat) : decimal n ≠ [] := by
  rw [decimal]; split <;> simp

theorem decimal_digits (n : Nat) : ∀ c ∈ decimal n, isDig c = true := by
  induction n using decimal.induct with
  | case1 n h => rw [decimal, dif_pos h]; simp [isDig_digit h]
  | case2 n h ih =>
    rw [decimal, dif_neg h]
    intro c hc
    rcases List.mem_append.mp hc with hc | hc
    · exact ih c hc
    · simp at hc; subst hc; exact isDig_digit (by omega)

theorem isDec_iff (c : Char) : isDec c = true ↔ ∃ d, Decimal c d := by
  unfold isDec
  rw [Option.isSome_iff_exists]
  simp only [decimalVal_iff]

theorem isDig_decimal {c : Char} (h : isDig c = true) : Decimal c (c.toNat - 48) := by
  rw [isDig_nat] at h
  exact decimal_of_ascii (by omega) (by omega)

theorem isDec_of_isDig {c : Char} (h : isDig c = true) : isDec c = true :=
  (isDec_iff c).mpr ⟨_, isDig_decimal h⟩

theorem isDig_of_isDec {c : Char} (h : isDec c = true) (ha : c.toNat < 127) : isDig c = true := by
  obtain ⟨d, hd⟩ := (isDec_iff c).mp h
  have := decimal_ascii hd ha
  have := hd.lt
  rw [isDig_nat]; omega

theorem digitsVal_append (a : PStr) {c : Char} {d : Nat} (h : Decimal c d) :
    digitsVal (a ++ [c]) = 10 * digitsVal a + d := by
  simp [digitsVal, List.foldl_append, (decimalVal_iff c d).mpr h, Nat.mul_comm]

theorem digits_iff (s : PStr) (n : Nat) :
    Digits s n ↔ s ≠ [] ∧ (∀ c ∈ s, isDec c = true) ∧ digitsVal s = n := by
  constructor
  · intro h
    induction h with
    | @one c d h =>
      refine ⟨by simp, ?_, ?_⟩
      · intro x hx; simp at hx; subst hx; exact (isDec_iff _).mpr ⟨_, h⟩
      · have := digitsVal_append [] h
        simpa [digitsVal] using this
    | @more s n c d _ h ih =>
      refine ⟨by simp, ?_, by rw [digitsVal_append s h, ih.2.2]⟩
      intro x hx
      rcases List.mem_append.mp hx with hx | hx
      · exact ih.2.1 x hx
      · simp at hx; subst hx; exact (isDec_iff _).mpr ⟨_, h⟩
  · rintro ⟨hne, hd, rfl⟩
    have key : ∀ (k : Nat) (s : PStr), s.length = k → s ≠ [] → (∀ c ∈ s, isDec c = true) →
        Digits s (digitsVal s) := by
      intro k
      induction k with
      | zero => intro s hl hne; simp at hl; exact absurd hl hne
      | succ k ih =>
        intro s hl hne hd
        rcases List.eq_nil_or_concat s with rfl | ⟨init, x, rfl⟩
        · exact absurd rfl hne
        · simp only [List.concat_eq_append] at *
          obtain ⟨d, hx⟩ := (isDec_iff x).mp (hd x (by simp))
          rw [digitsVal_append init hx]
          by_cases hi : init = []
          · subst hi
            have e : 10 * digitsVal [] + d = d := by simp [digitsVal]
            rw [e]
            exact .one hx
          · exact .more (ih init (by simp at hl; exact hl) hi fun c hc => hd c (by simp [hc])) hx
    exact key _ s rfl hne hd

theorem digitsVal_decimal (n : Nat) : digitsVal (decimal n) = n := by
  have hdec : ∀ n, n < 10 → Decimal (digit n) n := fun n h =>
    decimal_of_ascii h (by rw [toNat_digit h])
  induction n using decimal.induct with
  | case1 n h =>
    rw [decimal, dif_pos h]
    have := digitsVal_append [] (hdec n h)
    simpa [digitsVal] using this
  | case2 n h ih =>
    rw [decimal, dif_neg h, digitsVal_append _ (hdec (n % 10) (by omega)), ih]
    omega

theorem decimal_head (n : Nat) (h : 0 < n) : (decimal n).head? ≠ some '0' := by
  induction n using decimal.induct with
  | case1 n h' =>
    rw [decimal, dif_pos h']
    simp
    intro e
    have := congrArg Char.toNat e
    rw [toNat_digit h'] at this
    have : 48 + n = 48 := this
    omega
  | case2 n h' ih =>
    rw [decimal, dif_neg h']
    have := ih (by omega)
    cases hd : decimal (n / 10) with
    | nil => exact absurd hd (decimal_ne_nil _)
    | cons x xs => rw [hd] at this; simpa using this

theorem leadingZero_dec (s : PStr) (hd : ∀ c ∈ s, isDec c = true) :
    leadingZero s = false ↔ (s.head? = some '0' → s = p!"0") := by
  have : s.all isDec = true := by simpa [List.all_eq_true] using hd
  unfold leadingZero
  rw [this]
  by_cases h : s.head? = some '0'
  · simp [h]
  · simp [h]

theorem numeral_iff (s : PStr) (n : Nat) : Numeral s n ↔
    s ≠ [] ∧ (∀ c ∈ s, isDec c = true) ∧ leadingZero s = false ∧ digitsVal s = n := by
  unfold Numeral
  rw [digits_iff]
  constructor
  · rintro ⟨⟨a, b, c⟩, d⟩
    exact ⟨a, b, (leadingZero_dec s b).mpr d, c⟩
  · rintro ⟨a, b, c, d⟩
    exact ⟨⟨a, b, d⟩, (leadingZero_dec s b).mp c⟩

theorem numeral_decimal (n : Nat) : Numeral (decimal n) n := by
  refine ⟨(digits_iff _ _).mpr ⟨decimal_ne_nil n, fun c hc => isDec_of_isDig (decimal_digits n c hc),
    digitsVal_decimal n⟩, ?_⟩
  intro h
  rcases Nat.eq_zero_or_pos n with rfl | hp
  · rw [decimal]; rfl
  · exact absurd h (decimal_head n hp)

/-- An ASCII numeral is the decimal text of its value. -/
theorem numeral_ascii {s : PStr} {n : Nat} (h : Numeral s n) (ha : ∀ c ∈ s, c.toNat < 127) :
    s = decimal n := by
  have key : ∀ (k : Nat) (s : PStr) (n : Nat), s.length = k → Numeral s n →
      (∀ c ∈ s, c.toNat < 127) → s = decimal n := by
    intro k
    induction k with
    | zero =>
      intro s n hl h _
      simp at hl
      exact absurd hl ((digits_iff _ _).mp h.1).1
    | succ k ih =>
      intro s n hl h ha
      obtain ⟨hd, hz⟩ := h
      cases hd with
      | @one c d h =>
        have hc := decimal_ascii h (ha c (by simp))
        rw [decimal, dif_pos h.lt]
        congr 1
        apply char_ext
        rw [toNat_digit h.lt, hc]
      | @more s n c d hs h =>
        have hc := decimal_ascii h (ha c (by simp))
        have hne := ((digits_iff _ _).mp hs).1
        have hhead : s.head? ≠ some '0' := by
          intro he
          have := hz (by
            cases s with
            | nil => exact absurd rfl hne
            | cons a as => simpa using he)
          have := congrArg List.length this
          simp at this
          exact hne this
        have hi := ih s n (by simp at hl; exact hl) ⟨hs, fun h => absurd h hhead⟩
          fun x hx => ha x (by simp [hx])
        have hpos : 0 < n := by
          rcases Nat.eq_zero_or_pos n with rfl | hp
          · rw [hi, decimal] at hhead
            exact absurd rfl hhead
          · exact hp
        have hd10 := h.lt
        rw [decimal, dif_neg (by omega)]
        have a1 : (10 * n + d) / 10 = n := by omega
        have a2 : (10 * n + d) % 10 = d := by omega
        rw [a1, a2, ← hi]
        congr 2
        apply char_ext
        rw [toNat_digit hd10, hc]
  exact key _ s n rfl h ha

/-! ### splitting -/

theorem takeWhile_append_stop {p : Char → Bool} {a b : PStr} (ha : ∀ c ∈ a, p c = true)
    (hb : ∀ c, b.head? = some c → p c = false) :
    (a ++ b).takeWhile p = a ∧ (a ++ b).dropWhile p = b := by
  induction a with
  | nil =>
    cases b with
    | nil => simp
    | cons x xs =>
      have := hb x rfl
      simp [List.takeWhile, List.dropWhile, this]
  | cons x xs ih =>
    have hx := ha x (by simp)
    obtain ⟨i1, i2⟩ := ih (fun c hc => ha c (by simp [hc]))
    simp [List.takeWhile, List.dropWhile, hx, i1, i2]

theorem takeWhile_forall {p : Char → Bool} (s : PStr) : ∀ c ∈ s.takeWhile p, p c = true := by
  induction s with
  | nil => simp
  | cons x xs ih =>
    by_cases hx : p x = true
    · simp only [List.takeWhile, hx]
      intro c hc
      rcases List.mem_cons.mp hc with rfl | hc
      · exact hx
      · exact ih c hc
    · simp [List.takeWhile, hx]

theorem parseNum_numeral {t : PStr} {n : Nat} (hn : Numeral t n) (rest : PStr)
    (h : ∀ c, rest.head? = some c → isDec c = false) : parseNum (t ++ rest) = some (n, rest) := by
  obtain ⟨h1, h2, h3, h4⟩ := (numeral_iff t n).mp hn
  obtain ⟨a, b⟩ := takeWhile_append_stop h2 h
  unfold parseNum
  rw [a, b]
  simp [h1, h3, h4]

theorem parseNum_sound {s rest : PStr} {n : Nat} (h : parseNum s = some (n, rest)) :
    ∃ t, Numeral t n ∧ s = t ++ rest := by
  unfold parseNum at h
  simp only at h
  split at h
  · cases h
  · rename_i hc
    injection h with h
    injection h with h1 h2
    simp only [Bool.or_eq_true, not_or, Bool.not_eq_true, List.isEmpty_eq_false_iff] at hc
    exact ⟨_, (numeral_iff _ _).mpr ⟨hc.1, takeWhile_forall s, hc.2, h1⟩, by
      rw [← h2]; exact (List.takeWhile_append_dropWhile).symm⟩

theorem splitDots_ne_nil (s : PStr) : splitDots s ≠ [] := by
  induction s with
  | nil => simp [splitDots]
  | cons c cs ih =>
    unfold splitDots
    split
    · simp
    · split <;> simp

theorem dotted_splitDots (s : PStr) : dotted (splitDots s) = s := by
  induction s with
  | nil => rfl
  | cons c cs ih =>
    unfold splitDots
    by_cases hc : c = '.'
    · rw [if_pos hc]
      cases hs : splitDots cs with
      | nil => exact absurd hs (splitDots_ne_nil cs)
      | cons x xs => rw [hs] at ih; simp [dotted, ih, hc]
    · rw [if_neg hc]
      cases hs : splitDots cs with
      | nil => exact absurd hs (splitDots_ne_nil cs)
      | cons x xs =>
        rw [hs] at ih
        simp only
        cases xs with
        | nil => simp [dotted] at ih ⊢; exact ih
        | cons y ys => simp [dotted] at ih ⊢; exact ih

theorem splitDots_nodot (s : PStr) : ∀ i ∈ splitDots s, '.' ∉ i := by
  induction s with
  | nil => simp [splitDots]
  | cons c cs ih =>
    unfold splitDots
    by_cases hc : c = '.'
    · rw [if_pos hc]
      intro i hi
      rcases List.mem_cons.mp hi with rfl | hi
      · simp
      · exact ih i hi
    · rw [if_neg hc]
      cases hs : splitDots cs with
      | nil => exact absurd hs (splitDots_ne_nil cs)
      | cons x xs =>
        rw [hs] at ih
        simp only
        intro i hi
        rcases List.mem_cons.mp hi with rfl | hi
        · have := ih x (by simp)
          simp [this, Ne.symm hc]
        · exact ih i (by simp [hi])

theorem splitDots_chars (s : PStr) : ∀ i ∈ splitDots s, ∀ c ∈ i, c ∈ s := by
  induction s with
  | nil => simp [splitDots]
  | cons c cs ih =>
    unfold splitDots
    by_cases hc : c = '.'
    · rw [if_pos hc]
      intro i hi
      rcases List.mem_cons.mp hi with rfl | hi
      · simp
      · intro d hd; exact List.mem_cons_of_mem _ (ih i hi d hd)
    · rw [if_neg hc]
      cases hs : splitDots cs with
      | nil => exact absurd hs (splitDots_ne_nil cs)
      | cons x xs =>
        rw [hs] at ih
        simp only
        intro i hi
        rcases List.mem_cons.mp hi with rfl | hi
        · intro d hd
          rcases List.mem_cons.mp hd with rfl | hd
          · simp
          · exact List.mem_cons_of_mem _ (ih x (by simp) d hd)
        · intro d hd; exact List.mem_cons_of_mem _ (ih i (by simp [hi]) d hd)

theorem splitDots_append (a b : PStr) (h : '.' ∉ a) :
    splitDots (a ++ '.' :: b) = a :: splitDots b := by
  induction a with
  | nil => simp [splitDots]
  | cons c cs ih =>
    have hc : c ≠ '.' := by intro e; apply h; simp [e]
    have := ih (by intro e; apply h; simp [e])
    rw [List.cons_append, splitDots, if_neg hc, this]

theorem splitDots_single (a : PStr) (h : '.' ∉ a) : splitDots a = [a] := by
  induction a with
  | nil => rfl
  | cons c cs ih =>
    have hc : c ≠ '.' := by intro e; apply h; simp [e]
    have := ih (by intro e; apply h; simp [e])
    unfold splitDots
    rw [if_neg hc, this]

theorem splitDots_dotted (l : List PStr) (hne : l ≠ []) (h : ∀ i ∈ l, '.' ∉ i) :
    splitDots (dotted l) = l := by
  induction l with
  | nil => exact absurd rfl hne
  | cons x xs ih =>
    cases xs with
    | nil => simp [dotted]; exact splitDots_single x (h x (by simp))
    | cons y ys =>
      rw [dotted, splitDots_append _ _ (h x (by simp)), ih (by simp)]
      intro i hi; exact h i (List.mem_cons_of_mem _ hi)

theorem dotted_chars (l : List PStr) (p : Char → Prop) (hp : p '.') (h : ∀ i ∈ l, ∀ c ∈ i, p c) :
    ∀ c ∈ dotted l, p c := by
  induction l with
  | nil => simp [dotted]
  | cons x xs ih =>
    cases xs with
    | nil => simpa [dotted] using h x (by simp)
    | cons y ys =>
      rw [dotted]
      intro c hc
      rcases List.mem_append.mp hc with hc | hc
      · exact h x (by simp) c hc
      · rcases List.mem_cons.mp hc with rfl | hc
        · exact hp
        · exact ih (fun i hi => h i (List.mem_cons_of_mem _ hi)) c hc

theorem dotted_ne_nil (l : List PStr) (hne : l ≠ []) (h : ∀ i ∈ l, i ≠ []) : dotted l ≠ [] := by
  cases l with
  | nil => exact absurd rfl hne
  | cons x xs =>
    have := h x (by simp)
    cases xs with
    | nil => simpa [dotted] using this
    | cons y ys => simp [dotted, this]

theorem idChar_not_dot {c : Char} (h : IdChar c) : c ≠ '.' := by
  rintro rfl
  revert h
  simp [IdChar]

theorem idChar_ascii {c : Char} (h : IdChar c) : c.toNat < 127 := by
  rcases h with ⟨_, h⟩ | ⟨_, h⟩ | ⟨_, h⟩ | h
  · rw [char_le_iff] at h; have : ('9' : Char).toNat = 57 := rfl; omega
  · rw [char_le_iff] at h; have : ('z' : Char).toNat = 122 := rfl; omega
  · rw [char_le_iff] at h; have : ('Z' : Char).toNat = 90 := rfl; omega
  · rw [h]; decide

theorem leadingZero_iff (i : PStr) (hid : ∀ c ∈ i, IdChar c) :
    leadingZero i = true ↔ LeadingZero i := by
  unfold leadingZero LeadingZero
  simp only [Bool.and_eq_true, beq_iff_eq, bne_iff_ne, List.all_eq_true]
  constructor
  · rintro ⟨⟨h1, h2⟩, h3⟩
    refine ⟨fun c hc => (isDig_iff c).mp (isDig_of_isDec (h2 c hc) (idChar_ascii (hid c hc))), ?_⟩
    cases i with
    | nil => simp at h1
    | cons x xs =>
      simp at h1
      subst h1
      refine ⟨xs, rfl, ?_⟩
      rintro rfl; exact h3 rfl
  · rintro ⟨h2, rest, rfl, hr⟩
    refine ⟨⟨rfl, fun c hc => isDec_of_isDig ((isDig_iff c).mpr (h2 c hc))⟩, ?_⟩
    simp [hr]

/-- Parsed version as a structured one. -/
def Version.ver (v : Version) : Ver := ⟨v.major, v.minor, v.patch, v.pre, v.build⟩

theorem parseBuild_text (l : List PStr) (h : ∀ i ∈ l, i ≠ [] ∧ ∀ c ∈ i, IdChar c) :
    parseBuild (if l = [] then [] else '+' :: dotted l) = some l := by
  by_cases hl : l = []
  · simp [hl, parseBuild]
  · rw [if_neg hl]
    have hd : ∀ i ∈ l, '.' ∉ i := fun i hi hc => idChar_not_dot ((h i hi).2 _ hc) rfl
    have hs := splitDots_dotted l hl hd
    have h1 : (dotted l).all isIdChar = true := by
      rw [List.all_eq_true]
      apply dotted_chars
      · decide
      · intro i hi c hc; rw [isIdChar_iff]; exact Or.inl ((h i hi).2 c hc)
    have h2 : (dotted l).isEmpty = false := by
      rw [List.isEmpty_eq_false_iff]; exact dotted_ne_nil l hl fun i hi => (h i hi).1
    have h3 : identsOk true l = true := by
      unfold identsOk
      rw [List.all_eq_true]
      intro i hi
      simp [(h i hi).1]
    simp [parseBuild, h1, h2, hs, h3]

theorem parseBuild_sound {s : PStr} {l : List PStr} (h : parseBuild s = some l) :
    s = (if l = [] then [] else '+' :: dotted l) ∧ ∀ i ∈ l, i ≠ [] ∧ ∀ c ∈ i, IdChar c := by
  unfold parseBuild at h
  cases s with
  | nil => simp at h; subst h; simp
  | cons c cs =>
    simp only at h
    split at h
    · rename_i hc
      injection h with h
      simp only [Bool.and_eq_true, decide_eq_true_eq, List.all_eq_true] at hc
      obtain ⟨⟨⟨hc1, hc2⟩, hc3⟩, hc4⟩ := hc
      subst h
      constructor
      · rw [if_neg (splitDots_ne_nil cs), dotted_splitDots, hc1]
      · intro i hi
        unfold identsOk at hc4
        rw [List.all_eq_true] at hc4
        have h4 := hc4 i hi
        simp at h4
        refine ⟨h4, ?_⟩
        intro d hd
        have := hc3 d (splitDots_chars cs i hi d hd)
        rw [isIdChar_iff] at this
        rcases this with h | h
        · exact h
        · subst h; exact absurd hd (splitDots_nodot cs i hi)
    · cases h

theorem parseSuffix_text (pre build : List PStr)
    (hp : ∀ i ∈ pre, i ≠ [] ∧ (∀ c ∈ i, IdChar c) ∧ ¬ LeadingZero i)
    (hb : ∀ i ∈ build, i ≠ [] ∧ ∀ c ∈ i, IdChar c) :
    parseSuffix ((if pre = [] then [] else '-' :: dotted pre)
      ++ (if build = [] then [] else '+' :: dotted build)) = some (pre, build) := by
  by_cases hl : pre = []
  · subst hl
    rw [if_pos rfl, List.nil_append]
    have := parseBuild_text build hb
    unfold parseSuffix
    split
    · rename_i cs hcs
      by_cases hbl : build = []
      · simp [hbl] at hcs
      · rw [if_neg hbl] at hcs; simp at hcs
    · rw [this]; rfl
  · rw [if_neg hl]
    have hd : ∀ i ∈ pre, '.' ∉ i := fun i hi hc => idChar_not_dot ((hp i hi).2.1 _ hc) rfl
    have h1 : ∀ c ∈ dotted pre, isIdChar c = true := by
      apply dotted_chars
      · decide
      · intro i hi c hc; rw [isIdChar_iff]; exact Or.inl ((hp i hi).2.1 c hc)
    have hstop : ∀ c, (if build = [] then [] else '+' :: dotted build).head? = some c →
        isIdChar c = false := by
      intro c hc
      by_cases hbl : build = []
      · simp [hbl] at hc
      · rw [if_neg hbl] at hc; simp at hc; subst hc; decide
    obtain ⟨t1, t2⟩ := takeWhile_append_stop h1 hstop
    have h3 : identsOk false pre = true := by
      unfold identsOk
      rw [List.all_eq_true]
      intro i hi
      obtain ⟨a, d, b⟩ := hp i hi
      have b' : leadingZero i = false := by
        rw [← Bool.not_eq_true, leadingZero_iff i d]; exact b
      simp [a, b']
    rw [List.cons_append]
    unfold parseSuffix
    simp only
    rw [t1, t2, splitDots_dotted pre hl hd, parseBuild_text build hb]
    have h2 : (dotted pre).isEmpty = false := by
      rw [List.isEmpty_eq_false_iff]; exact dotted_ne_nil pre hl fun i hi => (hp i hi).1
    simp [h2, h3]

theorem parseSuffix_sound {s : PStr} {pre build : List PStr}
    (h : parseSuffix s = some (pre, build)) :
    s = (if pre = [] then [] else '-' :: dotted pre)
      ++ (if build = [] then [] else '+' :: dotted build) ∧
    (∀ i ∈ pre, i ≠ [] ∧ (∀ c ∈ i, IdChar c) ∧ ¬ LeadingZero i) ∧
    (∀ i ∈ build, i ≠ [] ∧ ∀ c ∈ i, IdChar c) := by
  unfold parseSuffix at h
  split at h
  · rename_i cs
    simp only at h
    split at h
    · cases h
    · rename_i hc
      simp only [Bool.or_eq_true, Bool.not_eq_true', not_or, Bool.not_eq_true,
        Bool.not_eq_false] at hc
      obtain ⟨c1, c2⟩ := hc
      cases hb : parseBuild (cs.dropWhile isIdChar) with
      | none => rw [hb] at h; cases h
      | some l =>
        rw [hb] at h
        injection h with h
        injection h with h1 h2
        subst h1; subst h2
        obtain ⟨b1, b2⟩ := parseBuild_sound hb
        refine ⟨?_, ?_, b2⟩
        · rw [if_neg (splitDots_ne_nil _), dotted_splitDots, ← b1, List.cons_append,
            List.takeWhile_append_dropWhile]
        · intro i hi
          unfold identsOk at c2
          rw [List.all_eq_true] at c2
          have := c2 i hi
          simp at this
          have hid : ∀ d ∈ i, IdChar d := by
            intro d hd
            have hd' := takeWhile_forall cs d (splitDots_chars _ i hi d hd)
            rw [isIdChar_iff] at hd'
            rcases hd' with h | h
            · exact h
            · subst h; exact absurd hd (splitDots_nodot _ i hi)
          refine ⟨this.1, hid, ?_⟩
          rw [← leadingZero_iff i hid, this.2]; simp
  · cases hb : parseBuild s with
    | none => rw [hb] at h; cases h
    | some l =>
      rw [hb] at h
      injection h with h
      injection h with h1 h2
      subst h1; subst h2
      obtain ⟨b1, b2⟩ := parseBuild_sound hb
      refine ⟨?_, by simp, b2⟩
      rw [if_pos rfl, List.nil_append]; exact b1

theorem digit_stop {c d : Char} {s : PStr} (hd : isDec d = false) (h : (d :: s).head? = some c) :
    isDec c = false := by
  simp at h; rw [← h]; exact hd

theorem suffix_stop (pre build : List PStr) : ∀ c,
    ((if pre = [] then [] else '-' :: dotted pre)
      ++ (if build = [] then [] else '+' :: dotted build)).head? = some c → isDec c = false := by
  intro c hc
  by_cases h1 : pre = []
  · by_cases h2 : build = []
    · simp [h1, h2] at hc
    · rw [if_pos h1, if_neg h2] at hc; simp at hc; subst hc; decide
  · rw [if_neg h1] at hc; simp at hc; subst hc; decide

/-- The text of a version with no newline at its end. -/
theorem parse_core (v : Ver) (hw : v.Wf) (s : PStr) (hs : v.Said (stripNl s)) :
    parseVersion s = some ⟨v.major, v.minor, v.patch, v.pre, v.build⟩ := by
  obtain ⟨a, b, c, ha, hb, hc, e⟩ := hs
  unfold parseVersion
  rw [e, parseNum_numeral ha _ (fun c hc => digit_stop (d := '.') (by decide) hc)]
  simp only [expect, if_true]
  rw [parseNum_numeral hb _ (fun c hc => digit_stop (d := '.') (by decide) hc)]
  simp only [expect, if_true]
  rw [parseNum_numeral hc _ (suffix_stop _ _)]
  simp only
  rw [parseSuffix_text _ _ hw.pre hw.build]

theorem expect_sound {c : Char} {s r : PStr} (h : expect c s = some r) : s = c :: r := by
  cases s with
  | nil => cases h
  | cons x xs =>
    simp only [expect] at h
    split at h
    · rename_i hx; injection h with h; rw [hx, h]
    · cases h

theorem parse_sound {s : PStr} {v : Version} (h : parseVersion s = some v) :
    v.ver.Wf ∧ v.ver.Said (stripNl s) := by
  unfold parseVersion at h
  split at h
  · cases h
  rename_i ma s1 h1
  split at h
  · cases h
  rename_i s2 h2
  split at h
  · cases h
  rename_i mi s3 h3
  split at h
  · cases h
  rename_i s4 h4
  split at h
  · cases h
  rename_i pa s5 h5
  split at h
  · cases h
  rename_i pre build h6
  injection h with h
  subst h
  obtain ⟨a, b, c⟩ := parseSuffix_sound h6
  obtain ⟨t1, n1, e1⟩ := parseNum_sound h1
  obtain ⟨t2, n2, e2⟩ := parseNum_sound h3
  obtain ⟨t3, n3, e3⟩ := parseNum_sound h5
  refine ⟨⟨b, c⟩, t1, t2, t3, n1, n2, n3, ?_⟩
  rw [e1, expect_sound h2, e2, expect_sound h4, e3, a]
  rfl

theorem idChar_not_nl {c : Char} (h : IdChar c) : c ≠ '\n' := by
  rintro rfl; revert h; simp [IdChar]

theorem text_said (v : Ver) : v.Said v.text :=
  ⟨_, _, _, numeral_decimal _, numeral_decimal _, numeral_decimal _, rfl⟩

/-- The characters of a version text. -/
theorem said_chars {v : Ver} (hw : v.Wf) {s : PStr} (h : v.Said s) :
    ∀ c ∈ s, (∃ d, Decimal c d) ∨ IdChar c ∨ c = '.' ∨ c = '+' := by
  obtain ⟨a, b, c, ha, hb, hc, rfl⟩ := h
  have hnum : ∀ {t : PStr} {n : Nat}, Numeral t n → ∀ c ∈ t,
      (∃ d, Decimal c d) ∨ IdChar c ∨ c = '.' ∨ c = '+' := fun hn c hc =>
    Or.inl ((isDec_iff c).mp (((numeral_iff _ _).mp hn).2.1 c hc))
  have hdot : ∀ l : List PStr, (∀ i ∈ l, ∀ c ∈ i, IdChar c) → ∀ c ∈ dotted l,
      (∃ d, Decimal c d) ∨ IdChar c ∨ c = '.' ∨ c = '+' := fun l h =>
    dotted_chars l _ (by simp) fun i hi c hc => Or.inr (Or.inl (h i hi c hc))
  intro x hx
  simp only [List.mem_append, List.mem_cons] at hx
  rcases hx with h | h | h | h | h | h | h
  · exact hnum ha x h
  · simp [h]
  · exact hnum hb x h
  · simp [h]
  · exact hnum hc x h
  · split at h
    · cases h
    · rcases List.mem_cons.mp h with h | h
      · subst h; right; left; simp [IdChar]
      · exact hdot _ (fun i hi => (hw.pre i hi).2.1) x h
  · split at h
    · cases h
    · rcases List.mem_cons.mp h with h | h
      · simp [h]
      · exact hdot _ (fun i hi => (hw.build i hi).2) x h

/-- An ASCII text that says a version is the text of that version. -/
theorem said_ascii {v : Ver} {s : PStr} (h : v.Said s) (ha : ∀ c ∈ s, c.toNat < 127) : s = v.text := by
  obtain ⟨a, b, c, h1, h2, h3, rfl⟩ := h
  have e1 := numeral_ascii h1 (fun x hx => ha x (by simp [hx]))
  have e2 := numeral_ascii h2 (fun x hx => ha x (by simp [hx]))
  have e3 := numeral_ascii h3 (fun x hx => ha x (by simp [hx]))
  rw [e1, e2, e3]
  rfl

theorem said_no_nl {v : Ver} (hw : v.Wf) {s : PStr} (h : v.Said s) : ∀ c ∈ s, c ≠ '\n' := by
  intro c hc
  rintro rfl
  rcases said_chars hw h _ hc with hd | h | h | h
  · have := (isDec_iff _).mpr hd
    exact absurd this (by decide)
  · exact idChar_not_nl h rfl
  · exact absurd h (by decide)
  · exact absurd h (by decide)

theorem stripNl_said {v : Ver} (hw : v.Wf) {s : PStr} (hs : v.Said s) : stripNl s = s := by
  unfold stripNl
  rw [if_neg]
  intro h
  have := List.mem_of_getLast? h
  exact said_no_nl hw hs _ this rfl

theorem stripNl_nl (s : PStr) : stripNl (s ++ ['\n']) = s := by
  simp [stripNl]

theorem parse_said {v : Ver} (hw : v.Wf) {s : PStr} (hs : v.Said s) :
    parseVersion s = some ⟨v.major, v.minor, v.patch, v.pre, v.build⟩ :=
  parse_core v hw _ (by rw [stripNl_said hw hs]; exact hs)

theorem parse_text (v : Ver) (hw : v.Wf) :
    parseVersion v.text = some ⟨v.major, v.minor, v.patch, v.pre, v.build⟩ :=
  parse_said hw (text_said v)

end Verif
