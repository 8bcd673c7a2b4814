import Verif.Spec.IpAddr
import Verif.Lemmas.Hex
/-! # Lemmas about the IP address parser -/

namespace Verif

open Spec

/-! ### Splitting -/

theorem splitC_ne (d : Char) (s : PStr) : splitC d s ≠ [] := by
  cases s with
  | nil => simp [splitC]
  | cons c cs =>
    unfold splitC
    split
    · simp
    · split <;> simp

theorem splitC_sep (d : Char) (l u : PStr) : splitC d (l ++ d :: u) = splitC d l ++ splitC d u := by
  induction l with
  | nil => simp [splitC]
  | cons c cs ih =>
    rw [List.cons_append]
    by_cases h : c = d
    · simp only [splitC, h, if_true, ih, List.cons_append]
    · simp only [splitC, h, if_false, ih]
      cases hs : splitC d cs with
      | nil => exact absurd hs (splitC_ne d cs)
      | cons p ps => rfl

theorem splitC_none {d : Char} {s : PStr} (h : d ∉ s) : splitC d s = [s] := by
  induction s with
  | nil => rfl
  | cons c cs ih =>
    simp only [List.mem_cons, not_or] at h
    simp only [splitC, if_neg (Ne.symm h.1), ih h.2]

theorem splitC_free (d : Char) (s : PStr) : ∀ p ∈ splitC d s, d ∉ p := by
  induction s with
  | nil => simp [splitC]
  | cons c cs ih =>
    unfold splitC
    split
    · intro p hp
      rcases List.mem_cons.mp hp with rfl | hp
      · simp
      · exact ih p hp
    · rename_i hc
      cases hs : splitC d cs with
      | nil => exact absurd hs (splitC_ne d cs)
      | cons q qs =>
        rw [hs] at ih
        intro p hp
        rcases List.mem_cons.mp hp with rfl | hp
        · have := ih q (by simp)
          simp only [List.mem_cons, not_or]
          exact ⟨Ne.symm hc, this⟩
        · exact ih p (by simp [hp])

/-- The parts with the separator between them. -/
def joinC (d : Char) : List PStr → PStr
  | [] => []
  | [p] => p
  | p :: q :: ps => p ++ d :: joinC d (q :: ps)

theorem joinC_cons (d : Char) (p : PStr) {ps : List PStr} (h : ps ≠ []) :
    joinC d (p :: ps) = p ++ d :: joinC d ps := by
  cases ps with
  | nil => exact absurd rfl h
  | cons q qs => rfl

theorem joinC_append (d : Char) {a b : List PStr} (ha : a ≠ []) (hb : b ≠ []) :
    joinC d (a ++ b) = joinC d a ++ d :: joinC d b := by
  induction a with
  | nil => exact absurd rfl ha
  | cons p ps ih =>
    cases ps with
    | nil => exact joinC_cons d p hb
    | cons q qs =>
      rw [List.cons_append, joinC_cons d p (by simp), ih (by simp), joinC_cons d p (by simp)]
      simp

theorem joinC_split (d : Char) (s : PStr) : joinC d (splitC d s) = s := by
  induction s with
  | nil => rfl
  | cons c cs ih =>
    unfold splitC
    split
    · rename_i h
      rw [joinC_cons d _ (splitC_ne d cs), ih, h]
      rfl
    · cases hs : splitC d cs with
      | nil => exact absurd hs (splitC_ne d cs)
      | cons q qs =>
        rw [hs] at ih
        cases qs with
        | nil => simp only [joinC] at ih ⊢; rw [ih]
        | cons r rs =>
          rw [joinC_cons d _ (by simp)] at ih
          dsimp only
          rw [joinC_cons d _ (by simp), List.cons_append, ih]

theorem splitC_join (d : Char) {ps : List PStr} (hne : ps ≠ []) (h : ∀ p ∈ ps, d ∉ p) :
    splitC d (joinC d ps) = ps := by
  induction ps with
  | nil => exact absurd rfl hne
  | cons p ps ih =>
    cases ps with
    | nil => exact splitC_none (h p (by simp))
    | cons q qs =>
      rw [joinC_cons d p (by simp), splitC_sep, splitC_none (h p (by simp)),
        ih (by simp) (fun x hx => h x (by simp [hx]))]
      rfl

/-! ### Numbers -/

theorem snoc_cases {α : Type} (s : List α) : s = [] ∨ ∃ t c, s = t ++ [c] := by
  rcases List.eq_nil_or_concat s with h | ⟨t, c, h⟩
  · exact Or.inl h
  · exact Or.inr ⟨t, c, by rw [h, List.concat_eq_append]⟩

theorem hexNum_iff (s : PStr) (n : Nat) : HexNum s n ↔
    s.all (fun c => (hexVal c).isSome) = true ∧ s.foldl (fun a c => a * 16 + (hexVal c).getD 0) 0 = n := by
  constructor
  · intro h
    induction h with
    | nil => simp
    | snoc _ hd ih =>
      rw [← hexVal_iff] at hd
      rw [List.all_append, ih.1, List.foldl_append, ih.2]
      simp only [List.all_cons, List.all_nil, hd, List.foldl_cons, List.foldl_nil, Option.getD_some,
        Option.isSome_some, Bool.and_self, true_and]
      omega
  · suffices ∀ (k : Nat) (s : PStr) (n : Nat), s.length = k → s.all (fun c => (hexVal c).isSome) = true →
        s.foldl (fun a c => a * 16 + (hexVal c).getD 0) 0 = n → HexNum s n from
      fun h => this s.length s n rfl h.1 h.2
    intro k
    induction k with
    | zero =>
      intro s n hk _ hn
      rw [List.length_eq_zero_iff.mp hk] at hn ⊢
      exact hn ▸ .nil
    | succ k ih =>
      intro s n hk ha hn
      rcases snoc_cases s with rfl | ⟨t, c, rfl⟩
      · simp at hk
      · rw [List.all_append, Bool.and_eq_true] at ha
        simp only [List.all_cons, List.all_nil, Bool.and_true] at ha
        obtain ⟨d, hd⟩ := Option.isSome_iff_exists.mp ha.2
        rw [List.foldl_append] at hn
        simp only [List.foldl_cons, List.foldl_nil, hd, Option.getD_some] at hn
        have := HexNum.snoc (ih t _ (by simpa using hk) ha.1 rfl) ((hexVal_iff c d).mp hd)
        rw [← hn, Nat.mul_comm]
        exact this

theorem decDigit_iff (c : Char) (d : Nat) : p!"0123456789"[d]? = some c ↔
    48 ≤ c.toNat ∧ c.toNat ≤ 57 ∧ d = c.toNat - 48 := by
  constructor
  · intro h
    have hd : d < 10 := (List.getElem?_eq_some_iff.mp h).1
    have : d = 0 ∨ d = 1 ∨ d = 2 ∨ d = 3 ∨ d = 4 ∨ d = 5 ∨ d = 6 ∨ d = 7 ∨ d = 8 ∨ d = 9 := by omega
    rcases this with rfl | rfl | rfl | rfl | rfl | rfl | rfl | rfl | rfl | rfl <;>
      (simp only [List.getElem?_cons_succ, List.getElem?_cons_zero, Option.some.injEq] at h
       subst h
       decide)
  · rintro ⟨h1, h2, rfl⟩
    have hc : ∀ k : Nat, k.isValidChar → c.toNat = k → c = Char.ofNat k := by
      intro k hk h
      rw [← h, Char.ofNat_toNat]
    have : c.toNat = 48 ∨ c.toNat = 49 ∨ c.toNat = 50 ∨ c.toNat = 51 ∨ c.toNat = 52 ∨ c.toNat = 53 ∨
      c.toNat = 54 ∨ c.toNat = 55 ∨ c.toNat = 56 ∨ c.toNat = 57 := by omega
    rcases this with h | h | h | h | h | h | h | h | h | h <;>
      rw [hc _ (by decide) h] <;> rfl

theorem decText_iff (s : PStr) (n : Nat) : DecText s n ↔
    s.all (fun c => 48 ≤ c.toNat && c.toNat ≤ 57) = true ∧
      s.foldl (fun a c => a * 10 + (c.toNat - 48)) 0 = n := by
  constructor
  · intro h
    induction h with
    | nil => simp
    | snoc _ hd ih =>
      rw [decDigit_iff] at hd
      rw [List.all_append, ih.1, List.foldl_append, ih.2]
      simp only [List.all_cons, List.all_nil, List.foldl_cons, List.foldl_nil, Bool.and_true,
        Bool.true_and, Bool.and_eq_true, decide_eq_true_eq]
      omega
  · suffices ∀ (k : Nat) (s : PStr) (n : Nat), s.length = k →
        s.all (fun c => 48 ≤ c.toNat && c.toNat ≤ 57) = true →
        s.foldl (fun a c => a * 10 + (c.toNat - 48)) 0 = n → DecText s n from
      fun h => this s.length s n rfl h.1 h.2
    intro k
    induction k with
    | zero =>
      intro s n hk _ hn
      rw [List.length_eq_zero_iff.mp hk] at hn ⊢
      exact hn ▸ .nil
    | succ k ih =>
      intro s n hk ha hn
      rcases snoc_cases s with rfl | ⟨t, c, rfl⟩
      · simp at hk
      · rw [List.all_append, Bool.and_eq_true] at ha
        simp only [List.all_cons, List.all_nil, Bool.and_true, Bool.and_eq_true,
          decide_eq_true_eq] at ha
        rw [List.foldl_append] at hn
        simp only [List.foldl_cons, List.foldl_nil] at hn
        have := DecText.snoc (ih t _ (by simpa using hk) ha.1 rfl)
          ((decDigit_iff c _).mpr ⟨ha.2.1, ha.2.2, rfl⟩)
        rw [← hn, Nat.mul_comm]
        exact this

theorem parseOctet_iff (pol : IpPolicy) (s : PStr) (n : Nat) :
    parseOctet pol s = some n ↔ Octet pol s n := by
  have hz : (s.head? = some '0' ∧ 1 < s.length) ↔ ∃ t, s = '0' :: t ∧ t ≠ [] := by
    constructor
    · rintro ⟨h1, h2⟩
      cases s with
      | nil => cases h1
      | cons c t =>
        injection h1 with h1
        subst h1
        exact ⟨t, rfl, by rintro rfl; simp at h2⟩
    · rintro ⟨t, rfl, ht⟩
      have := List.length_pos_iff.mpr ht
      exact ⟨rfl, by rw [List.length_cons]; omega⟩
  unfold parseOctet
  constructor
  · intro h
    split at h
    · cases h
    rename_i h1
    split at h
    · cases h
    rename_i h2
    split at h
    · cases h
    rename_i h3
    dsimp only at h
    split at h
    · cases h
    rename_i h4
    split at h
    · cases h
    rename_i h5
    split at h
    · cases h
    rename_i h6
    injection h with h
    rw [h] at h4 h6
    refine ⟨(decText_iff s n).mpr ⟨by simpa using h2, h⟩, h1, by omega, by omega, ?_⟩
    intro hs
    have hs := hz.mpr hs
    cases hp : pol.zeros with
    | allowed => exact Or.inl rfl
    | refused => exact absurd ⟨hp, hs⟩ h5
    | ambiguous =>
      refine Or.inr ⟨rfl, ?_⟩
      apply Nat.le_of_not_lt
      exact fun h7 => h4 ⟨hp, h7, hs⟩
  · rintro ⟨h1, h2, h3, h4, h5⟩
    rw [decText_iff] at h1
    rw [if_neg h2, h1.1, if_neg (by simp), if_neg (by omega)]
    dsimp only
    rw [h1.2, if_neg, if_neg, if_neg (by omega)]
    · rintro ⟨hp, hs⟩
      rcases h5 (hz.mp hs) with h | ⟨h, _⟩ <;> rw [hp] at h <;> cases h
    · rintro ⟨hp, h7, hs⟩
      rcases h5 (hz.mp hs) with h | ⟨h, h8⟩
      · rw [hp] at h; cases h
      · omega

theorem parseHextet_iff (s : PStr) (n : Nat) : parseHextet s = some n ↔ Hextet s n := by
  unfold parseHextet
  constructor
  · intro h
    split at h
    · cases h
    rename_i h1
    split at h
    · cases h
    rename_i h2
    split at h
    · cases h
    rename_i h3
    injection h with h
    refine ⟨(hexNum_iff s n).mpr ⟨?_, h⟩, h3, by omega⟩
    cases ha : s.all (fun c => (hexVal c).isSome) with
    | true => rfl
    | false => rw [ha] at h1; exact absurd rfl h1
  · rintro ⟨h1, h2, h3⟩
    rw [hexNum_iff] at h1
    rw [h1.1, if_neg (by simp), if_neg (by omega), if_neg h2, h1.2]

theorem octet_digits {pol : IpPolicy} {s : PStr} {n : Nat} (h : Octet pol s n) :
    ∀ c ∈ s, 48 ≤ c.toNat ∧ c.toNat ≤ 57 := by
  have := ((decText_iff s n).mp h.value).1
  rw [List.all_eq_true] at this
  intro c hc
  simpa using this c hc

theorem octet_free {pol : IpPolicy} {s : PStr} {n : Nat} (h : Octet pol s n) {c : Char}
    (hc : ¬ (48 ≤ c.toNat ∧ c.toNat ≤ 57)) : c ∉ s := fun hm => hc (octet_digits h c hm)

theorem parseIpv4_iff (pol : IpPolicy) (s : PStr) (w x y z : Nat) :
    parseIpv4 pol s = some (w, x, y, z) ↔ Quad pol s w x y z := by
  unfold parseIpv4
  constructor
  · intro h
    split at h
    · rename_i a b c d hs
      split at h
      · rename_i w' x' y' z' h1 h2 h3 h4
        simp only [Option.some.injEq, Prod.mk.injEq] at h
        obtain ⟨rfl, rfl, rfl, rfl⟩ := h
        rw [parseOctet_iff] at h1 h2 h3 h4
        have e := joinC_split '.' s
        rw [hs] at e
        simp only [joinC] at e
        rw [← e]
        have := Quad.mk h1 h2 h3 h4
        simpa using this
      · cases h
    · cases h
  · intro h
    cases h with
    | @mk a b c d _ _ _ _ h1 h2 h3 h4 =>
      have free : ∀ {t : PStr} {n : Nat}, Octet pol t n → '.' ∉ t :=
        fun h => octet_free h (by decide)
      have hs : splitC '.' (a ++ '.' :: b ++ '.' :: c ++ '.' :: d) = [a, b, c, d] := by
        rw [splitC_sep, splitC_sep, splitC_sep, splitC_none (free h1), splitC_none (free h2),
          splitC_none (free h3), splitC_none (free h4)]
        rfl
      rw [hs]
      simp only [(parseOctet_iff pol _ _).mpr h1, (parseOctet_iff pol _ _).mpr h2,
        (parseOctet_iff pol _ _).mpr h3, (parseOctet_iff pol _ _).mpr h4]

/-! ### Hextets -/

theorem hextet_free {s : PStr} {n : Nat} (h : Hextet s n) {c : Char} (hc : hexVal c = none) : c ∉ s := by
  intro hm
  have := ((hexNum_iff s n).mp h.value).1
  rw [List.all_eq_true] at this
  have := this c hm
  rw [hc] at this
  cases this

theorem hexNum_toDigits (n : Nat) : HexNum (Nat.toDigits 16 n) n := by
  have nib : ∀ {k : Nat}, k < 16 → Nibble (Nat.digitChar k) k := by
    intro k h
    rcases lt16_cases h with rfl | rfl | rfl | rfl | rfl | rfl | rfl | rfl | rfl | rfl | rfl |
        rfl | rfl | rfl | rfl | rfl <;> exact Or.inl rfl
  induction n using Nat.strongRecOn with
  | ind n ih =>
    rw [Nat.toDigits_eq_if (by omega)]
    split
    · rename_i h
      have := HexNum.snoc .nil (nib h)
      simpa using this
    · have := HexNum.snoc (ih (n / 16) (by omega)) (nib (Nat.mod_lt n (by omega : 16 > 0)))
      rw [Nat.div_add_mod] at this
      exact this

theorem hextet_toDigits {n : Nat} (h : n < 65536) : Hextet (Nat.toDigits 16 n) n :=
  ⟨hexNum_toDigits n, Nat.toDigits_ne_nil, (Nat.length_toDigits_le_iff (by omega) (by omega)).mpr h⟩

theorem parseAll_cons {f : PStr → Option Nat} {p : PStr} {ps : List PStr} {zs : List Nat} :
    parseAll f (p :: ps) = some zs ↔ ∃ x xs, f p = some x ∧ parseAll f ps = some xs ∧ zs = x :: xs := by
  rw [parseAll]
  cases f p <;> cases parseAll f ps <;> simp [eq_comm]

theorem parseAll_length {f : PStr → Option Nat} {ps : List PStr} {zs : List Nat}
    (h : parseAll f ps = some zs) : zs.length = ps.length := by
  induction ps generalizing zs with
  | nil => simp only [parseAll, Option.some.injEq] at h; rw [← h]; rfl
  | cons p ps ih =>
    obtain ⟨x, xs, _, h2, rfl⟩ := parseAll_cons.mp h
    rw [List.length_cons, ih h2, List.length_cons]

theorem parseAll_mem {ps : List PStr} {zs : List Nat} (h : parseAll parseHextet ps = some zs) :
    ∀ p ∈ ps, p ≠ [] := by
  induction ps generalizing zs with
  | nil => simp
  | cons p ps ih =>
    obtain ⟨x, xs, h1, h2, rfl⟩ := parseAll_cons.mp h
    intro q hq
    rcases List.mem_cons.mp hq with rfl | hq
    · exact ((parseHextet_iff _ _).mp h1).some
    · exact ih h2 q hq

theorem hextets_of_parts {ps : List PStr} {xs : List Nat} (hne : ps ≠ [])
    (h : parseAll parseHextet ps = some xs) : Hextets (joinC ':' ps) xs := by
  induction ps generalizing xs with
  | nil => exact absurd rfl hne
  | cons p ps ih =>
    obtain ⟨x, ys, h1, h2, rfl⟩ := parseAll_cons.mp h
    rw [parseHextet_iff] at h1
    cases ps with
    | nil =>
      simp only [parseAll, Option.some.injEq] at h2
      rw [← h2]
      exact .one h1
    | cons q qs =>
      rw [joinC_cons _ _ (by simp)]
      exact .cons h1 (ih (by simp) h2)

theorem parts_of_hextets {s : PStr} {xs : List Nat} (h : Hextets s xs) :
    parseAll parseHextet (splitC ':' s) = some xs := by
  induction h with
  | one h =>
    rw [splitC_none (hextet_free h (by decide)), parseAll, (parseHextet_iff _ _).mpr h]
    rfl
  | cons h _ ih =>
    rw [splitC_sep, splitC_none (hextet_free h (by decide)), List.singleton_append, parseAll,
      (parseHextet_iff _ _).mpr h, ih]

/-! ### A trailing IPv4 address -/

theorem expandV4_append (pol : IpPolicy) (a : List PStr) {b : List PStr} (hb : b ≠ []) :
    expandV4 pol (a ++ b) = (expandV4 pol b).map (a ++ ·) := by
  rcases snoc_cases b with rfl | ⟨t, c, rfl⟩
  · exact absurd rfl hb
  · unfold expandV4
    rw [← List.append_assoc, List.getLast?_concat, List.getLast?_concat]
    dsimp only
    split
    · rw [List.dropLast_concat, List.dropLast_concat]
      split <;> simp
    · simp

theorem expandV4_one (pol : IpPolicy) (p : PStr) : expandV4 pol [p] =
    if p.contains '.' then
      match parseIpv4 pol p with
      | none => none
      | some (a, b, c, d) => some [Nat.toDigits 16 (a * 256 + b), Nat.toDigits 16 (c * 256 + d)]
    else some [p] := by
  unfold expandV4
  simp
  rfl

theorem quad_dot {pol : IpPolicy} {s : PStr} {a b c d : Nat} (h : Quad pol s a b c d) :
    s.contains '.' = true ∧ ':' ∉ s ∧ a ≤ 255 ∧ b ≤ 255 ∧ c ≤ 255 ∧ d ≤ 255 := by
  cases h with
  | mk h1 h2 h3 h4 =>
    have f : ∀ {t : PStr} {n : Nat}, Octet pol t n → ':' ∉ t := fun h => octet_free h (by decide)
    refine ⟨by simp, ?_, h1.byte, h2.byte, h3.byte, h4.byte⟩
    simp only [List.mem_append, List.mem_cons, not_or]
    exact ⟨⟨⟨f h1, by decide, f h2⟩, by decide, f h3⟩, by decide, f h4⟩

theorem groups_of_parts {pol : IpPolicy} {ps qs : List PStr} {xs : List Nat}
    (he : expandV4 pol ps = some qs) (h : parseAll parseHextet qs = some xs) :
    Groups pol (joinC ':' ps) xs := by
  induction ps generalizing qs xs with
  | nil => cases he
  | cons p ps ih =>
    cases ps with
    | nil =>
      rw [expandV4_one] at he
      split at he
      · split at he
        · cases he
        rename_i a b c d hq
        injection he with he
        subst he
        rw [parseIpv4_iff] at hq
        obtain ⟨_, _, ha, hb, hc, hd⟩ := quad_dot hq
        have e1 := (parseHextet_iff _ _).mpr (hextet_toDigits (n := a * 256 + b) (by omega))
        have e2 := (parseHextet_iff _ _).mpr (hextet_toDigits (n := c * 256 + d) (by omega))
        simp only [parseAll, e1, e2, Option.some.injEq] at h
        rw [← h]
        exact .quad hq
      · injection he with he
        subst he
        obtain ⟨x, ys, h1, h2, rfl⟩ := parseAll_cons.mp h
        simp only [parseAll, Option.some.injEq] at h2
        rw [← h2]
        exact .one ((parseHextet_iff _ _).mp h1)
    | cons q ps' =>
      have := expandV4_append pol [p] (b := q :: ps') (by simp)
      rw [List.singleton_append] at this
      rw [this] at he
      cases hq : expandV4 pol (q :: ps') with
      | none => rw [hq] at he; cases he
      | some rs =>
        rw [hq] at he
        simp only [Option.map_some, Option.some.injEq] at he
        rw [← he, List.singleton_append] at h
        obtain ⟨x, ys, h1, h2, rfl⟩ := parseAll_cons.mp h
        rw [joinC_cons _ _ (by simp)]
        exact .cons ((parseHextet_iff _ _).mp h1) (ih hq h2)

theorem parts_of_groups {pol : IpPolicy} {s : PStr} {xs : List Nat} (h : Groups pol s xs) :
    ∃ qs, expandV4 pol (splitC ':' s) = some qs ∧ parseAll parseHextet qs = some xs := by
  induction h with
  | @one s n h =>
    refine ⟨[s], ?_, ?_⟩
    · rw [splitC_none (hextet_free h (by decide)), expandV4_one, if_neg]
      simp only [List.contains_iff_mem]
      exact hextet_free h (by decide)
    · rw [parseAll, (parseHextet_iff _ _).mpr h]; rfl
  | @quad s a b c d h =>
    obtain ⟨h1, h2, ha, hb, hc, hd⟩ := quad_dot h
    refine ⟨[Nat.toDigits 16 (a * 256 + b), Nat.toDigits 16 (c * 256 + d)], ?_, ?_⟩
    · rw [splitC_none h2, expandV4_one, if_pos h1, (parseIpv4_iff pol _ _ _ _ _).mpr h]
    · have e1 := (parseHextet_iff _ _).mpr (hextet_toDigits (n := a * 256 + b) (by omega))
      have e2 := (parseHextet_iff _ _).mpr (hextet_toDigits (n := c * 256 + d) (by omega))
      simp only [parseAll, e1, e2]
  | @cons s n t xs h _ ih =>
    obtain ⟨qs, h1, h2⟩ := ih
    refine ⟨s :: qs, ?_, ?_⟩
    · rw [splitC_sep, splitC_none (hextet_free h (by decide)), expandV4_append _ _ (splitC_ne _ _), h1]
      rfl
    · rw [parseAll, (parseHextet_iff _ _).mpr h, h2]

/-! ### The gap -/

theorem findSkip_seen (i j : Nat) (r : Option Nat) (ps : List PStr) :
    findSkip i (some j) ps = some r ↔ (∀ p ∈ ps, p ≠ []) ∧ r = some j := by
  induction ps generalizing i with
  | nil => simp [findSkip, eq_comm]
  | cons p ps ih =>
    unfold findSkip
    split
    · rename_i h
      simp [h]
    · rename_i h
      rw [ih]
      simp [h]

theorem findSkip_none (i : Nat) (ps : List PStr) :
    findSkip i none ps = some none ↔ ∀ p ∈ ps, p ≠ [] := by
  induction ps generalizing i with
  | nil => simp [findSkip]
  | cons p ps ih =>
    unfold findSkip
    split
    · rename_i h
      simp [findSkip_seen, h]
    · rename_i h
      rw [ih]
      simp [h]

theorem findSkip_some (i k : Nat) (ps : List PStr) : findSkip i none ps = some (some k) ↔
    ∃ a b, ps = a ++ [] :: b ∧ (∀ p ∈ a, p ≠ []) ∧ (∀ p ∈ b, p ≠ []) ∧ k = i + a.length := by
  induction ps generalizing i with
  | nil => simp [findSkip]
  | cons p ps ih =>
    unfold findSkip
    split
    · rename_i h
      simp only [findSkip_seen, Option.some.injEq]
      constructor
      · rintro ⟨h1, rfl⟩
        exact ⟨[], ps, by simp [h], by simp, h1, rfl⟩
      · rintro ⟨a, b, h1, h2, h3, h4⟩
        cases a with
        | nil =>
          injection h1 with _ h1
          subst h1
          exact ⟨h3, by simpa using h4⟩
        | cons q qs =>
          injection h1 with h1 _
          exact absurd (h1 ▸ h) (h2 q (by simp))
    · rename_i h
      rw [ih]
      constructor
      · rintro ⟨a, b, rfl, h2, h3, h4⟩
        refine ⟨p :: a, b, rfl, ?_, h3, by rw [List.length_cons]; omega⟩
        intro q hq
        rcases List.mem_cons.mp hq with rfl | hq
        · exact h
        · exact h2 q hq
      · rintro ⟨a, b, h1, h2, h3, h4⟩
        cases a with
        | nil => injection h1 with h1 _; exact absurd h1 h
        | cons q qs =>
          injection h1 with h1 h5
          exact ⟨qs, b, h5, fun x hx => h2 x (by simp [hx]), h3, by rw [List.length_cons] at h4; omega⟩

/-- One side of a gap: nothing, or hextets. -/
def Side (ps : List PStr) (xs : List Nat) : Prop :=
  ps = [[]] ∧ xs = [] ∨ ps ≠ [] ∧ parseAll parseHextet ps = some xs

theorem parseParts_iff (ps : List PStr) (zs : List Nat) : parseParts ps = some zs ↔
    (ps.length = 8 ∧ parseAll parseHextet ps = some zs) ∨
    ∃ a b xs ys, ps = a ++ [] :: b ∧ Side a xs ∧ Side b ys ∧ xs.length + ys.length ≤ 7 ∧
      zs = xs ++ List.replicate (8 - (xs.length + ys.length)) 0 ++ ys := by
  constructor
  · intro h
    unfold parseParts at h
    split at h
    · cases h
    rename_i h9
    split at h
    · cases h
    · rename_i k hk
      rw [findSkip_some] at hk
      obtain ⟨u, v, hin, hu, hv, rfl⟩ := hk
      cases ps with
      | nil => simp at hin
      | cons f rest =>
        rw [List.tail_cons] at hin
        rcases snoc_cases rest with rfl | ⟨t, g, rfl⟩
        · simp at hin
        rw [List.dropLast_concat] at hin
        subst hin
        have hlast : (f :: (u ++ [] :: v ++ [g])).getLast? = some g := by
          rw [← List.cons_append, List.getLast?_concat]
        dsimp only at h
        rw [List.head?_cons, hlast] at h
        simp only [Option.some.injEq] at h
        have hlen : (f :: (u ++ [] :: v ++ [g])).length = u.length + v.length + 3 := by
          simp only [List.length_cons, List.length_append, List.length_nil]; omega
        rw [hlen] at h
        generalize hhi : (if f = [] then 1 + u.length - 1 else 1 + u.length) = hi at h
        generalize hlo : (if g = [] then u.length + v.length + 3 - (1 + u.length) - 2
          else u.length + v.length + 3 - (1 + u.length) - 1) = lo at h
        split at h
        · cases h
        rename_i c1
        split at h
        · cases h
        rename_i c2
        split at h
        · cases h
        rename_i c3
        split at h
        · rename_i xs ys e1 e2
          injection h with h
          right
          refine ⟨f :: u, v ++ [g], xs, ys, by simp, ?_⟩
          have sa : Side (f :: u) xs ∧ xs.length = hi := by
            by_cases hf : f = []
            · rw [if_pos hf] at hhi
              have hu0 : hi = 0 := by
                apply Classical.byContradiction
                exact fun hc => c1 ⟨hf, hc⟩
              have : u = [] := List.length_eq_zero_iff.mp (by omega)
              rw [hu0] at e1
              simp only [List.take_zero, parseAll, Option.some.injEq] at e1
              rw [← e1]
              exact ⟨Or.inl ⟨by rw [hf, this], rfl⟩, by rw [hu0]; rfl⟩
            · rw [if_neg hf] at hhi
              subst hhi
              have ht : (f :: (u ++ [] :: v ++ [g])).take (1 + u.length) = f :: u := by
                rw [Nat.add_comm, List.take_succ_cons, List.append_assoc, List.take_left]
              rw [ht] at e1
              exact ⟨Or.inr ⟨by simp, e1⟩, by rw [parseAll_length e1, List.length_cons]; omega⟩
          have sb : Side (v ++ [g]) ys ∧ ys.length = lo := by
            by_cases hg : g = []
            · rw [if_pos hg] at hlo
              have hv0 : lo = 0 := by
                apply Classical.byContradiction
                exact fun hc => c2 ⟨hg, hc⟩
              have : v = [] := List.length_eq_zero_iff.mp (by omega)
              rw [hv0] at e2
              rw [List.drop_eq_nil_of_le (by rw [hlen]; omega)] at e2
              simp only [parseAll, Option.some.injEq] at e2
              rw [← e2]
              exact ⟨Or.inl ⟨by rw [hg, this]; rfl, rfl⟩, by rw [hv0]; rfl⟩
            · rw [if_neg hg] at hlo
              subst hlo
              have hd : (f :: (u ++ [] :: v ++ [g])).drop
                  (u.length + v.length + 3 - (u.length + v.length + 3 - (1 + u.length) - 1)) = v ++ [g] := by
                have : f :: (u ++ [] :: v ++ [g]) = (f :: u ++ [[]]) ++ (v ++ [g]) := by simp
                rw [this]
                exact List.drop_left' (by simp only [List.length_append, List.length_cons, List.length_nil]; omega)
              rw [hd] at e2
              refine ⟨Or.inr ⟨by simp, e2⟩, ?_⟩
              rw [parseAll_length e2, List.length_append, List.length_cons, List.length_nil]
              omega
          rw [← sa.2, ← sb.2] at c3 h
          exact ⟨sa.1, sb.1, by omega, h.symm⟩
        · cases h
    · split at h
      · cases h
      rename_i h8
      split at h
      · cases h
      split at h
      · cases h
      exact Or.inl ⟨by omega, h⟩
  · rintro (⟨h8, h⟩ | ⟨a, b, xs, ys, rfl, ha, hb, hl, rfl⟩)
    · have hm := parseAll_mem h
      unfold parseParts
      rw [if_neg (by omega)]
      have hs : findSkip 1 none ps.tail.dropLast = some none := by
        rw [findSkip_none]
        intro p hp
        exact hm p (List.mem_of_mem_tail (List.dropLast_subset _ hp))
      rw [hs]
      dsimp only
      rw [if_neg (by omega), if_neg, if_neg, h]
      · exact fun hc => hm [] (List.mem_of_getLast? hc) rfl
      · exact fun hc => hm [] (List.mem_of_head? hc) rfl
    · -- shapes of the two sides
      obtain ⟨f, u, rfl, hu, hfa⟩ : ∃ f u, a = f :: u ∧ (∀ p ∈ u, p ≠ []) ∧
          (f = [] ∧ u = [] ∧ xs = [] ∨ f ≠ [] ∧ parseAll parseHextet (f :: u) = some xs) := by
        rcases ha with ⟨rfl, rfl⟩ | ⟨hne, he⟩
        · exact ⟨[], [], rfl, by simp, Or.inl ⟨rfl, rfl, rfl⟩⟩
        · cases a with
          | nil => exact absurd rfl hne
          | cons f u =>
            have hm := parseAll_mem he
            exact ⟨f, u, rfl, fun p hp => hm p (by simp [hp]), Or.inr ⟨hm f (by simp), he⟩⟩
      obtain ⟨v, g, rfl, hv, hgb⟩ : ∃ v g, b = v ++ [g] ∧ (∀ p ∈ v, p ≠ []) ∧
          (g = [] ∧ v = [] ∧ ys = [] ∨ g ≠ [] ∧ parseAll parseHextet (v ++ [g]) = some ys) := by
        rcases hb with ⟨rfl, rfl⟩ | ⟨hne, he⟩
        · exact ⟨[], [], rfl, by simp, Or.inl ⟨rfl, rfl, rfl⟩⟩
        · rcases snoc_cases b with rfl | ⟨v, g, rfl⟩
          · exact absurd rfl hne
          · have hm := parseAll_mem he
            exact ⟨v, g, rfl, fun p hp => hm p (by simp [hp]), Or.inr ⟨hm g (by simp), he⟩⟩
      have hshape : f :: u ++ [] :: (v ++ [g]) = f :: (u ++ [] :: v ++ [g]) := by simp
      have hlen : (f :: (u ++ [] :: v ++ [g])).length = u.length + v.length + 3 := by
        simp only [List.length_cons, List.length_append, List.length_nil]; omega
      have hlast : (f :: (u ++ [] :: v ++ [g])).getLast? = some g := by
        rw [← List.cons_append, List.getLast?_concat]
      have hskip : findSkip 1 none (f :: (u ++ [] :: v ++ [g])).tail.dropLast = some (some (1 + u.length)) := by
        rw [List.tail_cons, List.dropLast_concat, findSkip_some]
        exact ⟨u, v, rfl, hu, hv, rfl⟩
      have hxl : f ≠ [] → xs.length = 1 + u.length := by
        intro hf
        rcases hfa with h | h
        · exact absurd h.1 hf
        · rw [parseAll_length h.2, List.length_cons]; omega
      have hyl : g ≠ [] → ys.length = 1 + v.length := by
        intro hg
        rcases hgb with h | h
        · exact absurd h.1 hg
        · rw [parseAll_length h.2, List.length_append, List.length_cons, List.length_nil]; omega
      have hx0 : f = [] → u = [] ∧ xs = [] := by
        intro hf
        rcases hfa with h | h
        · exact h.2
        · exact absurd hf h.1
      have hy0 : g = [] → v = [] ∧ ys = [] := by
        intro hg
        rcases hgb with h | h
        · exact h.2
        · exact absurd hg h.1
      have hhi : (if f = [] then 1 + u.length - 1 else 1 + u.length) = xs.length := by
        by_cases hf : f = []
        · obtain ⟨rfl, rfl⟩ := hx0 hf
          rw [if_pos hf]; rfl
        · rw [if_neg hf, hxl hf]
      have hlo : (if g = [] then u.length + v.length + 3 - (1 + u.length) - 2
          else u.length + v.length + 3 - (1 + u.length) - 1) = ys.length := by
        by_cases hg : g = []
        · obtain ⟨rfl, rfl⟩ := hy0 hg
          rw [if_pos hg]; simp only [List.length_nil]; omega
        · rw [if_neg hg, hyl hg]; omega
      have etake : parseAll parseHextet ((f :: (u ++ [] :: v ++ [g])).take xs.length) = some xs := by
        by_cases hf : f = []
        · obtain ⟨rfl, rfl⟩ := hx0 hf
          rfl
        · rw [hxl hf, Nat.add_comm, List.take_succ_cons, List.append_assoc, List.take_left]
          rcases hfa with h | h
          · exact absurd h.1 hf
          · exact h.2
      have edrop : parseAll parseHextet ((f :: (u ++ [] :: v ++ [g])).drop
          (u.length + v.length + 3 - ys.length)) = some ys := by
        by_cases hg : g = []
        · obtain ⟨rfl, rfl⟩ := hy0 hg
          rw [List.drop_eq_nil_of_le (by rw [hlen]; simp)]
          rfl
        · have hd : (f :: (u ++ [] :: v ++ [g])).drop (u.length + v.length + 3 - ys.length) = v ++ [g] := by
            have : f :: (u ++ [] :: v ++ [g]) = (f :: u ++ [[]]) ++ (v ++ [g]) := by simp
            rw [this, hyl hg]
            exact List.drop_left' (by simp only [List.length_append, List.length_cons, List.length_nil]; omega)
          rw [hd]
          rcases hgb with h | h
          · exact absurd h.1 hg
          · exact h.2
      have h9 : ¬ 9 < u.length + v.length + 3 := by
        by_cases hf : f = [] <;> by_cases hg : g = []
        · rw [(hx0 hf).1, (hy0 hg).1]; simp
        · rw [(hx0 hf).1]; have := hyl hg; simp only [List.length_nil]; omega
        · rw [(hy0 hg).1]; have := hxl hf; simp only [List.length_nil]; omega
        · have := hyl hg; have := hxl hf; omega
      rw [hshape]
      unfold parseParts
      rw [hlen, if_neg h9, hskip]
      dsimp only
      rw [List.head?_cons, hlast]
      simp only [Option.some.injEq]
      rw [hhi, hlo, if_neg, if_neg, if_neg (by omega), etake, edrop]
      · rintro ⟨hg, hc⟩
        rw [(hy0 hg).2] at hc
        exact hc rfl
      · rintro ⟨hf, hc⟩
        rw [(hx0 hf).2] at hc
        exact hc rfl

/-! ### IPv6 -/

theorem expandV4_length {pol : IpPolicy} {ps qs : List PStr} (h : expandV4 pol ps = some qs) :
    qs.length ≤ ps.length + 1 := by
  unfold expandV4 at h
  split at h
  · cases h
  split at h
  · split at h
    · cases h
    injection h with h
    rename_i hl _ _ _ _ _ _ _
    have : 0 < ps.length := by
      cases ps with
      | nil => cases hl
      | cons p ps => simp
    rw [← h, List.length_append, List.length_dropLast, List.length_cons, List.length_cons, List.length_nil]
    omega
  · injection h with h
    rw [← h]
    exact Nat.le_succ _

/-- A gap after expansion was one before. -/
theorem expandV4_gap {pol : IpPolicy} {ps a b : List PStr} (hb : b ≠ [])
    (h : expandV4 pol ps = some (a ++ [] :: b)) :
    ∃ b0, ps = a ++ [] :: b0 ∧ b0 ≠ [] ∧ expandV4 pol b0 = some b := by
  have hcopy := h
  unfold expandV4 at h
  split at h
  · cases h
  rename_i last hlast
  split at h
  · rename_i hdot
    split at h
    · cases h
    rename_i w x y z hq
    simp only [Option.some.injEq] at h
    rcases snoc_cases ps with rfl | ⟨t, c, rfl⟩
    · cases hlast
    rw [List.getLast?_concat] at hlast
    injection hlast with hlast
    subst hlast
    rw [List.dropLast_concat] at h
    rcases snoc_cases b with rfl | ⟨b1, c1, rfl⟩
    · exact absurd rfl hb
    have e : t ++ [Nat.toDigits 16 (w * 256 + x), Nat.toDigits 16 (y * 256 + z)] =
        (t ++ [Nat.toDigits 16 (w * 256 + x)]) ++ [Nat.toDigits 16 (y * 256 + z)] := by simp
    have e' : a ++ [] :: (b1 ++ [c1]) = (a ++ [] :: b1) ++ [c1] := by simp
    rw [e, e'] at h
    obtain ⟨h1, h2⟩ := List.append_inj' h rfl
    injection h2 with h2 _
    rcases snoc_cases b1 with rfl | ⟨b2, c2, rfl⟩
    · obtain ⟨h3, h4⟩ := List.append_inj' h1 rfl
      injection h4 with h4 _
      exact absurd h4 Nat.toDigits_ne_nil
    have e2 : a ++ [] :: (b2 ++ [c2]) = (a ++ [] :: b2) ++ [c2] := by simp
    rw [e2] at h1
    obtain ⟨h3, h4⟩ := List.append_inj' h1 rfl
    injection h4 with h4 _
    subst h3
    refine ⟨b2 ++ [c], by simp, by simp, ?_⟩
    unfold expandV4
    rw [List.getLast?_concat]
    dsimp only
    rw [if_pos hdot, hq, List.dropLast_concat]
    simp [h2, h4]
  · rename_i hdot
    injection h with h
    subst h
    refine ⟨b, rfl, hb, ?_⟩
    rw [show a ++ [] :: b = (a ++ [[]]) ++ b by simp, expandV4_append _ _ hb] at hcopy
    cases hq : expandV4 pol b with
    | none => rw [hq] at hcopy; cases hcopy
    | some q =>
      rw [hq] at hcopy
      simp only [Option.map_some, Option.some.injEq] at hcopy
      rw [List.append_cancel_left hcopy]

theorem expandV4_blank {pol : IpPolicy} {ps : List PStr} (h : expandV4 pol ps = some [[]]) :
    ps = [[]] := by
  unfold expandV4 at h
  split at h
  · cases h
  split at h
  · split at h
    · cases h
    injection h with h
    have := congrArg List.getLast? h
    rw [show ∀ (t : List PStr) (x y : PStr), t ++ [x, y] = (t ++ [x]) ++ [y] by intros; simp,
      List.getLast?_concat] at this
    injection this with this
    exact absurd this Nat.toDigits_ne_nil
  · injection h

theorem parseIpv6_iff (pol : IpPolicy) (s : PStr) (zs : List Nat) :
    parseIpv6 pol s = some zs ↔ Ipv6 pol s zs := by
  unfold parseIpv6
  dsimp only
  constructor
  · intro h
    split at h
    · cases h
    split at h
    · cases h
    rename_i qs hq
    rcases (parseParts_iff qs zs).mp h with ⟨h8, hp⟩ | ⟨a, b, xs, ys, rfl, ha, hb, hl, rfl⟩
    · have := groups_of_parts hq hp
      rw [joinC_split] at this
      exact .full this (by rw [parseAll_length hp, h8])
    · have hbne : b ≠ [] := by rcases hb with h | h; · rw [h.1]; simp
                               · exact h.1
      have hane : a ≠ [] := by rcases ha with h | h; · rw [h.1]; simp
                               · exact h.1
      obtain ⟨b0, hps, hb0, hex⟩ := expandV4_gap hbne hq
      have hs := joinC_split ':' s
      rw [hps, joinC_append _ hane (by simp), joinC_cons _ _ hb0] at hs
      have hs' : s = joinC ':' a ++ p!"::" ++ joinC ':' b0 := by rw [← hs]; simp
      rw [hs']
      refine .gap ?_ ?_ hl
      · rcases ha with ⟨ha, hx⟩ | ⟨_, hx⟩
        · exact Or.inl ⟨by rw [ha]; rfl, hx⟩
        · exact Or.inr (hextets_of_parts hane hx)
      · rcases hb with ⟨hb, hy⟩ | ⟨_, hy⟩
        · rw [hb] at hex
          rw [expandV4_blank hex]
          exact Or.inl ⟨rfl, hy⟩
        · exact Or.inr (groups_of_parts hex hy)
  · intro h
    cases h with
    | full hg h8 =>
      obtain ⟨qs, h1, h2⟩ := parts_of_groups hg
      have := expandV4_length h1
      have hl := parseAll_length h2
      rw [if_neg (by omega), h1]
      exact (parseParts_iff qs zs).mpr (Or.inl ⟨by omega, h2⟩)
    | @gap l r xs ys hl hr hn =>
      have hsplit : splitC ':' (l ++ p!"::" ++ r) = splitC ':' l ++ [] :: splitC ':' r := by
        rw [show l ++ p!"::" ++ r = l ++ ':' :: ([] ++ ':' :: r) by simp, splitC_sep, splitC_sep]
        rfl
      have hlen : 3 ≤ (splitC ':' l ++ [] :: splitC ':' r).length := by
        have h1 := List.length_pos_iff.mpr (splitC_ne ':' l)
        have h2 := List.length_pos_iff.mpr (splitC_ne ':' r)
        rw [List.length_append, List.length_cons]
        omega
      have ha : Side (splitC ':' l) xs := by
        rcases hl with ⟨rfl, rfl⟩ | h
        · exact Or.inl ⟨rfl, rfl⟩
        · exact Or.inr ⟨splitC_ne _ _, parts_of_hextets h⟩
      obtain ⟨b, hb1, hb2⟩ : ∃ b, expandV4 pol (splitC ':' r) = some b ∧ Side b ys := by
        rcases hr with ⟨rfl, rfl⟩ | h
        · exact ⟨[[]], by simp [splitC, expandV4_one], Or.inl ⟨rfl, rfl⟩⟩
        · obtain ⟨qs, h1, h2⟩ := parts_of_groups h
          refine ⟨qs, h1, Or.inr ⟨?_, h2⟩⟩
          rintro rfl
          have := hexNe h
          simp only [parseAll, Option.some.injEq] at h2
          exact this h2.symm
      rw [hsplit, if_neg (by omega), show splitC ':' l ++ [] :: splitC ':' r =
        (splitC ':' l ++ [[]]) ++ splitC ':' r by simp, expandV4_append _ _ (splitC_ne _ _), hb1]
      simp only [Option.map_some]
      exact (parseParts_iff _ _).mpr (Or.inr ⟨splitC ':' l, b, xs, ys, by simp, ha, hb2, hn, rfl⟩)
where
  hexNe {r : PStr} {ys : List Nat} (h : Groups pol r ys) : ys ≠ [] := by
    cases h <;> simp

end Verif
