import Verif.Model.Hex
import Verif.Spec.Hex
import Verif.Lemmas.Bytes
import Verif.Lemmas.Version
import Verif.Lemmas.Unicode
/-! # Lemmas: hexadecimal text and UUIDs -/

set_option linter.unusedSimpArgs false

namespace Verif

open Spec

theorem lt16_cases {n : Nat} (h : n < 16) : n = 0 ∨ n = 1 ∨ n = 2 ∨ n = 3 ∨ n = 4 ∨ n = 5 ∨ n = 6
    ∨ n = 7 ∨ n = 8 ∨ n = 9 ∨ n = 10 ∨ n = 11 ∨ n = 12 ∨ n = 13 ∨ n = 14 ∨ n = 15 := by omega

theorem nibble_lt {c : Char} {n : Nat} (h : Nibble c n) : n < 16 := by
  rcases h with h | h
  · have := (List.getElem?_eq_some_iff.mp h).1; exact this
  · have := (List.getElem?_eq_some_iff.mp h).1; exact this

theorem hexVal_lt {c : Char} {n : Nat} (h : hexVal c = some n) : n < 16 := by
  unfold hexVal at h
  simp only at h
  split at h
  · injection h with h; omega
  · split at h
    · injection h with h; omega
    · split at h
      · injection h with h; omega
      · cases h

theorem hexVal_iff (c : Char) (n : Nat) : hexVal c = some n ↔ Nibble c n := by
  constructor
  · intro h
    have hn := hexVal_lt h
    unfold hexVal at h
    simp only at h
    have ch : ∀ k : Nat, k.isValidChar → c.toNat = k → c = Char.ofNat k := by
      intro k hk he
      apply char_ext
      rw [he]
      have hk' : k < 4294967296 := by rcases hk with hk | hk <;> omega
      simp [Char.ofNat, hk, Char.toNat, Char.ofNatAux, hk']
    unfold Nibble
    split at h
    · rename_i hc
      injection h with h
      have := ch (48 + n) (by left; omega) (by omega)
      subst this
      have : n < 10 := by omega
      left
      rcases lt16_cases hn with rfl | rfl | rfl | rfl | rfl | rfl | rfl | rfl | rfl | rfl | rfl |
        rfl | rfl | rfl | rfl | rfl <;> first | rfl | omega
    · split at h
      · rename_i hc
        injection h with h
        have := ch (87 + n) (by left; omega) (by omega)
        subst this
        have : 10 ≤ n := by omega
        left
        rcases lt16_cases hn with rfl | rfl | rfl | rfl | rfl | rfl | rfl | rfl | rfl | rfl | rfl |
          rfl | rfl | rfl | rfl | rfl <;> first | rfl | omega
      · split at h
        · rename_i hc
          injection h with h
          have := ch (55 + n) (by left; omega) (by omega)
          subst this
          have : 10 ≤ n := by omega
          right
          rcases lt16_cases hn with rfl | rfl | rfl | rfl | rfl | rfl | rfl | rfl | rfl | rfl |
            rfl | rfl | rfl | rfl | rfl | rfl <;> first | rfl | omega
        · cases h
  · intro h
    have hn := nibble_lt h
    rcases lt16_cases hn with rfl | rfl | rfl | rfl | rfl | rfl | rfl | rfl | rfl | rfl | rfl |
        rfl | rfl | rfl | rfl | rfl <;> rcases h with h | h <;>
      simp [hexLower, hexUpper] at h <;> subst h <;> rfl

theorem hexDigit_lower {n : Nat} (h : n < 16) : hexLower[n]? = some (hexDigit n) := by
  rcases lt16_cases h with rfl | rfl | rfl | rfl | rfl | rfl | rfl | rfl | rfl | rfl | rfl |
        rfl | rfl | rfl | rfl | rfl <;> rfl

theorem hexVal_hexDigit {n : Nat} (h : n < 16) : hexVal (hexDigit n) = some n :=
  (hexVal_iff _ _).mpr (Or.inl (hexDigit_lower h))

theorem unhexlify_iff (s : PStr) (b : Bytes) : unhexlify s = .ok b ↔ HexText s b := by
  constructor
  · intro h
    induction s using unhexlify.induct generalizing b with
    | case1 => simp [unhexlify] at h; subst h; exact .nil
    | case2 => simp [unhexlify] at h
    | case3 a c rest x y hx hy r hr ih =>
      rw [unhexlify, hx, hy] at h
      simp only [hr] at h
      injection h with h
      subst h
      have l1 := hexVal_lt hx
      have l2 := hexVal_lt hy
      refine .cons ((hexVal_iff _ _).mp ‹hexVal a = some x›) ((hexVal_iff _ _).mp ‹hexVal c = some y›) ?_
        (ih r hr)
      rw [toNat_ofNat_lt (by omega)]; omega
    | case4 a c rest x y hx hy e hr ih =>
      rw [unhexlify, hx, hy] at h
      simp only [hr] at h
      cases h
    | case5 a c rest hn =>
      rw [unhexlify] at h
      split at h
      · rename_i x y hx hy
        exact absurd hy (by intro hy; exact hn x y hx hy)
      · cases h
  · intro h
    induction h with
    | nil => rfl
    | @cons a c hi lo x s bs ha hc hx hs ih =>
      rw [unhexlify, (hexVal_iff _ _).mpr ha, (hexVal_iff _ _).mpr hc]
      simp only [ih]
      congr 2
      have : hi * 16 + lo = x.toNat := by omega
      rw [this, UInt8.ofNat_toNat]

theorem unhexlify_error {s : PStr} {e : Exc} (h : unhexlify s = .error e) : e = .binasciiError := by
  induction s using unhexlify.induct with
  | case1 => simp [unhexlify] at h
  | case2 => simp [unhexlify] at h; exact h.symm
  | case3 a c rest x y hx hy r hr ih =>
    rw [unhexlify, hx, hy] at h
    simp only [hr] at h
    cases h
  | case4 a c rest x y hx hy e' hr ih =>
    rw [unhexlify, hx, hy] at h
    simp only [hr] at h
    injection h with h
    subst h
    exact ih hr
  | case5 a c rest hn =>
    rw [unhexlify] at h
    split at h
    · rename_i x y hx hy
      exact absurd hy (by intro hy; exact hn x y hx hy)
    · injection h with h; exact h.symm

theorem nibble_ascii {c : Char} {n : Nat} (h : Nibble c n) : c.toNat < 128 := by
  have hn := nibble_lt h
  rcases lt16_cases hn with rfl | rfl | rfl | rfl | rfl | rfl | rfl | rfl | rfl | rfl | rfl |
        rfl | rfl | rfl | rfl | rfl <;> rcases h with h | h <;>
    simp [hexLower, hexUpper] at h <;> subst h <;> decide

theorem hexText_ascii {s : PStr} {b : Bytes} (h : HexText s b) :
    s.all (fun c => c.toNat < 128) = true := by
  induction h with
  | nil => rfl
  | cons ha hc _ _ ih =>
    simp only [List.all_cons, ih, Bool.and_true]
    simp [nibble_ascii ha, nibble_ascii hc]

theorem hexText_hexlify (b : Bytes) : HexText (hexlify b) b := by
  induction b with
  | nil => exact .nil
  | cons x xs ih =>
    have hx : x.toNat < 256 := x.toNat_lt
    have e : hexlify (x :: xs) = hexDigit (x.toNat / 16) :: hexDigit (x.toNat % 16) :: hexlify xs := by
      simp [hexlify]
    rw [e]
    refine .cons (hi := x.toNat / 16) (lo := x.toNat % 16) ?_ ?_ (by omega) ih
    · exact Or.inl (hexDigit_lower (by omega))
    · exact Or.inl (hexDigit_lower (by omega))

theorem hexlify_lower (b : Bytes) : ∀ c ∈ hexlify b, c ∈ hexLower := by
  intro c hc
  simp only [hexlify, List.mem_flatMap] at hc
  obtain ⟨x, _, hc⟩ := hc
  have hx : x.toNat < 256 := x.toNat_lt
  simp at hc
  rcases hc with rfl | rfl
  · exact List.mem_of_getElem? (hexDigit_lower (by omega))
  · exact List.mem_of_getElem? (hexDigit_lower (by omega))

theorem hexText_length {s : PStr} {b : Bytes} (h : HexText s b) : s.length = 2 * b.length := by
  induction h with
  | nil => rfl
  | cons _ _ _ _ ih => simp [ih]; omega

/-! ### UUIDs -/

theorem hexDigit_ne {n : Nat} (hn : n < 16) {c : Char} (hc : c ∉ hexLower) : hexDigit n ≠ c := by
  intro h
  apply hc
  rw [← h]
  exact List.mem_of_getElem? (hexDigit_lower hn)

theorem hexN_length : ∀ n x, (hexN n x).length = n
  | 0, _ => rfl
  | n + 1, x => by simp [hexN, hexN_length n]

theorem hexN_lower : ∀ n x, ∀ c ∈ hexN n x, c ∈ hexLower
  | 0, _ => by simp [hexN]
  | n + 1, x => by
    intro c hc
    simp only [hexN, List.mem_append, List.mem_singleton] at hc
    rcases hc with hc | rfl
    · exact hexN_lower n _ c hc
    · exact List.mem_of_getElem? (hexDigit_lower (by omega))

theorem hexDigitsVal_append (s : PStr) (hs : ∀ c ∈ s, c ∈ hexLower) : ∀ (acc : Nat) (prev : Bool)
    (t : PStr), hexDigitsVal acc prev (s ++ t) =
      hexDigitsVal (s.foldl (fun a c => a * 16 + (hexVal c).getD 0) acc) (prev || !s.isEmpty) t := by
  induction s with
  | nil => intro acc prev t; simp
  | cons c cs ih =>
    intro acc prev t
    have hc := hs c (by simp)
    obtain ⟨i, hi⟩ := List.mem_iff_getElem?.mp hc
    have hv : hexVal c = some i := (hexVal_iff _ _).mpr (Or.inl hi)
    have hu : c ≠ '_' := by
      rintro rfl; revert hc; decide
    rw [List.cons_append, hexDigitsVal, if_neg hu, hv]
    simp only
    rw [ih (fun d hd => hs d (by simp [hd]))]
    simp [hv]

theorem foldl_hexN : ∀ n x, (hexN n x).foldl (fun a c => a * 16 + (hexVal c).getD 0) 0 = x % 16 ^ n
  | 0, x => by simp [hexN, Nat.mod_one]
  | n + 1, x => by
    rw [hexN, List.foldl_append, foldl_hexN n]
    simp only [List.foldl_cons, List.foldl_nil]
    rw [hexVal_hexDigit (by omega)]
    simp only [Option.getD_some]
    have e : 16 ^ (n + 1) = 16 * 16 ^ n := by rw [Nat.pow_succ, Nat.mul_comm]
    rw [e, Nat.mod_mul]
    omega

theorem hexDigitsVal_hexN (n x : Nat) (hn : 0 < n) :
    hexDigitsVal 0 false (hexN n x) = some (x % 16 ^ n) := by
  have := hexDigitsVal_append (hexN n x) (hexN_lower n x) 0 false []
  rw [List.append_nil] at this
  rw [this, foldl_hexN]
  have hne : (hexN n x).isEmpty = false := by
    rw [List.isEmpty_eq_false_iff]
    intro h
    have := hexN_length n x
    rw [h] at this; simp at this; omega
  simp [hne, hexDigitsVal]

theorem removeAll_id (p : PStr) (c0 : Char) (ps : PStr) (hp : p = c0 :: ps) (s : PStr)
    (h : c0 ∉ s) : removeAll p 0 s = s := by
  induction s with
  | nil => rfl
  | cons c cs ih =>
    have hc : c0 ≠ c := by rintro rfl; exact h (by simp)
    rw [removeAll]
    have : p.isPrefixOf (c :: cs) = false := by
      subst hp; simp [List.isPrefixOf, beq_false_of_ne hc]
    rw [this]
    simp only [Bool.false_eq_true, if_false]
    rw [ih (fun hx => h (by simp [hx]))]

theorem removeAll_dash (s : PStr) : removeAll ['-'] 0 s = s.filter (· ≠ '-') := by
  induction s with
  | nil => rfl
  | cons c cs ih =>
    rw [removeAll]
    by_cases hc : c = '-'
    · subst hc; simp [List.isPrefixOf, ih]
    · have : (['-'] : PStr).isPrefixOf (c :: cs) = false := by
        simp [List.isPrefixOf, beq_false_of_ne (Ne.symm hc)]
      rw [this]
      simp [hc, ih]

theorem dropWhile_id {p : Char → Bool} {s : PStr} (h : ∀ c ∈ s, p c = false) : s.dropWhile p = s := by
  cases s with
  | nil => rfl
  | cons c cs => simp [List.dropWhile, h c (by simp)]

theorem strip_id {p : Char → Bool} {s : PStr} (h : ∀ c ∈ s, p c = false) :
    ((s.dropWhile p).reverse.dropWhile p).reverse = s := by
  rw [dropWhile_id h, dropWhile_id (by intro c hc; exact h c (List.mem_reverse.mp hc)),
    List.reverse_reverse]

theorem filter_dash_id (s : PStr) (h : ∀ c ∈ s, c ∈ hexLower) :
    s.filter (· ≠ '-') = s := by
  rw [List.filter_eq_self]
  intro c hc
  have := h c hc
  simp only [ne_eq, decide_not, Bool.not_eq_eq_eq_not, Bool.not_true, decide_eq_false_iff_not]
  rintro rfl; revert this; decide

theorem uuidText_chars (u : Nat) : ∀ c ∈ uuidText u, c ∈ hexLower ∨ c = '-' := by
  intro c hc
  have hl := hexN_lower 32 u
  unfold uuidText at hc
  generalize hexN 32 u = h at hl hc
  simp only [List.mem_append, List.mem_singleton] at hc
  rcases hc with (((((((hc | hc) | hc) | hc) | hc) | hc) | hc) | hc) | hc
  all_goals first
    | exact Or.inr hc
    | exact Or.inl (hl c (List.mem_of_mem_take hc))
    | exact Or.inl (hl c (List.mem_of_mem_drop hc))
    | exact Or.inl (hl c (List.mem_of_mem_drop (List.mem_of_mem_take hc)))

theorem uuidText_filter (u : Nat) : (uuidText u).filter (· ≠ '-') = hexN 32 u := by
  have hl := hexN_lower 32 u
  have t : ∀ k, (List.take k (hexN 32 u)).filter (· ≠ '-') = List.take k (hexN 32 u) := fun k =>
    filter_dash_id _ fun c hc => hl c (List.mem_of_mem_take hc)
  have d : ∀ k, (List.drop k (hexN 32 u)).filter (· ≠ '-') = List.drop k (hexN 32 u) := fun k =>
    filter_dash_id _ fun c hc => hl c (List.mem_of_mem_drop hc)
  have td : ∀ j k, (List.take j (List.drop k (hexN 32 u))).filter (· ≠ '-') =
      List.take j (List.drop k (hexN 32 u)) := fun j k =>
    filter_dash_id _ fun c hc => hl c (List.mem_of_mem_drop (List.mem_of_mem_take hc))
  have dash : (['-'] : PStr).filter (· ≠ '-') = [] := by simp
  have s : ∀ j k, List.take j (List.drop k (hexN 32 u)) ++ List.drop (k + j) (hexN 32 u) =
      List.drop k (hexN 32 u) := by
    intro j k
    rw [← List.drop_drop, List.take_append_drop]
  unfold uuidText
  simp only [List.filter_append, t, d, td, dash, List.append_nil]
  have s1 := s 4 16; have s2 := s 4 12; have s3 := s 4 8
  simp only [Nat.reduceAdd] at s1 s2 s3
  rw [List.append_assoc, s1, List.append_assoc, s2, List.append_assoc, s3, List.take_append_drop]

theorem pyInt16_hexN (u : Nat) : pyInt16 (hexN 32 u) = some (Int.ofNat (u % 16 ^ 32)) := by
  have hl := hexN_lower 32 u
  have hs : ∀ c ∈ hexN 32 u, isSpaceC c = false := by
    intro c hc
    have hm : ∀ c ∈ hexLower, isSpaceC c = false := by decide
    exact hm c (hl c hc)
  have ha : (hexN 32 u).map asciiOf = hexN 32 u := by
    have hm : ∀ c ∈ hexLower, asciiOf c = c := by decide
    rw [List.map_congr_left (g := id) fun c hc => hm c (hl c hc), List.map_id]
  unfold pyInt16
  simp only
  rw [ha, strip_id hs]
  unfold intSigned16
  have h0 := hexDigitsVal_hexN 32 u (by omega)
  have hlen := hexN_length 32 u
  generalize hexN 32 u = t at *
  have hu : intUnsigned16 t = hexDigitsVal 0 false t := by
    unfold intUnsigned16
    have nx : 'x' ∉ hexLower := by decide
    have nX : 'X' ∉ hexLower := by decide
    split
    · exact absurd (hl 'x' (by simp)) nx
    · exact absurd (hl 'X' (by simp)) nX
    · exact absurd (hl 'x' (by simp)) nx
    · exact absurd (hl 'X' (by simp)) nX
    · rfl
  split
  · exact absurd (hl '+' (by simp)) (by decide)
  · exact absurd (hl '-' (by simp)) (by decide)
  · rw [hu, h0]; rfl

/-- The canonical text of a UUID parses to it. -/
theorem parseUuid_text (u : Nat) (h : u < 2 ^ 128) : parseUuid (uuidText u) = some u := by
  have hc := uuidText_chars u
  have hm : ∀ c ∈ hexLower, c ≠ 'u' ∧ c ≠ '{' ∧ c ≠ '}' := by decide
  have hu : 'u' ∉ uuidText u := by
    intro hx
    rcases hc _ hx with h | h
    · exact (hm _ h).1 rfl
    · cases h
  have hb : ∀ c ∈ uuidText u, (c == '{' || c == '}') = false := by
    intro c hx
    rcases hc _ hx with h | rfl
    · have := hm c h; simp [this.2.1, this.2.2]
    · decide
  unfold parseUuid
  simp only
  rw [removeAll_id p!"urn:" 'u' p!"rn:" rfl _ hu, removeAll_id p!"uuid:" 'u' p!"uid:" rfl _ hu]
  unfold stripBraces
  rw [strip_id hb, removeAll_dash, uuidText_filter, hexN_length, pyInt16_hexN]
  simp only [ne_eq, not_true_eq_false, if_false]
  have e : u % 16 ^ 32 = u := Nat.mod_eq_of_lt (by omega)
  rw [e]
  have : (0:Int) ≤ Int.ofNat u ∧ Int.ofNat u < 2 ^ 128 := by
    constructor
    · exact Int.natCast_nonneg _
    · have : (Int.ofNat u : Int) = (u : Int) := rfl
      rw [this]; omega
  rw [if_pos this]
  rfl

theorem uuid1_lt (t c n : Nat) (h : n < 2 ^ 48) : uuid1 t c n < 2 ^ 128 := by
  unfold uuid1; omega

theorem uuid1_node (t c n : Nat) (h : n < 2 ^ 48) : uuidNode (uuid1 t c n) = n := by
  unfold uuid1 uuidNode; omega

theorem checkIdSeed_some {id : PStr} {u : Nat} (seed : Bytes) (h : parseUuid id = some u) :
    checkIdSeed (.str id) seed = .ok (seedToNode seed == uuidNode u) := by
  simp only [checkIdSeed, checkTextSeed, h]

theorem checkIdSeed_none {id : PStr} (seed : Bytes) (h : parseUuid id = none) :
    checkIdSeed (.str id) seed = .ok false := by
  simp only [checkIdSeed, checkTextSeed, h]

theorem newId_some {id : PStr} {u : Nat} (ts cs : Nat) (h : parseUuid id = some u) :
    generateNewIdFromId ts cs id = .ok (uuidText (uuid1 ts cs (uuidNode u))) := by
  simp only [generateNewIdFromId, h]

theorem newId_none {id : PStr} (ts cs : Nat) (h : parseUuid id = none) :
    generateNewIdFromId ts cs id = .error .valueError := by
  simp only [generateNewIdFromId, h]

theorem seedToNode_lt (seed : Bytes) : seedToNode seed < 2 ^ 48 := by
  unfold seedToNode seedLen
  have h := ofBE_lt (seed.take 6)
  have hl : (seed.take 6).length ≤ 6 := by simp; omega
  have : 256 ^ (seed.take 6).length ≤ 256 ^ 6 := Nat.pow_le_pow_right (by omega) hl
  omega

end Verif
