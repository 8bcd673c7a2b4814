import Verif.Model.Address
import Verif.Lemmas.Hex
import Verif.Spec.Address
/-! # Lemmas about addresses -/

namespace Verif

open Spec

theorem hexText_append {s t : PStr} {a b : Bytes} (h1 : HexText s a) (h2 : HexText t b) :
    HexText (s ++ t) (a ++ b) := by
  induction h1 with
  | nil => exact h2
  | cons x y z _ ih => exact .cons x y z ih

theorem hexText_unique {s : PStr} {a b : Bytes} (h1 : HexText s a) (h2 : HexText s b) :
    a = b := by
  have := (unhexlify_iff s a).mpr h1
  rw [(unhexlify_iff s b).mpr h2] at this
  exact (Except.ok.inj this).symm

theorem hexText_digits {s : PStr} {b : Bytes} (h : HexText s b) : ∀ c ∈ s, ∃ n, Nibble c n := by
  induction h with
  | nil => simp
  | cons x y _ _ ih =>
    intro c hc
    simp only [List.mem_cons] at hc
    rcases hc with rfl | rfl | hc
    · exact ⟨_, x⟩
    · exact ⟨_, y⟩
    · exact ih c hc

/-- Any even number of digits denotes bytes. -/
theorem hexText_exists : ∀ (s : PStr), (∀ c ∈ s, ∃ n, Nibble c n) → s.length % 2 = 0 →
    ∃ b, HexText s b
  | [], _, _ => ⟨[], .nil⟩
  | [_], _, h => by simp at h
  | a :: c :: rest, h, hl => by
    obtain ⟨b, hb⟩ := hexText_exists rest (fun d hd => h d (by simp [hd]))
      (by simp only [List.length_cons] at hl; omega)
    obtain ⟨x, hx⟩ := h a (by simp)
    obtain ⟨y, hy⟩ := h c (by simp)
    have hx16 := nibble_lt hx
    have hy16 := nibble_lt hy
    refine ⟨UInt8.ofNat (16 * x + y) :: b, .cons hx hy ?_ hb⟩
    rw [UInt8.toNat_ofNat']
    omega

theorem nibble_x (n : Nat) : ¬ Nibble 'x' n ∧ ¬ Nibble 'X' n := by
  rw [← hexVal_iff, ← hexVal_iff]
  simp [hexVal]

theorem nibble_zero : Nibble '0' 0 := Or.inl rfl

theorem hexTextOk_iff (s : PStr) : hexTextOk s = true ↔ ∀ c ∈ strip0x s, ∃ n, Nibble c n := by
  unfold hexTextOk
  rw [List.all_eq_true]
  refine forall_congr' fun c => forall_congr' fun _ => ?_
  rw [Option.isSome_iff_exists]
  exact exists_congr fun n => hexVal_iff c n

/-- The prefix taken off, if any. -/
theorem strip0x_cases (s : PStr) :
    ∃ pre, s = pre ++ strip0x s ∧ pre ∈ [[], p!"0x", p!"0X"] := by
  unfold strip0x
  split
  · exact ⟨p!"0x", rfl, by simp⟩
  · exact ⟨p!"0X", rfl, by simp⟩
  · exact ⟨[], rfl, by simp⟩

/-- Digits have no prefix to take off. -/
theorem strip0x_digits {t : PStr} (h : ∀ c ∈ t, ∃ n, Nibble c n) : strip0x t = t := by
  unfold strip0x
  split
  · obtain ⟨n, hn⟩ := h 'x' (by simp); exact absurd hn (nibble_x n).1
  · obtain ⟨n, hn⟩ := h 'X' (by simp); exact absurd hn (nibble_x n).2
  · rfl

theorem strip0x_pre {pre t : PStr} (hp : pre ∈ [[], p!"0x", p!"0X"])
    (h : ∀ c ∈ t, ∃ n, Nibble c n) : strip0x (pre ++ t) = t := by
  simp only [List.mem_cons, List.not_mem_nil, or_false] at hp
  rcases hp with rfl | rfl | rfl
  · exact strip0x_digits h
  · rfl
  · rfl

theorem pre_even {pre : PStr} (hp : pre ∈ [[], p!"0x", p!"0X"]) : pre.length % 2 = 0 := by
  simp only [List.mem_cons, List.not_mem_nil, or_false] at hp
  rcases hp with rfl | rfl | rfl <;> rfl

/-- Text is converted to bytes as the specification says. -/
theorem hexToBytes_iff (s : PStr) (key : Bytes) : hexToBytes s = .ok key ↔ KeyText s key := by
  unfold hexToBytes
  constructor
  · intro h
    obtain ⟨pre, e, hp⟩ := strip0x_cases s
    refine ⟨pre, strip0x s, e, hp, ?_⟩
    split at h
    · exact Or.inr ((unhexlify_iff _ _).mp h)
    · exact Or.inl ((unhexlify_iff _ _).mp h)
  · rintro ⟨pre, t, rfl, hp, h⟩
    have hev := pre_even hp
    have hd : ∀ c ∈ t, ∃ n, Nibble c n := by
      rcases h with h | h
      · exact hexText_digits h
      · exact fun c hc => hexText_digits h c (by simp [hc])
    rw [strip0x_pre hp hd]
    rcases h with h | h
    · have hl := hexText_length h
      rw [if_neg (by rw [List.length_append]; omega), strip0x_pre hp hd]
      exact (unhexlify_iff _ _).mpr h
    · have hl := hexText_length h
      rw [List.length_cons] at hl
      rw [if_pos (by rw [List.length_append]; omega)]
      exact (unhexlify_iff _ _).mpr h

theorem keyText_unique {s : PStr} {a b : Bytes} (h1 : KeyText s a) (h2 : KeyText s b) : a = b := by
  have e1 := (hexToBytes_iff s a).mpr h1
  rw [(hexToBytes_iff s b).mpr h2] at e1
  exact (Except.ok.inj e1).symm

theorem keyBytes_text (s : PStr) (key : Bytes) : keyBytes (.str s) = .ok key ↔ KeyText s key := by
  unfold keyBytes
  dsimp only
  constructor
  · intro h
    split at h
    · exact (hexToBytes_iff s key).mp h
    · cases h
  · intro h
    rw [if_pos]
    · exact (hexToBytes_iff s key).mpr h
    · rw [hexTextOk_iff]
      obtain ⟨pre, t, rfl, hp, h⟩ := h
      have hd : ∀ c ∈ t, ∃ n, Nibble c n := by
        rcases h with h | h
        · exact hexText_digits h
        · exact fun c hc => hexText_digits h c (by simp [hc])
      rw [strip0x_pre hp hd]
      exact hd

theorem keyBytes_text_error (s : PStr) (h : ∀ key, ¬ KeyText s key) :
    keyBytes (.str s) = .error .valueError := by
  unfold keyBytes
  dsimp only
  split
  · rename_i hok
    rw [hexTextOk_iff] at hok
    exfalso
    obtain ⟨pre, e, hp⟩ := strip0x_cases s
    by_cases hl : (strip0x s).length % 2 = 0
    · obtain ⟨b, hb⟩ := hexText_exists _ hok hl
      exact h b ⟨pre, _, e, hp, Or.inl hb⟩
    · obtain ⟨b, hb⟩ := hexText_exists ('0' :: strip0x s)
        (by intro c hc; rcases List.mem_cons.mp hc with rfl | hc
            · exact ⟨0, nibble_zero⟩
            · exact hok c hc)
        (by rw [List.length_cons]; omega)
      exact h b ⟨pre, _, e, hp, Or.inr hb⟩
  · rfl

/-! ### Checksums -/

theorem hexlify_length (b : Bytes) : (hexlify b).length = 2 * b.length :=
  hexText_length (hexText_hexlify b)

theorem nibbleAt_lt (b : Bytes) (i : Nat) : nibbleAt b i < 16 := by
  unfold nibbleAt
  have := (b.getD (i / 2) 0).toNat_lt
  dsimp only
  split <;> omega

theorem hexlify_get (b : Bytes) (i : Nat) (h : i < 2 * b.length) :
    (hexlify b)[i]? = some (hexDigit (nibbleAt b i)) := by
  induction b generalizing i with
  | nil => simp at h
  | cons x xs ih =>
    have e : hexlify (x :: xs) = hexDigit (x.toNat / 16) :: hexDigit (x.toNat % 16) :: hexlify xs := rfl
    rw [e]
    match i, h with
    | 0, _ => simp [nibbleAt]
    | 1, _ => simp [nibbleAt]
    | i + 2, h =>
      simp only [List.getElem?_cons_succ]
      rw [ih i (by simp only [List.length_cons] at h; omega)]
      congr 2
      unfold nibbleAt
      have e1 : (i + 2) / 2 = i / 2 + 1 := by omega
      have e2 : (i + 2) % 2 = i % 2 := by omega
      rw [e1, e2, List.getD_cons_succ]

theorem hexLower_getD {n : Nat} (h : n < 16) : hexLower.getD n '?' = hexDigit n := by
  rw [List.getD_eq_getElem?_getD, hexDigit_lower h]
  rfl

theorem hexUp_digit {n : Nat} (h : n < 16) : hexUp (hexDigit n) = hexUpper.getD n '?' := by
  rcases lt16_cases h with rfl | rfl | rfl | rfl | rfl | rfl | rfl | rfl | rfl | rfl | rfl |
        rfl | rfl | rfl | rfl | rfl <;> rfl

theorem plainDigits_eq (a : Bytes) (h : a.length = 20) : asciiBytes (hexlify a) = plainDigits a := by
  unfold asciiBytes plainDigits
  apply List.ext_getElem?
  intro i
  rw [List.getElem?_map, List.getElem?_map]
  by_cases hi : i < 40
  · rw [hexlify_get a i (by omega), List.getElem?_range hi]
    simp only [Option.map_some, hexLower_getD (nibbleAt_lt a i)]
  · rw [List.getElem?_eq_none (by rw [hexlify_length]; omega),
      List.getElem?_eq_none (by rw [List.length_range]; omega)]
    rfl

/-- The checksummed address is the one of the specification. -/
theorem checksumAddress_eq (K : Bytes → Bytes) (hK : ∀ b, (K b).length = 32) (a : Bytes)
    (h : a.length = 20) : checksumAddress K a = eip55 K a := by
  unfold checksumAddress eip55
  rw [plainDigits_eq a h]
  generalize hd : K (plainDigits a) = d
  have hdl : d.length = 32 := by rw [← hd]; exact hK _
  show '0' :: 'x' :: _ = '0' :: 'x' :: _
  congr 2
  rw [List.append_eq, List.nil_append]
  apply List.ext_getElem?
  intro i
  rw [List.getElem?_map]
  by_cases hi : i < 40
  · rw [List.getElem?_zipWith, hexlify_get a i (by omega), hexlify_get d i (by omega),
      List.getElem?_range hi]
    simp only [Option.map_some, hexVal_hexDigit (nibbleAt_lt d i), Option.getD_some]
    congr 1
    by_cases h8 : nibbleAt d i > 7
    · rw [if_pos h8, if_pos (by omega), hexUp_digit (nibbleAt_lt a i)]
    · rw [if_neg h8, if_neg (by omega), hexLower_getD (nibbleAt_lt a i)]
  · rw [List.getElem?_eq_none (by rw [List.length_zipWith, hexlify_length, hexlify_length]; omega),
      List.getElem?_eq_none (by rw [List.length_range]; omega)]
    rfl

theorem hashAddress_eq (K : Bytes → Bytes) (hK : ∀ b, (K b).length = 32) (key : Bytes) :
    hashAddress K (K key) = .ok (keyAddress K key) := by
  have hl : ((K key).drop 12).length = 20 := by rw [List.length_drop, hK]
  unfold hashAddress
  rw [if_pos hl, checksumAddress_eq K hK _ hl]
  rfl

/-- The digits of a checksummed address denote the address. -/
theorem eip55_denotes (K : Bytes → Bytes) (a : Bytes) (h : a.length = 20) :
    ∃ t, eip55 K a = '0' :: 'x' :: t ∧ HexText t a := by
  refine ⟨_, rfl, ?_⟩
  generalize K (plainDigits a) = d
  have key : ∀ (n : Nat) (f : Nat → Char) (b : Bytes), b.length = n →
      (∀ i, i < 2 * n → Nibble (f i) (nibbleAt b i)) → HexText ((List.range (2 * n)).map f) b := by
    intro n
    induction n with
    | zero => intro f b hb _; rw [List.length_eq_zero_iff.mp hb]; exact .nil
    | succ n ih =>
      intro f b hb hf
      match b, hb with
      | x :: xs, hb =>
        have e : 2 * (n + 1) = 2 * n + 1 + 1 := by omega
        rw [e, List.range_succ_eq_map, List.range_succ_eq_map]
        simp only [List.map_cons, List.map_map]
        have h0 := hf 0 (by omega)
        have h1 := hf 1 (by omega)
        simp only [nibbleAt, List.getD_cons_zero, Nat.zero_div, Nat.zero_mod, if_true] at h0
        have h1' : Nibble (f 1) (x.toNat % 16) := by simpa [nibbleAt] using h1
        refine .cons h0 h1' (by omega) ?_
        have := ih (fun i => f (i + 2)) xs (by simpa using hb) (by
          intro i hi
          have := hf (i + 2) (by omega)
          have e1 : (i + 2) / 2 = i / 2 + 1 := by omega
          have e2 : (i + 2) % 2 = i % 2 := by omega
          unfold nibbleAt at this ⊢
          rw [e1, e2, List.getD_cons_succ] at this
          exact this)
        exact this
  have := key 20 (fun i => (if 8 ≤ nibbleAt d i then hexUpper else hexLower).getD (nibbleAt a i) '?')
    a h (by
      intro i _
      have hn := nibbleAt_lt a i
      have hlow : hexLower.length = 16 := rfl
      have hupp : hexUpper.length = 16 := rfl
      split
      · right
        rw [List.getD_eq_getElem?_getD, List.getElem?_eq_getElem (by omega)]; rfl
      · left
        rw [List.getD_eq_getElem?_getD, List.getElem?_eq_getElem (by omega)]; rfl)
  exact this

theorem eip55_inj (K : Bytes → Bytes) {a b : Bytes} (ha : a.length = 20) (hb : b.length = 20)
    (h : eip55 K a = eip55 K b) : a = b := by
  obtain ⟨t, e1, h1⟩ := eip55_denotes K a ha
  obtain ⟨u, e2, h2⟩ := eip55_denotes K b hb
  rw [e1, e2] at h
  injection h with _ h
  injection h with _ h
  subst h
  exact hexText_unique h1 h2

end Verif
