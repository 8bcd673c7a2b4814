import Verif.Lemmas.Cbor
/-! # Encodings that succeed -/

set_option linter.unusedSimpArgs false

namespace Verif

theorem cborStr_some (m : Nat) (b : Bytes) (h : b.length < 2 ^ 64) :
    ∃ x, cborStr m b = .ok x := by
  unfold cborStr cborHeadR
  rw [if_pos h]
  exact ⟨_, rfl⟩

theorem withHead_some {m n : Nat} {r : Res Bytes} (h : n < 2 ^ 64) (hr : ∃ x, r = .ok x) :
    ∃ x, withHead (cborHeadR m n) r = .ok x := by
  obtain ⟨x, rfl⟩ := hr
  unfold cborHeadR
  rw [if_pos h]
  exact ⟨_, rfl⟩

theorem cat_some {a b : Res Bytes} (ha : ∃ x, a = .ok x) (hb : ∃ x, b = .ok x) :
    ∃ x, catRes a b = .ok x := by
  obtain ⟨x, rfl⟩ := ha
  obtain ⟨y, rfl⟩ := hb
  exact ⟨_, rfl⟩

theorem utf8Enc_length (s : PStr) : (utf8Enc s).length ≤ 4 * s.length := by
  unfold utf8Enc
  induction s with
  | nil => simp
  | cons c cs ih =>
    have : (utf8EncChar c).length ≤ 4 := by
      unfold utf8EncChar
      simp only
      split
      · simp
      · split
        · simp
        · split <;> simp
    simp only [List.flatMap_cons, List.length_append, List.length_cons]
    omega

theorem byteLen_le : ∀ (f x n : Nat), x < 256 ^ n → byteLen f x ≤ n
  | 0, x, n, h => by simp [byteLen]
  | f + 1, x, n, h => by
    unfold byteLen
    by_cases hx : x = 0
    · simp [hx]
    · rw [if_neg hx]
      cases n with
      | zero => simp at h; omega
      | succ n =>
        have := byteLen_le f (x / 256) n (by
          rw [Nat.div_lt_iff_lt_mul (by decide), ← Nat.pow_succ]; exact h)
        omega

theorem cborInt_some (i : Int) (n : Nat) (h : i.natAbs < 256 ^ n) (hn : n < 2 ^ 64) :
    ∃ x, cborInt i = .ok x := by
  unfold cborInt
  match i, h with
  | .ofNat k, h =>
    simp only
    split
    · exact ⟨_, rfl⟩
    · obtain ⟨x, hx⟩ := cborStr_some 2 (bigBytes k) (by
        unfold bigBytes
        rw [toBE_length]
        exact Nat.lt_of_le_of_lt (byteLen_le k k n h) hn)
      rw [hx]; exact ⟨_, rfl⟩
  | .negSucc k, h =>
    simp only
    split
    · exact ⟨_, rfl⟩
    · obtain ⟨x, hx⟩ := cborStr_some 2 (bigBytes k) (by
        unfold bigBytes
        rw [toBE_length]
        refine Nat.lt_of_le_of_lt (byteLen_le k k n ?_) hn
        have : (Int.negSucc k).natAbs = k + 1 := rfl
        omega)
      rw [hx]; exact ⟨_, rfl⟩

end Verif
