import Verif.Lemmas.Bytes
import Verif.Spec.CborItem
/-! # UTF-8: the decoder accepts exactly the encodings -/

namespace Verif

open Spec

private theorem u8 {n : Nat} {b : UInt8} (h : b.toNat = n) : UInt8.ofNat n = b := by
  rw [← h]; simp

private theorem charOf_some {n : Nat} {c : Char} (h : charOf? n = some c) :
    c.toNat = n ∧ (n < 0xD800 ∨ 0xDFFF < n ∧ n < 0x110000) := by
  unfold charOf? at h
  split at h
  · rename_i hv
    injection h with h
    subst h
    refine ⟨rfl, ?_⟩
    simpa [Nat.isValidChar] using hv
  · cases h

theorem utf8EncChar_eq (c : Char) : utf8EncChar c = String.utf8EncodeChar c := by
  have hv : c.toNat < 0x110000 := by
    have := c.valid
    simp only [UInt32.isValidChar, Nat.isValidChar] at this
    simp only [Char.toNat]
    omega
  unfold utf8EncChar String.utf8EncodeChar
  have ev : c.val.toNat = c.toNat := rfl
  dsimp only
  simp only [ev]
  generalize c.toNat = n at *
  by_cases h1 : n < 0x80
  · rw [if_pos h1, if_pos (by omega)]
  by_cases h2 : n < 0x800
  · rw [if_neg h1, if_pos h2, if_neg (by omega), if_pos (by omega)]
    rw [show 0xC0 + n / 64 = n / 64 % 32 + 192 by omega, show 0x80 + n % 64 = n % 64 + 128 by omega]
  by_cases h3 : n < 0x10000
  · rw [if_neg h1, if_neg h2, if_pos h3, if_neg (by omega), if_neg (by omega), if_pos (by omega)]
    rw [show 0xE0 + n / 4096 = n / 4096 % 16 + 0xe0 by omega,
      show 0x80 + n / 64 % 64 = n / 64 % 64 + 0x80 by omega,
      show 0x80 + n % 64 = n % 64 + 128 by omega]
  · rw [if_neg h1, if_neg h2, if_neg h3, if_neg (by omega), if_neg (by omega), if_neg (by omega)]
    rw [show 0xF0 + n / 262144 = n / 262144 % 8 + 0xf0 by omega,
      show 0x80 + n / 4096 % 64 = n / 4096 % 64 + 0x80 by omega,
      show 0x80 + n / 64 % 64 = n / 64 % 64 + 0x80 by omega,
      show 0x80 + n % 64 = n % 64 + 128 by omega]

theorem utf8Enc_eq (s : PStr) : utf8Enc s = utf8 s := by
  unfold utf8Enc utf8
  congr 1
  exact funext utf8EncChar_eq

theorem utf8Dec1_sound {b r : Bytes} {c : Char} (h : utf8Dec1 b = some (c, r)) :
    b = utf8EncChar c ++ r := by
  unfold utf8Dec1 at h
  cases b with
  | nil => cases h
  | cons b0 r0 =>
    dsimp only at h
    by_cases h1 : b0.toNat < 0x80
    · rw [if_pos h1] at h
      cases hc : charOf? b0.toNat with
      | none => rw [hc] at h; cases h
      | some c' =>
        rw [hc] at h
        injection h with h; injection h with h h'; subst h; subst h'
        obtain ⟨e, _⟩ := charOf_some hc
        unfold utf8EncChar
        dsimp only
        rw [e, if_pos h1, u8 rfl]; rfl
    rw [if_neg h1] at h
    by_cases h2 : b0.toNat < 0xC2
    · rw [if_pos h2] at h; cases h
    rw [if_neg h2] at h
    by_cases h3 : b0.toNat < 0xE0
    · rw [if_pos h3] at h
      cases r0 with
      | nil => cases h
      | cons b1 r1 =>
        dsimp only at h
        split at h
        · rename_i k1
          simp only [isCont, Bool.and_eq_true, decide_eq_true_eq] at k1
          generalize hm : (b0.toNat - 0xC0) * 64 + (b1.toNat - 0x80) = m at h
          cases hc : charOf? m with
          | none => rw [hc] at h; cases h
          | some c' =>
            rw [hc] at h
            simp only [Option.map_some, Option.some.injEq, Prod.mk.injEq] at h
            obtain ⟨rfl, rfl⟩ := h
            have e := (charOf_some hc).1
            generalize hn : c'.toNat = n at e
            unfold utf8EncChar
            dsimp only
            rw [hn, if_neg (by omega), if_pos (by omega), u8 (b := b0) (by omega),
              u8 (b := b1) (by omega)]
            rfl
        · cases h
    rw [if_neg h3] at h
    by_cases h4 : b0.toNat < 0xF0
    · rw [if_pos h4] at h
      match r0, h with
      | b1 :: b2 :: r2, h =>
        dsimp only at h
        split at h
        · rename_i k1
          simp only [isCont, Bool.and_eq_true, decide_eq_true_eq] at k1
          generalize hm : (b0.toNat - 0xE0) * 4096 + (b1.toNat - 0x80) * 64 +
            (b2.toNat - 0x80) = m at h k1
          cases hc : charOf? m with
          | none => rw [hc] at h; cases h
          | some c' =>
            rw [hc] at h
            simp only [Option.map_some, Option.some.injEq, Prod.mk.injEq] at h
            obtain ⟨rfl, rfl⟩ := h
            have e := (charOf_some hc).1
            generalize hn : c'.toNat = n at e
            unfold utf8EncChar
            dsimp only
            rw [hn, if_neg (by omega), if_neg (by omega), if_pos (by omega), u8 (b := b0) (by omega),
              u8 (b := b1) (by omega), u8 (b := b2) (by omega)]
            rfl
        · cases h
      | [_], h => cases h
      | [], h => cases h
    rw [if_neg h4] at h
    by_cases h5 : b0.toNat < 0xF5
    · rw [if_pos h5] at h
      match r0, h with
      | b1 :: b2 :: b3 :: r3, h =>
        dsimp only at h
        split at h
        · rename_i k1
          simp only [isCont, Bool.and_eq_true, decide_eq_true_eq] at k1
          generalize hm : (b0.toNat - 0xF0) * 262144 + (b1.toNat - 0x80) * 4096 +
            (b2.toNat - 0x80) * 64 + (b3.toNat - 0x80) = m at h k1
          cases hc : charOf? m with
          | none => rw [hc] at h; cases h
          | some c' =>
            rw [hc] at h
            simp only [Option.map_some, Option.some.injEq, Prod.mk.injEq] at h
            obtain ⟨rfl, rfl⟩ := h
            have e := (charOf_some hc).1
            generalize hn : c'.toNat = n at e
            unfold utf8EncChar
            dsimp only
            rw [hn, if_neg (by omega), if_neg (by omega), if_neg (by omega), u8 (b := b0) (by omega),
              u8 (b := b1) (by omega), u8 (b := b2) (by omega), u8 (b := b3) (by omega)]
            rfl
        · cases h
      | [_, _], h => cases h
      | [_], h => cases h
      | [], h => cases h
    · rw [if_neg h5] at h; cases h

private theorem utf8DecF_sound : ∀ (f : Nat) (b : Bytes) (s : PStr), utf8DecF f b = some s →
    b = utf8Enc s
  | f, [], s, h => by
    have : s = [] := by cases f <;> (unfold utf8DecF at h; injection h with h; exact h.symm)
    rw [this]; rfl
  | 0, _ :: _, s, h => by cases h
  | f + 1, b :: bs, s, h => by
    unfold utf8DecF at h
    cases h1 : utf8Dec1 (b :: bs) with
    | none => rw [h1] at h; cases h
    | some p =>
      obtain ⟨c, r⟩ := p
      rw [h1] at h
      dsimp only at h
      cases h2 : utf8DecF f r with
      | none => rw [h2] at h; cases h
      | some t =>
        rw [h2] at h
        injection h with h
        rw [utf8Dec1_sound h1, utf8DecF_sound f r t h2, ← h]
        simp [utf8Enc]

/-- A byte string decodes to a text exactly if it is the encoding of the text. -/
theorem utf8Dec_iff (b : Bytes) (s : PStr) : utf8Dec b = some s ↔ b = utf8 s := by
  rw [← utf8Enc_eq]
  exact ⟨utf8DecF_sound _ _ _, fun h => by rw [h]; exact utf8Dec_enc s⟩

end Verif
