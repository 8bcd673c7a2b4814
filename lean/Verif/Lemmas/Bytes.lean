import Verif.Model.Bytes
/-! # Lemmas about big-endian integers and UTF-8 -/

set_option linter.unusedSimpArgs false

namespace Verif

@[simp] theorem toBE_length : ∀ n x, (toBE n x).length = n
  | 0, _ => rfl
  | n + 1, x => by simp [toBE, toBE_length n]

theorem ofBE_append (a b : Bytes) : ofBE (a ++ b) = ofBE a * 256 ^ b.length + ofBE b := by
  have gen : ∀ (b : Bytes) (acc : Nat),
      b.foldl (fun acc x => acc * 256 + x.toNat) acc = acc * 256 ^ b.length + ofBE b := by
    intro b
    induction b with
    | nil => intro acc; simp [ofBE]
    | cons x xs ih =>
      intro acc
      simp only [ofBE, List.foldl_cons, List.length_cons]
      rw [ih, ih (0 * 256 + x.toNat)]
      simp only [Nat.zero_mul, Nat.zero_add, Nat.add_mul, Nat.pow_succ, Nat.add_assoc]
      congr 1
      rw [Nat.mul_assoc, Nat.mul_comm 256]
  simp only [ofBE, List.foldl_append]
  rw [gen]
  rfl

@[simp] theorem ofBE_nil : ofBE [] = 0 := rfl
@[simp] theorem ofBE_singleton (x : UInt8) : ofBE [x] = x.toNat := by simp [ofBE]

theorem ofBE_cons (x : UInt8) (b : Bytes) : ofBE (x :: b) = x.toNat * 256 ^ b.length + ofBE b := by
  have := ofBE_append [x] b
  simpa using this

theorem ofBE_lt (b : Bytes) : ofBE b < 256 ^ b.length := by
  induction b with
  | nil => simp [ofBE]
  | cons x xs ih =>
    rw [ofBE_cons, List.length_cons, Nat.pow_succ]
    have hx : x.toNat < 256 := x.toNat_lt
    have : (x.toNat + 1) * 256 ^ xs.length ≤ 256 * 256 ^ xs.length := Nat.mul_le_mul_right _ hx
    rw [Nat.add_mul, Nat.one_mul, Nat.mul_comm 256] at this
    omega

theorem ofBE_toBE_mod : ∀ n x, ofBE (toBE n x) = x % 256 ^ n
  | 0, x => by simp [toBE, Nat.mod_one]
  | n + 1, x => by
    rw [toBE, ofBE_append, ofBE_toBE_mod n]
    have h : (UInt8.ofNat (x % 256)).toNat = x % 256 := by
      simp [UInt8.toNat_ofNat']
    rw [List.length_singleton, Nat.pow_one, ofBE_singleton, h]
    have e : 256 ^ (n + 1) = 256 * 256 ^ n := by rw [Nat.pow_succ, Nat.mul_comm]
    rw [e, Nat.mod_mul]
    omega

theorem ofBE_toBE {n x : Nat} (h : x < 256 ^ n) : ofBE (toBE n x) = x := by
  rw [ofBE_toBE_mod, Nat.mod_eq_of_lt h]

theorem toBE_ofBE (b : Bytes) : toBE b.length (ofBE b) = b := by
  have key : ∀ (n : Nat) (b : Bytes), b.length = n → toBE n (ofBE b) = b := by
    intro n
    induction n with
    | zero => intro b hb; simp at hb; simp [hb, toBE]
    | succ n ih =>
      intro b hb
      rcases List.eq_nil_or_concat b with rfl | ⟨init, x, rfl⟩
      · simp at hb
      · simp only [List.concat_eq_append, List.length_append, List.length_singleton] at hb ⊢
        have hl : init.length = n := by omega
        rw [toBE, ofBE_append]
        have hx : x.toNat < 256 := x.toNat_lt
        simp only [List.length_singleton, Nat.pow_one, ofBE_singleton]
        have h1 : (ofBE init * 256 + x.toNat) / 256 = ofBE init := by omega
        have h2 : (ofBE init * 256 + x.toNat) % 256 = x.toNat := by omega
        rw [h1, h2, ih init hl, UInt8.ofNat_toNat]
  exact key _ b rfl

theorem toBE_inj {n x y : Nat} (hx : x < 256 ^ n) (hy : y < 256 ^ n) (h : toBE n x = toBE n y) :
    x = y := by
  rw [← ofBE_toBE hx, ← ofBE_toBE hy, h]

/-- `byteLen` with enough fuel bounds the value. -/
theorem lt_pow_byteLen : ∀ (f x : Nat), x ≤ f → x < 256 ^ byteLen f x
  | 0, x, h => by
    have : x = 0 := by omega
    simp [this, byteLen]
  | f + 1, x, h => by
    unfold byteLen
    by_cases h0 : x = 0
    · simp [h0]
    · simp only [h0, if_false, Nat.pow_succ]
      have := lt_pow_byteLen f (x / 256) (by omega)
      omega

/-! ### UTF-8 -/

theorem charOf?_toNat (c : Char) : charOf? c.toNat = some c := by
  unfold charOf?
  have h : c.toNat.isValidChar := c.valid
  rw [dif_pos h]
  congr 1

theorem charOf?_of {n : Nat} {c : Char} (h : n = c.toNat) : charOf? n = some c := by
  subst h; exact charOf?_toNat c

theorem toNat_ofNat_lt {n : Nat} (h : n < 256) : (UInt8.ofNat n).toNat = n := by
  simp [UInt8.toNat_ofNat', Nat.mod_eq_of_lt h]

theorem utf8Dec1_encChar (c : Char) (rest : Bytes) :
    utf8Dec1 (utf8EncChar c ++ rest) = some (c, rest) := by
  have hv : c.toNat < 0x110000 := by
    have := c.valid
    simp only [UInt32.isValidChar, Nat.isValidChar] at this
    simp only [Char.toNat]
    omega
  unfold utf8EncChar
  simp only
  generalize hn : c.toNat = n at *
  by_cases h1 : n < 0x80
  · have e0 : (UInt8.ofNat n).toNat = n := toNat_ofNat_lt (by omega)
    rw [if_pos h1, List.singleton_append]
    unfold utf8Dec1
    dsimp only
    rw [e0, if_pos h1, charOf?_of hn.symm]
    rfl
  by_cases h2 : n < 0x800
  · have e0 : (UInt8.ofNat (0xC0 + n / 64)).toNat = 0xC0 + n / 64 := toNat_ofNat_lt (by omega)
    have e1 : (UInt8.ofNat (0x80 + n % 64)).toNat = 0x80 + n % 64 := toNat_ofNat_lt (by omega)
    have c1 : isCont (UInt8.ofNat (0x80 + n % 64)) = true := by simp [isCont, e1]; omega
    rw [if_neg h1, if_pos h2, List.cons_append, List.cons_append, List.nil_append]
    unfold utf8Dec1
    dsimp only
    rw [e0, if_neg (by omega), if_neg (by omega), if_pos (by omega)]
    rw [if_pos c1, e1, charOf?_of (c := c) (by omega)]
    rfl
  by_cases h3 : n < 0x10000
  · have e0 : (UInt8.ofNat (0xE0 + n / 4096)).toNat = 0xE0 + n / 4096 := toNat_ofNat_lt (by omega)
    have e1 : (UInt8.ofNat (0x80 + n / 64 % 64)).toNat = 0x80 + n / 64 % 64 :=
      toNat_ofNat_lt (by omega)
    have e2 : (UInt8.ofNat (0x80 + n % 64)).toNat = 0x80 + n % 64 := toNat_ofNat_lt (by omega)
    have c1 : isCont (UInt8.ofNat (0x80 + n / 64 % 64)) = true := by simp [isCont, e1]; omega
    have c2 : isCont (UInt8.ofNat (0x80 + n % 64)) = true := by simp [isCont, e2]; omega
    rw [if_neg h1, if_neg h2, if_pos h3, List.cons_append, List.cons_append, List.cons_append,
      List.nil_append]
    unfold utf8Dec1
    dsimp only
    rw [e0, if_neg (by omega), if_neg (by omega), if_neg (by omega), if_pos (by omega)]
    rw [e1, e2, c1, c2, if_pos (by simp; omega), charOf?_of (c := c) (by omega)]
    rfl
  · have e0 : (UInt8.ofNat (0xF0 + n / 262144)).toNat = 0xF0 + n / 262144 :=
      toNat_ofNat_lt (by omega)
    have e1 : (UInt8.ofNat (0x80 + n / 4096 % 64)).toNat = 0x80 + n / 4096 % 64 :=
      toNat_ofNat_lt (by omega)
    have e2 : (UInt8.ofNat (0x80 + n / 64 % 64)).toNat = 0x80 + n / 64 % 64 :=
      toNat_ofNat_lt (by omega)
    have e3 : (UInt8.ofNat (0x80 + n % 64)).toNat = 0x80 + n % 64 := toNat_ofNat_lt (by omega)
    have c1 : isCont (UInt8.ofNat (0x80 + n / 4096 % 64)) = true := by simp [isCont, e1]; omega
    have c2 : isCont (UInt8.ofNat (0x80 + n / 64 % 64)) = true := by simp [isCont, e2]; omega
    have c3 : isCont (UInt8.ofNat (0x80 + n % 64)) = true := by simp [isCont, e3]; omega
    rw [if_neg h1, if_neg h2, if_neg h3, List.cons_append, List.cons_append, List.cons_append,
      List.cons_append, List.nil_append]
    unfold utf8Dec1
    dsimp only
    rw [e0, if_neg (by omega), if_neg (by omega), if_neg (by omega), if_neg (by omega),
      if_pos (by omega)]
    rw [e1, e2, e3, c1, c2, c3, if_pos (by simp; omega), charOf?_of (c := c) (by omega)]
    rfl

theorem utf8EncChar_ne_nil (c : Char) : utf8EncChar c ≠ [] := by
  unfold utf8EncChar
  simp only
  split
  · simp
  · split
    · simp
    · split <;> simp

theorem utf8DecF_enc : ∀ (s : PStr) (f : Nat), (utf8Enc s).length ≤ f →
    utf8DecF f (utf8Enc s) = some s
  | [], f, _ => by cases f <;> rfl
  | c :: cs, f, h => by
    have e : utf8Enc (c :: cs) = utf8EncChar c ++ utf8Enc cs := by simp [utf8Enc]
    have hne := utf8EncChar_ne_nil c
    rw [e] at h ⊢
    have h1 := utf8Dec1_encChar c (utf8Enc cs)
    cases hc : utf8EncChar c with
    | nil => exact absurd hc hne
    | cons x xs =>
      rw [hc] at h h1
      rw [List.cons_append] at h h1 ⊢
      cases f with
      | zero => simp at h
      | succ f =>
        rw [utf8DecF, h1]
        simp only
        rw [utf8DecF_enc cs f (by simp at h; omega)]
        rfl

/-- Decoding inverts encoding. -/
theorem utf8Dec_enc (s : PStr) : utf8Dec (utf8Enc s) = some s :=
  utf8DecF_enc s _ (Nat.le_refl _)

theorem utf8Enc_inj {s t : PStr} (h : utf8Enc s = utf8Enc t) : s = t := by
  have := utf8Dec_enc s
  rw [h, utf8Dec_enc] at this
  exact (Option.some.inj this).symm

end Verif
