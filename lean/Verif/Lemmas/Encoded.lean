import Verif.Spec.Encoded
import Verif.Lemmas.Cbor
import Verif.Lemmas.Utf8
import Verif.Lemmas.Frame
/-! # Lemmas about the bytes of a value -/

namespace Verif

open Spec

private theorem be_lt (b : Bytes) : bigEndian b < 256 ^ b.length := by rw [bigEndian_eq]; exact ofBE_lt b

private theorem be_toBE {n x : Nat} (h : x < 256 ^ n) : bigEndian (toBE n x) = x := by
  rw [bigEndian_eq]; exact ofBE_toBE h

private theorem be_unique {x : Bytes} {n : Nat} (h : bigEndian x = n) : x = toBE x.length n := by
  rw [← h, bigEndian_eq, toBE_ofBE]

private theorem head_lt {m n : Nat} {h : Bytes} (hh : Head m h n) : n < 2 ^ 64 := by
  cases hh with
  | short hn => omega
  | @long k x hk hx =>
    have := be_lt x
    rw [hx] at this
    have : k = 0 ∨ k = 1 ∨ k = 2 ∨ k = 3 := by omega
    rcases this with rfl | rfl | rfl | rfl <;> omega

/-- The head of the model is a head, and every other one is longer. -/
private theorem head_cbor {m n : Nat} (hn : n < 2 ^ 64) : Head m (cborHead m n) n ∧
    ∀ h', Head m h' n → h' = cborHead m n ∨ (cborHead m n).length < h'.length := by
  have long : ∀ k, k < 4 → n < 256 ^ (2 ^ k) →
      Head m (UInt8.ofNat (m * 32 + (24 + k)) :: toBE (2 ^ k) n) n := by
    intro k hk hb
    have := Head.long (major := m) (x := toBE (2 ^ k) n) hk (toBE_length _ _)
    rw [be_toBE hb] at this
    rwa [show m * 32 + (24 + k) = 32 * m + 24 + k by omega]
  have other : ∀ k, k < 4 → (∀ j, j < k → 256 ^ (2 ^ j) ≤ n) → 24 ≤ n →
      ∀ h', Head m h' n → h' = UInt8.ofNat (m * 32 + (24 + k)) :: toBE (2 ^ k) n ∨
        (UInt8.ofNat (m * 32 + (24 + k)) :: toBE (2 ^ k) n).length < h'.length := by
    intro k hk hlow h24 h' hh'
    cases hh' with
    | short hs => omega
    | @long j x hj hx =>
      have hbx := be_lt x
      rw [hx] at hbx
      by_cases hjk : j < k
      · exact absurd (hlow j hjk) (by omega)
      by_cases e : j = k
      · subst e
        left
        have := be_unique (x := x) rfl
        rw [hx] at this
        rw [← this, show m * 32 + (24 + j) = 32 * m + 24 + j by omega]
      · right
        simp only [List.length_cons, toBE_length, hx]
        have := Nat.pow_lt_pow_right (a := 2) (by omega) (show k < j by omega)
        omega
  unfold cborHead
  by_cases h0 : n ≤ 23
  · rw [if_pos h0]
    refine ⟨?_, fun h' hh' => ?_⟩
    · rw [Nat.mul_comm]; exact Head.short (by omega)
    · cases hh' with
      | short hs => left; rw [Nat.mul_comm]
      | @long j x hj hx =>
        right
        have := Nat.two_pow_pos j
        simp only [List.length_cons, List.length_nil, hx]
        omega
  rw [if_neg h0]
  by_cases h1 : n ≤ 0xff
  · rw [if_pos h1]
    exact ⟨long 0 (by omega) (by omega), other 0 (by omega) (fun j hj => by omega) (by omega)⟩
  rw [if_neg h1]
  by_cases h2 : n ≤ 0xffff
  · rw [if_pos h2]
    exact ⟨long 1 (by omega) (by omega), other 1 (by omega) (fun j hj => by
      have : j = 0 := by omega
      subst this; omega) (by omega)⟩
  rw [if_neg h2]
  by_cases h3 : n ≤ 0xffffffff
  · rw [if_pos h3]
    exact ⟨long 2 (by omega) (by omega), other 2 (by omega) (fun j hj => by
      have : j = 0 ∨ j = 1 := by omega
      rcases this with rfl | rfl <;> omega) (by omega)⟩
  rw [if_neg h3]
  exact ⟨long 3 (by omega) (by omega), other 3 (by omega) (fun j hj => by
      have : j = 0 ∨ j = 1 ∨ j = 2 := by omega
      rcases this with rfl | rfl | rfl <;> omega) (by omega)⟩

theorem shortest_iff {m n : Nat} {h : Bytes} : Shortest m h n ↔ n < 2 ^ 64 ∧ h = cborHead m n := by
  constructor
  · rintro ⟨hh, hs⟩
    have hn := head_lt hh
    obtain ⟨h1, h2⟩ := head_cbor (m := m) hn
    refine ⟨hn, ?_⟩
    rcases h2 h hh with e | e
    · exact e
    · have := hs _ h1; omega
  · rintro ⟨hn, rfl⟩
    obtain ⟨h1, h2⟩ := head_cbor (m := m) hn
    refine ⟨h1, fun h' hh' => ?_⟩
    rcases h2 h' hh' with e | e
    · rw [e]; exact Nat.le_refl _
    · omega

private theorem headR_iff {m n : Nat} {h : Bytes} : cborHeadR m n = .ok h ↔ Shortest m h n := by
  rw [shortest_iff]
  unfold cborHeadR
  by_cases hn : n < 2 ^ 64
  · rw [if_pos hn]
    exact ⟨fun e => by injection e with e; exact ⟨hn, e.symm⟩, fun ⟨_, e⟩ => by rw [e]⟩
  · rw [if_neg hn]
    exact ⟨fun e => (by cases e), fun ⟨e, _⟩ => absurd e hn⟩

private theorem str_iff {m : Nat} {x b : Bytes} : cborStr m x = .ok b ↔ ∃ h, Shortest m h x.length ∧ b = h ++ x := by
  unfold cborStr
  constructor
  · intro e
    cases hr : cborHeadR m x.length with
    | error _ => rw [hr] at e; cases e
    | ok h =>
      rw [hr] at e
      injection e with e
      exact ⟨h, headR_iff.mp hr, e.symm⟩
  · rintro ⟨h, hs, rfl⟩
    rw [headR_iff.mpr hs]

private theorem with_iff {a b : Res Bytes} {x : Bytes} : withHead a b = .ok x ↔
    ∃ h y, a = .ok h ∧ b = .ok y ∧ x = h ++ y := by
  unfold withHead
  cases a <;> cases b <;> simp [eq_comm]

private theorem byteLen_min : ∀ (f x : Nat), x ≤ f → x ≠ 0 → 256 ^ (byteLen f x - 1) ≤ x
  | 0, x, h, h0 => by omega
  | f + 1, x, h, h0 => by
    unfold byteLen
    rw [if_neg h0, Nat.add_sub_cancel]
    by_cases hz : x / 256 = 0
    · rw [hz]
      have : byteLen f 0 = 0 := by cases f <;> simp [byteLen]
      rw [this]; omega
    · have ih := byteLen_min f (x / 256) (by omega) hz
      have hp : 0 < byteLen f (x / 256) := by
        cases f with
        | zero => omega
        | succ f => unfold byteLen; rw [if_neg hz]; omega
      have e : byteLen f (x / 256) = (byteLen f (x / 256) - 1) + 1 := by omega
      rw [e, Nat.pow_succ]
      omega

/-- The bytes of a positive integer without leading zeros. -/
private theorem bigBytes_iff {n : Nat} (hn : n ≠ 0) {x : Bytes} :
    x = bigBytes n ↔ bigEndian x = n ∧ x.head? ≠ some 0 := by
  have hlt := lt_pow_byteLen n n (Nat.le_refl _)
  have hmin := byteLen_min n n (Nat.le_refl _) hn
  have big : ∀ {y : Bytes}, bigEndian y = n → (y.head? ≠ some 0 ↔ y.length = byteLen n n) := by
    intro y hy
    have hyl := be_lt y
    rw [hy] at hyl
    cases y with
    | nil => exact absurd hy (by simp [bigEndian]; omega)
    | cons z zs =>
      have hz := be_lt zs
      simp only [bigEndian] at hy
      simp only [List.head?_cons, ne_eq, Option.some.injEq, List.length_cons] at hyl ⊢
      constructor
      · intro hz0
        have hzn : 1 ≤ z.toNat := by
          have : z.toNat ≠ 0 := fun h => hz0 (UInt8.toNat_inj.mp h)
          omega
        have h1 : 256 ^ zs.length ≤ n := by
          have := Nat.mul_le_mul_right (256 ^ zs.length) hzn
          omega
        have a1 : byteLen n n - 1 < zs.length + 1 := (Nat.pow_lt_pow_iff_right (a := 256) (by omega)).mp (by omega)
        have a2 : zs.length < byteLen n n := (Nat.pow_lt_pow_iff_right (a := 256) (by omega)).mp (by omega)
        omega
      · intro hl hz0
        subst hz0
        have e0 : (0 : UInt8).toNat = 0 := rfl
        rw [e0] at hy
        have : byteLen n n - 1 < zs.length := (Nat.pow_lt_pow_iff_right (a := 256) (by omega)).mp (by omega)
        omega
  unfold bigBytes
  constructor
  · rintro rfl
    have h1 := be_toBE hlt
    exact ⟨h1, (big h1).mpr (toBE_length _ _)⟩
  · rintro ⟨h1, h2⟩
    have := be_unique h1
    rwa [(big h1).mp h2] at this

private theorem nat_iff {n : Nat} {b : Bytes} : cborInt (.ofNat n) = .ok b ↔
    Shortest 0 b n ∨ ∃ h x, 2 ^ 64 ≤ bigEndian x ∧ x.head? ≠ some 0 ∧ Shortest 2 h x.length ∧ bigEndian x = n ∧
      b = 0xc2 :: (h ++ x) := by
  unfold cborInt
  dsimp only
  by_cases hn : n < 2 ^ 64
  · rw [if_pos hn, shortest_iff]
    constructor
    · intro e; injection e with e; exact .inl ⟨hn, e.symm⟩
    · rintro (⟨_, rfl⟩ | ⟨h, x, h1, _, _, h2, _⟩)
      · rfl
      · omega
  · rw [if_neg hn, shortest_iff]
    constructor
    · intro e
      cases hs : cborStr 2 (bigBytes n) with
      | error _ => rw [hs] at e; cases e
      | ok y =>
        rw [hs] at e
        obtain ⟨h, hh, rfl⟩ := str_iff.mp hs
        obtain ⟨e1, e2⟩ := (bigBytes_iff (n := n) (by omega)).mp rfl
        injection e with e
        exact .inr ⟨h, _, by omega, e2, hh, e1, e.symm⟩
    · rintro (⟨h, _⟩ | ⟨h, x, h1, h2, h3, h4, rfl⟩)
      · exact absurd h hn
      · have hx := (bigBytes_iff (by omega)).mpr ⟨h4, h2⟩
        rw [← hx, str_iff.mpr ⟨h, h3, rfl⟩]
        rfl

private theorem neg_iff {n : Nat} {b : Bytes} : cborInt (.negSucc n) = .ok b ↔
    Shortest 1 b n ∨ ∃ h x, 2 ^ 64 ≤ bigEndian x ∧ x.head? ≠ some 0 ∧ Shortest 2 h x.length ∧ bigEndian x = n ∧
      b = 0xc3 :: (h ++ x) := by
  unfold cborInt
  dsimp only
  by_cases hn : n < 2 ^ 64
  · rw [if_pos hn, shortest_iff]
    constructor
    · intro e; injection e with e; exact .inl ⟨hn, e.symm⟩
    · rintro (⟨_, rfl⟩ | ⟨h, x, h1, _, _, h2, _⟩)
      · rfl
      · omega
  · rw [if_neg hn, shortest_iff]
    constructor
    · intro e
      cases hs : cborStr 2 (bigBytes n) with
      | error _ => rw [hs] at e; cases e
      | ok y =>
        rw [hs] at e
        obtain ⟨h, hh, rfl⟩ := str_iff.mp hs
        obtain ⟨e1, e2⟩ := (bigBytes_iff (n := n) (by omega)).mp rfl
        injection e with e
        exact .inr ⟨h, _, by omega, e2, hh, e1, e.symm⟩
    · rintro (⟨h, _⟩ | ⟨h, x, h1, h2, h3, h4, rfl⟩)
      · exact absurd h hn
      · have hx := (bigBytes_iff (by omega)).mpr ⟨h4, h2⟩
        rw [← hx, str_iff.mpr ⟨h, h3, rfl⟩]
        rfl

private theorem neg_int (n : Nat) : (-1 - (n : Int)) = Int.negSucc n := by omega

private theorem textEnum_iff (e : EnumId) : e.isStringEnum = true ↔ e ∈ textEnums := by
  cases e <;> decide

private theorem string_encoded {s : PStr} {b : Bytes} : cborStr 3 (utf8Enc s) = .ok b ↔ Encoded (.str s) b := by
  rw [utf8Enc_eq, str_iff]
  constructor
  · rintro ⟨h, h1, rfl⟩; exact .text h1
  · intro h; cases h with | text h1 => exact ⟨_, h1, rfl⟩

mutual
private theorem enc_encoded : ∀ (v : Val) (b : Bytes), cborEnc v = .ok b → Encoded v b
  | .none, b, h => by unfold cborEnc at h; injection h with h; subst h; exact .none
  | .bool false, b, h => by unfold cborEnc at h; injection h with h; subst h; exact .false
  | .bool true, b, h => by unfold cborEnc at h; injection h with h; subst h; exact .true
  | .int (.ofNat n), b, h => by
    unfold cborEnc at h
    rcases nat_iff.mp h with h | ⟨h, x, h1, h2, h3, h4, rfl⟩
    · exact .uint h
    · subst h4; exact .posBig h1 h2 h3
  | .int (.negSucc n), b, h => by
    unfold cborEnc at h
    rw [← neg_int]
    rcases neg_iff.mp h with h | ⟨h, x, h1, h2, h3, h4, rfl⟩
    · exact .nint h
    · subst h4; exact .negBig h1 h2 h3
  | .float d, b, h => by
    unfold cborEnc at h
    injection h with h
    subst h
    exact .float (toBE_length _ _) (be_toBE (by have := d.toNat_lt; omega))
  | .str s, b, h => by unfold cborEnc at h; exact string_encoded.mp h
  | .bytes x, b, h => by
    unfold cborEnc at h
    obtain ⟨h, h1, rfl⟩ := str_iff.mp h
    exact .bytes h1
  | .list l, b, h => by
    unfold cborEnc at h
    obtain ⟨h, y, h1, h2, rfl⟩ := with_iff.mp h
    obtain ⟨parts, rfl, rfl, hp⟩ := encL_encoded l y h2
    exact .array parts (by rw [← List.length_map (f := (·.1))]; exact headR_iff.mp h1) hp
  | .tuple l, b, h => by
    unfold cborEnc at h
    obtain ⟨h, y, h1, h2, rfl⟩ := with_iff.mp h
    obtain ⟨parts, rfl, rfl, hp⟩ := encL_encoded l y h2
    exact .tuple parts (by rw [← List.length_map (f := (·.1))]; exact headR_iff.mp h1) hp
  | .dict d, b, h => by
    unfold cborEnc at h
    obtain ⟨h, y, h1, h2, rfl⟩ := with_iff.mp h
    obtain ⟨parts, rfl, rfl, hp, hq⟩ := encD_encoded d y h2
    exact .map parts (by rw [List.length_map] at h1; exact headR_iff.mp h1) hp hq
  | .tag n v, b, h => by
    unfold cborEnc at h
    by_cases h1 : n = 1
    · rw [if_pos h1] at h; cases h
    · rw [if_neg h1] at h
      obtain ⟨h, y, h2, h3, rfl⟩ := with_iff.mp h
      exact .tag h1 (headR_iff.mp h2) (enc_encoded v y h3)
  | .enum e s, b, h => by
    unfold cborEnc at h
    by_cases h1 : e.isStringEnum = true
    · rw [if_pos h1] at h; exact .member ((textEnum_iff e).mp h1) (string_encoded.mp h)
    · rw [if_neg h1] at h; cases h
  | .fdict c items, b, h => by
    unfold cborEnc at h
    obtain ⟨h, y, h1, h2, rfl⟩ := with_iff.mp h
    obtain ⟨parts, rfl, rfl, hp, hq⟩ := encF_encoded items y h2
    exact .dictionary parts (by rw [List.length_map] at h1; exact headR_iff.mp h1) hp hq
  | .cont _ _, b, h => by unfold cborEnc at h; cases h
  | .mask _, b, h => by unfold cborEnc at h; cases h
  | .msg _ _ _ _ _ _, b, h => by unfold cborEnc at h; cases h
private theorem encL_encoded : ∀ (l : List Val) (b : Bytes), cborEncL l = .ok b →
    ∃ parts : List (Val × Bytes), l = parts.map (·.1) ∧ b = parts.flatMap (·.2) ∧ ∀ p ∈ parts, Encoded p.1 p.2
  | [], b, h => by
    unfold cborEncL at h
    injection h with h
    subst h
    exact ⟨[], rfl, rfl, fun _ h => by cases h⟩
  | x :: xs, b, h => by
    unfold cborEncL catRes at h
    obtain ⟨y, z, h1, h2, rfl⟩ := with_iff.mp h
    obtain ⟨parts, rfl, rfl, hp⟩ := encL_encoded xs z h2
    refine ⟨(x, y) :: parts, rfl, rfl, fun p hm => ?_⟩
    rcases List.mem_cons.mp hm with rfl | hm
    · exact enc_encoded x y h1
    · exact hp p hm
private theorem encD_encoded : ∀ (d : List (Val × Val)) (b : Bytes), cborEncD d = .ok b →
    ∃ pairs : List ((Val × Bytes) × Val × Bytes), d = (pairs.map fun p => (p.1.1, p.2.1)) ∧
      b = (pairs.flatMap fun p => p.1.2 ++ p.2.2) ∧ (∀ p ∈ pairs, Encoded p.1.1 p.1.2) ∧
      ∀ p ∈ pairs, Encoded p.2.1 p.2.2
  | [], b, h => by
    unfold cborEncD at h
    injection h with h
    subst h
    exact ⟨[], rfl, rfl, fun _ h => (by cases h), fun _ h => (by cases h)⟩
  | (k, x) :: xs, b, h => by
    unfold cborEncD catRes at h
    obtain ⟨y, z, h1, h2, rfl⟩ := with_iff.mp h
    obtain ⟨y', z', h3, h4, rfl⟩ := with_iff.mp h2
    obtain ⟨parts, rfl, rfl, hp, hq⟩ := encD_encoded xs z' h4
    refine ⟨((k, y), x, y') :: parts, rfl, by simp [List.append_assoc], fun p hm => ?_, fun p hm => ?_⟩
    · rcases List.mem_cons.mp hm with rfl | hm
      · exact enc_encoded k y h1
      · exact hp p hm
    · rcases List.mem_cons.mp hm with rfl | hm
      · exact enc_encoded x y' h3
      · exact hq p hm
private theorem encF_encoded : ∀ (d : List (PStr × Val)) (b : Bytes), cborEncF d = .ok b →
    ∃ pairs : List ((PStr × Bytes) × Val × Bytes), d = (pairs.map fun p => (p.1.1, p.2.1)) ∧
      b = (pairs.flatMap fun p => p.1.2 ++ p.2.2) ∧ (∀ p ∈ pairs, Encoded (.str p.1.1) p.1.2) ∧
      ∀ p ∈ pairs, Encoded p.2.1 p.2.2
  | [], b, h => by
    unfold cborEncF at h
    injection h with h
    subst h
    exact ⟨[], rfl, rfl, fun _ h => (by cases h), fun _ h => (by cases h)⟩
  | (k, x) :: xs, b, h => by
    unfold cborEncF catRes at h
    obtain ⟨y, z, h1, h2, rfl⟩ := with_iff.mp h
    obtain ⟨y', z', h3, h4, rfl⟩ := with_iff.mp h2
    obtain ⟨parts, rfl, rfl, hp, hq⟩ := encF_encoded xs z' h4
    refine ⟨((k, y), x, y') :: parts, rfl, by simp [List.append_assoc], fun p hm => ?_, fun p hm => ?_⟩
    · rcases List.mem_cons.mp hm with rfl | hm
      · exact string_encoded.mp h1
      · exact hp p hm
    · rcases List.mem_cons.mp hm with rfl | hm
      · exact enc_encoded x y' h3
      · exact hq p hm
end

private theorem encL_of : ∀ {parts : List (Val × Bytes)}, (∀ p ∈ parts, cborEnc p.1 = .ok p.2) →
    cborEncL (parts.map (·.1)) = .ok (parts.flatMap (·.2))
  | [], _ => rfl
  | p :: ps, h => by
    simp only [List.map_cons, cborEncL, catRes]
    rw [h p (by simp), encL_of fun q hq => h q (List.mem_cons_of_mem _ hq)]
    rfl

private theorem encD_of : ∀ {pairs : List ((Val × Bytes) × Val × Bytes)},
    (∀ p ∈ pairs, cborEnc p.1.1 = .ok p.1.2) → (∀ p ∈ pairs, cborEnc p.2.1 = .ok p.2.2) →
    cborEncD (pairs.map fun p => (p.1.1, p.2.1)) = .ok (pairs.flatMap fun p => p.1.2 ++ p.2.2)
  | [], _, _ => rfl
  | p :: ps, h, g => by
    simp only [List.map_cons, cborEncD, catRes]
    rw [h p (by simp), g p (by simp), encD_of (fun q hq => h q (List.mem_cons_of_mem _ hq))
      (fun q hq => g q (List.mem_cons_of_mem _ hq))]
    simp [withHead, List.append_assoc]

private theorem encF_of : ∀ {pairs : List ((PStr × Bytes) × Val × Bytes)},
    (∀ p ∈ pairs, cborEnc (.str p.1.1) = .ok p.1.2) → (∀ p ∈ pairs, cborEnc p.2.1 = .ok p.2.2) →
    cborEncF (pairs.map fun p => (p.1.1, p.2.1)) = .ok (pairs.flatMap fun p => p.1.2 ++ p.2.2)
  | [], _, _ => rfl
  | p :: ps, h, g => by
    simp only [List.map_cons, cborEncF, catRes]
    have hp := h p (by simp)
    unfold cborEnc at hp
    rw [hp, g p (by simp), encF_of (fun q hq => h q (List.mem_cons_of_mem _ hq))
      (fun q hq => g q (List.mem_cons_of_mem _ hq))]
    simp [withHead, List.append_assoc]

private theorem encoded_enc {v : Val} {b : Bytes} (h : Encoded v b) : cborEnc v = .ok b := by
  induction h with
  | none => rfl
  | false => rfl
  | true => rfl
  | uint h => unfold cborEnc; exact nat_iff.mpr (.inl h)
  | nint h => unfold cborEnc; rw [neg_int]; exact neg_iff.mpr (.inl h)
  | posBig h1 h2 h3 => unfold cborEnc; exact nat_iff.mpr (.inr ⟨_, _, h1, h2, h3, rfl, rfl⟩)
  | negBig h1 h2 h3 => unfold cborEnc; rw [neg_int]; exact neg_iff.mpr (.inr ⟨_, _, h1, h2, h3, rfl, rfl⟩)
  | float h1 h2 => unfold cborEnc; rw [be_unique h2, h1]
  | bytes h => unfold cborEnc; exact str_iff.mpr ⟨_, h, rfl⟩
  | text h => unfold cborEnc; exact string_encoded.mpr (.text h)
  | member h1 _ ih =>
    unfold cborEnc at ih ⊢
    rw [if_pos ((textEnum_iff _).mpr h1)]
    exact ih
  | array parts h _ ih =>
    unfold cborEnc
    exact with_iff.mpr ⟨_, _, headR_iff.mpr (by rw [List.length_map]; exact h), encL_of ih, rfl⟩
  | tuple parts h _ ih =>
    unfold cborEnc
    exact with_iff.mpr ⟨_, _, headR_iff.mpr (by rw [List.length_map]; exact h), encL_of ih, rfl⟩
  | map parts h _ _ ih1 ih2 =>
    unfold cborEnc
    exact with_iff.mpr ⟨_, _, headR_iff.mpr (by rw [List.length_map]; exact h), encD_of ih1 ih2, rfl⟩
  | dictionary parts h _ _ ih1 ih2 =>
    unfold cborEnc
    exact with_iff.mpr ⟨_, _, headR_iff.mpr (by rw [List.length_map]; exact h), encF_of ih1 ih2, rfl⟩
  | tag h1 h2 _ ih =>
    unfold cborEnc
    rw [if_neg h1]
    exact with_iff.mpr ⟨_, _, headR_iff.mpr h2, ih, rfl⟩

theorem encoded_iff {v : Val} {b : Bytes} : dumps v = .ok b ↔ Encoded v b := by
  unfold dumps
  constructor
  · intro h
    cases hc : cborEnc v with
    | error _ => rw [hc] at h; cases h
    | ok y => rw [hc] at h; injection h with h; subst h; exact enc_encoded v _ hc
  · intro h
    rw [encoded_enc h]

end Verif
