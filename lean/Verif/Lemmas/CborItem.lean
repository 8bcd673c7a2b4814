import Verif.Lemmas.Cbor
import Verif.Lemmas.Frame
import Verif.Lemmas.Utf8
import Verif.Lemmas.Widen
import Verif.Lemmas.Assigned
/-! # The decoder and the grammar of the payload -/

namespace Verif

open Spec

/-! ### Heads -/

private theorem head_read {m n : Nat} {h : Bytes} (hm : m < 8) (hh : Head m h n) (rest : Bytes) :
    ∃ b0 r, h ++ rest = b0 :: r ∧ b0.toNat / 32 = m ∧ b0.toNat % 32 ≠ 31 ∧
      cborArg (b0.toNat % 32) r = .ok (n, rest) := by
  cases hh with
  | short hn =>
    refine ⟨_, rest, rfl, ?_, ?_, ?_⟩ <;> rw [toNat_ofNat_lt (by omega)]
    · omega
    · omega
    · rw [show (32 * m + n) % 32 = n by omega]
      unfold cborArg
      rw [if_pos (by omega)]
  | @long k x hk hx =>
    refine ⟨_, x ++ rest, rfl, ?_, ?_, ?_⟩ <;> rw [toNat_ofNat_lt (by omega)]
    · omega
    · omega
    · rw [show (32 * m + 24 + k) % 32 = 24 + k by omega]
      unfold cborArg
      rw [if_neg (by omega)]
      dsimp only
      rw [if_pos (by omega), takeBytes_append, bigEndian_eq]
      · rfl
      · have : k = 0 ∨ k = 1 ∨ k = 2 ∨ k = 3 := by omega
        rcases this with rfl | rfl | rfl | rfl <;> simpa using hx

private theorem take_ok {n : Nat} {b x r : Bytes} (h : takeBytes n b = .ok (x, r)) :
    b = x ++ r ∧ x.length = n := by
  unfold takeBytes at h
  split at h
  · cases h
  · injection h with h
    injection h with h1 h2
    subst h1 h2
    refine ⟨(List.take_append_drop n b).symm, ?_⟩
    rw [List.length_take]; omega

private theorem take_map {α : Type} {n : Nat} {b r : Bytes} {g : Bytes → α} {v : α}
    (h : (takeBytes n b).map (fun p => (g p.1, p.2)) = .ok (v, r)) :
    ∃ x, b = x ++ r ∧ x.length = n ∧ v = g x := by
  cases ht : takeBytes n b with
  | error e => rw [ht] at h; cases h
  | ok p =>
    obtain ⟨x, r'⟩ := p
    rw [ht] at h
    simp only [Except.map, Except.ok.injEq, Prod.mk.injEq] at h
    obtain ⟨rfl, rfl⟩ := h
    exact ⟨x, (take_ok ht).1, (take_ok ht).2, rfl⟩

private theorem byte_eq (b : UInt8) {m i : Nat} (hm : b.toNat / 32 = m) (hi : b.toNat % 32 = i) :
    b = UInt8.ofNat (32 * m + i) := by
  rw [show 32 * m + i = b.toNat by omega]; simp

private theorem arg_head {b0 : UInt8} {rest r : Bytes} {n : Nat}
    (h : cborArg (b0.toNat % 32) rest = .ok (n, r)) :
    ∃ x, b0 :: rest = (b0 :: x) ++ r ∧ Head (b0.toNat / 32) (b0 :: x) n := by
  unfold cborArg at h
  split at h
  · rename_i hi
    injection h with h
    injection h with h1 h2
    subst h2
    refine ⟨[], rfl, ?_⟩
    have := Head.short (major := b0.toNat / 32) (n := b0.toNat % 32) (by omega)
    rw [← byte_eq b0 rfl rfl] at this
    rw [← h1]; exact this
  · rename_i hi
    dsimp only at h
    split at h
    · rename_i h27
      obtain ⟨x, h1, h2, h3⟩ := take_map (g := ofBE) h
      refine ⟨x, by rw [h1]; rfl, ?_⟩
      have hk : x.length = 2 ^ (b0.toNat % 32 - 24) := by
        rw [h2]
        have : b0.toNat % 32 = 24 ∨ b0.toNat % 32 = 25 ∨ b0.toNat % 32 = 26 ∨
          b0.toNat % 32 = 27 := by omega
        rcases this with e | e | e | e <;> rw [e] <;> rfl
      have := Head.long (major := b0.toNat / 32) (k := b0.toNat % 32 - 24) (by omega) hk
      rw [h3, ← bigEndian_eq]
      rw [show 32 * (b0.toNat / 32) + 24 + (b0.toNat % 32 - 24) = b0.toNat by omega] at this
      simpa using this
    · cases h

private theorem head_ne_nil {m n : Nat} {h : Bytes} (hh : Head m h n) : 0 < h.length := by
  cases hh <;> simp

/-! ### Values of items -/

theorem item_pos {b : Bytes} {v : Val} (h : Item b v) : 0 < b.length := by
  cases h
  all_goals first
    | exact head_ne_nil (by assumption)
    | (rename_i hh; have := head_ne_nil hh; simp only [List.length_append]; omega)
    | (rename_i hh _; have := head_ne_nil hh; simp only [List.length_append]; omega)
    | (rename_i hh _ _ _; have := head_ne_nil hh; simp only [List.length_append]; omega)
    | simp

theorem item_hashable {b : Bytes} {v : Val} (h : Item b v) : v.hashable = scalar v := by
  cases h <;> rfl

/-- No item starts with the break code. -/
private theorem item_first {b : Bytes} {v : Val} (h : Item b v) : ∃ b0 r, b = b0 :: r ∧ b0 ≠ 0xff := by
  have hd : ∀ {m n : Nat} {h : Bytes} (x : Bytes), m < 7 → Head m h n →
      ∃ b0 r, h ++ x = b0 :: r ∧ b0 ≠ 0xff := by
    intro m n h x hm hh
    obtain ⟨b0, r, h1, h2, _⟩ := head_read (by omega) hh x
    refine ⟨b0, r, h1, ?_⟩
    rintro rfl
    simp at h2; omega
  cases h
  case uint => have := hd [] (by decide) (m := 0) ‹_›; rwa [List.append_nil] at this
  case nint => have := hd [] (by decide) (m := 1) ‹_›; rwa [List.append_nil] at this
  case bytes => exact hd _ (by decide) (m := 2) ‹_›
  case text => exact hd _ (by decide) (m := 3) ‹_›
  case array => exact hd _ (by decide) (m := 4) ‹_›
  case map => exact hd _ (by decide) (m := 5) ‹_›
  case posBig => exact hd _ (by decide) (m := 6) ‹_›
  case negBig => exact hd _ (by decide) (m := 6) ‹_›
  case tag => exact hd _ (by decide) (m := 6) ‹_›
  all_goals exact ⟨_, _, rfl, by decide⟩

/-! ### The decoder reads every item -/

private theorem dec_headed {f m n : Nat} {h : Bytes} (hm : m < 7) (hh : Head m h n) (rest : Bytes) :
    cborDec (f + 1) (h ++ rest) = cborBody f m n rest := by
  obtain ⟨b0, r, h1, hmaj, hinfo, harg⟩ := head_read (by omega) hh rest
  rw [h1]
  unfold cborDec
  dsimp only
  rw [hmaj, if_neg (by omega), if_neg hinfo, harg]
  rfl

/-- What reading an item means. -/
private def Reads (b : Bytes) (v : Val) : Prop :=
  ∀ f rest, 2 * b.length ≤ f → cborDec f (b ++ rest) = .ok (v, rest)

private theorem reads_N : ∀ (parts : List (Bytes × Val)) (f : Nat) (rest : Bytes),
    (∀ p ∈ parts, Item p.1 p.2) → (∀ p ∈ parts, Reads p.1 p.2) →
    2 * (parts.flatMap (·.1)).length + 1 ≤ f →
    cborDecN f parts.length (parts.flatMap (·.1) ++ rest) = .ok (parts.map (·.2), rest)
  | _, 0, _, _, _, hf => by omega
  | [], f + 1, rest, _, _, _ => by unfold cborDecN; rfl
  | p :: ps, f + 1, rest, hi, hr, hf => by
    have hp := item_pos (hi p (by simp))
    simp only [List.flatMap_cons, List.length_append] at hf
    rw [List.length_cons, List.flatMap_cons, List.append_assoc]
    unfold cborDecN
    dsimp only
    rw [hr p (by simp) f _ (by omega)]
    dsimp only
    rw [reads_N ps f rest (fun q hq => hi q (by simp [hq])) (fun q hq => hr q (by simp [hq])) (by omega)]
    rfl

private theorem reads_until : ∀ (parts : List (Bytes × Val)) (f : Nat) (rest : Bytes),
    (∀ p ∈ parts, Item p.1 p.2) → (∀ p ∈ parts, Reads p.1 p.2) →
    2 * (parts.flatMap (·.1)).length + 1 ≤ f →
    cborDecUntil f (parts.flatMap (·.1) ++ 0xff :: rest) = .ok (parts.map (·.2), rest)
  | _, 0, _, _, _, hf => by omega
  | [], f + 1, rest, _, _, _ => by
    show cborDecUntil (f + 1) (0xff :: rest) = _
    unfold cborDecUntil; rfl
  | p :: ps, f + 1, rest, hi, hr, hf => by
    have hp := item_pos (hi p (by simp))
    obtain ⟨b0, r, hb, hne⟩ := item_first (hi p (by simp))
    simp only [List.flatMap_cons, List.length_append] at hf
    rw [List.flatMap_cons, List.append_assoc]
    have hd := hr p (by simp) f (ps.flatMap (·.1) ++ 0xff :: rest) (by omega)
    rw [hb, List.cons_append] at hd ⊢
    unfold cborDecUntil
    dsimp only
    rw [if_neg hne, hd]
    dsimp only
    rw [reads_until ps f rest (fun q hq => hi q (by simp [hq])) (fun q hq => hr q (by simp [hq])) (by omega)]
    rfl

private theorem reads_mapN : ∀ (pairs : List ((Bytes × Val) × Bytes × Val)) (f : Nat)
    (pre : List (Val × Val)) (rest : Bytes),
    (∀ p ∈ pairs, Item p.1.1 p.1.2) → (∀ p ∈ pairs, Item p.2.1 p.2.2) →
    (∀ p ∈ pairs, Reads p.1.1 p.1.2) → (∀ p ∈ pairs, Reads p.2.1 p.2.2) →
    (∀ p ∈ pairs, scalar p.1.2 = true) →
    2 * (pairs.flatMap fun p => p.1.1 ++ p.2.1).length + 1 ≤ f →
    cborDecMapN f pairs.length (assigned pre) ((pairs.flatMap fun p => p.1.1 ++ p.2.1) ++ rest) =
      .ok (assigned (pre ++ pairs.map fun p => (p.1.2, p.2.2)), rest)
  | _, 0, _, _, _, _, _, _, _, hf => by omega
  | [], f + 1, pre, rest, _, _, _, _, _, _ => by
    rw [List.map_nil, List.append_nil]; unfold cborDecMapN; rfl
  | p :: ps, f + 1, pre, rest, ki, vi, kr, vr, hs, hf => by
    have kp := item_pos (ki p (by simp))
    have vp := item_pos (vi p (by simp))
    simp only [List.flatMap_cons, List.length_append] at hf
    rw [List.length_cons, List.flatMap_cons, List.append_assoc, List.append_assoc]
    unfold cborDecMapN
    dsimp only
    rw [kr p (by simp) f _ (by omega)]
    dsimp only
    rw [vr p (by simp) f _ (by omega)]
    dsimp only
    rw [item_hashable (ki p (by simp)), hs p (by simp), if_pos rfl, ← assigned_snoc,
      reads_mapN ps f _ rest (fun q hq => ki q (by simp [hq])) (fun q hq => vi q (by simp [hq]))
        (fun q hq => kr q (by simp [hq])) (fun q hq => vr q (by simp [hq]))
        (fun q hq => hs q (by simp [hq])) (by omega), List.map_cons, List.append_assoc]
    rfl

private theorem reads_mapUntil : ∀ (pairs : List ((Bytes × Val) × Bytes × Val)) (f : Nat)
    (pre : List (Val × Val)) (rest : Bytes),
    (∀ p ∈ pairs, Item p.1.1 p.1.2) → (∀ p ∈ pairs, Item p.2.1 p.2.2) →
    (∀ p ∈ pairs, Reads p.1.1 p.1.2) → (∀ p ∈ pairs, Reads p.2.1 p.2.2) →
    (∀ p ∈ pairs, scalar p.1.2 = true) →
    2 * (pairs.flatMap fun p => p.1.1 ++ p.2.1).length + 1 ≤ f →
    cborDecMapUntil f (assigned pre) ((pairs.flatMap fun p => p.1.1 ++ p.2.1) ++ 0xff :: rest) =
      .ok (assigned (pre ++ pairs.map fun p => (p.1.2, p.2.2)), rest)
  | _, 0, _, _, _, _, _, _, _, hf => by omega
  | [], f + 1, pre, rest, _, _, _, _, _, _ => by
    show cborDecMapUntil (f + 1) (assigned pre) (0xff :: rest) = _
    rw [List.map_nil, List.append_nil]; unfold cborDecMapUntil; rfl
  | p :: ps, f + 1, pre, rest, ki, vi, kr, vr, hs, hf => by
    have kp := item_pos (ki p (by simp))
    have vp := item_pos (vi p (by simp))
    obtain ⟨b0, r, hb, hne⟩ := item_first (ki p (by simp))
    simp only [List.flatMap_cons, List.length_append] at hf
    rw [List.flatMap_cons, List.append_assoc, List.append_assoc]
    have hd := kr p (by simp) f (p.2.1 ++
      ((ps.flatMap fun p => p.1.1 ++ p.2.1) ++ 0xff :: rest)) (by omega)
    rw [hb, List.cons_append] at hd ⊢
    unfold cborDecMapUntil
    dsimp only
    rw [if_neg hne, hd]
    dsimp only
    rw [vr p (by simp) f _ (by omega)]
    dsimp only
    rw [item_hashable (ki p (by simp)), hs p (by simp), if_pos rfl, ← assigned_snoc,
      reads_mapUntil ps f _ rest (fun q hq => ki q (by simp [hq])) (fun q hq => vi q (by simp [hq]))
        (fun q hq => kr q (by simp [hq])) (fun q hq => vr q (by simp [hq]))
        (fun q hq => hs q (by simp [hq])) (by omega), List.map_cons, List.append_assoc]
    rfl

private theorem joinBytes_map : ∀ l : List Bytes, joinBytes (l.map .bytes) = .ok (l.flatMap id)
  | [] => rfl
  | x :: xs => by
    rw [List.map_cons, joinBytes, joinBytes_map xs]; rfl

private theorem joinText_map : ∀ l : List PStr, joinText (l.map .str) = .ok (l.flatMap id)
  | [] => rfl
  | x :: xs => by
    rw [List.map_cons, joinText, joinText_map xs]; rfl

private theorem negSucc_eq (n : Nat) : Int.negSucc n = -1 - (n : Int) := by omega

/-- The decoder reads an item as the grammar says, and nothing else. -/
theorem item_read {b : Bytes} {v : Val} (h : Item b v) :
    ∀ f rest, 2 * b.length ≤ f → cborDec f (b ++ rest) = .ok (v, rest) := by
  induction h with
  | uint hh =>
    intro f rest hf
    have := head_ne_nil hh
    obtain ⟨f, rfl⟩ : ∃ g, f = g + 1 := ⟨f - 1, by omega⟩
    rw [dec_headed (by omega) hh]; rfl
  | @nint h n hh =>
    intro f rest hf
    have := head_ne_nil hh
    obtain ⟨f, rfl⟩ : ∃ g, f = g + 1 := ⟨f - 1, by omega⟩
    rw [dec_headed (by omega) hh, ← negSucc_eq]; rfl
  | @bytes h x hh =>
    intro f rest hf
    have := head_ne_nil hh
    simp only [List.length_append] at hf
    obtain ⟨f, rfl⟩ : ∃ g, f = g + 1 := ⟨f - 1, by omega⟩
    rw [List.append_assoc, dec_headed (by omega) hh]
    simp [cborBody, takeBytes_append x rest rfl]
  | @text h s hh =>
    intro f rest hf
    have := head_ne_nil hh
    simp only [List.length_append] at hf
    obtain ⟨f, rfl⟩ : ∃ g, f = g + 1 := ⟨f - 1, by omega⟩
    rw [List.append_assoc, dec_headed (by omega) hh]
    simp [cborBody, takeBytes_append (utf8 s) rest rfl, cborText, (utf8Dec_iff _ s).2 rfl, Except.map]
  | @array h parts hh hp ih =>
    intro f rest hf
    have := head_ne_nil hh
    simp only [List.length_append] at hf
    obtain ⟨f, rfl⟩ : ∃ g, f = g + 1 := ⟨f - 1, by omega⟩
    rw [List.append_assoc, dec_headed (by omega) hh]
    simp only [cborBody]
    rw [if_neg (by omega), if_neg (by omega), if_neg (by omega), if_neg (by omega), if_pos trivial,
      reads_N parts f rest hp ih (by omega)]
  | @map h pairs hh hk hv hs ihk ihv =>
    intro f rest hf
    have := head_ne_nil hh
    simp only [List.length_append] at hf
    obtain ⟨f, rfl⟩ : ∃ g, f = g + 1 := ⟨f - 1, by omega⟩
    rw [List.append_assoc, dec_headed (by omega) hh]
    simp only [cborBody]
    rw [if_neg (by omega), if_neg (by omega), if_neg (by omega), if_neg (by omega),
      if_neg (by omega), if_pos trivial, show ([] : List (Val × Val)) = assigned [] from rfl,
      reads_mapN pairs f [] rest hk hv ihk ihv hs (by omega)]
    rfl
  | @posBig h b x hh hb ih =>
    intro f rest hf
    have := head_ne_nil hh
    simp only [List.length_append] at hf
    obtain ⟨f, rfl⟩ : ∃ g, f = g + 1 := ⟨f - 1, by omega⟩
    rw [List.append_assoc, dec_headed (by omega) hh]
    simp only [cborBody]
    rw [if_neg (by omega), if_neg (by omega), if_neg (by omega), if_neg (by omega),
      if_neg (by omega), if_neg (by omega), ih f rest (by omega), bigEndian_eq]
    rfl
  | @negBig h b x hh hb ih =>
    intro f rest hf
    have := head_ne_nil hh
    simp only [List.length_append] at hf
    obtain ⟨f, rfl⟩ : ∃ g, f = g + 1 := ⟨f - 1, by omega⟩
    rw [List.append_assoc, dec_headed (by omega) hh]
    simp only [cborBody]
    rw [if_neg (by omega), if_neg (by omega), if_neg (by omega), if_neg (by omega),
      if_neg (by omega), if_neg (by omega), ih f rest (by omega), bigEndian_eq, ← negSucc_eq]
    rfl
  | @tag h b n v hh h2 h3 hb ih =>
    intro f rest hf
    have := head_ne_nil hh
    simp only [List.length_append] at hf
    obtain ⟨f, rfl⟩ : ∃ g, f = g + 1 := ⟨f - 1, by omega⟩
    rw [List.append_assoc, dec_headed (by omega) hh]
    simp only [cborBody]
    rw [if_neg (by omega), if_neg (by omega), if_neg (by omega), if_neg (by omega),
      if_neg (by omega), if_neg (by omega), ih f rest (by omega)]
    simp [tagify, h2, h3, Except.map]
  | chunkedBytes parts hp ih =>
    intro f rest hf
    simp only [List.length_append, List.length_cons] at hf
    obtain ⟨f, rfl⟩ : ∃ g, f = g + 1 := ⟨f - 1, by omega⟩
    have hu := reads_until (parts.map fun p => (p.1, .bytes p.2)) f rest
      (fun q hq => by obtain ⟨p, h1, rfl⟩ := List.mem_map.1 hq; exact hp p h1)
      (fun q hq => by obtain ⟨p, h1, rfl⟩ := List.mem_map.1 hq; exact ih p h1)
      (by simp only [List.flatMap_map]; omega)
    simp only [List.flatMap_map, List.map_map, Function.comp_def] at hu
    have hj := joinBytes_map (parts.map (·.2))
    simp only [List.map_map, Function.comp_def, List.flatMap_map, id] at hj
    rw [List.cons_append, List.append_assoc, List.singleton_append]
    unfold cborDec
    dsimp only
    rw [if_neg (by decide), if_pos (by decide), if_pos (by decide), hu]
    dsimp only
    rw [hj]
    rfl
  | chunkedText parts hp ih =>
    intro f rest hf
    simp only [List.length_append, List.length_cons] at hf
    obtain ⟨f, rfl⟩ : ∃ g, f = g + 1 := ⟨f - 1, by omega⟩
    have hu := reads_until (parts.map fun p => (p.1, .str p.2)) f rest
      (fun q hq => by obtain ⟨p, h1, rfl⟩ := List.mem_map.1 hq; exact hp p h1)
      (fun q hq => by obtain ⟨p, h1, rfl⟩ := List.mem_map.1 hq; exact ih p h1)
      (by simp only [List.flatMap_map]; omega)
    simp only [List.flatMap_map, List.map_map, Function.comp_def] at hu
    have hj := joinText_map (parts.map (·.2))
    simp only [List.map_map, Function.comp_def, List.flatMap_map, id] at hj
    rw [List.cons_append, List.append_assoc, List.singleton_append]
    unfold cborDec
    dsimp only
    rw [if_neg (by decide), if_pos (by decide), if_neg (by decide), if_pos (by decide), hu]
    dsimp only
    rw [hj]
    rfl
  | openArray parts hp ih =>
    intro f rest hf
    simp only [List.length_append, List.length_cons] at hf
    obtain ⟨f, rfl⟩ : ∃ g, f = g + 1 := ⟨f - 1, by omega⟩
    rw [List.cons_append, List.append_assoc, List.singleton_append]
    unfold cborDec
    dsimp only
    rw [if_neg (by decide), if_pos (by decide), if_neg (by decide), if_neg (by decide),
      if_pos (by decide), reads_until parts f rest hp ih (by omega)]
  | openMap pairs hk hv hs ihk ihv =>
    intro f rest hf
    simp only [List.length_append, List.length_cons] at hf
    obtain ⟨f, rfl⟩ : ∃ g, f = g + 1 := ⟨f - 1, by omega⟩
    rw [List.cons_append, List.append_assoc, List.singleton_append]
    unfold cborDec
    dsimp only
    rw [if_neg (by decide), if_pos (by decide), if_neg (by decide), if_neg (by decide),
      if_neg (by decide), if_pos (by decide), show ([] : List (Val × Val)) = assigned [] from rfl,
      reads_mapUntil pairs f [] rest hk hv ihk ihv hs (by omega)]
    rfl
  | false =>
    intro f rest hf
    obtain ⟨f, rfl⟩ : ∃ g, f = g + 1 := ⟨f - 1, by simp at hf; omega⟩
    unfold cborDec; rfl
  | true =>
    intro f rest hf
    obtain ⟨f, rfl⟩ : ∃ g, f = g + 1 := ⟨f - 1, by simp at hf; omega⟩
    unfold cborDec; rfl
  | null =>
    intro f rest hf
    obtain ⟨f, rfl⟩ : ∃ g, f = g + 1 := ⟨f - 1, by simp at hf; omega⟩
    unfold cborDec; rfl
  | undefined =>
    intro f rest hf
    obtain ⟨f, rfl⟩ : ∃ g, f = g + 1 := ⟨f - 1, by simp at hf; omega⟩
    unfold cborDec; rfl
  | @half x d hx hd =>
    intro f rest hf
    obtain ⟨f, rfl⟩ : ∃ g, f = g + 1 := ⟨f - 1, by simp at hf; omega⟩
    have hlt : bigEndian x < 2 ^ 16 := by
      rw [bigEndian_eq]; have := ofBE_lt x; rw [hx] at this; exact this
    rw [(widen_half hlt d).1 hd, bigEndian_eq, List.cons_append]
    unfold cborDec
    dsimp only
    rw [if_pos (by decide)]
    simp only [cborSimple]
    rw [if_neg (by decide), if_neg (by decide), if_neg (by decide), if_neg (by decide),
      if_pos (by decide), takeBytes_append x rest hx]
    rfl
  | @single x d hx hd =>
    intro f rest hf
    obtain ⟨f, rfl⟩ : ∃ g, f = g + 1 := ⟨f - 1, by simp at hf; omega⟩
    have hlt : bigEndian x < 2 ^ 32 := by
      rw [bigEndian_eq]; have := ofBE_lt x; rw [hx] at this; exact this
    rw [(widen_single hlt d).1 hd, bigEndian_eq, List.cons_append]
    unfold cborDec
    dsimp only
    rw [if_pos (by decide)]
    simp only [cborSimple]
    rw [if_neg (by decide), if_neg (by decide), if_neg (by decide), if_neg (by decide),
      if_neg (by decide), if_pos (by decide), takeBytes_append x rest hx]
    rfl
  | @double x d hx hd =>
    intro f rest hf
    obtain ⟨f, rfl⟩ : ∃ g, f = g + 1 := ⟨f - 1, by simp at hf; omega⟩
    have : d = UInt64.ofNat (ofBE x) := by rw [← bigEndian_eq, ← hd]; simp
    rw [this, List.cons_append]
    unfold cborDec
    dsimp only
    rw [if_pos (by decide)]
    simp only [cborSimple]
    rw [if_neg (by decide), if_neg (by decide), if_neg (by decide), if_neg (by decide),
      if_neg (by decide), if_neg (by decide), if_pos (by decide), takeBytes_append x rest hx]
    rfl

/-! ### The decoder reads nothing but items -/

/-- The read bytes are an item with the value. -/
private def IsItem (x : Res (Val × Bytes)) (b : Bytes) : Prop :=
  ∀ v r, x = .ok (v, r) → ∃ a, b = a ++ r ∧ Item a v

private theorem ofBE_toNat {x : Bytes} (h : x.length = 8) :
    (UInt64.ofNat (ofBE x)).toNat = bigEndian x := by
  have := ofBE_lt x
  rw [h] at this
  rw [bigEndian_eq, UInt64.toNat_ofNat']
  exact Nat.mod_eq_of_lt (by simpa using this)

private theorem simple_item {b0 : UInt8} {rest : Bytes} (hm : b0.toNat / 32 = 7) :
    IsItem (cborSimple (b0.toNat % 32) rest) (b0 :: rest) := by
  intro v r h
  unfold cborSimple at h
  have one : ∀ {i : Nat} {w : Val}, b0.toNat % 32 = i → Item [UInt8.ofNat (224 + i)] w →
      (.ok (w, rest) : Res (Val × Bytes)) = .ok (v, r) → ∃ a, b0 :: rest = a ++ r ∧ Item a v := by
    intro i w hi hw e
    injection e with e
    injection e with e1 e2
    subst e1 e2
    exact ⟨[b0], rfl, by rw [byte_eq b0 hm hi]; exact hw⟩
  split at h
  · rename_i hi; exact one hi .false h
  split at h
  · rename_i hi; exact one hi .true h
  split at h
  · rename_i hi; exact one hi .null h
  split at h
  · rename_i hi; exact one hi .undefined h
  split at h
  · rename_i hi
    obtain ⟨x, h1, h2, rfl⟩ := take_map (g := fun x => Val.float (widenFloat 5 10 (ofBE x))) h
    refine ⟨b0 :: x, by rw [h1]; rfl, ?_⟩
    have hlt : bigEndian x < 2 ^ 16 := by
      rw [bigEndian_eq]; have := ofBE_lt x; rw [h2] at this; exact this
    rw [byte_eq b0 hm hi]
    exact .half h2 ((widen_half hlt _).2 (by rw [bigEndian_eq]))
  split at h
  · rename_i hi
    obtain ⟨x, h1, h2, rfl⟩ := take_map (g := fun x => Val.float (widenFloat 8 23 (ofBE x))) h
    refine ⟨b0 :: x, by rw [h1]; rfl, ?_⟩
    have hlt : bigEndian x < 2 ^ 32 := by
      rw [bigEndian_eq]; have := ofBE_lt x; rw [h2] at this; exact this
    rw [byte_eq b0 hm hi]
    exact .single h2 ((widen_single hlt _).2 (by rw [bigEndian_eq]))
  split at h
  · rename_i hi
    obtain ⟨x, h1, h2, rfl⟩ := take_map (g := fun x => Val.float (UInt64.ofNat (ofBE x))) h
    refine ⟨b0 :: x, by rw [h1]; rfl, ?_⟩
    rw [byte_eq b0 hm hi]
    exact .double h2 (ofBE_toNat h2)
  · cases h

private theorem joinBytes_ok : ∀ {parts : List (Bytes × Val)} {x : Bytes},
    joinBytes (parts.map (·.2)) = .ok x → (∀ p ∈ parts, Item p.1 p.2) →
    ∃ qs : List (Bytes × Bytes), (∀ q ∈ qs, Item q.1 (.bytes q.2)) ∧
      qs.flatMap (·.1) = parts.flatMap (·.1) ∧ x = qs.flatMap (·.2)
  | [], x, h, _ => by
    injection h with h; exact ⟨[], by simp, rfl, h.symm⟩
  | (b, v) :: ps, x, h, hp => by
    cases v with
    | bytes y =>
      simp only [List.map_cons, joinBytes] at h
      cases hj : joinBytes (ps.map (·.2)) with
      | error e => rw [hj] at h; cases h
      | ok z =>
        rw [hj] at h
        injection h with h
        obtain ⟨qs, h1, h2, h3⟩ := joinBytes_ok hj fun p hq => hp p (by simp [hq])
        refine ⟨(b, y) :: qs, ?_, by simp [h2], by rw [← h, h3]; rfl⟩
        intro q hq
        rcases List.mem_cons.1 hq with rfl | hq
        · exact hp (b, .bytes y) (by simp)
        · exact h1 q hq
    | _ => cases h

private theorem joinText_ok : ∀ {parts : List (Bytes × Val)} {x : PStr},
    joinText (parts.map (·.2)) = .ok x → (∀ p ∈ parts, Item p.1 p.2) →
    ∃ qs : List (Bytes × List Char), (∀ q ∈ qs, Item q.1 (.str q.2)) ∧
      qs.flatMap (·.1) = parts.flatMap (·.1) ∧ x = qs.flatMap (·.2)
  | [], x, h, _ => by
    injection h with h; exact ⟨[], by simp, rfl, h.symm⟩
  | (b, v) :: ps, x, h, hp => by
    cases v with
    | str y =>
      simp only [List.map_cons, joinText] at h
      cases hj : joinText (ps.map (·.2)) with
      | error e => rw [hj] at h; cases h
      | ok z =>
        rw [hj] at h
        injection h with h
        obtain ⟨qs, h1, h2, h3⟩ := joinText_ok hj fun p hq => hp p (by simp [hq])
        refine ⟨(b, y) :: qs, ?_, by simp [h2], by rw [← h, h3]; rfl⟩
        intro q hq
        rcases List.mem_cons.1 hq with rfl | hq
        · exact hp (b, .str y) (by simp)
        · exact h1 q hq
    | _ => cases h

private theorem map_ok {α β : Type} {x : Res α} {g : α → β} {y : β} (h : x.map g = .ok y) :
    ∃ a, x = .ok a ∧ y = g a := by
  cases x with
  | error e => cases h
  | ok a => injection h with h; exact ⟨a, rfl, h.symm⟩

private theorem text_ok {x : Bytes} {v : Val} (h : cborText x = .ok v) :
    ∃ s, x = utf8 s ∧ v = .str s := by
  unfold cborText at h
  split at h
  · rename_i s hs
    injection h with h
    exact ⟨s, (utf8Dec_iff _ _).1 hs, h.symm⟩
  · cases h

private theorem tagify_item {h b : Bytes} {n : Nat} {v w : Val} (hh : Head 6 h n) (hb : Item b v)
    (e : tagify n v = .ok w) : Item (h ++ b) w := by
  unfold tagify at e
  split at e
  · rename_i hn; subst hn
    split at e
    · injection e with e
      rw [← e, ← bigEndian_eq]; exact .posBig hh hb
    · cases e
  split at e
  · rename_i hn; subst hn
    split at e
    · injection e with e
      rw [← e, negSucc_eq, ← bigEndian_eq]; exact .negBig hh hb
    · cases e
  · rename_i h2 h3
    injection e with e
    rw [← e]; exact .tag hh h2 h3 hb

private theorem decoder_items : ∀ f : Nat,
    (∀ b : Bytes, IsItem (cborDec f b) b) ∧
    (∀ n (b : Bytes) l r, cborDecN f n b = .ok (l, r) → ∃ parts : List (Bytes × Val),
      parts.length = n ∧ (∀ p ∈ parts, Item p.1 p.2) ∧ b = parts.flatMap (·.1) ++ r ∧
      l = parts.map (·.2)) ∧
    (∀ n pre (b : Bytes) d r, cborDecMapN f n (assigned pre) b = .ok (d, r) →
      ∃ pairs : List ((Bytes × Val) × Bytes × Val), pairs.length = n ∧
      (∀ p ∈ pairs, Item p.1.1 p.1.2) ∧ (∀ p ∈ pairs, Item p.2.1 p.2.2) ∧
      (∀ p ∈ pairs, scalar p.1.2 = true) ∧ b = (pairs.flatMap fun p => p.1.1 ++ p.2.1) ++ r ∧
      d = assigned (pre ++ pairs.map fun p => (p.1.2, p.2.2))) ∧
    (∀ (b : Bytes) l r, cborDecUntil f b = .ok (l, r) → ∃ parts : List (Bytes × Val),
      (∀ p ∈ parts, Item p.1 p.2) ∧ b = parts.flatMap (·.1) ++ 0xff :: r ∧
      l = parts.map (·.2)) ∧
    (∀ pre (b : Bytes) d r, cborDecMapUntil f (assigned pre) b = .ok (d, r) →
      ∃ pairs : List ((Bytes × Val) × Bytes × Val),
      (∀ p ∈ pairs, Item p.1.1 p.1.2) ∧ (∀ p ∈ pairs, Item p.2.1 p.2.2) ∧
      (∀ p ∈ pairs, scalar p.1.2 = true) ∧
      b = (pairs.flatMap fun p => p.1.1 ++ p.2.1) ++ 0xff :: r ∧
      d = assigned (pre ++ pairs.map fun p => (p.1.2, p.2.2))) := by
  intro f
  induction f with
  | zero =>
    refine ⟨fun b v r h => ?_, fun n b l r h => ?_, fun n pre b d r h => ?_, fun b l r h => ?_,
      fun pre b d r h => ?_⟩
    · unfold cborDec at h; cases h
    · unfold cborDecN at h; cases h
    · unfold cborDecMapN at h; cases h
    · unfold cborDecUntil at h; cases h
    · unfold cborDecMapUntil at h; cases h
  | succ f ih =>
    obtain ⟨i1, i2, i3, i4, i5⟩ := ih
    refine ⟨fun b v r h => ?_, fun n b l r h => ?_, fun n pre b d r h => ?_, fun b l r h => ?_,
      fun pre b d r h => ?_⟩
    · unfold cborDec at h
      dsimp only at h
      cases b with
      | nil => cases h
      | cons b0 rest =>
        dsimp only at h
        split at h
        · rename_i hm; exact simple_item hm v r h
        have h8 : b0.toNat / 32 < 8 := by have := b0.toNat_lt; omega
        rename_i h7
        split at h
        · rename_i hi
          split at h
          · rename_i hm
            split at h
            · cases h
            rename_i l r' hu
            obtain ⟨parts, p1, p2, p3⟩ := i4 _ _ _ hu
            obtain ⟨x, hj, e⟩ := map_ok h
            injection e with e1 e2
            subst e1 e2
            rw [p3] at hj
            obtain ⟨qs, q1, q2, rfl⟩ := joinBytes_ok hj p1
            refine ⟨_, ?_, .chunkedBytes qs q1⟩
            rw [p2, ← q2, byte_eq b0 hm hi]; simp
          split at h
          · rename_i hm
            split at h
            · cases h
            rename_i l r' hu
            obtain ⟨parts, p1, p2, p3⟩ := i4 _ _ _ hu
            obtain ⟨x, hj, e⟩ := map_ok h
            injection e with e1 e2
            subst e1 e2
            rw [p3] at hj
            obtain ⟨qs, q1, q2, rfl⟩ := joinText_ok hj p1
            refine ⟨_, ?_, .chunkedText qs q1⟩
            rw [p2, ← q2, byte_eq b0 hm hi]; simp
          split at h
          · rename_i hm
            split at h
            · cases h
            rename_i l r' hu
            obtain ⟨parts, p1, p2, p3⟩ := i4 _ _ _ hu
            injection h with e
            injection e with e1 e2
            subst e1 e2 p3
            refine ⟨_, ?_, .openArray parts p1⟩
            rw [p2, byte_eq b0 hm hi]; simp
          split at h
          · rename_i hm
            split at h
            · cases h
            rename_i d r' hu
            obtain ⟨pairs, p1, p2, p3, p4, p5⟩ := i5 [] _ _ _ hu
            injection h with e
            injection e with e1 e2
            subst e1 e2 p5
            refine ⟨_, ?_, .openMap pairs p1 p2 p3⟩
            rw [p4, byte_eq b0 hm hi]; simp
          · cases h
        split at h
        · cases h
        rename_i n r0 ha
        obtain ⟨x0, hx, hh⟩ := arg_head ha
        rw [hx]
        generalize b0 :: x0 = hd at hh
        generalize b0.toNat / 32 = m at *
        split at h
        · rename_i hm; subst hm
          injection h with e
          injection e with e1 e2
          subst e1 e2
          exact ⟨hd, rfl, .uint hh⟩
        split at h
        · rename_i hm; subst hm
          injection h with e
          injection e with e1 e2
          subst e1 e2
          exact ⟨hd, rfl, by rw [negSucc_eq]; exact .nint hh⟩
        split at h
        · rename_i hm; subst hm
          split at h
          · cases h
          rename_i x r' ht
          obtain ⟨t1, t2⟩ := take_ok ht
          injection h with e
          injection e with e1 e2
          subst e1 e2 t2
          exact ⟨hd ++ x, by rw [t1, List.append_assoc], .bytes hh⟩
        split at h
        · rename_i hm; subst hm
          split at h
          · cases h
          rename_i x r' ht
          obtain ⟨t1, t2⟩ := take_ok ht
          obtain ⟨w, hw, e⟩ := map_ok h
          injection e with e1 e2
          subst e1 e2
          obtain ⟨s, rfl, rfl⟩ := text_ok hw
          subst t2
          exact ⟨hd ++ utf8 s, by rw [t1, List.append_assoc], .text hh⟩
        split at h
        · rename_i hm; subst hm
          split at h
          · cases h
          rename_i l r' hn
          obtain ⟨parts, rfl, p1, p2, p3⟩ := i2 _ _ _ _ hn
          injection h with e
          injection e with e1 e2
          subst e1 e2 p3
          exact ⟨_, by rw [p2, List.append_assoc], .array parts hh p1⟩
        split at h
        · rename_i hm; subst hm
          split at h
          · cases h
          rename_i l r' hn
          obtain ⟨pairs, rfl, p1, p2, p3, p4, p5⟩ := i3 _ [] _ _ _ hn
          injection h with e
          injection e with e1 e2
          subst e1 e2 p5
          exact ⟨_, by rw [p4, List.append_assoc], .map pairs hh p1 p2 p3⟩
        · have hm : m = 6 := by omega
          subst hm
          split at h
          · cases h
          rename_i w r' hd'
          obtain ⟨a, a1, a2⟩ := i1 _ _ _ hd'
          obtain ⟨w', hw, e⟩ := map_ok h
          injection e with e1 e2
          subst e1 e2
          exact ⟨hd ++ a, by rw [a1, List.append_assoc], tagify_item hh a2 hw⟩
    · unfold cborDecN at h
      cases n with
      | zero =>
        injection h with e
        injection e with e1 e2
        subst e1 e2
        exact ⟨[], rfl, by simp, rfl, rfl⟩
      | succ n =>
        dsimp only at h
        split at h
        · cases h
        rename_i v r1 hv
        split at h
        · cases h
        rename_i l' r2 hl
        injection h with e
        injection e with e1 e2
        subst e1 e2
        obtain ⟨a, a1, a2⟩ := i1 _ _ _ hv
        obtain ⟨parts, p0, p1, p2, p3⟩ := i2 _ _ _ _ hl
        refine ⟨(a, v) :: parts, by simp [p0], ?_, by simp [a1, p2], by simp [p3]⟩
        intro p hp
        rcases List.mem_cons.1 hp with rfl | hp
        · exact a2
        · exact p1 p hp
    · unfold cborDecMapN at h
      cases n with
      | zero =>
        injection h with e
        injection e with e1 e2
        subst e1 e2
        exact ⟨[], rfl, by simp, by simp, by simp, rfl, by simp⟩
      | succ n =>
        dsimp only at h
        split at h
        · cases h
        rename_i k r1 hk
        split at h
        · cases h
        rename_i v r2 hv
        split at h
        · rename_i hh
          obtain ⟨a, a1, a2⟩ := i1 _ _ _ hk
          obtain ⟨c, c1, c2⟩ := i1 _ _ _ hv
          rw [← assigned_snoc] at h
          obtain ⟨pairs, p0, p1, p2, p3, p4, p5⟩ := i3 _ _ _ _ _ h
          refine ⟨((a, k), c, v) :: pairs, by simp [p0], ?_, ?_, ?_, by simp [a1, c1, p4],
            by simp [p5]⟩
          · intro p hp
            rcases List.mem_cons.1 hp with rfl | hp
            · exact a2
            · exact p1 p hp
          · intro p hp
            rcases List.mem_cons.1 hp with rfl | hp
            · exact c2
            · exact p2 p hp
          · intro p hp
            rcases List.mem_cons.1 hp with rfl | hp
            · exact (item_hashable a2).symm.trans hh
            · exact p3 p hp
        · cases h
    · unfold cborDecUntil at h
      cases b with
      | nil => cases h
      | cons b0 rest =>
        dsimp only at h
        split at h
        · rename_i hb
          injection h with e
          injection e with e1 e2
          subst e1 e2 hb
          exact ⟨[], by simp, rfl, rfl⟩
        split at h
        · cases h
        rename_i v r1 hv
        split at h
        · cases h
        rename_i l' r2 hl
        injection h with e
        injection e with e1 e2
        subst e1 e2
        obtain ⟨a, a1, a2⟩ := i1 _ _ _ hv
        obtain ⟨parts, p1, p2, p3⟩ := i4 _ _ _ hl
        refine ⟨(a, v) :: parts, ?_, by simp [a1, p2], by simp [p3]⟩
        intro p hp
        rcases List.mem_cons.1 hp with rfl | hp
        · exact a2
        · exact p1 p hp
    · unfold cborDecMapUntil at h
      cases b with
      | nil => cases h
      | cons b0 rest =>
        dsimp only at h
        split at h
        · rename_i hb
          injection h with e
          injection e with e1 e2
          subst e1 e2 hb
          exact ⟨[], by simp, by simp, by simp, rfl, by simp⟩
        split at h
        · cases h
        rename_i k r1 hk
        split at h
        · cases h
        rename_i v r2 hv
        split at h
        · rename_i hh
          obtain ⟨a, a1, a2⟩ := i1 _ _ _ hk
          obtain ⟨c, c1, c2⟩ := i1 _ _ _ hv
          rw [← assigned_snoc] at h
          obtain ⟨pairs, p1, p2, p3, p4, p5⟩ := i5 _ _ _ _ h
          refine ⟨((a, k), c, v) :: pairs, ?_, ?_, ?_, by simp [a1, c1, p4], by simp [p5]⟩
          · intro p hp
            rcases List.mem_cons.1 hp with rfl | hp
            · exact a2
            · exact p1 p hp
          · intro p hp
            rcases List.mem_cons.1 hp with rfl | hp
            · exact c2
            · exact p2 p hp
          · intro p hp
            rcases List.mem_cons.1 hp with rfl | hp
            · exact (item_hashable a2).symm.trans hh
            · exact p3 p hp
        · cases h

/-- What the decoder reads is an item. -/
theorem read_item {f : Nat} {b r : Bytes} {v : Val} (h : cborDec f b = .ok (v, r)) :
    ∃ a, b = a ++ r ∧ Item a v := (decoder_items f).1 b v r h

end Verif
