import Verif.Lemmas.Wire
/-! # What the codec delivers is data -/

set_option linter.unusedSimpArgs false

namespace Verif

open Spec

theorem dataL_iff {l : List Val} : dataL l = true ↔ ∀ x ∈ l, Data x := by
  induction l with
  | nil => simp [dataL]
  | cons x xs ih => simp [dataL, ih, Data]

theorem dataD_iff {d : List (Val × Val)} : dataD d = true ↔ ∀ k x, (k, x) ∈ d → Data x := by
  induction d with
  | nil => simp [dataD]
  | cons p xs ih =>
    obtain ⟨k, x⟩ := p
    simp only [dataD, Bool.and_eq_true, ih, List.mem_cons, Prod.mk.injEq]
    constructor
    · rintro ⟨h1, h2⟩ k' x' (⟨rfl, rfl⟩ | h)
      · exact h1
      · exact h2 k' x' h
    · intro h
      exact ⟨h k x (Or.inl ⟨rfl, rfl⟩), fun k' x' hm => h k' x' (Or.inr hm)⟩

theorem data_list {l : List Val} (h : Data (.list l)) : ∀ x ∈ l, Data x := by
  unfold Data at h; simp only [data] at h; exact dataL_iff.mp h

theorem data_dict {d : List (Val × Val)} (h : Data (.dict d)) :
    ∀ k x, (k, x) ∈ d → scalar k = true ∧ Data x := by
  unfold Data at h
  simp only [data, Bool.and_eq_true] at h
  intro k x hm
  exact ⟨List.all_eq_true.mp h.1.2 (k, x) hm, dataD_iff.mp h.1.1 k x hm⟩

theorem data_scalar {k : Val} (h : scalar k = true) : Data k := by
  cases k <;> simp [scalar] at h <;> rfl

theorem hashable_data {k : Val} (h : Data k) (hh : k.hashable = true) : scalar k = true := by
  cases k <;> first | rfl | (simp [Data, data] at h; done) | (simp [Val.hashable] at hh)

/-- A dictionary of data with distinct scalar keys. -/
structure DictData (d : List (Val × Val)) : Prop where
  vals : ∀ k x, (k, x) ∈ d → Data x
  keys : ∀ k x, (k, x) ∈ d → scalar k = true
  distinct : distinctKeys (d.map Prod.fst) = true

theorem dictData_iff {d : List (Val × Val)} : Data (.dict d) ↔ DictData d := by
  unfold Data
  simp only [data, Bool.and_eq_true]
  constructor
  · rintro ⟨⟨h1, h2⟩, h3⟩
    exact ⟨dataD_iff.mp h1, fun k x hm => List.all_eq_true.mp h2 (k, x) hm, h3⟩
  · rintro ⟨h1, h2, h3⟩
    exact ⟨⟨dataD_iff.mpr h1, List.all_eq_true.mpr fun p hp => h2 p.1 p.2 hp⟩, h3⟩

theorem dictSet_mem {k v k' x : Val} : ∀ {d : List (Val × Val)}, (k', x) ∈ dictSet k v d →
    (k' = k ∧ x = v) ∨ (x = v ∧ k'.keyEq k = true ∧ ∃ w, (k', w) ∈ d) ∨ (k', x) ∈ d
  | [], h => by simp [dictSet] at h; exact Or.inl h
  | (a, b) :: rest, h => by
    unfold dictSet at h
    split at h
    · rename_i hk
      rcases List.mem_cons.mp h with e | h
      · injection e with e1 e2
        exact Or.inr (Or.inl ⟨e2, by rw [e1]; exact hk, b, by rw [e1]; simp⟩)
      · exact Or.inr (Or.inr (by simp [h]))
    · rcases List.mem_cons.mp h with e | h
      · exact Or.inr (Or.inr (by rw [e]; simp))
      · rcases dictSet_mem h with h | ⟨h, hk, w, hw⟩ | h
        · exact Or.inl h
        · exact Or.inr (Or.inl ⟨h, hk, w, by simp [hw]⟩)
        · exact Or.inr (Or.inr (by simp [h]))

theorem distinct_dictSet {k v : Val} (hk : scalar k = true) : ∀ {d : List (Val × Val)},
    (∀ k x, (k, x) ∈ d → scalar k = true) → distinctKeys (d.map Prod.fst) = true →
    distinctKeys ((dictSet k v d).map Prod.fst) = true
  | [], _, _ => by simp [dictSet, distinctKeys]
  | (a, b) :: rest, hs, hd => by
    simp only [List.map_cons, distinctKeys, Bool.and_eq_true] at hd
    unfold dictSet
    by_cases e : a.keyEq k = true
    · rw [if_pos e]
      simp only [List.map_cons, distinctKeys, hd.1, hd.2, Bool.and_self]
    · rw [if_neg e]
      simp only [List.map_cons, distinctKeys, Bool.and_eq_true]
      refine ⟨?_, distinct_dictSet hk (fun k x hm => hs k x (by simp [hm])) hd.2⟩
      rw [List.all_eq_true] at hd ⊢
      intro x hx
      obtain ⟨⟨k', w⟩, hm, rfl⟩ := List.mem_map.mp hx
      rcases dictSet_mem hm with ⟨rfl, _⟩ | ⟨_, _, w', hw⟩ | h
      · rw [keyEq_sameKey] at e
        simpa using e
      · exact hd.1 k' (List.mem_map.mpr ⟨_, hw, rfl⟩)
      · exact hd.1 k' (List.mem_map.mpr ⟨_, h, rfl⟩)

theorem dictData_set {k v : Val} {d : List (Val × Val)} (h : DictData d) (hk : scalar k = true)
    (hv : Data v) : DictData (dictSet k v d) := by
  refine ⟨fun k' x hm => ?_, fun k' x hm => ?_, distinct_dictSet hk h.keys h.distinct⟩
  · rcases dictSet_mem hm with ⟨_, rfl⟩ | ⟨rfl, _⟩ | hm
    · exact hv
    · exact hv
    · exact h.vals k' x hm
  · rcases dictSet_mem hm with ⟨rfl, _⟩ | ⟨_, _, w, hw⟩ | hm
    · exact hk
    · exact h.keys k' w hw
    · exact h.keys k' x hm

theorem map_ok {α β : Type _} {r : Res α} {f : α → β} {y : β} (h : r.map f = .ok y) :
    ∃ x, r = .ok x ∧ f x = y := by
  cases r with
  | error e => cases h
  | ok x => injection h with h; exact ⟨x, rfl, h⟩

theorem simple_data {info : Nat} {b r : Bytes} {v : Val} (h : cborSimple info b = .ok (v, r)) :
    Data v := by
  unfold cborSimple at h
  repeat' split at h
  all_goals first
    | (cases h; done)
    | (cases h; rfl)
    | (obtain ⟨x, _, e⟩ := map_ok h; cases e; rfl)

theorem arg_small {i n : Nat} {b r : Bytes} (h : cborArg i b = .ok (n, r)) : n < 2 ^ 64 := by
  unfold cborArg at h
  split at h
  · cases h
    omega
  · dsimp only at h
    split at h
    · obtain ⟨x, hx, e⟩ := map_ok h
      cases e
      have : (if i = 24 then 1 else if i = 25 then 2 else if i = 26 then 4 else 8) ≤ 8 := by
        repeat' split
        all_goals omega
      generalize (if i = 24 then 1 else if i = 25 then 2 else if i = 26 then 4 else 8) = k at hx this
      unfold takeBytes at hx
      split at hx
      · cases hx
      · cases hx
        refine Nat.lt_of_lt_of_le (ofBE_lt _) ?_
        rw [List.length_take]
        exact Nat.le_trans (Nat.pow_le_pow_right (by decide) (Nat.le_trans (Nat.min_le_left _ _) this)) (by decide)
    · cases h

theorem tagify_data {n : Nat} {v w : Val} (hn : n < 2 ^ 64) (hv : Data v) (h : tagify n v = .ok w) : Data w := by
  unfold tagify at h
  split at h
  · split at h <;> cases h
    rfl
  split at h
  · split at h <;> cases h
    rfl
  · rename_i h2 h3
    cases h
    unfold Data at hv ⊢
    simp only [data, hv, Bool.and_true, Bool.and_eq_true, bne_iff_ne, ne_eq, decide_eq_true_eq]
    exact ⟨⟨h2, h3⟩, hn⟩

/-- Everything the decoder returns is data. -/
theorem decoded_data : ∀ f : Nat,
    (∀ b v r, cborDec f b = .ok (v, r) → Data v) ∧
    (∀ n b l r, cborDecN f n b = .ok (l, r) → ∀ x ∈ l, Data x) ∧
    (∀ n acc b d r, DictData acc → cborDecMapN f n acc b = .ok (d, r) → DictData d) ∧
    (∀ b l r, cborDecUntil f b = .ok (l, r) → ∀ x ∈ l, Data x) ∧
    (∀ acc b d r, DictData acc → cborDecMapUntil f acc b = .ok (d, r) → DictData d)
  | 0 => by
    refine ⟨?_, ?_, ?_, ?_, ?_⟩ <;> intros
    · rename_i h; unfold cborDec at h; cases h
    · rename_i h _ _; unfold cborDecN at h; cases h
    · rename_i h; unfold cborDecMapN at h; cases h
    · rename_i h _ _; unfold cborDecUntil at h; cases h
    · rename_i h; unfold cborDecMapUntil at h; cases h
  | f + 1 => by
    obtain ⟨i1, i2, i3, i4, i5⟩ := decoded_data f
    have hempty : DictData [] := ⟨by simp, by simp, rfl⟩
    refine ⟨?_, ?_, ?_, ?_, ?_⟩
    · intro b v r h
      unfold cborDec at h
      split at h
      · cases h
      dsimp only at h
      split at h
      · exact simple_data h
      split at h
      · split at h
        · split at h
          · cases h
          · obtain ⟨x, _, e⟩ := map_ok h; cases e; rfl
        split at h
        · split at h
          · cases h
          · obtain ⟨x, _, e⟩ := map_ok h; cases e; rfl
        split at h
        · split at h
          · cases h
          · rename_i hu; cases h; exact dataL_iff.mpr (i4 _ _ _ hu)
        split at h
        · split at h
          · cases h
          · rename_i hu; cases h; exact dictData_iff.mpr (i5 _ _ _ _ hempty hu)
        · cases h
      · split at h
        · cases h
        rename_i harg
        split at h
        · cases h; rfl
        split at h
        · cases h; rfl
        split at h
        · split at h <;> cases h
          rfl
        split at h
        · split at h
          · cases h
          · obtain ⟨x, hx, e⟩ := map_ok h
            cases e
            unfold cborText at hx
            split at hx <;> cases hx
            rfl
        split at h
        · split at h
          · cases h
          · rename_i hu; cases h; exact dataL_iff.mpr (i2 _ _ _ _ hu)
        split at h
        · split at h
          · cases h
          · rename_i hu; cases h; exact dictData_iff.mpr (i3 _ _ _ _ _ hempty hu)
        · split at h
          · cases h
          · rename_i hu
            obtain ⟨x, hx, e⟩ := map_ok h
            cases e
            exact tagify_data (arg_small harg) (i1 _ _ _ hu) hx
    · intro n b l r h
      unfold cborDecN at h
      split at h
      · cases h; simp
      split at h
      · cases h
      rename_i hv
      split at h
      · cases h
      rename_i hl
      cases h
      intro x hx
      rcases List.mem_cons.mp hx with rfl | hx
      · exact i1 _ _ _ hv
      · exact i2 _ _ _ _ hl x hx
    · intro n acc b d r ha h
      unfold cborDecMapN at h
      split at h
      · cases h; exact ha
      split at h
      · cases h
      rename_i hk
      split at h
      · cases h
      rename_i hv
      split at h
      · rename_i hh
        exact i3 _ _ _ _ _ (dictData_set ha (hashable_data (i1 _ _ _ hk) hh) (i1 _ _ _ hv)) h
      · cases h
    · intro b l r h
      unfold cborDecUntil at h
      split at h
      · cases h
      split at h
      · cases h; simp
      split at h
      · cases h
      rename_i hv
      split at h
      · cases h
      rename_i hl
      cases h
      intro x hx
      rcases List.mem_cons.mp hx with rfl | hx
      · exact i1 _ _ _ hv
      · exact i4 _ _ _ hl x hx
    · intro acc b d r ha h
      unfold cborDecMapUntil at h
      split at h
      · cases h
      split at h
      · cases h; exact ha
      split at h
      · cases h
      rename_i hk
      split at h
      · cases h
      rename_i hv
      split at h
      · rename_i hh
        exact i5 _ _ _ _ (dictData_set ha (hashable_data (i1 _ _ _ hk) hh) (i1 _ _ _ hv)) h
      · cases h

theorem loads_data {b : Bytes} {v : Val} (h : loads b = .ok v) : Data v := by
  unfold loads at h
  split at h
  · rename_i hd; cases h; exact (decoded_data _).1 _ _ _ hd
  · cases h

/-! ### Parts of data -/

theorem iter_data {v : Val} {l : List Val} (h : Data v) (hl : v.iter = some l) : ∀ x ∈ l, Data x := by
  cases v <;> simp only [Val.iter] at hl <;> cases hl
  case list => exact data_list h
  case tuple => simp [Data, data] at h
  case str =>
    intro x hx; obtain ⟨c, _, rfl⟩ := List.mem_map.mp hx; rfl
  case bytes =>
    intro x hx; obtain ⟨c, _, rfl⟩ := List.mem_map.mp hx; rfl
  case dict =>
    intro x hx
    obtain ⟨⟨k, w⟩, hm, rfl⟩ := List.mem_map.mp hx
    exact data_scalar (data_dict h k w hm).1
  case fdict => simp [Data, data] at h

theorem pairsOf_data : ∀ {l : List Val} {ps : List (Val × Val)}, (∀ x ∈ l, Data x) →
    pairsOf l = .ok ps → ∀ k x, (k, x) ∈ ps → Data k ∧ Data x
  | [], ps, _, h => by unfold pairsOf at h; cases h; simp
  | y :: ys, ps, hd, h => by
    unfold pairsOf at h
    split at h
    · rename_i k v hi
      split at h
      · rename_i r hr
        cases h
        intro k' x' hm
        have := iter_data (hd y (by simp)) hi
        rcases List.mem_cons.mp hm with e | hm
        · cases e; exact ⟨this _ (by simp), this _ (by simp)⟩
        · exact pairsOf_data (fun x hx => hd x (by simp [hx])) hr k' x' hm
      · cases h
    · cases h
    · cases h

theorem dictOfPairs_data : ∀ {ps acc d : List (Val × Val)}, DictData acc →
    (∀ k x, (k, x) ∈ ps → Data k ∧ Data x) → dictOfPairs acc ps = some d → DictData d
  | [], acc, d, ha, _, h => by unfold dictOfPairs at h; cases h; exact ha
  | (k, v) :: rest, acc, d, ha, hp, h => by
    unfold dictOfPairs at h
    split at h
    · rename_i hh
      have := hp k v (by simp)
      exact dictOfPairs_data (dictData_set ha (hashable_data this.1 hh) this.2)
        (fun k x hm => hp k x (by simp [hm])) h
    · cases h

theorem dictOf_data {s : Val} (h : Data s) : DictData (dictOf s) := by
  have hempty : DictData [] := ⟨by simp, by simp, rfl⟩
  unfold dictOf
  split
  · rename_i d hd
    cases s <;> simp only [Val.asDict] at hd <;> cases hd
    · exact dictData_iff.mp h
    · simp [Data, data] at h
  · split
    · exact hempty
    · rename_i l hl
      split
      · exact hempty
      · rename_i ps hps
        split
        · rename_i d hd
          exact dictOfPairs_data hempty (pairsOf_data (iter_data h hl) hps) hd
        · exact hempty

end Verif
