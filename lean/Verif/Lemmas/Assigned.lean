import Verif.Lemmas.PyEq
import Verif.Spec.CborItem
/-! # Assignments to a dict, one by one and as a whole -/

namespace Verif

open Spec

private theorem same_iff {a b : Val} : sameKey a b = true ↔ a.keyNorm = b.keyNorm := by
  rw [sameKey_keyEq]; exact keyEq_iff

private theorem same_refl (a : Val) : sameKey a a = true := same_iff.2 rfl

private theorem same_comm (a b : Val) : sameKey a b = sameKey b a := by
  rw [Bool.eq_iff_iff, same_iff, same_iff]; exact eq_comm

private theorem firstKeys_mem {k : Val} : ∀ {l : List Val}, k ∈ firstKeys l → k ∈ l
  | [], h => by cases h
  | a :: l, h => by
    simp only [firstKeys, List.mem_cons, List.mem_filter] at h
    rcases h with h | h
    · simp [h]
    · simp [firstKeys_mem h.1]

private theorem firstKeys_cover {k : Val} : ∀ {l : List Val}, k ∈ l →
    ∃ k' ∈ firstKeys l, sameKey k' k = true
  | [], h => by cases h
  | a :: l, h => by
    by_cases ha : sameKey a k = true
    · exact ⟨a, by simp [firstKeys], ha⟩
    · rcases List.mem_cons.1 h with rfl | h
      · exact absurd (same_refl _) ha
      · obtain ⟨k', h1, h2⟩ := firstKeys_cover h
        refine ⟨k', ?_, h2⟩
        simp only [firstKeys, List.mem_cons, List.mem_filter, h1, true_and]
        right
        cases hk : sameKey a k' with
        | false => rfl
        | true => exact absurd (same_iff.2 ((same_iff.1 hk).trans (same_iff.1 h2))) ha

private theorem firstKeys_snoc (k : Val) : ∀ l : List Val, firstKeys (l ++ [k]) =
    if l.any (fun a => sameKey a k) then firstKeys l else firstKeys l ++ [k]
  | [] => rfl
  | a :: l => by
    rw [List.cons_append, firstKeys, firstKeys_snoc k l, List.any_cons]
    cases ha : sameKey a k with
    | true =>
      rw [Bool.true_or, if_pos rfl, firstKeys]
      split
      · rfl
      · simp [List.filter_append, ha]
    | false =>
      rw [Bool.false_or]
      split
      · rfl
      · simp [firstKeys, List.filter_append, ha]

private theorem firstKeys_sep : ∀ l : List Val,
    (firstKeys l).Pairwise fun a b => sameKey a b = false
  | [] => by simp [firstKeys]
  | a :: l => by
    rw [firstKeys, List.pairwise_cons]
    refine ⟨fun b hb => ?_, (firstKeys_sep l).filter _⟩
    simpa using (List.mem_filter.1 hb).2

private theorem valueAssigned_snoc (k' k v : Val) (ps : List (Val × Val)) :
    valueAssigned k' (ps ++ [(k, v)]) = if sameKey k k' then v else valueAssigned k' ps := by
  unfold valueAssigned
  rw [List.reverse_append, List.reverse_singleton, List.singleton_append, List.find?_cons]
  dsimp only
  cases h : sameKey k k' <;> rfl

private theorem dictSet_none {k v : Val} : ∀ {d : List (Val × Val)},
    (∀ p ∈ d, sameKey p.1 k = false) → dictSet k v d = d ++ [(k, v)]
  | [], _ => rfl
  | (a, w) :: d, h => by
    have h1 := h (a, w) (by simp)
    rw [sameKey_keyEq] at h1
    rw [dictSet, h1, dictSet_none fun p hp => h p (by simp [hp])]
    rfl

private theorem dictSet_some {k v : Val} (g : Val → Val) : ∀ {l : List Val},
    l.Pairwise (fun a b => sameKey a b = false) → (∃ a ∈ l, sameKey a k = true) →
    dictSet k v (l.map fun a => (a, g a)) =
      l.map fun a => (a, if sameKey k a then v else g a)
  | [], _, h => by obtain ⟨a, h, _⟩ := h; cases h
  | a :: l, hp, h => by
    rw [List.pairwise_cons] at hp
    rw [List.map_cons, List.map_cons, dictSet, ← sameKey_keyEq, same_comm k a]
    cases ha : sameKey a k with
    | true =>
      rw [if_pos rfl, if_pos rfl]
      congr 1
      apply List.map_congr_left
      intro b hb
      have : sameKey k b = false := by
        cases hkb : sameKey k b with
        | false => rfl
        | true =>
          have h1 := hp.1 b hb
          rw [same_iff.2 ((same_iff.1 ha).trans (same_iff.1 hkb))] at h1
          cases h1
      rw [this]; rfl
    | false =>
      obtain ⟨b, hb, hbk⟩ := h
      have hb' : b ∈ l := by
        rcases List.mem_cons.1 hb with rfl | hb
        · rw [ha] at hbk; cases hbk
        · exact hb
      rw [if_neg (by simp), if_neg (by simp), dictSet_some g hp.2 ⟨b, hb', hbk⟩]

/-- One more assignment. -/
theorem assigned_snoc (ps : List (Val × Val)) (k v : Val) :
    assigned (ps ++ [(k, v)]) = dictSet k v (assigned ps) := by
  have e : ∀ a, valueAssigned a (ps ++ [(k, v)]) = if sameKey k a then v else valueAssigned a ps :=
    fun a => valueAssigned_snoc a k v ps
  unfold assigned
  simp only [e, List.map_append, List.map_cons, List.map_nil]
  rw [firstKeys_snoc]
  split
  · rename_i h
    rw [dictSet_some (fun a => valueAssigned a ps) (firstKeys_sep _)]
    obtain ⟨a, ha, hk⟩ := List.any_eq_true.1 h
    obtain ⟨a', h1, h2⟩ := firstKeys_cover ha
    exact ⟨a', h1, same_iff.2 ((same_iff.1 h2).trans (same_iff.1 hk))⟩
  · rename_i h
    have hn : ∀ a ∈ firstKeys (ps.map Prod.fst), sameKey a k = false := by
      intro a ha
      cases hk : sameKey a k with
      | false => rfl
      | true => exact absurd (List.any_eq_true.2 ⟨a, firstKeys_mem ha, hk⟩) h
    rw [dictSet_none, List.map_append]
    · congr 1
      · apply List.map_congr_left
        intro a ha
        rw [same_comm k a, hn a ha]; rfl
      · simp [same_refl]
    · intro p hp
      obtain ⟨a, ha, rfl⟩ := List.mem_map.1 hp
      exact hn a ha

end Verif
