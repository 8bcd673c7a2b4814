import Verif.Model.Val
/-! # Lemmas about attribute lists and dictionaries -/

set_option linter.unusedSimpArgs false

namespace Verif

theorem lookupName_setName {α : Type _} (n m : PStr) (v : α) (fs : List (PStr × α)) :
    lookupName m (setName n v fs) = if m = n then some v else lookupName m fs := by
  induction fs with
  | nil =>
    by_cases h : m = n
    · simp [setName, lookupName, h]
    · have : ¬ n = m := fun e => h e.symm
      simp [setName, lookupName, h, this]
  | cons kv rest ih =>
    obtain ⟨k, w⟩ := kv
    unfold setName
    by_cases hk : k = n
    · rw [if_pos hk]
      subst hk
      by_cases h : m = k
      · subst h; simp [lookupName]
      · have : ¬ k = m := fun e => h e.symm
        simp [lookupName, h, this]
    · rw [if_neg hk, lookupName, ih]
      by_cases h : k = m
      · subst h; simp [lookupName, hk]
      · simp [lookupName, h]

theorem getAttr_setName (n m : PStr) (v : Val) (fs : Attrs) :
    getAttr (setName n v fs) m = if m = n then v else getAttr fs m := by
  unfold getAttr
  rw [lookupName_setName]
  by_cases h : m = n <;> simp [h]

theorem setName_same {α : Type _} (n : PStr) (v : α) (fs : List (PStr × α))
    (h : lookupName n fs = some v) : setName n v fs = fs := by
  induction fs with
  | nil => simp [lookupName] at h
  | cons kv rest ih =>
    obtain ⟨k, w⟩ := kv
    unfold lookupName at h
    unfold setName
    by_cases hk : k = n
    · rw [if_pos hk] at h ⊢
      injection h with h
      rw [h]
    · rw [if_neg hk] at h ⊢
      rw [ih h]

theorem setName_names {α : Type _} (n : PStr) (v : α) (fs : List (PStr × α))
    (h : n ∈ fs.map Prod.fst) : (setName n v fs).map Prod.fst = fs.map Prod.fst := by
  induction fs with
  | nil => simp at h
  | cons kv rest ih =>
    obtain ⟨k, w⟩ := kv
    unfold setName
    by_cases hk : k = n
    · rw [if_pos hk]; rfl
    · rw [if_neg hk]
      simp only [List.map_cons, List.mem_cons] at h ⊢
      rcases h with h | h
      · exact absurd h.symm hk
      · rw [ih h]

theorem lookupName_isSome {α : Type _} (n : PStr) (fs : List (PStr × α)) :
    (lookupName n fs).isSome = true ↔ n ∈ fs.map Prod.fst := by
  induction fs with
  | nil => simp [lookupName]
  | cons kv rest ih =>
    obtain ⟨k, w⟩ := kv
    unfold lookupName
    by_cases hk : k = n
    · simp [hk]
    · rw [if_neg hk, ih]
      have : ¬ n = k := fun e => hk e.symm
      simp only [List.map_cons, List.mem_cons, this, false_or]

theorem lookupName_none {α : Type _} (n : PStr) (fs : List (PStr × α)) :
    lookupName n fs = none ↔ n ∉ fs.map Prod.fst := by
  rw [← lookupName_isSome]
  cases lookupName n fs <;> simp

theorem mem_of_lookupName {α : Type _} {n : PStr} {v : α} {fs : List (PStr × α)}
    (h : lookupName n fs = some v) : (n, v) ∈ fs := by
  induction fs with
  | nil => simp [lookupName] at h
  | cons kv rest ih =>
    obtain ⟨k, w⟩ := kv
    unfold lookupName at h
    by_cases hk : k = n
    · rw [if_pos hk] at h
      injection h with h
      rw [hk, h]; exact List.mem_cons_self
    · rw [if_neg hk] at h
      exact List.mem_cons_of_mem _ (ih h)

theorem lookupName_of_mem {α : Type _} {n : PStr} {v : α} {fs : List (PStr × α)}
    (hn : (fs.map Prod.fst).Nodup) (h : (n, v) ∈ fs) : lookupName n fs = some v := by
  induction fs with
  | nil => cases h
  | cons kv rest ih =>
    obtain ⟨k, w⟩ := kv
    rw [List.map_cons, List.nodup_cons] at hn
    unfold lookupName
    rcases List.mem_cons.mp h with h | h
    · injection h with h1 h2
      subst h1 h2
      simp
    · rw [if_neg, ih hn.2 h]
      intro e
      subst e
      exact hn.1 (List.mem_map.mpr ⟨_, h, rfl⟩)

theorem getAttr_of_mem {n : PStr} {v : Val} {fs : Attrs}
    (hn : (fs.map Prod.fst).Nodup) (h : (n, v) ∈ fs) : getAttr fs n = v := by
  unfold getAttr; rw [lookupName_of_mem hn h]

theorem mem_getAttr {n : PStr} {fs : Attrs} (h : n ∈ fs.map Prod.fst) : (n, getAttr fs n) ∈ fs := by
  rw [← lookupName_isSome] at h
  obtain ⟨v, hv⟩ := Option.isSome_iff_exists.mp h
  unfold getAttr
  rw [hv]
  exact mem_of_lookupName hv

theorem lookupName_append {α : Type _} (n : PStr) (a b : List (PStr × α)) :
    lookupName n (a ++ b) = match lookupName n a with
      | some v => some v
      | none => lookupName n b := by
  induction a with
  | nil => simp [lookupName]
  | cons kv rest ih =>
    obtain ⟨k, w⟩ := kv
    rw [List.cons_append, lookupName, lookupName]
    by_cases hk : k = n
    · rw [if_pos hk, if_pos hk]
    · rw [if_neg hk, if_neg hk, ih]

end Verif
