import Verif.Lemmas.Cont
/-! # Lemmas about the contents of frozen dictionaries -/

set_option linter.unusedSimpArgs false

namespace Verif

open Spec

theorem items_listed (c : FDictId) : c.items = dictEntries c := by cases c <;> rfl

theorem keys_listed (c : FDictId) : c.items.map Prod.fst = dictKeys c := by rw [items_listed]; rfl

/-- The validators of the dictionaries decide `itemOk`. -/
theorem itemOk_iff (E : Env) (c : FDictId) (k : PStr) (v : Val) :
    fdValidate E c k v = .ok () ↔ itemOk E c k v := by
  cases c <;> simp only [fdValidate, itemOk]
  case computeTaskDef =>
    by_cases hk : k = p!"task_id" ∨ k = p!"subtask_id"
    · rw [if_pos hk]
      have : (∃ s, v.asStr = some s ∧ s.length ≤ 128) ↔
          (Validator.varchar (some 128)).accepts E v = true := by
        unfold Validator.accepts
        cases hv : v.asStr <;> simp [hv]
      simp only [hk, true_implies]
      rw [this]
      unfold Validator.run
      by_cases ha : (Validator.varchar (some 128)).accepts E v = true
      · simp [ha]
      · simp [ha]
    · simp [if_neg hk, hk]
  case fileInfo =>
    by_cases hk : k = p!"category"
    · rw [if_pos hk]
      simp only [hk, true_implies]
      split
      · rename_i s
        by_cases hs : s ∈ EnumId.ftCategory.values
        · exact ⟨fun _ => ⟨s, hs, rfl⟩, fun _ => if_pos hs⟩
        · simp only [if_neg hs, reduceCtorEq, false_iff]
          rintro ⟨t, ht, e⟩
          injection e with _ e
          exact hs (e ▸ ht)
      · rename_i hne
        simp only [reduceCtorEq, false_iff, not_exists]
        exact fun s e => hne s e.2
    · simp [if_neg hk, hk]
  case peer =>
    by_cases h1 : k = p!"address"
    · subst h1
      by_cases hv : E.ipOk v = true <;> simp [Validator.run, Validator.accepts, hv]
    · by_cases h2 : k = p!"port"
      · subst h2
        simp only [if_neg h1, Validator.run, Validator.accepts]
        cases v <;> simp [Val.asInt]
      · by_cases h3 : k = p!"node"
        · subst h3
          simp only [if_neg h1, if_neg h2, if_true]
          split
          · simp
          · rename_i hne
            simp
            exact fun s e => hne s e
        · simp [h1, h2, h3]

theorem dictGet_mem {n : PStr} {x : Val} : ∀ {d : List (Val × Val)}, dictGet (.str n) d = some x →
    (.str n, x) ∈ d
  | (k, v) :: rest, h => by
    unfold dictGet at h
    split at h
    · rename_i hk
      rw [keyEq_str] at hk
      injection h with h
      rw [hk, h]; simp
    · exact List.mem_cons_of_mem _ (dictGet_mem h)

theorem dictGet_none {n : PStr} : ∀ {d : List (Val × Val)}, dictGet (.str n) d = none ↔
    ∀ x, (.str n, x) ∉ d
  | [] => by simp [dictGet]
  | (k, v) :: rest => by
    unfold dictGet
    by_cases hk : k.keyEq (.str n) = true
    · rw [if_pos hk]
      rw [keyEq_str] at hk
      simp only [reduceCtorEq, false_iff, Classical.not_forall, Classical.not_not]
      exact ⟨v, by rw [hk]; simp⟩
    · rw [if_neg hk, dictGet_none]
      rw [keyEq_str] at hk
      simp only [List.mem_cons, Prod.mk.injEq, not_or, not_and]
      exact ⟨fun h x => ⟨fun e => absurd e.symm hk, h x⟩, fun h x => (h x).2⟩

theorem dictGet_of_mem {n : PStr} {x : Val} {d : List (Val × Val)} (hd : (d.map Prod.fst).Nodup)
    (h : (.str n, x) ∈ d) : dictGet (.str n) d = some x := by
  induction d with
  | nil => cases h
  | cons p rest ih =>
    obtain ⟨k, v⟩ := p
    simp only [List.map_cons, List.nodup_cons] at hd
    unfold dictGet
    rcases List.mem_cons.mp h with e | e
    · injection e with e1 e2
      rw [if_pos ((keyEq_str _ _).mpr e1.symm), e2]
    · rw [if_neg, ih hd.2 e]
      intro hk
      rw [keyEq_str] at hk
      exact hd.1 (List.mem_map.mpr ⟨_, e, hk.symm⟩)

theorem dictGet_cons (n : PStr) (k v : Val) (rest : List (Val × Val)) :
    dictGet (.str n) ((k, v) :: rest) = if k = .str n then some v else dictGet (.str n) rest := by
  rw [dictGet]
  by_cases h : k = .str n
  · rw [if_pos h, if_pos ((keyEq_str _ _).mpr h)]
  · rw [if_neg h, if_neg (fun e => h ((keyEq_str _ _).mp e))]

theorem lookupName_cons {α : Type _} (n k : PStr) (v : α) (rest : List (PStr × α)) :
    lookupName n ((k, v) :: rest) = if k = n then some v else lookupName n rest := by
  rw [lookupName]

theorem fdSetAll_lookup {E : Env} {c : FDictId} (k : PStr) :
    ∀ {pairs : List (Val × Val)} {items items' : Attrs}, (pairs.map Prod.fst).Nodup →
    fdSetAll E noConv c items pairs = .ok items' →
    lookupName k items' = (dictGet (.str k) pairs).or (lookupName k items)
  | [], items, items', _, h => by
    unfold fdSetAll at h; injection h with h; subst h; simp [dictGet]
  | (key, v) :: rest, items, items', hn, h => by
    unfold fdSetAll at h
    split at h
    · cases h
    rename_i i' hi'
    obtain ⟨k1, v1, h1, h2, h3, _, h5⟩ := fdSetV_ok hi'
    injection h2 with h2
    subst h1 h2 h5
    simp only [List.map_cons, List.nodup_cons] at hn
    rw [fdSetAll_lookup k hn.2 h, lookupName_setName, dictGet_cons]
    by_cases e : k1 = k
    · subst e
      rw [if_pos rfl, if_pos rfl]
      have : dictGet (.str k1) rest = none :=
        dictGet_none.mpr (fun x hx => hn.1 (List.mem_map.mpr ⟨_, hx, rfl⟩))
      rw [this]; rfl
    · rw [if_neg (fun h => e h.symm), if_neg (by intro h; injection h with h; exact e h)]

theorem fdSetAll_iff {E : Env} {c : FDictId} :
    ∀ {pairs : List (Val × Val)} {items : Attrs},
    (∃ items', fdSetAll E noConv c items pairs = .ok items') ↔
    ∀ key v, (key, v) ∈ pairs → ∃ k, key = .str k ∧ k ∈ c.items.map Prod.fst ∧
      fdValidate E c k v = .ok ()
  | [], items => by simp [fdSetAll]
  | (key, v) :: rest, items => by
    constructor
    · rintro ⟨items', h⟩ key' v' hm
      unfold fdSetAll at h
      split at h
      · cases h
      rename_i i' hi'
      rcases List.mem_cons.mp hm with e | e
      · injection e with e1 e2
        subst e1 e2
        obtain ⟨k1, v1, h1, h2, h3, h4, _⟩ := fdSetV_ok hi'
        injection h2 with h2
        subst h2
        exact ⟨k1, h1, h3, h4⟩
      · exact fdSetAll_iff.mp ⟨items', h⟩ key' v' e
    · intro h
      obtain ⟨k, e, h3, h4⟩ := h key v (by simp)
      subst e
      unfold fdSetAll
      have : fdSetV E noConv c items (.str k) v = .ok (setName k v items) := by
        unfold fdSetV noConv
        simp only
        unfold fdSet
        rw [h4]
        simp only
        rw [if_pos ((lookupName_isSome _ _).mpr h3)]
      rw [this]
      exact fdSetAll_iff.mpr (fun key' v' hm => h key' v' (List.mem_cons_of_mem _ hm))

theorem fdDefaults_lookup {E : Env} {c : FDictId} (k : PStr) :
    ∀ {l items items' : Attrs}, fdDefaults E noConv c items l = .ok items' →
    lookupName k items' = (lookupName k items).or (lookupName k l)
  | [], items, items', h => by
    unfold fdDefaults at h; injection h with h; subst h; simp [lookupName]
  | (a, v) :: rest, items, items', h => by
    unfold fdDefaults at h
    split at h
    · rename_i hk
      rw [fdDefaults_lookup k h, lookupName_cons]
      by_cases e : a = k
      · subst e
        obtain ⟨x, hx⟩ := Option.isSome_iff_exists.mp hk
        rw [hx]; rfl
      · rw [if_neg e]
    · rename_i hk
      split at h
      · cases h
      rename_i i' hi'
      obtain ⟨k1, v1, h1, h2, _, _, h5⟩ := fdSetV_ok hi'
      injection h1 with h1
      injection h2 with h2
      subst h1 h2 h5
      rw [fdDefaults_lookup k h, lookupName_setName]
      by_cases e : k = a
      · subst e
        rw [if_pos rfl]
        have : lookupName k items = none := by
          cases hx : lookupName k items with
          | none => rfl
          | some y => rw [hx] at hk; simp at hk
        rw [this]
        simp [lookupName]
      · rw [if_neg e]
        have : lookupName k ((a, v) :: rest) = lookupName k rest := by
          rw [lookupName, if_neg (fun h => e h.symm)]
        rw [this]

theorem fdDefaults_total {E : Env} {c : FDictId} :
    ∀ {l items : Attrs}, (∀ k v, (k, v) ∈ l → k ∈ c.items.map Prod.fst ∧
      fdValidate E c k v = .ok ()) → ∃ items', fdDefaults E noConv c items l = .ok items'
  | [], items, _ => ⟨items, by unfold fdDefaults; rfl⟩
  | (a, v) :: rest, items, h => by
    unfold fdDefaults
    split
    · exact fdDefaults_total (fun k v hm => h k v (List.mem_cons_of_mem _ hm))
    · have : fdSetV E noConv c items (.str a) v = .ok (setName a v items) := by
        unfold fdSetV noConv
        simp only
        unfold fdSet
        rw [(h a v (by simp)).2]
        simp only
        rw [if_pos ((lookupName_isSome _ _).mpr (h a v (by simp)).1)]
      rw [this]
      exact fdDefaults_total (fun k v hm => h k v (List.mem_cons_of_mem _ hm))

/-- The value of every key of a frozen dictionary built without conversions. -/
theorem fdBuild_lookup {E : Env} {c : FDictId} {pairs : List (Val × Val)} {items : Attrs}
    (hn : (pairs.map Prod.fst).Nodup) (h : fdBuild E noConv c pairs = .ok (.fdict c items))
    (k : PStr) : lookupName k items = (dictGet (.str k) pairs).or (lookupName k c.items) := by
  unfold fdBuild at h
  split at h
  · cases h
  rename_i i1 h1
  split at h
  · cases h
  rename_i i2 h2
  injection h with h
  injection h with _ h
  subst h
  rw [fdDefaults_lookup k h2, fdSetAll_lookup k hn h1]
  simp [lookupName]

/-- When such a construction succeeds, given that the defaults are valid. -/
theorem fdBuild_iff {E : Env} {c : FDictId} {pairs : List (Val × Val)}
    (hdef : ∀ k v, (k, v) ∈ c.items → fdValidate E c k v = .ok ()) :
    (∃ w, fdBuild E noConv c pairs = .ok w) ↔
    ∀ key v, (key, v) ∈ pairs → ∃ k, key = .str k ∧ k ∈ c.items.map Prod.fst ∧
      itemOk E c k v := by
  simp only [← itemOk_iff]
  rw [← fdSetAll_iff (items := [])]
  unfold fdBuild
  constructor
  · rintro ⟨w, h⟩
    split at h
    · cases h
    rename_i i1 h1
    exact ⟨i1, h1⟩
  · rintro ⟨i1, h1⟩
    rw [h1]
    simp only
    obtain ⟨i2, h2⟩ := fdDefaults_total (E := E) (c := c) (l := c.items) (items := i1)
      (fun k v hm => ⟨List.mem_map.mpr ⟨_, hm, rfl⟩, hdef k v hm⟩)
    rw [h2]
    exact ⟨_, rfl⟩

end Verif
