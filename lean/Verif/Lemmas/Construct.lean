import Verif.Model.Construct
import Verif.Lemmas.WireSlots
/-! # Lemmas about constructors -/

namespace Verif

open Spec

/-! ### Kinds of names -/

theorem nameKind_payload {c : Cls} {n : PStr} (h : n ∈ c.payload) : c.nameKind n = .slot := by
  unfold Cls.nameKind
  rw [if_pos]
  simp [h]

theorem nameKind_slot {c : Cls} {n : PStr} (h : c.nameKind n = .slot) :
    n ∈ c.payload ∨ (c = .Hello ∧ n = p!"_version") := by
  unfold Cls.nameKind at h
  by_cases g : (c.payload.contains n || (c == .Hello && n == p!"_version")) = true
  · rw [Bool.or_eq_true, Bool.and_eq_true] at g
    rcases g with g | ⟨g1, g2⟩
    · exact Or.inl (by simpa using g)
    · exact Or.inr ⟨by simpa using g1, by simpa using g2⟩
  · rw [if_neg g] at h
    split at h
    · cases h
    · split at h <;> cases h

/-! ### The loop over the keyword arguments -/

theorem applyKw_slot {G : Getter} {c : Cls} {k : PStr} {v : Val} {as : Attrs}
    (h : c.nameKind k = .slot) :
    applyKw G c k v as = .ok (if getAttr as k = .none then setName k v as else as) := by
  unfold applyKw
  rw [h]
  simp only
  split <;> rfl

theorem applyKw_other {G : Getter} {c : Cls} {k : PStr} {v : Val} {as as' : Attrs}
    (h : c.nameKind k ≠ .slot) (e : applyKw G c k v as = .ok as') : as' = as := by
  unfold applyKw at e
  cases hk : c.nameKind k with
  | slot => exact absurd hk h
  | const => rw [hk] at e; injection e with e; exact e.symm
  | absent => rw [hk] at e; cases e
  | prop =>
    rw [hk] at e
    simp only at e
    split at e
    · cases e
    · split at e
      · cases e
      · injection e with e; exact e.symm

theorem applyKws_get {G : Getter} {c : Cls} : ∀ {kw : List (PStr × Val)} {as as' : Attrs},
    applyKws G c kw as = .ok as' → (kw.map Prod.fst).Nodup → ∀ n, getAttr as' n =
      if c.nameKind n = .slot ∧ getAttr as n = .none then getAttr kw n else getAttr as n
  | [], as, as', h, _, n => by
    unfold applyKws at h
    injection h with h
    subst h
    split
    · rename_i g; rw [g.2]; rfl
    · rfl
  | (k, v) :: rest, as, as', h, hnd, n => by
    unfold applyKws at h
    simp only [List.map_cons, List.nodup_cons] at hnd
    split at h
    · cases h
    rename_i as1 h1
    rw [applyKws_get h hnd.2 n]
    have hrest : n = k → getAttr rest n = .none := by
      rintro rfl
      unfold getAttr
      rw [(lookupName_none _ _).mpr hnd.1]
    have hcons : getAttr ((k, v) :: rest) n = if k = n then v else getAttr rest n := by
      unfold getAttr
      by_cases hkn : k = n
      · simp [lookupName, hkn]
      · simp [lookupName, hkn]
    rw [hcons]
    by_cases hk : c.nameKind k = .slot
    · rw [applyKw_slot hk] at h1
      injection h1 with h1
      by_cases hg : getAttr as k = .none
      · rw [if_pos hg] at h1
        subst h1
        rw [getAttr_setName]
        by_cases hn : n = k
        · subst hn
          simp only [hk, hg, true_and, if_true, and_true]
          split
          · rename_i g; rw [hrest rfl, g]
          · rfl
        · have hn' : ¬ k = n := fun e => hn e.symm
          simp only [if_neg hn, if_neg hn']
      · rw [if_neg hg] at h1
        subst h1
        by_cases hn : n = k
        · subst hn; simp [hg]
        · have hn' : ¬ k = n := fun e => hn e.symm
          simp only [if_neg hn']
    · rw [applyKw_other hk h1]
      by_cases hn : n = k
      · subst hn; simp [hk]
      · have hn' : ¬ k = n := fun e => hn e.symm
        simp only [if_neg hn']

theorem setName_names_new {n : PStr} {v : Val} : ∀ {fs : Attrs}, n ∉ fs.map Prod.fst →
    setName n v fs = fs ++ [(n, v)]
  | [], _ => rfl
  | (k, w) :: rest, h => by
    simp only [List.map_cons, List.mem_cons, not_or] at h
    have : ¬ k = n := fun e => h.1 e.symm
    simp only [setName, if_neg this, List.cons_append, setName_names_new h.2]

theorem applyKws_names {G : Getter} {c : Cls} : ∀ {kw : List (PStr × Val)} {as as' : Attrs},
    applyKws G c kw as = .ok as' → (∀ n ∈ c.payload, n ∈ as.map Prod.fst) →
    (as'.map Prod.fst = as.map Prod.fst ∧
      (p!"_version" ∈ as.map Prod.fst ∨ p!"_version" ∉ kw.map Prod.fst ∨ c ≠ .Hello)) ∨
    (c = .Hello ∧ p!"_version" ∉ as.map Prod.fst ∧ p!"_version" ∈ kw.map Prod.fst ∧
      as'.map Prod.fst = as.map Prod.fst ++ [p!"_version"])
  | [], as, as', h, _ => by
    unfold applyKws at h
    injection h with h
    subst h
    exact Or.inl ⟨rfl, by simp⟩
  | (k, v) :: rest, as, as', h, hp => by
    unfold applyKws at h
    split at h
    · cases h
    rename_i as1 h1
    have same : as1.map Prod.fst = as.map Prod.fst → (k ≠ p!"_version" ∨ c ≠ .Hello ∨ p!"_version" ∈ as.map Prod.fst) →
        (as'.map Prod.fst = as.map Prod.fst ∧ (p!"_version" ∈ as.map Prod.fst ∨
          p!"_version" ∉ ((k, v) :: rest).map Prod.fst ∨ c ≠ .Hello)) ∨
        (c = .Hello ∧ p!"_version" ∉ as.map Prod.fst ∧ p!"_version" ∈ ((k, v) :: rest).map Prod.fst ∧
          as'.map Prod.fst = as.map Prod.fst ++ [p!"_version"]) := by
      intro hs hk
      have := applyKws_names h (by rw [hs]; exact hp)
      rw [hs] at this
      rcases this with ⟨h1, h2⟩ | ⟨h1, h2, h3, h4⟩
      · refine Or.inl ⟨h1, ?_⟩
        rcases h2 with h2 | h2 | h2
        · exact Or.inl h2
        · rcases hk with hk | hk | hk
          · refine Or.inr (Or.inl ?_)
            simp only [List.map_cons, List.mem_cons, not_or]
            exact ⟨fun e => hk e.symm, h2⟩
          · exact Or.inr (Or.inr hk)
          · exact Or.inl hk
        · exact Or.inr (Or.inr h2)
      · exact Or.inr ⟨h1, h2, by simp only [List.map_cons, List.mem_cons]; exact Or.inr h3, h4⟩
    by_cases hk : c.nameKind k = .slot
    · rw [applyKw_slot hk] at h1
      injection h1 with h1
      by_cases hm : k ∈ as.map Prod.fst
      · have hs : as1.map Prod.fst = as.map Prod.fst := by
          rw [← h1]
          split
          · exact setName_names _ _ _ hm
          · rfl
        refine same hs ?_
        by_cases hv : k = p!"_version"
        · exact Or.inr (Or.inr (hv ▸ hm))
        · exact Or.inl hv
      · have hv : c = .Hello ∧ k = p!"_version" := by
          rcases nameKind_slot hk with g | g
          · exact absurd (hp k g) hm
          · exact g
        have hg : getAttr as k = .none := by
          unfold getAttr
          rw [(lookupName_none _ _).mpr hm]
        rw [if_pos hg, setName_names_new hm] at h1
        have hs : as1.map Prod.fst = as.map Prod.fst ++ [p!"_version"] := by
          rw [← h1, hv.2]; simp
        have := applyKws_names h (by
          intro n hn; rw [hs]; exact List.mem_append_left _ (hp n hn))
        rw [hs] at this
        refine Or.inr ⟨hv.1, hv.2 ▸ hm, by simp [hv.2], ?_⟩
        rcases this with ⟨h1, _⟩ | ⟨_, h2, _⟩
        · exact h1
        · exact absurd (by simp) h2
    · rw [applyKw_other hk h1] at *
      refine same rfl ?_
      by_cases hv : k = p!"_version"
      · refine Or.inr (Or.inl ?_)
        rintro rfl
        apply hk
        subst hv
        rfl
      · exact Or.inl hv

theorem applyKws_total {G : Getter} {c : Cls} : ∀ {kw : List (PStr × Val)} {as : Attrs},
    (∀ k ∈ kw.map Prod.fst, c.nameKind k = .slot) → ∃ as', applyKws G c kw as = .ok as'
  | [], as, _ => ⟨as, rfl⟩
  | (k, v) :: rest, as, h => by
    unfold applyKws
    rw [applyKw_slot (h k (by simp))]
    exact applyKws_total fun k' hk' => h k' (by simp only [List.map_cons, List.mem_cons]; exact Or.inr hk')

theorem applyKws_absent {G : Getter} {c : Cls} {k : PStr} (hk : c.nameKind k = .absent) :
    ∀ {kw : List (PStr × Val)} {as : Attrs}, k ∈ kw.map Prod.fst →
      ∃ e, applyKws G c kw as = .error e ∧
        ((∀ n a, G c n a ≠ .error e) → e = .attributeError)
  | (k', v) :: rest, as, h => by
    unfold applyKws
    by_cases he : k' = k
    · subst he
      refine ⟨.attributeError, ?_, fun _ => rfl⟩
      unfold applyKw
      rw [hk]
    · have hr : k ∈ rest.map Prod.fst := by
        simp only [List.map_cons, List.mem_cons] at h
        rcases h with h | h
        · exact absurd h.symm he
        · exact h
      cases h1 : applyKw G c k' v as with
      | error e =>
        refine ⟨e, rfl, fun hG => ?_⟩
        unfold applyKw at h1
        split at h1
        · split at h1 <;> cases h1
        · cases h1
        · split at h1
          · rename_i e' he'
            injection h1 with h1
            subst h1
            exact absurd he' (hG _ _)
          · split at h1
            · injection h1 with h1; exact h1.symm
            · cases h1
        · injection h1 with h1; exact h1.symm
      | ok as1 => exact applyKws_absent hk hr

/-! ### Nothing to load -/

theorem loadSlots_empty (E : Env) (rec : Loader) (c : Cls) : ∀ names : List PStr,
    loadSlots E rec c [] names = .ok (names.map fun n => (n, Val.none))
  | [] => rfl
  | n :: rest => by
    unfold loadSlots
    rw [loadSlots_empty E rec c rest]
    by_cases hc : c = .StartSessionResponse ∧ n = p!"conn_id"
    · rw [if_pos hc]; rfl
    · rw [if_neg hc]; rfl

theorem dictOf_none : dictOf .none = [] := rfl

theorem getAttr_blank (names : List PStr) (n : PStr) :
    getAttr (names.map fun n => (n, Val.none)) n = .none := by
  induction names with
  | nil => rfl
  | cons k rest ih =>
    unfold getAttr at ih ⊢
    simp only [List.map_cons, lookupName]
    split
    · rename_i v h
      split at h
      · injection h with h; exact h.symm
      · rw [h] at ih; exact ih
    · rfl

end Verif
