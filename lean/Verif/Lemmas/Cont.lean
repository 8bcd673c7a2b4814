import Verif.Lemmas.Slots
import Verif.Spec.Container
/-! # Lemmas about containers -/

set_option linter.unusedSimpArgs false

namespace Verif

open Spec

theorem slots_nodup (c : ContId) : (c.slots.map Prod.fst).Nodup := by cases c <;> decide

theorem required_slots (c : ContId) : ∀ k ∈ c.required, k ∈ c.slots.map Prod.fst := by
  cases c <;> decide

theorem self_not_slot (c : ContId) : p!"self" ∉ c.slots.map Prod.fst := by cases c <;> decide

theorem contFields_ok {E : Env} {hook : PStr → Val → Res Val} {c : ContId} {kw : Attrs} :
    ∀ {l : List (PStr × List Validator)} {fs : Attrs}, contFields E hook c kw l = .ok fs →
    fs.map Prod.fst = l.map Prod.fst ∧
    ∀ k vs, (k, vs) ∈ l → ∃ v, (k, v) ∈ fs ∧ contField E hook c kw k vs = .ok v
  | [], fs, h => by
    unfold contFields at h
    injection h with h
    subst h
    exact ⟨rfl, fun _ _ hm => by cases hm⟩
  | (k, vs) :: rest, fs, h => by
    unfold contFields at h
    split at h
    · cases h
    rename_i v hv
    split at h
    · cases h
    rename_i r hr
    injection h with h
    subst h
    obtain ⟨h1, h2⟩ := contFields_ok hr
    refine ⟨by simp [h1], fun k' vs' hm => ?_⟩
    rcases List.mem_cons.mp hm with e | e
    · injection e with e1 e2
      subst e1 e2
      exact ⟨v, by simp, hv⟩
    · obtain ⟨w, hw, hw'⟩ := h2 k' vs' e
      exact ⟨w, List.mem_cons_of_mem _ hw, hw'⟩

theorem contFields_of {E : Env} {hook : PStr → Val → Res Val} {c : ContId} {kw fs : Attrs} :
    ∀ {l : List (PStr × List Validator)}, fs.map Prod.fst = l.map Prod.fst →
    (∀ k vs v, (k, vs) ∈ l → (k, v) ∈ fs → contField E hook c kw k vs = .ok v) →
    contFields E hook c kw l = .ok fs := by
  induction fs with
  | nil =>
    intro l h1 _
    cases l with
    | nil => rfl
    | cons a b => simp at h1
  | cons kv fs ih =>
    intro l h1 h2
    cases l with
    | nil => simp at h1
    | cons a b =>
      obtain ⟨k, vs⟩ := a
      obtain ⟨k', v⟩ := kv
      simp only [List.map_cons, List.cons.injEq] at h1
      obtain ⟨e, h1⟩ := h1
      subst e
      unfold contFields
      rw [h2 k' vs v (by simp) (by simp)]
      simp only
      rw [ih h1 (fun k vs v ha hb => h2 k vs v (List.mem_cons_of_mem _ ha) (List.mem_cons_of_mem _ hb))]

theorem firstUnknown_none {slots : List (PStr × List Validator)} : ∀ {kw : Attrs},
    firstUnknown slots kw = none ↔ ∀ k ∈ kw.map Prod.fst, k ∈ slots.map Prod.fst
  | [] => by simp [firstUnknown]
  | (k, v) :: rest => by
    have ih := firstUnknown_none (slots := slots) (kw := rest)
    unfold firstUnknown
    by_cases hk : (lookupName k slots).isSome = true
    · rw [if_pos hk, ih]
      have := (lookupName_isSome k slots).mp hk
      simp only [List.map_cons, List.mem_cons]
      constructor
      · rintro h k' (rfl | h')
        · exact this
        · exact h k' h'
      · intro h k' h'
        exact h k' (Or.inr h')
    · rw [if_neg hk]
      have hk' := fun h => hk ((lookupName_isSome k slots).mpr h)
      simp only [List.map_cons, List.mem_cons, reduceCtorEq, false_iff]
      intro h
      exact hk' (h k (Or.inl rfl))

theorem runAll_ok {E : Env} {f : PStr} {v : Val} : ∀ {vs : List Validator} {u : Unit},
    runAll E vs f v = .ok u ↔ ∀ x ∈ vs, x.accepts E v = true
  | [], u => by simp [runAll]
  | x :: xs, u => by
    have ih := runAll_ok (E := E) (f := f) (v := v) (vs := xs) (u := u)
    unfold runAll Validator.run
    by_cases hx : x.accepts E v = true
    · rw [if_pos hx]
      simp only [List.mem_cons, forall_eq_or_imp, hx, true_and]
      exact ih
    · rw [if_neg hx]
      simp [hx]

theorem textKeys_map (kw : Attrs) :
    textKeys (kw.map fun p => (Val.str p.1, p.2)) = some kw := by
  induction kw with
  | nil => rfl
  | cons a b ih =>
    obtain ⟨k, v⟩ := a
    simp only [List.map_cons]
    unfold textKeys
    simp only [ih]

theorem textKeys_ok : ∀ {d : List (Val × Val)} {kw : Attrs}, textKeys d = some kw →
    d = kw.map fun p => (Val.str p.1, p.2)
  | [], kw, h => by simp [textKeys] at h; subst h; rfl
  | (k, v) :: rest, kw, h => by
    unfold textKeys at h
    split at h
    · rename_i heq; cases heq
    · rename_i k' v' rest' heq
      injection heq with e1 e2
      injection e1 with e1 e3
      subst e1 e2 e3
      split at h
      · rename_i r hr
        injection h with h
        subst h
        rw [textKeys_ok hr]
        rfl
      · cases h
    · cases h

/-- What a successful container construction says. -/
theorem contCall_ok {E : Env} {hook : PStr → Val → Res Val} {c : ContId} {v w : Val}
    (h : contCall E hook c v = .ok w) : ∃ kw fs,
      v.asDict = some (kw.map fun p => (.str p.1, p.2)) ∧ p!"self" ∉ kw.map Prod.fst ∧
      w = .cont c fs ∧ fs.map Prod.fst = c.slots.map Prod.fst ∧
      (∀ k ∈ kw.map Prod.fst, k ∈ c.slots.map Prod.fst) ∧
      ∀ k vs, (k, vs) ∈ c.slots → ∃ x, (k, x) ∈ fs ∧ contField E hook c kw k vs = .ok x := by
  unfold contCall kwargsOf at h
  split at h
  · cases h
  rename_i kw hkw
  split at hkw
  · cases hkw
  rename_i d hd
  split at hkw
  · cases hkw
  rename_i kw' hkw'
  split at hkw
  · cases hkw
  rename_i hself
  injection hkw with hkw
  subst hkw
  unfold contBuild at h
  have h := wrapLoad_ok h
  split at h
  · cases h
  rename_i fs hfs
  split at h
  · cases h
  rename_i hu
  injection h with h
  obtain ⟨h1, h2⟩ := contFields_ok hfs
  refine ⟨kw', fs, by rw [hd, textKeys_ok hkw'], ?_, h.symm, h1, firstUnknown_none.mp hu, h2⟩
  intro hs
  exact hself ((lookupName_isSome _ _).mpr hs)

/-- Building a container again from pairs that give every field. -/
theorem contCall_of {E : Env} {hook : PStr → Val → Res Val} {c : ContId} {kw fs : Attrs}
    (hk : kw.map Prod.fst = c.slots.map Prod.fst) (hf : fs.map Prod.fst = c.slots.map Prod.fst)
    (h : ∀ k vs v, (k, vs) ∈ c.slots → (k, v) ∈ fs → contField E hook c kw k vs = .ok v) :
    contCall E hook c (.dict (kw.map fun p => (.str p.1, p.2))) = .ok (.cont c fs) := by
  unfold contCall kwargsOf Val.asDict
  simp only [textKeys_map]
  have hself : (lookupName p!"self" kw).isSome = false := by
    cases hl : (lookupName p!"self" kw).isSome
    · rfl
    · exact absurd ((lookupName_isSome _ _).mp hl) (by rw [hk]; exact self_not_slot c)
  simp only [hself]
  simp only [Bool.false_eq_true, if_false]
  unfold contBuild
  rw [contFields_of hf h]
  simp only
  have := (firstUnknown_none (slots := c.slots) (kw := kw)).mpr (by rw [hk]; exact fun _ h => h)
  rw [this]
  rfl

theorem contField_present {E : Env} {hook : PStr → Val → Res Val} {c : ContId} {kw : Attrs}
    {k : PStr} {vs : List Validator} {v : Val} (h : lookupName k kw = some v) :
    contField E hook c kw k vs = contDeser E hook c k vs v := by
  unfold contField; rw [h]

/-- `toDictF` acts field by field. -/
theorem toDictF_of {c : ContId} : ∀ {fs : Attrs} {g : PStr → Val → Val},
    (∀ k v, (k, v) ∈ fs → toDictV c k v = .ok (g k v)) →
    toDictF c fs = .ok ((fs.map fun p => (p.1, g p.1 p.2)).map fun p => (.str p.1, p.2))
  | [], g, _ => by unfold toDictF; rfl
  | (k, v) :: rest, g, h => by
    unfold toDictF
    rw [h k v (by simp)]
    simp only
    rw [toDictF_of (fun k v hm => h k v (List.mem_cons_of_mem _ hm))]
    rfl

/-- Rebuilding a container from its dictionary, given that every field is stable. -/
theorem rebuild {E : Env} {hook : PStr → Val → Res Val} {c : ContId} {fs : Attrs}
    (hf : fs.map Prod.fst = c.slots.map Prod.fst)
    (h : ∀ k vs v, (k, vs) ∈ c.slots → (k, v) ∈ fs →
      ∃ y, toDictV c k v = .ok y ∧ contDeser E hook c k vs y = .ok v) :
    ∃ kw : Attrs, toDictF c fs = .ok (kw.map fun p => (.str p.1, p.2)) ∧
      kw.map Prod.fst = c.slots.map Prod.fst ∧
      contCall E hook c (.dict (kw.map fun p => (.str p.1, p.2))) = .ok (.cont c fs) := by
  let g : PStr → Val → Val := fun k v => match toDictV c k v with
    | .ok y => y
    | .error _ => .none
  have hmem : ∀ k v, (k, v) ∈ fs → ∃ vs, (k, vs) ∈ c.slots := by
    intro k v hm
    have : k ∈ c.slots.map Prod.fst := by rw [← hf]; exact List.mem_map.mpr ⟨_, hm, rfl⟩
    obtain ⟨⟨k', vs⟩, hm', e⟩ := List.mem_map.mp this
    simp only at e
    subst e
    exact ⟨vs, hm'⟩
  have hg : ∀ k v, (k, v) ∈ fs → toDictV c k v = .ok (g k v) := by
    intro k v hm
    obtain ⟨vs, hvs⟩ := hmem k v hm
    obtain ⟨y, hy, _⟩ := h k vs v hvs hm
    show _ = Except.ok (match toDictV c k v with | .ok y => y | .error _ => .none)
    rw [hy]
  have hkw : (fs.map fun p => (p.1, g p.1 p.2)).map Prod.fst = c.slots.map Prod.fst := by
    rw [List.map_map, ← hf]; rfl
  refine ⟨fs.map fun p => (p.1, g p.1 p.2), toDictF_of hg, hkw, contCall_of hkw hf ?_⟩
  intro k vs v hs hm
  have hl : lookupName k (fs.map fun p => (p.1, g p.1 p.2)) = some (g k v) :=
    lookupName_of_mem (by rw [hkw]; exact slots_nodup c) (List.mem_map.mpr ⟨(k, v), hm, rfl⟩)
  rw [contField_present hl]
  obtain ⟨y, hy, hd⟩ := h k vs v hs hm
  rw [hg k v hm] at hy
  injection hy with hy
  rw [hy]; exact hd

/-! ### Frozen dictionaries -/

/-- The items so far: declared keys, once each, with accepted values. -/
structure ItemsOk (E : Env) (c : FDictId) (items : Attrs) : Prop where
  nodup : (items.map Prod.fst).Nodup
  known : ∀ k ∈ items.map Prod.fst, k ∈ c.items.map Prod.fst
  valid : ∀ k v, (k, v) ∈ items → fdValidate E c k v = .ok ()

theorem setName_mem {k k' : PStr} {v v' : Val} : ∀ {items : Attrs}, (k', v') ∈ setName k v items →
    (k' = k ∧ v' = v) ∨ ((k', v') ∈ items)
  | [], h => by simp [setName] at h; exact Or.inl h
  | (a, b) :: rest, h => by
    unfold setName at h
    split at h
    · rename_i hk
      rcases List.mem_cons.mp h with e | e
      · injection e with e1 e2; exact Or.inl ⟨e1.trans hk, e2⟩
      · exact Or.inr (List.mem_cons_of_mem _ e)
    · rcases List.mem_cons.mp h with e | e
      · exact Or.inr (by rw [e]; simp)
      · rcases setName_mem e with h' | h'
        · exact Or.inl h'
        · exact Or.inr (List.mem_cons_of_mem _ h')

theorem setName_absent {α : Type _} {k : PStr} {v : α} : ∀ {items : List (PStr × α)},
    k ∉ items.map Prod.fst → setName k v items = items ++ [(k, v)]
  | [], _ => rfl
  | (a, b) :: rest, h => by
    simp only [List.map_cons, List.mem_cons, not_or] at h
    unfold setName
    rw [if_neg (fun e => h.1 e.symm), setName_absent h.2]
    rfl

theorem setName_ok {E : Env} {c : FDictId} {items : Attrs} {k : PStr} {v : Val}
    (hi : ItemsOk E c items) (hk : k ∈ c.items.map Prod.fst) (hv : fdValidate E c k v = .ok ()) :
    ItemsOk E c (setName k v items) := by
  refine ⟨?_, ?_, ?_⟩
  · by_cases hm : k ∈ items.map Prod.fst
    · rw [setName_names k v items hm]; exact hi.nodup
    · rw [setName_absent hm, List.map_append, List.nodup_append]
      refine ⟨hi.nodup, by simp, ?_⟩
      intro a ha b hb
      simp only [List.map_cons, List.map_nil, List.mem_singleton] at hb
      subst hb
      intro e; subst e; exact hm ha
  · intro k' h
    obtain ⟨⟨a, b⟩, hm, e⟩ := List.mem_map.mp h
    simp only at e
    subst e
    rcases setName_mem hm with ⟨e, _⟩ | h'
    · rw [e]; exact hk
    · exact hi.known _ (List.mem_map.mpr ⟨_, h', rfl⟩)
  · intro k' v' h
    rcases setName_mem h with ⟨e1, e2⟩ | h'
    · rw [e1, e2]; exact hv
    · exact hi.valid _ _ h'

theorem fdSetV_ok {E : Env} {conv : PStr → Val → Res Val} {c : FDictId} {items items' : Attrs}
    {key v : Val} (h : fdSetV E conv c items key v = .ok items') :
    ∃ k v', key = .str k ∧ conv k v = .ok v' ∧ k ∈ c.items.map Prod.fst ∧
      fdValidate E c k v' = .ok () ∧ items' = setName k v' items := by
  unfold fdSetV at h
  split at h
  · rename_i k
    split at h
    · cases h
    rename_i v' hv'
    unfold fdSet at h
    split at h
    · cases h
    rename_i u hu
    split at h
    · rename_i hk
      injection h with h
      exact ⟨k, v', rfl, hv', (lookupName_isSome _ _).mp hk, hu, h.symm⟩
    · cases h
  · split at h <;> cases h

theorem fdSetV_inv {E : Env} {conv : PStr → Val → Res Val} {c : FDictId} {items items' : Attrs}
    {key v : Val} (hi : ItemsOk E c items) (h : fdSetV E conv c items key v = .ok items') :
    ItemsOk E c items' ∧ (∀ k ∈ items.map Prod.fst, k ∈ items'.map Prod.fst) ∧
      ∃ k, key = .str k ∧ k ∈ items'.map Prod.fst := by
  obtain ⟨k, v', h1, h2, h3, h4, h5⟩ := fdSetV_ok h
  subst h5
  have hmem : ∀ k', (k' = k ∨ k' ∈ items.map Prod.fst) → k' ∈ (setName k v' items).map Prod.fst := by
    intro k' hk'
    rw [← lookupName_isSome, lookupName_setName]
    by_cases e : k' = k
    · simp [e]
    · rw [if_neg e, lookupName_isSome]
      rcases hk' with h | h
      · exact absurd h e
      · exact h
  exact ⟨setName_ok hi h3 h4, fun k' hk' => hmem k' (Or.inr hk'), k, h1, hmem k (Or.inl rfl)⟩

theorem fdSetAll_inv {E : Env} {conv : PStr → Val → Res Val} {c : FDictId} :
    ∀ {pairs : List (Val × Val)} {items items' : Attrs}, ItemsOk E c items →
    fdSetAll E conv c items pairs = .ok items' → ItemsOk E c items' ∧
      ∀ p ∈ pairs, ∃ k, p.1 = .str k ∧ k ∈ c.items.map Prod.fst
  | [], items, items', hi, h => by
    unfold fdSetAll at h; injection h with h; subst h
    exact ⟨hi, fun _ hp => by cases hp⟩
  | (k, v) :: rest, items, items', hi, h => by
    unfold fdSetAll at h
    split at h
    · cases h
    rename_i i' hi'
    obtain ⟨k1, v1, h1, _, h3, _, _⟩ := fdSetV_ok hi'
    obtain ⟨a, b⟩ := fdSetAll_inv (fdSetV_inv hi hi').1 h
    refine ⟨a, fun p hp => ?_⟩
    rcases List.mem_cons.mp hp with e | e
    · rw [e]; exact ⟨k1, h1, h3⟩
    · exact b p e

theorem fdDefaults_inv {E : Env} {conv : PStr → Val → Res Val} {c : FDictId} :
    ∀ {l : Attrs} {items items' : Attrs}, ItemsOk E c items →
    fdDefaults E conv c items l = .ok items' → ItemsOk E c items' ∧
      (∀ k ∈ items.map Prod.fst, k ∈ items'.map Prod.fst) ∧
      ∀ k ∈ l.map Prod.fst, k ∈ items'.map Prod.fst
  | [], items, items', hi, h => by
    unfold fdDefaults at h; injection h with h; subst h
    exact ⟨hi, fun _ h => h, fun _ hp => by cases hp⟩
  | (k, v) :: rest, items, items', hi, h => by
    unfold fdDefaults at h
    split at h
    · rename_i hk
      obtain ⟨a, b, d⟩ := fdDefaults_inv hi h
      refine ⟨a, b, fun k' hk' => ?_⟩
      simp only [List.map_cons, List.mem_cons] at hk'
      rcases hk' with e | e
      · rw [e]; exact b k ((lookupName_isSome _ _).mp hk)
      · exact d k' e
    · split at h
      · cases h
      rename_i i' hi'
      obtain ⟨a, b, k1, e1, hk1⟩ := fdSetV_inv hi hi'
      injection e1 with e1
      obtain ⟨a', b', d'⟩ := fdDefaults_inv a h
      refine ⟨a', fun k' hk' => b' k' (b k' hk'), fun k' hk' => ?_⟩
      simp only [List.map_cons, List.mem_cons] at hk'
      rcases hk' with e | e
      · rw [e, e1]; exact b' _ hk1
      · exact d' k' e

/-- What a successful construction of a frozen dictionary says. -/
theorem fdBuild_ok {E : Env} {conv : PStr → Val → Res Val} {c : FDictId}
    {pairs : List (Val × Val)} {w : Val} (h : fdBuild E conv c pairs = .ok w) :
    ∃ items, w = .fdict c items ∧ ItemsOk E c items ∧
      (∀ k ∈ c.items.map Prod.fst, k ∈ items.map Prod.fst) ∧
      ∀ p ∈ pairs, ∃ k, p.1 = .str k ∧ k ∈ c.items.map Prod.fst := by
  unfold fdBuild at h
  split at h
  · cases h
  rename_i i1 h1
  split at h
  · cases h
  rename_i i2 h2
  injection h with h
  obtain ⟨a, b⟩ := fdSetAll_inv ⟨by simp, by simp, by simp⟩ h1
  obtain ⟨a', _, d'⟩ := fdDefaults_inv a h2
  exact ⟨i2, h.symm, a', d', b⟩

theorem fdSetAll_of {E : Env} {conv : PStr → Val → Res Val} {c : FDictId} :
    ∀ {kw items : Attrs}, ((items ++ kw).map Prod.fst).Nodup →
    (∀ k ∈ kw.map Prod.fst, k ∈ c.items.map Prod.fst) →
    (∀ k v, (k, v) ∈ kw → conv k v = .ok v ∧ fdValidate E c k v = .ok ()) →
    fdSetAll E conv c items (kw.map fun p => (.str p.1, p.2)) = .ok (items ++ kw)
  | [], items, _, _, _ => by simp [fdSetAll]
  | (k, v) :: rest, items, hn, hk, hv => by
    simp only [List.map_cons]
    unfold fdSetAll
    have hab : k ∉ items.map Prod.fst := by
      rw [List.map_append, List.nodup_append] at hn
      intro hm
      exact hn.2.2 k hm k (by simp) rfl
    have : fdSetV E conv c items (.str k) v = .ok (items ++ [(k, v)]) := by
      unfold fdSetV
      simp only [(hv k v (by simp)).1]
      unfold fdSet
      rw [(hv k v (by simp)).2]
      simp only
      rw [if_pos ((lookupName_isSome _ _).mpr (hk k (by simp))), setName_absent hab]
    rw [this]
    simp only
    rw [fdSetAll_of (by simpa using hn) (fun k' h => hk k' (by simp [List.mem_map.mp h]))
      (fun k' v' h => hv k' v' (List.mem_cons_of_mem _ h))]
    simp

theorem fdDefaults_full {E : Env} {conv : PStr → Val → Res Val} {c : FDictId} {items : Attrs} :
    ∀ {l : Attrs}, (∀ k ∈ l.map Prod.fst, k ∈ items.map Prod.fst) →
    fdDefaults E conv c items l = .ok items
  | [], _ => by unfold fdDefaults; rfl
  | (k, v) :: rest, h => by
    unfold fdDefaults
    rw [if_pos ((lookupName_isSome _ _).mpr (h k (by simp)))]
    exact fdDefaults_full (fun k' h' => h k' (List.mem_cons_of_mem _ h'))

/-- A well-formed frozen dictionary is rebuilt from its items. -/
theorem fdBuild_of {E : Env} {conv : PStr → Val → Res Val} {c : FDictId} {items : Attrs}
    (hi : ItemsOk E c items) (hfull : ∀ k ∈ c.items.map Prod.fst, k ∈ items.map Prod.fst)
    (hconv : ∀ k v, (k, v) ∈ items → conv k v = .ok v) :
    fdBuild E conv c (items.map fun p => (.str p.1, p.2)) = .ok (.fdict c items) := by
  unfold fdBuild
  rw [fdSetAll_of (items := []) (by simpa using hi.nodup) hi.known
    (fun k v h => ⟨hconv k v h, hi.valid k v h⟩)]
  simp only [List.nil_append]
  rw [fdDefaults_full hfull]

/-! ### Stability of container fields -/

theorem unEnum_id {v : Val} (h : ∀ e s, v ≠ .enum e s) : v.unEnum = v := by
  cases v <;> first | rfl | exact absurd rfl (h _ _)

theorem toDictV_leaf {c : ContId} {k : PStr} {v : Val} (h : ∀ c' fs, v ≠ .cont c' fs) :
    toDictV c k v = toDictLeaf c k v := by
  unfold toDictV
  cases v <;> first | rfl | exact absurd rfl (h _ _)

theorem toDictV_keep {c : ContId} {k : PStr} {v : Val} (hc : callsToDict c k = false)
    (hv : toDictLeaf c k v = .ok v) : toDictV c k v = .ok v := by
  cases v
  case cont c' fs => unfold toDictV; simp [hc]
  all_goals rw [toDictV_leaf (by intro _ _ h; cases h)]; exact hv

/-- A value as it comes out of `contDeser` with the identity as hook. -/
theorem contDeser_idem {E : Env} {hook : PStr → Val → Res Val} {c : ContId} {k : PStr}
    {vs : List Validator} {v w : Val} (hh : hook k v = .ok v)
    (h : contDeser E hook c k vs v = .ok w) : w = v ∧ contDeser E hook c k vs v = .ok v := by
  have : w = v := by
    unfold contDeser at h
    split at h
    · injection h with h; exact h.symm
    · split at h
      · cases h
      · rw [hh] at h; injection h with h; exact h.symm
  subst this
  exact ⟨rfl, h⟩

end Verif
