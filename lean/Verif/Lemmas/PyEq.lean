import Verif.Model.PyEq
import Verif.Lemmas.Attrs
import Verif.Lemmas.FloatKey
import Verif.Spec.Equality
/-! # Python equality is an equivalence -/

set_option linter.unusedSimpArgs false

namespace Verif

open Spec

theorem dictGet_mem' {k w : Val} : ∀ {d : List (Val × Val)}, dictGet k d = some w →
    ∃ k', (k', w) ∈ d ∧ k'.keyNorm = k.keyNorm
  | [], h => by cases h
  | (k', v) :: rest, h => by
    unfold dictGet at h
    split at h
    · rename_i hk
      injection h with h; subst h
      exact ⟨k', by simp, keyEq_iff.mp hk⟩
    · obtain ⟨k2, h1, h2⟩ := dictGet_mem' h
      exact ⟨k2, by simp [h1], h2⟩

theorem dictGet_norm {k k' : Val} (h : k.keyNorm = k'.keyNorm) (d : List (Val × Val)) :
    dictGet k d = dictGet k' d := by
  induction d with
  | nil => rfl
  | cons p rest ih => unfold dictGet Val.keyEq; rw [h, ih]

theorem distinct_cons {k : Val} {ks : List Val} : distinctKeys (k :: ks) = true ↔
    (∀ l ∈ ks, k.keyNorm ≠ l.keyNorm) ∧ distinctKeys ks = true := by
  simp only [distinctKeys, Bool.and_eq_true, List.all_eq_true]
  refine and_congr_left fun _ => forall_congr' fun l => imp_congr_right fun _ => ?_
  rw [sameKey_keyEq, Ne, ← keyEq_iff]
  cases k.keyEq l <;> simp

theorem distinct_iff {ks : List Val} : distinctKeys ks = true ↔ (ks.map Val.keyNorm).Nodup := by
  induction ks with
  | nil => simp [distinctKeys]
  | cons k ks ih =>
    rw [distinct_cons, List.map_cons, List.nodup_cons, ih]
    refine and_congr_left fun _ => ?_
    simp only [List.mem_map, not_exists, not_and]
    exact forall_congr' fun l => imp_congr_right fun _ => ⟨fun h e => h e.symm, fun h e => h e.symm⟩

theorem dictGet_of_mem' {k k' w : Val} : ∀ {d : List (Val × Val)}, distinctKeys (d.map Prod.fst) = true →
    (k', w) ∈ d → k'.keyNorm = k.keyNorm → dictGet k d = some w
  | [], _, h, _ => by cases h
  | (l, v) :: rest, hd, hm, hk => by
    rw [List.map_cons, distinct_cons] at hd
    unfold dictGet
    rcases List.mem_cons.mp hm with e | e
    · injection e with e1 e2
      subst e1 e2
      rw [if_pos (keyEq_iff.mpr hk)]
    · have hne := hd.1 k' (List.mem_map.mpr ⟨_, e, rfl⟩)
      rw [if_neg]
      · exact dictGet_of_mem' hd.2 e hk
      · intro h
        exact hne ((keyEq_iff.mp h).trans hk.symm)

/-- A list without repetitions inside another one of the same length contains it. -/
theorem subset_back {α : Type _} [DecidableEq α] : ∀ {a b : List α}, a.Nodup → (∀ x ∈ a, x ∈ b) →
    b.length ≤ a.length → ∀ y ∈ b, y ∈ a
  | [], b, _, _, hl, y, hy => by
    cases b with
    | nil => cases hy
    | cons _ _ => simp at hl
  | x :: a, b, hn, hs, hl, y, hy => by
    rw [List.nodup_cons] at hn
    by_cases e : y = x
    · simp [e]
    · have hx : x ∈ b := hs x (by simp)
      have := subset_back (a := a) (b := b.erase x) hn.2
        (fun z hz => (List.mem_erase_of_ne (fun e : z = x => hn.1 (e ▸ hz))).mpr (hs z (by simp [hz])))
        (by rw [List.length_erase_of_mem hx]; simp at hl; omega) y
        ((List.mem_erase_of_ne e).mpr hy)
      simp [this]

/-! ### Keyed data -/

theorem keyedL_mem {l : List Val} : KeyedL l ↔ ∀ x ∈ l, Keyed x := by
  induction l with
  | nil => simp [KeyedL]
  | cons x xs ih => simp [KeyedL, ih]

theorem keyedD_mem {d : List (Val × Val)} : KeyedD d ↔ ∀ kv ∈ d, Keyed kv.1 ∧ Keyed kv.2 := by
  induction d with
  | nil => simp [KeyedD]
  | cons x xs ih => obtain ⟨k, v⟩ := x; simp [KeyedD, ih, and_assoc]

theorem keyedF_mem {d : Attrs} : KeyedF d ↔ ∀ kv ∈ d, Keyed kv.2 := by
  induction d with
  | nil => simp [KeyedF]
  | cons x xs ih => obtain ⟨k, v⟩ := x; simp [KeyedF, ih]

theorem keyed_asDict {v : Val} {d : List (Val × Val)} (h : Keyed v) (hd : v.asDict = some d) :
    distinctKeys (d.map Prod.fst) = true ∧ KeyedD d := by
  cases v <;> simp only [Val.asDict] at hd <;> cases hd
  · simpa only [Keyed] using h
  · simp only [Keyed] at h
    refine ⟨?_, ?_⟩
    · rw [distinct_iff, List.map_map, List.map_map]
      have : ((Val.keyNorm ∘ Prod.fst) ∘ fun kv : PStr × Val => (Val.str kv.1, kv.2)) =
          Val.str ∘ Prod.fst := rfl
      rw [this, ← List.map_map]
      exact List.Pairwise.map _ (fun a b e h => e (by injection h)) h.1
    · rw [keyedD_mem]
      intro kv hm
      obtain ⟨q, hq, e⟩ := List.mem_map.mp hm
      subst e
      exact ⟨by simp [Keyed], keyedF_mem.mp h.2 q hq⟩

/-! ### The comparisons as relations -/

theorem pyEqL_iff {l m : List Val} : pyEqL l m = true ↔
    l.length = m.length ∧ ∀ p ∈ l.zip m, pyEq p.1 p.2 = true := by
  induction l generalizing m with
  | nil => cases m <;> simp [pyEqL]
  | cons x xs ih =>
    cases m with
    | nil => simp [pyEqL]
    | cons y ys => simp [pyEqL, ih, and_left_comm]

theorem pyEqD_iff {a b : List (Val × Val)} : pyEqD a b = true ↔
    ∀ kv ∈ a, ∃ w, dictGet kv.1 b = some w ∧ pyEq kv.2 w = true := by
  induction a with
  | nil => simp [pyEqD]
  | cons x xs ih =>
    obtain ⟨k, v⟩ := x
    simp only [pyEqD, Bool.and_eq_true, ih, List.forall_mem_cons]
    refine and_congr_left fun _ => ?_
    cases dictGet k b <;> simp

theorem pyEqF_eq (a : Attrs) (b : List (Val × Val)) :
    pyEqF a b = pyEqD (a.map fun kv => (.str kv.1, kv.2)) b := by
  induction a with
  | nil => simp [pyEqF, pyEqD]
  | cons x xs ih => obtain ⟨k, v⟩ := x; simp only [pyEqF, pyEqD, List.map_cons, ih]

/-- Comparison of two dictionaries, plain or frozen. -/
def dictEq (d d' : List (Val × Val)) : Bool := d.length == d'.length && pyEqD d d'

theorem pyEq_dictLike {a : Val} {d : List (Val × Val)} (h : a.asDict = some d) (b : Val) :
    pyEq a b = (match b.asDict with | some d' => dictEq d d' | none => false) := by
  cases a <;> simp only [Val.asDict] at h <;> cases h
  · unfold pyEq; rfl
  · unfold pyEq dictEq; simp only [pyEqF_eq, List.length_map]; rfl

theorem float_num (x : UInt64) : (Val.float x).numKey ≠ none := by
  simp only [Val.numKey]; split <;> simp

theorem pyEq_asDict {a b : Val} (he : pyEq a b = true) :
    a.asDict.isSome = b.asDict.isSome := by
  cases a with
  | float x =>
    simp only [pyEq, decide_eq_true_eq] at he
    have := float_num x
    rw [he] at this
    cases b <;> simp [Val.asDict, Val.numKey] at this ⊢
  | _ => cases b <;> simp [pyEq, Val.asDict, Val.numKey] at he ⊢

mutual
theorem pyEq_refl (a : Val) (h : Keyed a) : pyEq a a = true := by
  cases a with
  | list l => simp only [Keyed] at h; simp only [pyEq]; exact pyEqL_refl l h
  | tuple l => simp only [Keyed] at h; simp only [pyEq]; exact pyEqL_refl l h
  | tag n w => simp only [Keyed] at h; simp only [pyEq, beq_self_eq_true, Bool.true_and]; exact pyEq_refl w h
  | dict d =>
    rw [pyEq_dictLike rfl]
    simp only [Val.asDict, dictEq, beq_self_eq_true, Bool.true_and]
    simp only [Keyed] at h
    rw [pyEqD_iff]
    exact fun kv hkv => ⟨kv.2, dictGet_of_mem' h.1 hkv rfl, pyEqD_refl d h.2 kv hkv⟩
  | fdict c fs =>
    have hk := keyed_asDict (d := fs.map fun kv => (.str kv.1, kv.2)) h rfl
    rw [pyEq_dictLike rfl]
    simp only [Val.asDict, dictEq, beq_self_eq_true, Bool.true_and]
    rw [pyEqD_iff]
    intro kv hkv
    refine ⟨kv.2, dictGet_of_mem' hk.1 hkv rfl, ?_⟩
    obtain ⟨q, hq, e⟩ := List.mem_map.mp hkv
    subst e
    simp only [Keyed] at h
    exact pyEqF_refl fs h.2 q hq
  | _ => simp [pyEq]
theorem pyEqL_refl (l : List Val) (h : KeyedL l) : pyEqL l l = true := by
  cases l with
  | nil => simp [pyEqL]
  | cons x xs =>
    simp only [KeyedL] at h
    simp only [pyEqL, Bool.and_eq_true]
    exact ⟨pyEq_refl x h.1, pyEqL_refl xs h.2⟩
theorem pyEqD_refl (d : List (Val × Val)) (h : KeyedD d) : ∀ kv ∈ d, pyEq kv.2 kv.2 = true := by
  cases d with
  | nil => simp
  | cons x xs =>
    obtain ⟨k, v⟩ := x
    simp only [KeyedD] at h
    intro kv hkv
    rcases List.mem_cons.mp hkv with e | e
    · subst e; exact pyEq_refl v h.2.1
    · exact pyEqD_refl xs h.2.2 kv e
theorem pyEqF_refl (d : Attrs) (h : KeyedF d) : ∀ kv ∈ d, pyEq kv.2 kv.2 = true := by
  cases d with
  | nil => simp
  | cons x xs =>
    obtain ⟨k, v⟩ := x
    simp only [KeyedF] at h
    intro kv hkv
    rcases List.mem_cons.mp hkv with e | e
    · subst e; exact pyEq_refl v h.1
    · exact pyEqF_refl xs h.2 kv e
end

private theorem dictEq_symm {d d' : List (Val × Val)} (hd : distinctKeys (d.map Prod.fst) = true)
    (hd' : distinctKeys (d'.map Prod.fst) = true)
    (hs : ∀ kv ∈ d, ∀ kv' ∈ d', pyEq kv.2 kv'.2 = true → pyEq kv'.2 kv.2 = true)
    (h : dictEq d d' = true) : dictEq d' d = true := by
  simp only [dictEq, Bool.and_eq_true, beq_iff_eq, pyEqD_iff] at h ⊢
  refine ⟨h.1.symm, fun kv' hkv' => ?_⟩
  have hsub : ∀ x ∈ (d.map Prod.fst).map Val.keyNorm, x ∈ (d'.map Prod.fst).map Val.keyNorm := by
    intro x hx
    simp only [List.map_map, List.mem_map, Function.comp] at hx ⊢
    obtain ⟨kv, hkv, e⟩ := hx
    obtain ⟨w, hw, _⟩ := h.2 kv hkv
    obtain ⟨k', hk', e'⟩ := dictGet_mem' hw
    exact ⟨(k', w), hk', e'.trans e⟩
  have hback := subset_back (distinct_iff.mp hd) hsub (by simp [h.1]) kv'.1.keyNorm
    (by simp only [List.map_map, List.mem_map, Function.comp]; exact ⟨kv', hkv', rfl⟩)
  simp only [List.map_map, List.mem_map, Function.comp] at hback
  obtain ⟨kv, hkv, e⟩ := hback
  obtain ⟨w, hw, hp⟩ := h.2 kv hkv
  have : dictGet kv.1 d' = some kv'.2 := dictGet_of_mem' hd' (k' := kv'.1) hkv' e.symm
  rw [this] at hw
  injection hw with hw
  refine ⟨kv.2, dictGet_of_mem' hd (k' := kv.1) hkv e, hs kv hkv kv' hkv' (hw ▸ hp)⟩

theorem pyEq_num {a : Val} (h : a.numKey ≠ none) (b : Val) :
    pyEq a b = true ↔ a.numKey = b.numKey := by
  cases a <;> simp [Val.numKey] at h <;> simp [pyEq]

theorem num_symm {a b : Val} (h : a.numKey = b.numKey ∧ a.numKey ≠ none) : pyEq b a = true :=
  (pyEq_num (h.1 ▸ h.2) a).mpr h.1.symm

mutual
theorem pyEq_symm (a b : Val) (ha : Keyed a) (hb : Keyed b) (h : pyEq a b = true) :
    pyEq b a = true := by
  have hl := pyEq_asDict h
  cases a with
  | list l =>
    simp only [pyEq] at h
    split at h
    · simp only [Keyed] at ha hb; simp only [pyEq]; exact pyEqL_symm l _ ha hb h
    · cases h
  | tuple l =>
    simp only [pyEq] at h
    split at h
    · simp only [Keyed] at ha hb; simp only [pyEq]; exact pyEqL_symm l _ ha hb h
    · cases h
  | tag n w =>
    simp only [pyEq] at h
    split at h
    · simp only [Keyed] at ha hb
      simp only [pyEq, Bool.and_eq_true, beq_iff_eq] at h ⊢
      exact ⟨h.1.symm, pyEq_symm w _ ha hb h.2⟩
    · cases h
  | dict d =>
    cases hd' : b.asDict with
    | none => rw [hd'] at hl; cases hl
    | some d' =>
      rw [pyEq_dictLike rfl, hd'] at h
      rw [pyEq_dictLike hd']
      have hk' := keyed_asDict hb hd'
      simp only [Keyed] at ha
      exact dictEq_symm ha.1 hk'.1 (fun kv hkv kv' hkv' =>
        pyEqD_symm d ha.2 kv hkv kv'.2 (keyedD_mem.mp hk'.2 _ hkv').2) h
  | fdict c fs =>
    cases hd' : b.asDict with
    | none => rw [hd'] at hl; cases hl
    | some d' =>
      rw [pyEq_dictLike rfl, hd'] at h
      rw [pyEq_dictLike hd']
      have hk' := keyed_asDict hb hd'
      have hk := keyed_asDict (d := fs.map fun kv => (.str kv.1, kv.2)) ha rfl
      refine dictEq_symm hk.1 hk'.1 (fun kv hkv kv' hkv' => ?_) h
      obtain ⟨q, hq, e⟩ := List.mem_map.mp hkv
      subst e
      simp only [Keyed] at ha
      exact pyEqF_symm fs ha.2 q hq kv'.2 (keyedD_mem.mp hk'.2 _ hkv').2
  | bool x => simp only [pyEq, decide_eq_true_eq] at h; exact num_symm ⟨h, by simp [Val.numKey]⟩
  | int x => simp only [pyEq, decide_eq_true_eq] at h; exact num_symm ⟨h, by simp [Val.numKey]⟩
  | float x => simp only [pyEq, decide_eq_true_eq] at h; exact num_symm ⟨h, float_num _⟩
  | str s => cases b <;> simp_all [pyEq]
  | enum e s =>
    cases b <;> simp_all [pyEq]
    rcases h.1 with h | h
    · exact Or.inl h.symm
    · exact Or.inr h.symm
  | _ => simp only [pyEq, beq_iff_eq] at h; subst h; simp [pyEq]
theorem pyEqL_symm (l m : List Val) (hl : KeyedL l) (hm : KeyedL m) (h : pyEqL l m = true) :
    pyEqL m l = true := by
  cases l with
  | nil => cases m <;> simp_all [pyEqL]
  | cons x xs =>
    cases m with
    | nil => simp [pyEqL] at h
    | cons y ys =>
      simp only [KeyedL] at hl hm
      simp only [pyEqL, Bool.and_eq_true] at h ⊢
      exact ⟨pyEq_symm x y hl.1 hm.1 h.1, pyEqL_symm xs ys hl.2 hm.2 h.2⟩
theorem pyEqD_symm (d : List (Val × Val)) (h : KeyedD d) :
    ∀ kv ∈ d, ∀ b, Keyed b → pyEq kv.2 b = true → pyEq b kv.2 = true := by
  cases d with
  | nil => simp
  | cons x xs =>
    obtain ⟨k, v⟩ := x
    simp only [KeyedD] at h
    intro kv hkv b hb he
    rcases List.mem_cons.mp hkv with e | e
    · subst e; exact pyEq_symm v b h.2.1 hb he
    · exact pyEqD_symm xs h.2.2 kv e b hb he
theorem pyEqF_symm (d : Attrs) (h : KeyedF d) :
    ∀ kv ∈ d, ∀ b, Keyed b → pyEq kv.2 b = true → pyEq b kv.2 = true := by
  cases d with
  | nil => simp
  | cons x xs =>
    obtain ⟨k, v⟩ := x
    simp only [KeyedF] at h
    intro kv hkv b hb he
    rcases List.mem_cons.mp hkv with e | e
    · subst e; exact pyEq_symm v b h.1 hb he
    · exact pyEqF_symm xs h.2 kv e b hb he
end

theorem num_trans {a b c : Val} (ha : a.numKey ≠ none) (h : pyEq a b = true) (h' : pyEq b c = true) :
    pyEq a c = true := by
  rw [pyEq_num ha] at h ⊢
  rw [pyEq_num (h ▸ ha)] at h'
  exact h.trans h'

private theorem dictEq_trans {d d' d'' : List (Val × Val)}
    (hs : ∀ kv ∈ d, ∀ b c, pyEq kv.2 b = true → pyEq b c = true → pyEq kv.2 c = true)
    (h : dictEq d d' = true) (h' : dictEq d' d'' = true) : dictEq d d'' = true := by
  simp only [dictEq, Bool.and_eq_true, beq_iff_eq, pyEqD_iff] at h h' ⊢
  refine ⟨h.1.trans h'.1, fun kv hkv => ?_⟩
  obtain ⟨w, hw, hp⟩ := h.2 kv hkv
  obtain ⟨k', hk', e⟩ := dictGet_mem' hw
  obtain ⟨u, hu, hq⟩ := h'.2 (k', w) hk'
  exact ⟨u, (dictGet_norm e.symm d'').trans hu, hs kv hkv w u hp hq⟩

mutual
theorem pyEq_trans (a b c : Val) (h : pyEq a b = true) (h' : pyEq b c = true) :
    pyEq a c = true := by
  have hl := pyEq_asDict h
  have hl' := pyEq_asDict h'
  cases a with
  | list l =>
    simp only [pyEq] at h
    split at h
    · simp only [pyEq] at h' ⊢
      split at h'
      · exact pyEqL_trans l _ _ h h'
      · cases h'
    · cases h
  | tuple l =>
    simp only [pyEq] at h
    split at h
    · simp only [pyEq] at h' ⊢
      split at h'
      · exact pyEqL_trans l _ _ h h'
      · cases h'
    · cases h
  | tag n w =>
    simp only [pyEq] at h
    split at h
    · simp only [pyEq] at h' ⊢
      split at h'
      · simp only [Bool.and_eq_true, beq_iff_eq] at h h' ⊢
        exact ⟨h.1.trans h'.1, pyEq_trans w _ _ h.2 h'.2⟩
      · cases h'
    · cases h
  | dict d =>
    cases hd' : b.asDict with
    | none => rw [hd'] at hl; cases hl
    | some d' =>
      cases hd'' : c.asDict with
      | none => rw [hd', hd''] at hl'; cases hl'
      | some d'' =>
        rw [pyEq_dictLike rfl, hd'] at h
        rw [pyEq_dictLike hd', hd''] at h'
        rw [pyEq_dictLike rfl, hd'']
        exact dictEq_trans (pyEqD_trans d) h h'
  | fdict i fs =>
    cases hd' : b.asDict with
    | none => rw [hd'] at hl; cases hl
    | some d' =>
      cases hd'' : c.asDict with
      | none => rw [hd', hd''] at hl'; cases hl'
      | some d'' =>
        rw [pyEq_dictLike rfl, hd'] at h
        rw [pyEq_dictLike hd', hd''] at h'
        rw [pyEq_dictLike rfl, hd'']
        refine dictEq_trans (fun kv hkv => ?_) h h'
        obtain ⟨q, hq, e⟩ := List.mem_map.mp hkv
        subst e
        exact pyEqF_trans fs q hq
  | bool x => exact num_trans (by simp [Val.numKey]) h h'
  | int x => exact num_trans (by simp [Val.numKey]) h h'
  | float x => exact num_trans (float_num _) h h'
  | str s =>
    cases b <;> simp [pyEq] at h <;> cases c <;> simp_all [pyEq]
    rcases h'.1 with h' | h'
    · rw [← h']; exact h.1
    · exact h'
  | enum e s =>
    cases b <;> simp [pyEq] at h <;> cases c <;> simp_all [pyEq]
    · rcases h.1 with h | h
      · rw [h]; exact h'.1
      · exact h
    · rcases h.1 with h | h
      · rw [h]; exact h'.1
      · rcases h'.1 with h' | h'
        · rw [← h']; exact Or.inr h
        · exact Or.inr ⟨h.1, h'.2⟩
  | _ => simp only [pyEq, beq_iff_eq] at h; subst h; exact h'
theorem pyEqL_trans (l m n : List Val) (h : pyEqL l m = true) (h' : pyEqL m n = true) :
    pyEqL l n = true := by
  cases l with
  | nil => cases m <;> simp_all [pyEqL]
  | cons x xs =>
    cases m with
    | nil => simp [pyEqL] at h
    | cons y ys =>
      cases n with
      | nil => simp [pyEqL] at h'
      | cons z zs =>
        simp only [pyEqL, Bool.and_eq_true] at h h' ⊢
        exact ⟨pyEq_trans x y z h.1 h'.1, pyEqL_trans xs ys zs h.2 h'.2⟩
theorem pyEqD_trans (d : List (Val × Val)) :
    ∀ kv ∈ d, ∀ b c, pyEq kv.2 b = true → pyEq b c = true → pyEq kv.2 c = true := by
  cases d with
  | nil => simp
  | cons x xs =>
    obtain ⟨k, v⟩ := x
    intro kv hkv b c he he'
    rcases List.mem_cons.mp hkv with e | e
    · subst e; exact pyEq_trans v b c he he'
    · exact pyEqD_trans xs kv e b c he he'
theorem pyEqF_trans (d : Attrs) :
    ∀ kv ∈ d, ∀ b c, pyEq kv.2 b = true → pyEq b c = true → pyEq kv.2 c = true := by
  cases d with
  | nil => simp
  | cons x xs =>
    obtain ⟨k, v⟩ := x
    intro kv hkv b c he he'
    rcases List.mem_cons.mp hkv with e | e
    · subst e; exact pyEq_trans v b c he he'
    · exact pyEqF_trans xs kv e b c he he'
end

/-! ### Literal data -/

mutual
theorem pyEq_literal (a b : Val) (ha : literal a = true) (hb : literal b = true)
    (h : pyEq a b = true) : a = b := by
  cases a with
  | list l =>
    cases b <;> simp [pyEq] at h
    simp only [literal] at ha hb
    rw [pyEqL_literal l _ ha hb h]
  | tuple l =>
    cases b <;> simp [pyEq] at h
    simp only [literal] at ha hb
    rw [pyEqL_literal l _ ha hb h]
  | _ => cases b <;> simp_all [literal, pyEq, Val.numKey]
theorem pyEqL_literal (l m : List Val) (hl : literalL l = true) (hm : literalL m = true)
    (h : pyEqL l m = true) : l = m := by
  cases l with
  | nil => cases m <;> simp_all [pyEqL]
  | cons x xs =>
    cases m with
    | nil => simp [pyEqL] at h
    | cons y ys =>
      simp only [literalL, Bool.and_eq_true] at hl hm
      simp only [pyEqL, Bool.and_eq_true] at h
      rw [pyEq_literal x y hl.1 hm.1 h.1, pyEqL_literal xs ys hl.2 hm.2 h.2]
end

end Verif
