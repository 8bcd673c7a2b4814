import Verif.Props.Factories
import Verif.Props.Address
/-!
# C88: the definition of a made task
-/

set_option linter.unusedSimpArgs false

namespace Verif.Props

open Verif Spec

theorem lookup_sub (n k : PStr) : ∀ kw : Attrs,
    lookupName k (subArgs n kw) = lookupName (n ++ p!"__" ++ k) kw
  | [] => rfl
  | (a, v) :: rest => by
    have ih := lookup_sub n k rest
    unfold subArgs at ih ⊢
    rw [List.filterMap_cons, lookupName_cons]
    by_cases hp : (n ++ p!"__").isPrefixOf a = true
    · simp only [hp, if_true]
      obtain ⟨t, rfl⟩ := List.isPrefixOf_iff_prefix.mp hp
      have hd : (n ++ p!"__" ++ t).drop (n.length + 2) = t := by
        rw [List.drop_left' (by simp)]
      rw [hd, lookupName_cons, ih]
      by_cases e : t = k
      · subst e; simp
      · rw [if_neg e, if_neg (fun h => e (List.append_cancel_left h))]
    · simp only [Bool.not_eq_true] at hp
      simp only [hp, Bool.false_eq_true, if_false]
      rw [if_neg, ih]
      rintro rfl
      rw [← Bool.not_eq_true, List.isPrefixOf_iff_prefix] at hp
      exact hp ⟨k, rfl⟩

theorem sub_nodup {n : PStr} : ∀ {kw : Attrs}, (kw.map Prod.fst).Nodup →
    ((subArgs n kw).map Prod.fst).Nodup
  | [], _ => by simp [subArgs]
  | (a, v) :: rest, h => by
    simp only [List.map_cons, List.nodup_cons] at h
    have ih := sub_nodup (n := n) h.2
    unfold subArgs at ih ⊢
    rw [List.filterMap_cons]
    by_cases hp : (n ++ p!"__").isPrefixOf a = true
    · simp only [hp, if_true, List.map_cons, List.nodup_cons]
      refine ⟨fun hm => h.1 ?_, ih⟩
      obtain ⟨t, rfl⟩ := List.isPrefixOf_iff_prefix.mp hp
      rw [List.drop_left' (by simp)] at hm
      have h1 : lookupName t (subArgs n rest) ≠ none := fun e =>
        (lookupName_none _ _).mp e hm
      rw [lookup_sub] at h1
      by_cases hin : n ++ p!"__" ++ t ∈ rest.map Prod.fst
      · exact hin
      · exact absurd ((lookupName_none _ _).mpr hin) h1
    · simp only [hp]
      simpa using ih

theorem given_nodup {r : List PStr} {L kw : Attrs} (hL : ∀ k ∈ L.map Prod.fst, k ∈ r)
    (hn : (L.map Prod.fst).Nodup) (hk : (kw.map Prod.fst).Nodup) :
    ((L ++ extraArgs r kw).map Prod.fst).Nodup := by
  rw [List.map_append, List.nodup_append]
  refine ⟨hn, List.Nodup.sublist (List.Sublist.map _ List.filter_sublist) hk, ?_⟩
  rintro a ha b hb rfl
  obtain ⟨kv, hm, rfl⟩ := List.mem_map.mp hb
  have := (List.mem_filter.mp hm).2
  have h2 := List.all_eq_true.mp this _ (hL _ ha)
  simp at h2

/-- What a made definition holds. -/
private theorem def_made {E : Env} {d : DefDraw} {kw : Attrs} {v : Val} (hk : (kw.map Prod.fst).Nodup)
    (h : defFactory E d kw = .ok v) : ∃ items, v = .fdict .computeTaskDef items ∧
      getAttr items p!"deadline" = (lookupName p!"deadline" kw).getD (.int (d.now + 86400)) ∧
      (∀ k x, lookupName k kw = some x → (defRoots.all fun r => !(r ++ p!"__").isPrefixOf k) = true →
        getAttr items k = x) ∧
      (lookupName p!"extra_data" kw = none → getAttr items p!"extra_data" = oneFrame) ∧
      (lookupName p!"resources" kw = none → getAttr items p!"resources" = .list [.str d.resource]) := by
  unfold defFactory mkFDict at h
  simp only [bind, Except.bind] at h
  split at h
  · cases h
  rename_i a ha
  split at h
  · cases h
  rename_i b hb
  split at h
  · cases h
  rename_i t ht
  split at h
  · cases h
  rename_i x hx
  split at h
  · cases h
  rename_i r hr
  simp only [fdArg, Val.asDict] at h
  have hlist : ∃ L : Attrs, L = [(p!"task_id", a), (p!"subtask_id", b), (p!"deadline", t),
    (p!"extra_data", x), (p!"resources", r)] := ⟨_, rfl⟩
  obtain ⟨L, hL⟩ := hlist
  rw [← hL] at h
  have hnd := given_nodup (L := L) (r := defRoots) (by rw [hL]; simp [defRoots]) (by rw [hL]; simp) hk
  obtain ⟨items, e, _⟩ := fdBuild_ok h
  subst e
  have hlook := fun k => fdBuild_lookup (k := k) (by
    rw [List.map_map]
    have : (Prod.fst ∘ fun kv : PStr × Val => (Val.str kv.1, kv.2)) = Val.str ∘ Prod.fst := rfl
    rw [this, ← List.map_map]
    refine List.Pairwise.map _ (fun p q hpq e => hpq ?_) hnd
    injection e) h
  have hg : ∀ k w, lookupName k (L ++ extraArgs defRoots kw) = some w → getAttr items k = w := by
    intro k w hw
    unfold getAttr
    rw [hlook, dictGet_textKeys, hw]
    rfl
  have hgiven : ∀ {n : PStr} {r : Res Val} {y : Val}, given kw n r = .ok y → ∀ z, lookupName n kw = some z →
      y = z := by
    intro n r y h1 z hz
    unfold given at h1
    rw [hz] at h1
    injection h1 with h1
    exact h1.symm
  refine ⟨items, rfl, ?_, ?_, fun hn => ?_, fun hn => ?_⟩
  rotate_left 2
  · rw [hg p!"extra_data" x (by rw [lookupName_append, hL]; rfl)]
    unfold given at hx
    rw [hn] at hx
    injection hx with hx
    rw [← hx]
    rfl
  · rw [hg p!"resources" r (by rw [lookupName_append, hL]; rfl)]
    unfold given at hr
    rw [hn] at hr
    injection hr with hr
    exact hr.symm
  · rw [hg p!"deadline" t (by rw [lookupName_append, hL]; rfl)]
    unfold given at ht
    split at ht
    · rename_i w hw
      injection ht with ht
      rw [hw, ← ht]; rfl
    · rename_i hw
      injection ht with ht
      rw [hw, ← ht]; rfl
  · intro k y hy hpre
    by_cases hroot : k ∈ defRoots
    · have hcase : k = p!"task_id" ∨ k = p!"subtask_id" ∨ k = p!"deadline" ∨ k = p!"extra_data" ∨
          k = p!"resources" := by simpa [defRoots] using hroot
      rcases hcase with rfl | rfl | rfl | rfl | rfl
      · rw [hg _ a (by rw [lookupName_append, hL]; rfl)]; exact hgiven ha _ hy
      · rw [hg _ b (by rw [lookupName_append, hL]; rfl)]; exact hgiven hb _ hy
      · rw [hg _ t (by rw [lookupName_append, hL]; rfl)]; exact hgiven ht _ hy
      · rw [hg _ x (by rw [lookupName_append, hL]; rfl)]; exact hgiven hx _ hy
      · rw [hg _ r (by rw [lookupName_append, hL]; rfl)]; exact hgiven hr _ hy
    · refine hg k y ?_
      rw [lookupName_append]
      have : lookupName k L = none := by
        rw [lookupName_none]
        intro hm
        apply hroot
        rw [hL] at hm
        simpa [defRoots] using hm
      rw [this]
      have hmem := mem_of_lookupName hy
      refine lookupName_of_mem ?_ (List.mem_filter.mpr ⟨hmem, ?_⟩)
      · exact List.Nodup.sublist (List.Sublist.map _ List.filter_sublist) hk
      · rw [List.all_eq_true] at hpre ⊢
        intro r hr
        have h1 := hpre r hr
        have h2 : ¬ k = r := fun e => hroot (e ▸ hr)
        simp only [Bool.and_eq_true, bne_iff_ne, ne_eq]
        exact ⟨h2, h1⟩

private theorem setDef_keeps {E : Env} {m m' : Msg} {items : Attrs} {key : PStr} {v : Val}
    (hd : getAttr m.attrs p!"compute_task_def" = .fdict .computeTaskDef items)
    (h : setDef E m key v = .ok m') :
    ∃ items', getAttr m'.attrs p!"compute_task_def" = .fdict .computeTaskDef items' ∧
      ∀ k, k ≠ key → getAttr items' k = getAttr items k := by
  unfold setDef at h
  rw [hd] at h
  simp only at h
  split at h
  · cases h
  rename_i items' hi
  obtain ⟨k, v', e1, e2, _, _, rfl⟩ := fdSetV_ok hi
  cases e1
  cases e2
  injection h with h
  subst h
  refine ⟨_, by rw [getAttr_setName, if_pos rfl], fun k hk => ?_⟩
  rw [getAttr_setName, if_neg hk]

/-- C88: the definition of a made task has the deadline asked for, by default one day after the
draw, and every other item asked for but the ids, which are set afterwards.  By default it asks for one frame
and has the one resource drawn. -/
theorem made_definition (E : Env) (G : Getter) (keccak : Bytes → Bytes) (d : TaskDraw) (kw : Attrs)
    (m : Msg) (hk : (kw.map Prod.fst).Nodup) (hdef : lookupName p!"compute_task_def" kw = none)
    (h : taskFactory E G keccak d kw = .ok m) :
    ∃ items, getAttr m.attrs p!"compute_task_def" = .fdict .computeTaskDef items ∧
      getAttr items p!"deadline" =
        (lookupName p!"compute_task_def__deadline" kw).getD (.int (d.definition.now + 86400)) ∧
      (∀ k ∈ [p!"extra_data", p!"performance", p!"docker_images", p!"resources"], ∀ x,
        lookupName (p!"compute_task_def__" ++ k) kw = some x → getAttr items k = x) ∧
      (lookupName p!"compute_task_def__extra_data" kw = none → getAttr items p!"extra_data" = oneFrame) ∧
      (lookupName p!"compute_task_def__resources" kw = none →
        getAttr items p!"resources" = .list [.str d.definition.resource]) := by
  obtain ⟨keys, _, h⟩ := taskFactory_made h
  unfold taskMade at h
  simp only [bind, Except.bind] at h
  split at h
  · cases h
  rename_i x1 hx1
  split at h
  · cases h
  rename_i x2 hx2
  split at h
  · cases h
  rename_i x3 hx3
  split at h
  · cases h
  rename_i x4 hx4
  split at h
  · cases h
  rename_i x5 hx5
  split at h
  · cases h
  rename_i x6 hx6
  split at h
  · cases h
  rename_i x7 hx7
  split at h
  · cases h
  rename_i x8 hx8
  split at h
  · cases h
  rename_i x9 hx9
  split at h
  · cases h
  rename_i m0 hm0
  split at h
  · cases h
  rename_i m1 hm1
  split at h
  · cases h
  rename_i m2 hm2
  split at h
  · cases h
  rename_i m3 hm3
  have hx5' : defFactory E d.definition (subArgs p!"compute_task_def" kw) = .ok x5 := by
    unfold given at hx5
    rw [hdef] at hx5
    exact hx5
  obtain ⟨items, rfl, i1, i2, i3, i4⟩ := def_made (sub_nodup hk) hx5'
  -- the constructor
  have c0 : getAttr m0.attrs p!"compute_task_def" = .fdict .computeTaskDef items := by
    obtain ⟨loaded, hl, hf⟩ := new_fields hm0 (given_nodup (by simp [taskRoots]) (by simp) hk)
    rw [hf _ (by decide)]
    have : getAttr loaded p!"compute_task_def" = .none := by
      have hd : dictOf .none = [] := rfl
      rw [hd, loadSlots_empty] at hl
      cases hl
      rfl
    simp only [this, or_true, if_true]
    rfl
  -- the hooks
  have c1 : ∃ items', getAttr m1.attrs p!"compute_task_def" = .fdict .computeTaskDef items' ∧
      ∀ k, k ≠ p!"task_id" → getAttr items' k = getAttr items k := by
    unfold taskIdHook at hm1
    simp only [bind, Except.bind] at hm1
    rw [if_neg (by rw [c0]; simp)] at hm1
    generalize (match offeredTask m0 with
      | some (key, id) => if pyEq (getAttr m0.attrs p!"requestor_id") key then id else Val.none
      | none => .none) = offered at hm1
    repeat' split at hm1
    all_goals first | exact setDef_keeps c0 hm1 | cases hm1
  obtain ⟨items1, c1, k1⟩ := c1
  have c2 : ∃ items', getAttr m2.attrs p!"compute_task_def" = .fdict .computeTaskDef items' ∧
      ∀ k, k ≠ p!"subtask_id" → getAttr items' k = getAttr items1 k := by
    unfold subtaskIdHook at hm2
    simp only [bind, Except.bind] at hm2
    rw [if_neg (by rw [c1]; simp)] at hm2
    repeat' split at hm2
    all_goals first | exact setDef_keeps c1 hm2 | cases hm2
  obtain ⟨items2, c2, k2⟩ := c2
  have gen : ∀ {m m' : Msg} {priv : Bytes}, generateEthsig E m priv = .ok m' →
      getAttr m'.attrs p!"compute_task_def" = getAttr m.attrs p!"compute_task_def" := by
    intro m m' priv hg
    unfold generateEthsig at hg
    repeat' split at hg
    all_goals first | cases hg | skip
    simp only
    rw [getAttr_setName, if_neg (by decide)]
  have c3 : getAttr m3.attrs p!"compute_task_def" = getAttr m2.attrs p!"compute_task_def" := by
    unfold ethsigHook at hm3
    simp only [bind, Except.bind] at hm3
    repeat' split at hm3
    all_goals first
    | exact gen hm3
    | rw [gen hm3]
      simp only
      rw [getAttr_setName, if_neg (by decide)]
    | cases hm3 <;> rfl
    | cases hm3
      simp only
      rw [getAttr_setName, if_neg (by decide)]
  have c4 : getAttr m.attrs p!"compute_task_def" = getAttr m3.attrs p!"compute_task_def" := by
    unfold signHook at h
    simp only [bind, Except.bind] at h
    split at h
    · cases h
    split at h
    · cases h; rfl
    · unfold Msg.signMessage at h
      split at h
      · cases h
      split at h <;> cases h
      rfl
  refine ⟨items2, by rw [c4, c3, c2], ?_, ?_, fun hn => ?_, fun hn => ?_⟩
  rotate_left 2
  · rw [k2 _ (by decide), k1 _ (by decide)]
    exact i3 (by rw [lookup_sub]; exact hn)
  · rw [k2 _ (by decide), k1 _ (by decide)]
    exact i4 (by rw [lookup_sub]; exact hn)
  · rw [k2 _ (by decide), k1 _ (by decide), i1, lookup_sub]
    rfl
  · intro k hk x hx
    have hne : ∀ k ∈ [p!"extra_data", p!"performance", p!"docker_images", p!"resources"],
        k ≠ p!"task_id" ∧ k ≠ p!"subtask_id" ∧
        (defRoots.all fun r => !(r ++ p!"__").isPrefixOf k) = true := by decide
    obtain ⟨n1, n2, n3⟩ := hne k hk
    rw [k2 _ n2, k1 _ n1]
    exact i2 k x (by rw [lookup_sub]; exact hx) n3

theorem setName_distinct {n : PStr} {v : Val} : ∀ {kw : Attrs}, (kw.map Prod.fst).Nodup →
    ((setName n v kw).map Prod.fst).Nodup
  | [], _ => by simp [setName]
  | (a, w) :: rest, h => by
    simp only [List.map_cons, List.nodup_cons] at h
    unfold setName
    split
    · simp only [List.map_cons, List.nodup_cons]; exact h
    · rename_i hne
      simp only [List.map_cons, List.nodup_cons]
      refine ⟨fun hm => ?_, setName_distinct h.2⟩
      have h1 : lookupName a (setName n v rest) ≠ none := fun e => (lookupName_none _ _).mp e hm
      rw [lookupName_setName, if_neg hne] at h1
      exact h1 ((lookupName_none _ _).mpr h.1)

/-- C88: `past_deadline` makes a task whose deadline passed one day ago, whatever deadline is asked
for, unless a whole definition is given. -/
theorem past_deadline_partial (E : Env) (G : Getter) (keccak : Bytes → Bytes) (d : TaskDraw) (now : Int)
    (kw : Attrs) (m : Msg) (hk : (kw.map Prod.fst).Nodup)
    (hdef : lookupName p!"compute_task_def" kw = none)
    (h : pastDeadlineTask E G keccak d now kw = .ok m) :
    ∃ items, getAttr m.attrs p!"compute_task_def" = .fdict .computeTaskDef items ∧
      getAttr items p!"deadline" = .int (now - 86400) := by
  unfold pastDeadlineTask at h
  obtain ⟨items, h1, h2, _⟩ := made_definition E G keccak d _ m (setName_distinct hk)
    (by rw [lookupName_setName, if_neg (by decide)]; exact hdef) h
  refine ⟨items, h1, ?_⟩
  rw [h2, lookupName_setName, if_pos rfl]
  rfl

private def sk (x : UInt8) : Bytes := List.replicate 32 x
private def vk (x : UInt8) : Bytes := List.replicate 64 x

private def draws : TaskDraw where
  key := vk 8
  eth := (sk 6, vk 6)
  offer := { key := vk 10, now := 1500000000, header :=
    { key := vk 9, mask := [1, 2], now := 1500000000, uuid := 0x11111111111141118111111111111111,
      nodeName := p!"Ada", timeout := 60, version := (1, 2, 3), memory := 1, maxPrice := 5, budget := 7, count := 3 } }
  definition := { taskId := p!"t", subtaskId := p!"s", resource := p!"r", now := 1500000000 }
  uuid1 := 0x22222222222242228222222222222222
  uuid2 := 0x33333333333343338333333333333333
  package := p!"abc"
  size := 5
  price := 6
  now := 1500000000

private def toyKeccak (b : Bytes) : Bytes := (b ++ List.replicate 32 0).take 32

private def late (kw : Attrs) : Res Msg :=
  pastDeadlineTask toyEnv (fun _ _ _ => .ok .none) toyKeccak draws 1500000000 kw

/-- The deadline asked for is replaced, the performance asked for is not. -/
example : (match late [(p!"compute_task_def__deadline", .int 1700000000),
      (p!"compute_task_def__performance", .int 12)] with
    | .ok m => match getAttr m.attrs p!"compute_task_def" with
      | .fdict _ items => lookupName p!"deadline" items == some (.int 1499913600) &&
          lookupName p!"performance" items == some (.int 12)
      | _ => false
    | .error _ => false) = true := by decide +kernel

private def ownDefinition : Val :=
  .fdict .computeTaskDef [(p!"task_id", .str []), (p!"subtask_id", .str []),
    (p!"deadline", .int 1700000000)]

/-- C88 is false of a call that gives the definition: `past_deadline` then makes a task whose
deadline lies ahead. -/
theorem past_deadline_refuted : ¬ ∀ (E : Env) (G : Getter) (keccak : Bytes → Bytes) (d : TaskDraw)
    (now : Int) (kw : Attrs) (m : Msg) (items : Attrs) (t : Int), (kw.map Prod.fst).Nodup →
    pastDeadlineTask E G keccak d now kw = .ok m →
    getAttr m.attrs p!"compute_task_def" = .fdict .computeTaskDef items →
    getAttr items p!"deadline" = .int t → t < now := by
  intro hall
  have h0 : (match late [(p!"compute_task_def", ownDefinition)] with
    | .ok m => match getAttr m.attrs p!"compute_task_def" with
      | .fdict .computeTaskDef items => getAttr items p!"deadline" == .int 1700000000
      | _ => false
    | .error _ => false) = true := by decide +kernel
  split at h0
  · rename_i m hm
    split at h0
    · rename_i items hi
      have := hall _ _ _ _ _ _ m items 1700000000 (by simp) hm hi (by simpa using h0)
      omega
    · cases h0
  · cases h0

private theorem setDef_sets {E : Env} {m m' : Msg} {items : Attrs} {key : PStr} {v : Val}
    (hd : getAttr m.attrs p!"compute_task_def" = .fdict .computeTaskDef items)
    (h : setDef E m key v = .ok m') :
    ∃ items', getAttr m'.attrs p!"compute_task_def" = .fdict .computeTaskDef items' ∧
      getAttr items' key = v ∧
      (∀ k, k ≠ key → getAttr items' k = getAttr items k) ∧
      ∀ k, k ≠ p!"compute_task_def" → getAttr m'.attrs k = getAttr m.attrs k := by
  unfold setDef at h
  rw [hd] at h
  simp only at h
  split at h
  · cases h
  rename_i items' hi
  obtain ⟨k, v', e1, e2, _, _, rfl⟩ := fdSetV_ok hi
  cases e1
  cases e2
  injection h with h
  subst h
  refine ⟨_, by rw [getAttr_setName, if_pos rfl], by rw [getAttr_setName, if_pos rfl], fun k hk => ?_,
    fun k hk => ?_⟩
  · rw [getAttr_setName, if_neg hk]
  · rw [getAttr_setName, if_neg hk]

private theorem fake_seeded {u : Nat} (hu : u < 2 ^ 128) {nodeId v : Val}
    (h : (fakeGolemUuid u nodeId).map Val.str = .ok v) :
    ∃ id seed, v = .str id ∧ decodeHex nodeId = .ok seed ∧ SeededBy id seed := by
  cases hf : fakeGolemUuid u nodeId with
  | error e => rw [hf] at h; cases h
  | ok id =>
    rw [hf] at h
    injection h with h
    cases hs : decodeHex nodeId with
    | error e => unfold fakeGolemUuid at hf; rw [hs] at hf; cases hf
    | ok seed =>
      refine ⟨id, seed, h.symm, rfl, (id_check_decision id seed).1.mp ?_⟩
      obtain ⟨id', h1, _, h2⟩ := fake_id_checks u hu nodeId seed seed hs
      rw [hf] at h1
      injection h1 with h1
      subst h1
      rw [h2]
      simp

private theorem taskIdHook_ok {E : Env} {u : Nat} {kw : Attrs} {m m' : Msg} {items : Attrs}
    (hd : getAttr m.attrs p!"compute_task_def" = .fdict .computeTaskDef items)
    (h : taskIdHook E u kw m = .ok m') : ∃ id, setDef E m p!"task_id" id = .ok m' ∧
      ((getAttr kw p!"task_id").truthy = true → id = getAttr kw p!"task_id") ∧
      ((getAttr kw p!"task_id").truthy = false → ∀ offered, offered = (match offeredTask m with
          | some (key, id) => if pyEq (getAttr m.attrs p!"requestor_id") key then id else Val.none
          | none => .none) →
        (offered.truthy = true → id = offered) ∧
        (offered.truthy = false →
          (fakeGolemUuid u (getAttr m.attrs p!"requestor_id")).map .str = .ok id)) := by
  unfold taskIdHook at h
  simp only [bind, Except.bind] at h
  rw [if_neg (by rw [hd]; simp)] at h
  obtain ⟨offered, h, hoff⟩ : ∃ offered, (if (getAttr kw p!"task_id").truthy = true then
        setDef E m p!"task_id" (getAttr kw p!"task_id") = .ok m'
      else if offered.truthy = true then setDef E m p!"task_id" offered = .ok m'
      else (match (fakeGolemUuid u (getAttr m.attrs p!"requestor_id")).map Val.str with
        | Except.error err => Except.error err
        | .ok v => setDef E m p!"task_id" v) = .ok m') ∧ offered = (match offeredTask m with
          | some (key, id) => if pyEq (getAttr m.attrs p!"requestor_id") key then id else Val.none
          | none => .none) := by
    refine ⟨_, ?_, rfl⟩
    have key : ∀ o : Val, (if (getAttr kw p!"task_id").truthy = true then
        setDef E m p!"task_id" (getAttr kw p!"task_id")
      else if o.truthy = true then setDef E m p!"task_id" o
      else (match (fakeGolemUuid u (getAttr m.attrs p!"requestor_id")).map Val.str with
        | Except.error err => Except.error err
        | .ok v => setDef E m p!"task_id" v)) = .ok m' →
      (if (getAttr kw p!"task_id").truthy = true then
        setDef E m p!"task_id" (getAttr kw p!"task_id") = .ok m'
      else if o.truthy = true then setDef E m p!"task_id" o = .ok m'
      else (match (fakeGolemUuid u (getAttr m.attrs p!"requestor_id")).map Val.str with
        | Except.error err => Except.error err
        | .ok v => setDef E m p!"task_id" v) = .ok m') := by
      intro o h
      split at h <;> rename_i h1
      · rw [if_pos h1]; exact h
      · rw [if_neg h1]
        split at h <;> rename_i h2
        · rw [if_pos h2]; exact h
        · rw [if_neg h2]; exact h
    apply key
    cases ho : offeredTask m with
    | none =>
      rw [ho] at h
      simp only at h ⊢
      by_cases h1 : (getAttr kw p!"task_id").truthy = true
      · rw [if_pos h1] at h ⊢
        rw [if_pos h1] at h
        exact h
      · rw [if_neg h1] at h ⊢
        cases hf : (fakeGolemUuid u (getAttr m.attrs p!"requestor_id")).map Val.str <;>
          rw [hf] at h <;> exact h
    | some p =>
      rw [ho] at h
      simp only at h ⊢
      generalize (if pyEq (getAttr m.attrs p!"requestor_id") p.1 then p.2 else Val.none) = o at h ⊢
      by_cases h1 : (getAttr kw p!"task_id").truthy = true
      · rw [if_pos h1] at h ⊢
        rw [if_pos h1] at h
        exact h
      · rw [if_neg h1] at h ⊢
        cases hf : (fakeGolemUuid u (getAttr m.attrs p!"requestor_id")).map Val.str <;>
          rw [hf] at h <;> exact h
  rw [← hoff]
  cases ht : (getAttr kw p!"task_id").truthy with
  | true =>
    simp only [ht, if_true] at h
    exact ⟨_, h, fun _ => rfl, fun e => by cases e⟩
  | false =>
    simp only [ht, Bool.false_eq_true, if_false] at h
    cases ho : offered.truthy with
    | true =>
      simp only [ho, if_true] at h
      refine ⟨_, h, fun e => by (cases e), fun _ o eo => ⟨fun _ => eo.symm, fun e => ?_⟩⟩
      rw [eo, ho] at e; cases e
    | false =>
      simp only [ho, Bool.false_eq_true, if_false] at h
      cases hf : (fakeGolemUuid u (getAttr m.attrs p!"requestor_id")).map Val.str with
      | error e => rw [hf] at h; cases h
      | ok id =>
        rw [hf] at h
        refine ⟨id, h, fun e => by (cases e), fun _ o eo => ⟨fun e => ?_, fun _ => rfl⟩⟩
        rw [eo, ho] at e; cases e

private theorem subtaskIdHook_ok {E : Env} {u : Nat} {kw : Attrs} {m m' : Msg} {items : Attrs}
    (hd : getAttr m.attrs p!"compute_task_def" = .fdict .computeTaskDef items)
    (h : subtaskIdHook E u kw m = .ok m') : ∃ id, setDef E m p!"subtask_id" id = .ok m' ∧
      ((getAttr kw p!"subtask_id").truthy = true → id = getAttr kw p!"subtask_id") ∧
      ((getAttr kw p!"subtask_id").truthy = false →
        (fakeGolemUuid u (getAttr m.attrs p!"requestor_id")).map .str = .ok id) := by
  unfold subtaskIdHook at h
  simp only [bind, Except.bind] at h
  rw [if_neg (by rw [hd]; simp)] at h
  cases ht : (getAttr kw p!"subtask_id").truthy with
  | true =>
    simp only [ht, if_true] at h
    exact ⟨_, h, fun _ => rfl, fun e => by cases e⟩
  | false =>
    simp only [ht, Bool.false_eq_true, if_false] at h
    cases hf : (fakeGolemUuid u (getAttr m.attrs p!"requestor_id")).map Val.str with
    | error e => rw [hf] at h; cases h
    | ok id =>
      rw [hf] at h
      exact ⟨id, h, fun e => by (cases e), fun _ => rfl⟩

/-- C89: the ids in the definition of a made task are those asked for; the id of the task is otherwise
that of the offered task, if the requestor owns it; ids are otherwise derived from the requestor's. -/
theorem made_ids (E : Env) (G : Getter) (keccak : Bytes → Bytes) (d : TaskDraw) (kw : Attrs)
    (m : Msg) (hk : (kw.map Prod.fst).Nodup)
    (hdef : ∀ v, lookupName p!"compute_task_def" kw = some v → ∃ items, v = .fdict .computeTaskDef items)
    (hu : d.uuid1 < 2 ^ 128) (hu2 : d.uuid2 < 2 ^ 128) (h : taskFactory E G keccak d kw = .ok m) :
    ∃ items, getAttr m.attrs p!"compute_task_def" = .fdict .computeTaskDef items ∧
      (∀ n ∈ [p!"task_id", p!"subtask_id"], ∀ v, lookupName n kw = some v → holds v = true →
        getAttr items n = v) ∧
      ((lookupName p!"task_id" kw).any holds = false →
        (∀ (w : Msg) (fs ns : Attrs), getAttr m.attrs p!"want_to_compute_task" = w.val →
          getAttr w.attrs p!"task_header" = .cont .taskHeader fs →
          getAttr fs p!"task_owner" = .cont .node ns →
          pyEq (getAttr m.attrs p!"requestor_id") (getAttr ns p!"key") = true →
          holds (getAttr fs p!"task_id") = true →
          getAttr items p!"task_id" = getAttr fs p!"task_id") ∧
        ((∀ (w : Msg) (fs ns : Attrs), getAttr m.attrs p!"want_to_compute_task" = w.val →
          getAttr w.attrs p!"task_header" = .cont .taskHeader fs →
          getAttr fs p!"task_owner" = .cont .node ns →
          pyEq (getAttr m.attrs p!"requestor_id") (getAttr ns p!"key") = false ∨
          holds (getAttr fs p!"task_id") = false) →
          ∃ id seed, getAttr items p!"task_id" = .str id ∧
            decodeHex (getAttr m.attrs p!"requestor_id") = .ok seed ∧ SeededBy id seed)) ∧
      ((lookupName p!"subtask_id" kw).any holds = false →
        ∃ id seed, getAttr items p!"subtask_id" = .str id ∧
          decodeHex (getAttr m.attrs p!"requestor_id") = .ok seed ∧ SeededBy id seed) := by
  obtain ⟨keys, _, h⟩ := taskFactory_made h
  unfold taskMade at h
  simp only [bind, Except.bind] at h
  split at h
  · cases h
  rename_i x1 hx1
  split at h
  · cases h
  rename_i x2 hx2
  split at h
  · cases h
  rename_i x3 hx3
  split at h
  · cases h
  rename_i x4 hx4
  split at h
  · cases h
  rename_i x5 hx5
  split at h
  · cases h
  rename_i x6 hx6
  split at h
  · cases h
  rename_i x7 hx7
  split at h
  · cases h
  rename_i x8 hx8
  split at h
  · cases h
  rename_i x9 hx9
  split at h
  · cases h
  rename_i m0 hm0
  split at h
  · cases h
  rename_i m1 hm1
  split at h
  · cases h
  rename_i m2 hm2
  split at h
  · cases h
  rename_i m3 hm3
  obtain ⟨items, rfl⟩ : ∃ items, x5 = .fdict .computeTaskDef items := by
    unfold given at hx5
    split at hx5
    · rename_i v hv
      injection hx5 with hx5
      subst hx5
      exact hdef _ hv
    · obtain ⟨items, e, _⟩ := def_made (sub_nodup hk) hx5
      exact ⟨items, e⟩
  -- the constructor
  have c0 : getAttr m0.attrs p!"compute_task_def" = .fdict .computeTaskDef items := by
    obtain ⟨loaded, hl, hf⟩ := new_fields hm0 (given_nodup (by simp [taskRoots]) (by simp) hk)
    rw [hf _ (by decide)]
    have : getAttr loaded p!"compute_task_def" = .none := by
      have hd : dictOf .none = [] := rfl
      rw [hd, loadSlots_empty] at hl
      cases hl
      rfl
    simp only [this, or_true, if_true]
    rfl
  -- what later hooks leave alone
  have gen : ∀ {m m' : Msg} {priv : Bytes}, generateEthsig E m priv = .ok m' →
      ∀ k ∈ [p!"compute_task_def", p!"requestor_id", p!"want_to_compute_task"],
      getAttr m'.attrs k = getAttr m.attrs k := by
    intro m m' priv hg k hk
    unfold generateEthsig at hg
    repeat' split at hg
    all_goals first | cases hg | skip
    simp only
    rw [getAttr_setName, if_neg]
    rintro rfl
    revert hk
    decide
  have set2 : ∀ {m : Msg} {v : Val}, ∀ k ∈ [p!"compute_task_def", p!"requestor_id", p!"want_to_compute_task"],
      getAttr (setName p!"requestor_ethereum_public_key" v m.attrs) k = getAttr m.attrs k := by
    intro m v k hk
    rw [getAttr_setName, if_neg]
    rintro rfl
    revert hk
    decide
  have c3 : ∀ k ∈ [p!"compute_task_def", p!"requestor_id", p!"want_to_compute_task"],
      getAttr m3.attrs k = getAttr m2.attrs k := by
    intro k hk
    unfold ethsigHook at hm3
    simp only [bind, Except.bind] at hm3
    repeat' split at hm3
    all_goals first
    | exact gen hm3 k hk
    | rw [gen hm3 k hk]; exact set2 k hk
    | (cases hm3 <;> rfl)
    | (cases hm3; exact set2 k hk)
  have c4 : m.attrs = m3.attrs := by
    unfold signHook at h
    simp only [bind, Except.bind] at h
    split at h
    · cases h
    split at h
    · cases h; rfl
    · unfold Msg.signMessage at h
      split at h
      · cases h
      split at h <;> cases h
      rfl
  have hget : ∀ n, (lookupName n kw).any holds = (getAttr kw n).truthy := by
    intro n
    unfold getAttr
    cases lookupName n kw with
    | none => rfl
    | some v => simp
  obtain ⟨id, hs1, hid1, hid⟩ := taskIdHook_ok c0 hm1
  obtain ⟨items1, c1, h2, _, a1⟩ := setDef_sets c0 hs1
  obtain ⟨sid, hs2, s1, s2⟩ := subtaskIdHook_ok c1 hm2
  obtain ⟨items2, c2, h3, k2, a2⟩ := setDef_sets c1 hs2
  have hr : getAttr m.attrs p!"requestor_id" = getAttr m0.attrs p!"requestor_id" := by
    rw [c4, c3 _ (by simp), a2 _ (by decide), a1 _ (by decide)]
  have hr1 : getAttr m.attrs p!"requestor_id" = getAttr m1.attrs p!"requestor_id" := by
    rw [c4, c3 _ (by simp), a2 _ (by decide)]
  have hw : getAttr m.attrs p!"want_to_compute_task" = getAttr m0.attrs p!"want_to_compute_task" := by
    rw [c4, c3 _ (by simp), a2 _ (by decide), a1 _ (by decide)]
  have hid2 : getAttr items2 p!"task_id" = id := by rw [k2 _ (by decide), h2]
  have hg : ∀ n v, lookupName n kw = some v → getAttr kw n = v := by
    intro n v hv
    unfold getAttr
    rw [hv]
  refine ⟨items2, by rw [c4, c3 _ (by simp), c2], ?_, ?_, ?_⟩
  · intro n hn v hv ht
    rw [holds_eq] at ht
    simp only [List.mem_cons, List.not_mem_nil, or_false] at hn
    have hgv := hg n v hv
    rcases hn with rfl | rfl
    · rw [hid2, hid1 (by rw [hgv]; exact ht), hgv]
    · rw [h3, s1 (by rw [hgv]; exact ht), hgv]
  · intro hn
    rw [hget] at hn
    have hid := hid hn _ rfl
    constructor
    · intro w fs ns e1 e2 e3 e4 e5
      rw [holds_eq] at e5
      have ho : offeredTask m0 = some (getAttr ns p!"key", getAttr fs p!"task_id") := by
        unfold offeredTask
        rw [← hw, e1]
        unfold Msg.val
        simp only [e2, e3]
      rw [ho] at hid
      simp only [← hr, e4, if_true] at hid
      rw [hid2, hid.1 e5]
    · intro hno
      have ho : Val.truthy (match offeredTask m0 with
        | some (key, id) => if pyEq (getAttr m0.attrs p!"requestor_id") key then id else Val.none
        | none => .none) = false := by
        unfold offeredTask
        split
        · rename_i key id he
          split at he
          · rename_i ct ty ts enc sig attrs hwv
            split at he
            · rename_i fs hfs
              split at he
              · rename_i ns hns
                injection he with he
                injection he with he1 he2
                subst he1 he2
                rcases hno ⟨ct, ty, ts, enc, sig, attrs⟩ fs ns (by rw [hw, hwv]; rfl) hfs hns with e | e
                · rw [← hr, e]; rfl
                · rw [holds_eq] at e
                  split
                  · exact e
                  · rfl
              · cases he
            · cases he
          · cases he
        · rfl
      have hid := hid.2 ho
      rw [← hr] at hid
      rw [hid2]
      exact fake_seeded hu hid
  · intro hn
    rw [hget] at hn
    have := s2 hn
    rw [← hr1] at this
    rw [h3]
    exact fake_seeded hu2 this

private def madeDef (kw : Attrs) : Option Attrs :=
  match taskFactory toyEnv (fun _ _ _ => .ok .none) toyKeccak draws kw with
  | .ok m => match getAttr m.attrs p!"compute_task_def" with
    | .fdict _ items => some items
    | _ => none
  | .error _ => none

/-- A given id, the id of an offered task of the same owner, and an id from the requestor's. -/
example : (madeDef [(p!"task_id", .str p!"mine"), (p!"subtask_id", .str p!"part")]).map
      (fun i => (getAttr i p!"task_id", getAttr i p!"subtask_id")) =
      some (.str p!"mine", .str p!"part") ∧
    (madeDef [(p!"requestor_id", .str p!"ab"),
      (p!"want_to_compute_task__task_header__requestor_public_key", .str p!"ab"),
      (p!"want_to_compute_task__task_header__task_id", .str p!"offered")]).map
      (fun i => getAttr i p!"task_id") = some (.str p!"offered") ∧
    (madeDef []).map (fun i => (getAttr i p!"task_id", getAttr i p!"subtask_id")) =
      some (.str p!"22222222-2222-4222-8222-080808080808",
        .str p!"33333333-3333-4333-8333-080808080808") := by decide +kernel

/-- C89: an offer is made with the key asked for, by default the drawn one as hexadecimal text, and,
unless an address is given, with the address of that key. -/
theorem made_offer (E : Env) (G : Getter) (keccak : Bytes → Bytes)
    (hK : ∀ b, (keccak b).length = 32) (d : OfferDraw) (kw : Attrs) (m : Msg)
    (hk : (kw.map Prod.fst).Nodup) (h : offerFactory E G keccak d kw = .ok m) :
    m.cls = .WantToComputeTask ∧
    (∀ n ∈ [p!"provider_public_key", p!"provider_ethereum_address", p!"task_header", p!"price"], ∀ v,
      lookupName n kw = some v → getAttr m.attrs n = v) ∧
    (lookupName p!"provider_public_key" kw = none →
      ∃ s, getAttr m.attrs p!"provider_public_key" = .str s ∧ HexText s d.key ∧ ∀ c ∈ s, c ∈ hexLower) ∧
    (lookupName p!"provider_ethereum_address" kw = none →
      ∃ key, KeyOf (getAttr m.attrs p!"provider_public_key") key ∧
        getAttr m.attrs p!"provider_ethereum_address" = .str (keyAddress keccak key)) := by
  unfold offerFactory at h
  simp only [bind, Except.bind] at h
  split at h
  · cases h
  rename_i x1 hx1
  split at h
  · cases h
  rename_i x2 hx2
  split at h
  · cases h
  rename_i x3 hx3
  split at h
  · cases h
  rename_i x4 hx4
  split at h
  · cases h
  rename_i m0 hm0
  have hmv : m.cls = m0.cls ∧ m.attrs = m0.attrs := by
    unfold signHook at h
    simp only [bind, Except.bind] at h
    split at h
    · cases h
    split at h
    · cases h; exact ⟨rfl, rfl⟩
    · unfold Msg.signMessage at h
      split at h
      · cases h
      split at h <;> cases h
      exact ⟨rfl, rfl⟩
  obtain ⟨loaded, hl, hf⟩ := new_fields hm0 (given_nodup (by simp [offerRoots]) (by simp) hk)
  have hd : dictOf .none = [] := rfl
  rw [hd, loadSlots_empty] at hl
  injection hl with hl
  subst hl
  have f1 : getAttr m0.attrs p!"provider_public_key" = x1 := by
    rw [hf _ (by decide)]; rfl
  have f2 : getAttr m0.attrs p!"provider_ethereum_address" = x2 := by
    rw [hf _ (by decide)]; rfl
  have f3 : getAttr m0.attrs p!"task_header" = x3 := by
    rw [hf _ (by decide)]; rfl
  have f4 : getAttr m0.attrs p!"price" = x4 := by
    rw [hf _ (by decide)]; rfl
  have hgiven : ∀ {n : PStr} {r : Res Val} {y : Val}, given kw n r = .ok y → ∀ z, lookupName n kw = some z →
      y = z := by
    intro n r y h1 z hz
    unfold given at h1
    rw [hz] at h1
    injection h1 with h1
    exact h1.symm
  rw [hmv.1, hmv.2, f1, f2]
  refine ⟨(new_ok hm0).choose_spec.choose_spec.2.2.1, ?_, ?_, ?_⟩
  · intro n hn v hv
    simp only [List.mem_cons, List.not_mem_nil, or_false] at hn
    rcases hn with rfl | rfl | rfl | rfl
    · rw [f1]; exact hgiven hx1 v hv
    · rw [f2]; exact hgiven hx2 v hv
    · rw [f3]; exact hgiven hx3 v hv
    · rw [f4]; exact hgiven hx4 v hv
  · intro hn
    unfold given at hx1
    rw [hn] at hx1
    simp only at hx1
    cases he : d.key with
    | nil => rw [he] at hx1; cases hx1
    | cons a b =>
      rw [he] at hx1
      injection hx1 with hx1
      exact ⟨_, hx1.symm, hexText_hexlify _, hexlify_lower _⟩
  · intro hn
    unfold given at hx2
    rw [hn] at hx2
    simp only at hx2
    cases ha : pubkeyToAddress keccak x1 with
    | error e => rw [ha] at hx2; cases hx2
    | ok a =>
      rw [ha] at hx2
      injection hx2 with hx2
      obtain ⟨key, k1, k2⟩ := (address_decision keccak hK x1 a).mp ha
      exact ⟨key, k1, by rw [← hx2, k2]⟩

/-- An offer by a drawn key, and one by a given key. -/
example : (match offerFactory toyEnv (fun _ _ _ => .ok .none) toyKeccak draws.offer [] with
    | .ok m => getAttr m.attrs p!"provider_public_key" == .str (hexlify (vk 10))
    | .error _ => false) = true ∧
    (match offerFactory toyEnv (fun _ _ _ => .ok .none) toyKeccak draws.offer
      [(p!"provider_public_key", .str p!"0xAB")] with
    | .ok m => getAttr m.attrs p!"provider_public_key" == .str p!"0xAB"
    | .error _ => false) = true := by decide +kernel

end Verif.Props
