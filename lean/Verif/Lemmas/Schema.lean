import Verif.Spec.Schema
import Verif.Lemmas.ContRoundTrip
import Verif.Lemmas.FDict
import Verif.Lemmas.PyEq
import Verif.Lemmas.Arrived
import Verif.Props.Version
/-! # Lemmas about container schemas -/

set_option linter.unusedSimpArgs false

namespace Verif

open Spec

/-- When a container can be built, by the tables of the model. -/
theorem contCall_iff {E : Env} {hook : PStr → Val → Res Val} {c : ContId} {kw : Attrs}
    (hnd : (kw.map Prod.fst).Nodup) :
    (∃ w, contCall E hook c (.dict (asPairs kw)) = .ok w) ↔
      (∀ k ∈ kw.map Prod.fst, k ∈ c.slots.map Prod.fst) ∧
      (∀ k ∈ c.required, k ∈ kw.map Prod.fst) ∧
      ∀ k vs v, (k, vs) ∈ c.slots → (k, v) ∈ kw →
        (v = .none ∧ k ∉ c.required) ∨
          ((∀ x ∈ vs, x.accepts E v = true) ∧ ∃ y, hook k v = .ok y) := by
  have deser : ∀ k vs v, (∃ y, contDeser E hook c k vs v = .ok y) ↔
      (v = .none ∧ k ∉ c.required) ∨
          ((∀ x ∈ vs, x.accepts E v = true) ∧ ∃ y, hook k v = .ok y) := by
    intro k vs v
    unfold contDeser
    by_cases hn : v = .none ∧ k ∉ c.required
    · rw [if_pos hn]
      exact ⟨fun _ => Or.inl hn, fun _ => ⟨_, rfl⟩⟩
    · rw [if_neg hn]
      constructor
      · rintro ⟨y, hy⟩
        split at hy
        · cases hy
        · rename_i u hu
          exact Or.inr ⟨runAll_ok.mp hu, y, hy⟩
      · rintro (h | ⟨h1, y, hy⟩)
        · exact absurd h hn
        · have : runAll E vs k v = .ok () := runAll_ok.mpr h1
          rw [this]
          exact ⟨y, hy⟩
  have slot_of : ∀ k ∈ c.slots.map Prod.fst, ∃ vs, (k, vs) ∈ c.slots := by
    intro k hk
    obtain ⟨⟨k', vs⟩, hm, e⟩ := List.mem_map.mp hk
    simp only at e
    subst e
    exact ⟨vs, hm⟩
  constructor
  · rintro ⟨w, h⟩
    obtain ⟨kw', fs, hd, _, _, _, hk, hf⟩ := contCall_ok h
    have hkw : kw' = kw := by
      simp only [Val.asDict, Option.some.injEq, asPairs] at hd
      have h1 := textKeys_map kw
      have h2 := textKeys_map kw'
      rw [hd, h2] at h1
      exact Option.some.inj h1
    subst hkw
    refine ⟨hk, ?_, ?_⟩
    · intro k hr
      obtain ⟨vs, hvs⟩ := slot_of k (required_slots c k hr)
      obtain ⟨x, _, hx⟩ := hf k vs hvs
      rw [← lookupName_isSome]
      unfold contField at hx
      cases hl : lookupName k kw' with
      | none => rw [hl] at hx; simp [hr] at hx
      | some y => rfl
    · intro k vs v hs hm
      obtain ⟨x, _, hx⟩ := hf k vs hs
      rw [contField_present (lookupName_of_mem hnd hm)] at hx
      exact (deser k vs v).mp ⟨x, hx⟩
  · rintro ⟨hk, hr, hv⟩
    have hself : (lookupName p!"self" kw).isSome = false := by
      cases hl : (lookupName p!"self" kw).isSome
      · rfl
      · exact absurd (hk _ ((lookupName_isSome _ _).mp hl)) (self_not_slot c)
    have hall : ∀ l : List (PStr × List Validator), (∀ p ∈ l, p ∈ c.slots) →
        ∃ fs, contFields E hook c kw l = .ok fs := by
      intro l
      induction l with
      | nil => exact fun _ => ⟨[], rfl⟩
      | cons a b ih =>
        intro hl
        obtain ⟨k, vs⟩ := a
        have hfield : ∃ y, contField E hook c kw k vs = .ok y := by
          cases hl' : lookupName k kw with
          | none =>
            unfold contField
            rw [hl']
            simp only
            by_cases hr' : k ∈ c.required
            · exact absurd (hr k hr') ((lookupName_none _ _).mp hl')
            · exact ⟨_, by rw [if_neg hr']⟩
          | some x =>
            rw [contField_present hl']
            exact (deser k vs x).mpr (hv k vs x (hl _ (by simp)) (mem_of_lookupName hl'))
        obtain ⟨y, hy⟩ := hfield
        obtain ⟨fs, hfs⟩ := ih (fun p hp => hl p (List.mem_cons_of_mem _ hp))
        exact ⟨(k, y) :: fs, by unfold contFields; rw [hy]; simp only; rw [hfs]⟩
    obtain ⟨fs, hfs⟩ := hall c.slots (fun _ h => h)
    refine ⟨.cont c fs, ?_⟩
    unfold contCall kwargsOf Val.asDict
    simp only [asPairs, textKeys_map, hself, Bool.false_eq_true, if_false]
    unfold contBuild
    rw [hfs]
    simp only
    rw [firstUnknown_none.mpr hk]
    rfl

/-- The schema and the table of a class agree, field by field. -/
inductive Agree (E : Env) (hook : PStr → Val → Res Val) (c : ContId) :
    List Field → List (PStr × List Validator) → Prop
  | nil : Agree E hook c [] []
  | cons {n : PStr} {r : Bool} {ok : Val → Prop} {vs : List Validator} {fl sl} :
      r = decide (n ∈ c.required) →
      (∀ v, Data v →
        (((∀ x ∈ vs, x.accepts E v = true) ∧ ∃ y, hook n v = .ok y) ↔ ok v)) →
      Agree E hook c fl sl → Agree E hook c (⟨n, r, ok⟩ :: fl) ((n, vs) :: sl)

theorem Agree.field {E : Env} {hook : PStr → Val → Res Val} {c : ContId} {fl sl}
    (h : Agree E hook c fl sl) : ∀ f ∈ fl, ∃ vs, (f.name, vs) ∈ sl ∧
      f.required = decide (f.name ∈ c.required) ∧ ∀ v, Data v →
        (((∀ x ∈ vs, x.accepts E v = true) ∧ ∃ y, hook f.name v = .ok y) ↔ f.ok v) := by
  induction h with
  | nil => intro f hf; cases hf
  | cons h1 h2 _ ih =>
    intro f hf
    rcases List.mem_cons.mp hf with rfl | hf
    · exact ⟨_, by simp, h1, h2⟩
    · obtain ⟨vs, hm, h3⟩ := ih f hf
      exact ⟨vs, List.mem_cons_of_mem _ hm, h3⟩

theorem Agree.slot {E : Env} {hook : PStr → Val → Res Val} {c : ContId} {fl sl}
    (h : Agree E hook c fl sl) : ∀ k vs, (k, vs) ∈ sl → ∃ f ∈ fl, f.name = k ∧
      f.required = decide (k ∈ c.required) ∧ ∀ v, Data v →
        (((∀ x ∈ vs, x.accepts E v = true) ∧ ∃ y, hook k v = .ok y) ↔ f.ok v) := by
  induction h with
  | nil => intro k vs hf; cases hf
  | cons h1 h2 _ ih =>
    intro k vs hf
    rcases List.mem_cons.mp hf with e | hf
    · injection e with e1 e2
      subst e1 e2
      exact ⟨_, List.mem_cons_self, rfl, h1, h2⟩
    · obtain ⟨f, hm, h3⟩ := ih k vs hf
      exact ⟨f, List.mem_cons_of_mem _ hm, h3⟩

theorem data_pairs {kw : Attrs} (h : Data (.dict (asPairs kw))) :
    (kw.map Prod.fst).Nodup ∧ ∀ k v, (k, v) ∈ kw → Data v := by
  unfold Data at h
  simp only [data, Bool.and_eq_true] at h
  have hd := h.2
  have hp := h.1.1
  clear h
  constructor
  · rw [distinct_iff] at hd
    have e : ((asPairs kw).map Prod.fst).map Val.keyNorm = (kw.map Prod.fst).map Val.str := by
      simp only [asPairs, List.map_map]
      apply List.map_congr_left
      intro a _
      rfl
    rw [e] at hd
    exact List.Pairwise.of_map _ (fun a b hab e => hab (by rw [e])) hd
  · clear hd
    induction kw with
    | nil => intro k v hm; cases hm
    | cons a rest ih =>
      obtain ⟨k, v⟩ := a
      simp only [asPairs, List.map_cons, dataD, Bool.and_eq_true] at hp
      intro k' v' hm
      rcases List.mem_cons.mp hm with e | hm
      · injection e with _ e2
        rw [e2]; exact hp.1
      · exact ih hp.2 k' v' hm

/-- A container is built from decoded keywords exactly if they conform to the schema. -/
theorem agree_iff {E : Env} {hook : PStr → Val → Res Val} {c : ContId} {fl : List Field}
    (h : Agree E hook c fl c.slots) {kw : Attrs} (hp : Data (.dict (asPairs kw))) :
    (∃ w, contCall E hook c (.dict (asPairs kw)) = .ok w) ↔ Conforms fl kw := by
  obtain ⟨hnd, hpv⟩ := data_pairs hp
  rw [contCall_iff hnd]
  constructor
  · rintro ⟨h1, h2, h3⟩
    refine ⟨?_, ?_, ?_⟩
    · intro k hk
      obtain ⟨⟨k', vs⟩, hm, e⟩ := List.mem_map.mp (h1 k hk)
      obtain ⟨f, hf, hn, _⟩ := h.slot k' vs hm
      exact ⟨f, hf, hn.trans e⟩
    · intro f hf hr
      obtain ⟨vs, _, hr', _⟩ := h.field f hf
      rw [hr'] at hr
      exact h2 _ (of_decide_eq_true hr)
    · intro f hf v hm
      obtain ⟨vs, hs, hr', hiff⟩ := h.field f hf
      rcases h3 _ vs v hs hm with ⟨a, b⟩ | hh
      · exact Or.inl ⟨a, by rw [hr']; exact decide_eq_false b⟩
      · exact Or.inr ((hiff v (hpv _ _ hm)).mp hh)
  · rintro ⟨h1, h2, h3⟩
    refine ⟨?_, ?_, ?_⟩
    · intro k hk
      obtain ⟨f, hf, e⟩ := h1 k hk
      obtain ⟨vs, hs, _⟩ := h.field f hf
      rw [← e]
      exact List.mem_map.mpr ⟨_, hs, rfl⟩
    · intro k hk
      obtain ⟨⟨k', vs⟩, hm, e⟩ := List.mem_map.mp (required_slots c k hk)
      simp only at e
      subst e
      obtain ⟨f, hf, hn, hr, _⟩ := h.slot k' vs hm
      rw [← hn]
      exact h2 f hf (by rw [hr]; exact decide_eq_true hk)
    · intro k vs v hs hm
      obtain ⟨f, hf, hn, hr, hiff⟩ := h.slot k vs hs
      rcases h3 f hf v (by rw [hn]; exact hm) with ⟨a, b⟩ | hh
      · exact Or.inl ⟨a, of_decide_eq_false (hr ▸ b)⟩
      · exact Or.inr ((hiff v (hpv _ _ hm)).mpr hh)

/-! ### Single fields -/

theorem field_text {E : Env} {v : Val} (h : Data v) :
    ((∀ x ∈ [Validator.varchar none], x.accepts E v = true) ↔ Text v) := by
  cases v <;> simp [Data, data] at h <;> simp [Validator.accepts, Val.asStr, Text]

theorem field_varchar {E : Env} {n : Nat} {v : Val} (h : Data v) :
    ((∀ x ∈ [Validator.varchar (some n)], x.accepts E v = true) ↔ TextUpTo n v) := by
  cases v <;> simp [Data, data] at h <;> simp [Validator.accepts, Val.asStr, TextUpTo]

theorem field_integer {E : Env} {v : Val} :
    ((∀ x ∈ [Validator.integer], x.accepts E v = true) ↔ Integer v) := by
  cases v <;> simp [Validator.accepts, Val.asInt, Integer]

theorem field_nonneg {E : Env} {v : Val} :
    ((∀ x ∈ [Validator.integer, .nonNegative], x.accepts E v = true) ↔ IntegerFrom 0 v) := by
  cases v <;> simp [Validator.accepts, Val.asInt, IntegerFrom]

theorem field_pos {E : Env} {v : Val} :
    ((∀ x ∈ [Validator.integer, .positive], x.accepts E v = true) ↔ IntegerFrom 1 v) := by
  cases v <;> simp [Validator.accepts, Val.asInt, IntegerFrom]
  omega

theorem field_port {E : Env} {v : Val} :
    ((∀ x ∈ [Validator.port], x.accepts E v = true) ↔ PortNumber v) := by
  cases v <;> simp [Validator.accepts, Val.asInt, PortNumber]
  omega

theorem field_ip {E : Env} {v : Val} :
    ((∀ x ∈ [Validator.ipaddress], x.accepts E v = true) ↔ E.ipOk v = true) := by
  simp [Validator.accepts]

theorem field_bool {E : Env} {v : Val} :
    ((∀ x ∈ [Validator.boolean], x.accepts E v = true) ↔ Boolean v) := by
  cases v <;> simp [Validator.accepts, Boolean]

theorem field_bytes {E : Env} {v : Val} :
    ((∀ x ∈ [Validator.isBytes], x.accepts E v = true) ↔ ByteString v) := by
  cases v <;> simp [Validator.accepts, ByteString]

theorem field_dict {E : Env} {v : Val} (h : Data v) :
    ((∀ x ∈ [Validator.dict], x.accepts E v = true) ↔ Dictionary v) := by
  cases v <;> simp [Data, data] at h <;> simp [Validator.accepts, Val.asDict, Dictionary]

theorem field_dictOr {E : Env} {c : ContId} {v : Val} (h : Data v) :
    ((∀ x ∈ [Validator.isDictOr c], x.accepts E v = true) ↔ Dictionary v) := by
  cases v <;> simp [Data, data] at h <;> simp [Validator.accepts, Val.asDict, Dictionary]

theorem field_version {E : Env} {v : Val} (h : Data v) :
    ((∀ x ∈ [Validator.version], x.accepts E v = true) ↔ VersionText v) := by
  cases v <;> simp [Data, data] at h <;> simp [Validator.accepts, Val.asStr, VersionText]
  rename_i s
  constructor
  · intro hs
    obtain ⟨t, ht⟩ := Option.isSome_iff_exists.mp hs
    obtain ⟨w, hw⟩ := (Props.version_grammar s t.ver).mp ht
    rcases hw with h | ⟨r, rfl, h⟩
    · exact ⟨t.ver, w, s, h, Or.inl rfl⟩
    · exact ⟨t.ver, w, r, h, Or.inr rfl⟩
  · rintro ⟨t, w, r, h, hs⟩
    have : t.Said s ∨ ∃ r, s = r ++ ['\n'] ∧ t.Said r := by
      rcases hs with rfl | rfl
      · exact Or.inl h
      · exact Or.inr ⟨r, rfl, h⟩
    rw [(Props.version_grammar s t).mpr ⟨w, this⟩]
    rfl

theorem field_any {E : Env} {v : Val} :
    ((∀ x ∈ ([] : List Validator), x.accepts E v = true) ↔ True) := by simp

/-- A field without conversion. -/
theorem plainField {E : Env} {hook : PStr → Val → Res Val} {n : PStr} {vs : List Validator}
    {ok : Val → Prop} (hh : ∀ v, hook n v = .ok v)
    (h : ∀ v, Data v → ((∀ x ∈ vs, x.accepts E v = true) ↔ ok v)) :
    ∀ v, Data v →
      (((∀ x ∈ vs, x.accepts E v = true) ∧ ∃ y, hook n v = .ok y) ↔ ok v) := by
  intro v hv
  rw [h v hv]
  exact ⟨fun hx => hx.1, fun hx => ⟨hx, v, hh v⟩⟩

theorem agree_node (E : Env) (hook : PStr → Val → Res Val) (hh : ∀ k v, hook k v = .ok v) :
    Agree E hook .node (nodeFields E) ContId.node.slots := by
  refine .cons rfl (plainField (hh _) fun v hv => field_text hv) <|
    .cons rfl (plainField (hh _) fun v hv => field_varchar hv) <|
    .cons rfl (plainField (hh _) fun v hv => field_port) <|
    .cons rfl (plainField (hh _) fun v hv => field_port) <|
    .cons rfl (plainField (hh _) fun v hv => field_port) <|
    .cons rfl (plainField (hh _) fun v hv => field_port) <|
    .cons rfl (plainField (hh _) fun v hv => field_ip) <|
    .cons rfl (plainField (hh _) fun v hv => field_ip) <|
    .cons rfl (plainField (hh _) fun v hv => field_any) <|
    .cons rfl (plainField (hh _) fun v hv => field_integer) <|
    .cons rfl (plainField (hh _) fun v hv => field_integer) <|
    .cons rfl (plainField (hh _) fun v hv => field_any) <|
    .cons rfl (plainField (hh _) fun v hv => field_any) .nil

theorem agree_blockIo (E : Env) (hook : PStr → Val → Res Val) (hh : ∀ k v, hook k v = .ok v) :
    Agree E hook .blockIoStats blockIoFields ContId.blockIoStats.slots := by
  refine .cons rfl (plainField (hh _) fun v hv => field_dict hv) <|
    .cons rfl (plainField (hh _) fun v hv => field_dict hv) <|
    .cons rfl (plainField (hh _) fun v hv => field_dict hv) <|
    .cons rfl (plainField (hh _) fun v hv => field_dict hv) <|
    .cons rfl (plainField (hh _) fun v hv => field_dict hv) <|
    .cons rfl (plainField (hh _) fun v hv => field_dict hv) <|
    .cons rfl (plainField (hh _) fun v hv => field_dict hv) <|
    .cons rfl (plainField (hh _) fun v hv => field_dict hv) .nil

theorem agree_memory (E : Env) (hook : PStr → Val → Res Val) (hh : ∀ k v, hook k v = .ok v) :
    Agree E hook .memoryStats memoryFields ContId.memoryStats.slots := by
  refine .cons rfl (plainField (hh _) fun v hv => field_dict hv) <|
    .cons rfl (plainField (hh _) fun v hv => field_dict hv) <|
    .cons rfl (plainField (hh _) fun v hv => field_dict hv) <|
    .cons rfl (plainField (hh _) fun v hv => field_dict hv) <|
    .cons rfl (plainField (hh _) fun v hv => field_integer) <|
    .cons rfl (plainField (hh _) fun v hv => field_dict hv) <|
    .cons rfl (plainField (hh _) fun v hv => field_bool) .nil

theorem agree_pid (E : Env) (hook : PStr → Val → Res Val) (hh : ∀ k v, hook k v = .ok v) :
    Agree E hook .pidStats pidFields ContId.pidStats.slots := by
  refine .cons rfl (plainField (hh _) fun v hv => field_integer) <|
    .cons rfl (plainField (hh _) fun v hv => field_integer) .nil

/-- `C(**value)` of a frozen dictionary without validators. -/
theorem fdCall_iff {E : Env} {c : FDictId} {d : List (Val × Val)}
    (hv : ∀ k v, fdValidate E c k v = .ok ()) (hs : p!"self" ∉ c.items.map Prod.fst) :
    (∃ w, fdCall E c (.dict d) = .ok w) ↔ KeysAmong (c.items.map Prod.fst) (.dict d) := by
  unfold fdCall kwargsOf
  simp only [Val.asDict]
  constructor
  · rintro ⟨w, h⟩
    split at h
    · cases h
    rename_i kw hkw
    split at hkw
    · cases hkw
    rename_i kw' hkw'
    split at hkw
    · cases hkw
    injection hkw with hkw
    subst hkw
    have := (fdBuild_iff (E := E) (c := c) (fun k v _ => hv k v)).mp ⟨w, h⟩
    refine ⟨kw', by rw [textKeys_ok hkw']; rfl, ?_⟩
    intro k hk
    obtain ⟨⟨k', v⟩, hm, e⟩ := List.mem_map.mp hk
    simp only at e
    subst e
    obtain ⟨k2, e, hk2, _⟩ := this (.str k') v (List.mem_map.mpr ⟨_, hm, rfl⟩)
    injection e with e
    rw [e]; exact hk2
  · rintro ⟨kw, e, hk⟩
    injection e with e
    subst e
    have hself : (lookupName p!"self" kw).isSome = false := by
      cases hl : (lookupName p!"self" kw).isSome
      · rfl
      · exact absurd (hk _ ((lookupName_isSome _ _).mp hl)) hs
    simp only [asPairs, textKeys_map, hself, Bool.false_eq_true, if_false]
    rw [fdBuild_iff (E := E) (c := c) (fun k v _ => hv k v)]
    intro key v hm
    obtain ⟨⟨k', v'⟩, hm', e⟩ := List.mem_map.mp hm
    simp only [Prod.mk.injEq] at e
    obtain ⟨rfl, rfl⟩ := e
    refine ⟨k', rfl, hk _ (List.mem_map.mpr ⟨_, hm', rfl⟩), ?_⟩
    exact (itemOk_iff E c k' v').mp (hv _ _)

theorem agree_cpu (E : Env) : Agree E (leafHook E .cpuStats) .cpuStats cpuFields
    ContId.cpuStats.slots := by
  have key : ∀ (c : FDictId), (∀ k v, fdValidate E c k v = .ok ()) →
      p!"self" ∉ c.items.map Prod.fst → ∀ v, Data v →
      (((∀ x ∈ [Validator.dict], x.accepts E v = true) ∧
        ∃ y, (if v.truthy = true then fdCall E c v else .ok .none) = .ok y) ↔
        KeysAmong (c.items.map Prod.fst) v) := by
    intro c hv hs v hp
    rw [field_dict hp]
    constructor
    · rintro ⟨⟨d, rfl⟩, y, hy⟩
      split at hy
      · exact (fdCall_iff hv hs).mp ⟨y, hy⟩
      · rename_i ht
        cases d with
        | nil => exact ⟨[], rfl, by simp⟩
        | cons a b => simp [Val.truthy] at ht
    · intro h
      have h' := h
      obtain ⟨kw, rfl, _⟩ := h'
      refine ⟨⟨_, rfl⟩, ?_⟩
      by_cases ht : (Val.dict (asPairs kw)).truthy = true
      · rw [if_pos ht]; exact (fdCall_iff hv hs).mpr h
      · rw [if_neg ht]; exact ⟨_, rfl⟩
  exact .cons rfl (key .cpuUsage (fun _ _ => rfl) (by decide)) <|
    .cons rfl (key .throttlingData (fun _ _ => rfl) (by decide)) .nil

/-- `C(**v)` for the container classes that hold no other container. -/
theorem leaf_record (E : Env) {c : ContId} (hc : c ≠ .taskHeader ∧ c ≠ .providerStats) {v : Val}
    (hp : Data v) :
    (∃ w, leafCall E c v = .ok w) ↔ Record (fieldsOf E c) v := by
  have agree : Agree E (leafHook E c) c (fieldsOf E c) c.slots := by
    cases c
    · exact agree_node E _ fun _ _ => rfl
    · exact absurd rfl hc.1
    · exact agree_blockIo E _ fun _ _ => rfl
    · exact agree_cpu E
    · exact agree_memory E _ fun _ _ => rfl
    · exact agree_pid E _ fun _ _ => rfl
    · exact absurd rfl hc.2
  constructor
  · rintro ⟨w, h⟩
    obtain ⟨kw, _, hd, _⟩ := contCall_ok h
    have hv : v = .dict (asPairs kw) := by
      cases v <;> simp [Data, data] at hp <;> simp [Val.asDict] at hd
      rw [hd]; rfl
    subst hv
    exact ⟨kw, rfl, (agree_iff agree hp).mp ⟨w, h⟩⟩
  · rintro ⟨kw, rfl, h⟩
    exact (agree_iff agree hp).mpr h

theorem agree_header (E : Env) : Agree E (contHook E .taskHeader) .taskHeader (headerFields E)
    ContId.taskHeader.slots := by
  have hh : ∀ k, k ∉ converted .taskHeader → ∀ v, contHook E .taskHeader k v = .ok v := by
    intro k h v
    simp only [converted, List.mem_cons, List.mem_nil_iff, or_false, not_or] at h
    simp only [contHook, if_neg h.1, if_neg h.2.1, if_neg h.2.2]
  refine .cons rfl ?_ <|
    .cons rfl (plainField (hh _ (by decide)) fun v hv => field_integer) <|
    .cons rfl (plainField (hh _ (by decide)) fun v hv => field_bytes) <|
    .cons rfl (plainField (hh _ (by decide)) fun v hv => field_varchar hv) <|
    .cons rfl ?_ <|
    .cons rfl (plainField (hh _ (by decide)) fun v hv => field_integer) <|
    .cons rfl (plainField (hh _ (by decide)) fun v hv => field_nonneg) <|
    .cons rfl ?_ <|
    .cons rfl (plainField (hh _ (by decide)) fun v hv => field_varchar hv) <|
    .cons rfl (plainField (hh _ (by decide)) fun v hv => field_dict hv) <|
    .cons rfl (plainField (hh _ (by decide)) fun v hv => field_version hv) <|
    .cons rfl (plainField (hh _ (by decide)) fun v hv => field_integer) <|
    .cons rfl (plainField (hh _ (by decide)) fun v hv => field_integer) <|
    .cons rfl (plainField (hh _ (by decide)) fun v hv => field_integer) <|
    .cons rfl (plainField (hh _ (by decide)) fun v hv => field_pos) <|
    .cons rfl (plainField (hh _ (by decide)) fun v hv => field_bool) .nil
  · intro v hv
    rw [field_bytes]
    constructor
    · exact fun h => h.1
    · rintro ⟨b, rfl⟩
      exact ⟨⟨b, rfl⟩, _, rfl⟩
  · intro v hv
    rw [field_dictOr hv]
    have e : Dictionary v → contHook E .taskHeader p!"task_owner" v = leafCall E .node v := by
      rintro ⟨d, rfl⟩; rfl
    constructor
    · rintro ⟨hd, y, hy⟩
      rw [e hd] at hy
      exact (leaf_record E (by decide) hv).mp ⟨y, hy⟩
    · intro h
      have hd : Dictionary v := by obtain ⟨kw, rfl, _⟩ := h; exact ⟨_, rfl⟩
      rw [e hd]
      exact ⟨hd, (leaf_record E (by decide) hv).mpr h⟩
  · intro v hv
    rw [field_any]
    have e : contHook E .taskHeader p!"market_type" v =
        match EnumId.marketType.lookup v with
        | some m => .ok m
        | none => .error (.fieldError p!"market_type") := rfl
    rw [e]
    constructor
    · rintro ⟨_, y, hy⟩
      cases v <;> simp [Data, data] at hv <;> simp [EnumId.lookup] at hy
      rename_i s
      by_cases hs : EnumId.marketType.values.contains s = true
      · exact ⟨s, by simpa [EnumId.values] using hs, rfl⟩
      · simp only [List.contains_eq_mem, decide_eq_true_eq] at hs
        rw [if_neg hs] at hy
        cases hy
    · rintro ⟨s, hs, rfl⟩
      refine ⟨trivial, ?_⟩
      have : EnumId.marketType.values.contains s = true := by simpa [EnumId.values] using hs
      simp only [EnumId.lookup, this, if_true]
      exact ⟨_, rfl⟩

theorem agree_provider (E : Env) : Agree E (contHook E .providerStats) .providerStats
    providerFields ContId.providerStats.slots := by
  have key : ∀ c : ContId, c ≠ .taskHeader ∧ c ≠ .providerStats → ∀ v, Data v →
      (((∀ x ∈ [Validator.isDictOr c], x.accepts E v = true) ∧
        ∃ y, (if v.truthy = true then leafCall E c v else .ok .none) = .ok y) ↔
        EmptyOrRecord (fieldsOf E c) v) := by
    intro c hc v hp
    rw [field_dictOr hp]
    constructor
    · rintro ⟨⟨d, rfl⟩, y, hy⟩
      split at hy
      · exact Or.inr ((leaf_record E hc hp).mp ⟨y, hy⟩)
      · rename_i ht
        cases d with
        | nil => exact Or.inl rfl
        | cons a b => simp [Val.truthy] at ht
    · rintro (rfl | h)
      · exact ⟨⟨_, rfl⟩, _, rfl⟩
      · have hd : Dictionary v := by obtain ⟨kw, rfl, _⟩ := h; exact ⟨_, rfl⟩
        refine ⟨hd, ?_⟩
        by_cases ht : v.truthy = true
        · rw [if_pos ht]; exact (leaf_record E hc hp).mpr h
        · rw [if_neg ht]; exact ⟨_, rfl⟩
  exact .cons rfl (key .blockIoStats (by decide)) <| .cons rfl (key .cpuStats (by decide)) <|
    .cons rfl (key .memoryStats (by decide)) <| .cons rfl (key .pidStats (by decide)) .nil

theorem agree_all (E : Env) (c : ContId) : Agree E (contHook E c) c (fieldsOf E c) c.slots := by
  cases c
  · exact agree_node E _ fun _ _ => rfl
  · exact agree_header E
  · exact agree_blockIo E _ fun _ _ => rfl
  · exact agree_cpu E
  · exact agree_memory E _ fun _ _ => rfl
  · exact agree_pid E _ fun _ _ => rfl
  · exact agree_provider E

/-! ### Objects -/

theorem held_simple {E : Env} {c : ContId} {fl : List Field}
    (ag : Agree E (fun _ v => .ok v) c fl c.slots) (hn : fl.map Field.name = c.slots.map Prod.fst)
    {v : Val} (h : SimpleOk E c v) : Held c fl v := by
  obtain ⟨fs, rfl, hf, hv⟩ := h
  have hf : fs.map Prod.fst = c.slots.map Prod.fst := hf
  refine ⟨fs, rfl, by rw [hf, hn], ?_⟩
  intro f hm
  obtain ⟨vs, hs, hr, hiff⟩ := ag.field f hm
  have hmem : (f.name, getAttr fs f.name) ∈ fs :=
    mem_getAttr (by rw [hf, ← hn]; exact List.mem_map.mpr ⟨f, hm, rfl⟩)
  rcases hv _ _ hmem with ⟨h1, h2⟩ | ⟨h1, h2⟩
  · exact Or.inl ⟨h1, by rw [hr]; exact decide_eq_false h2⟩
  · exact Or.inr ((hiff _ h1).mp ⟨h2 vs hs, _, rfl⟩)

theorem node_held {E : Env} {v : Val} (h : SimpleOk E .node v) : NodeHeld E v :=
  held_simple (agree_node E _ fun _ _ => rfl) rfl h

/-- The schema after conversion, in the terms of the table. -/
theorem held_of {c : ContId} {fl : List Field} {P : PStr → Val → Prop}
    (hn : fl.map Field.name = c.slots.map Prod.fst)
    (hok : ∀ f ∈ fl, f.required = decide (f.name ∈ c.required) ∧ ∀ x, P f.name x → f.ok x)
    {v : Val} (h : Fields c P v) : Held c fl v := by
  obtain ⟨fs, rfl, hf, hv⟩ := h
  have hf : fs.map Prod.fst = c.slots.map Prod.fst := hf
  refine ⟨fs, rfl, by rw [hf, hn], ?_⟩
  intro f hm
  obtain ⟨hr, hp⟩ := hok f hm
  have hmem : (f.name, getAttr fs f.name) ∈ fs :=
    mem_getAttr (by rw [hf, ← hn]; exact List.mem_map.mpr ⟨f, hm, rfl⟩)
  rcases hv _ _ hmem with ⟨h1, h2⟩ | h1
  · exact Or.inl ⟨h1, by rw [hr]; exact decide_eq_false h2⟩
  · exact Or.inr (hp _ h1)

theorem cpu_held {E : Env} {v : Val} (h : CpuOk E v) : CpuHeld v := by
  refine held_of rfl ?_ h
  intro f hm
  simp only [List.mem_cons, List.not_mem_nil, or_false] at hm
  rcases hm with rfl | rfl
  · refine ⟨rfl, fun x hx => ?_⟩
    rcases hx with ⟨_, i, e, hd, _⟩ | ⟨hc, _⟩
    · exact ⟨i, e, hd⟩
    · exact absurd hc (by decide)
  · refine ⟨rfl, fun x hx => ?_⟩
    rcases hx with ⟨hc, _⟩ | ⟨_, i, e, hd, _⟩
    · exact absurd hc (by decide)
    · exact ⟨i, e, hd⟩

theorem stats_held {E : Env} {v : Val} (h : StatsOk E v) : StatsHeld v := by
  refine held_of rfl ?_ h
  intro f hm
  simp only [List.mem_cons, List.not_mem_nil, or_false] at hm
  rcases hm with rfl | rfl | rfl | rfl <;> refine ⟨rfl, fun x hx => ?_⟩ <;>
    rcases hx with ⟨hc, hx⟩ | ⟨hc, hx⟩ | ⟨hc, hx⟩ | ⟨hc, hx⟩ <;>
    first
    | exact absurd hc (by decide)
    | exact held_simple (agree_blockIo E _ fun _ _ => rfl) rfl hx
    | exact cpu_held hx
    | exact held_simple (agree_memory E _ fun _ _ => rfl) rfl hx
    | exact held_simple (agree_pid E _ fun _ _ => rfl) rfl hx

theorem header_held {E : Env} {v : Val} (h : HeaderOk E v) : HeaderHeld E v := by
  refine held_of rfl ?_ h
  intro f hm
  obtain ⟨g, hg, rfl⟩ := List.mem_map.mp hm
  obtain ⟨vs, hs, hr, hiff⟩ := (agree_header E).field g hg
  by_cases h1 : g.name = p!"mask"
  · rw [if_pos h1]
    refine ⟨hr, fun x hx => ?_⟩
    simp only [h1, if_true] at hx
    exact hx
  rw [if_neg h1]
  by_cases h2 : g.name = p!"task_owner"
  · rw [if_pos h2]
    refine ⟨hr, fun x hx => ?_⟩
    simp only [if_neg h1] at hx
    rw [if_neg (by rw [h2]; decide), if_pos h2] at hx
    exact node_held hx
  rw [if_neg h2]
  by_cases h3 : g.name = p!"market_type"
  · rw [if_pos h3]
    refine ⟨hr, fun x hx => ?_⟩
    simp only [if_neg h1, if_pos h3] at hx
    exact hx
  rw [if_neg h3]
  refine ⟨hr, fun x hx => ?_⟩
  simp only [if_neg h1, if_neg h2, if_neg h3] at hx
  refine (hiff x hx.1).mp ⟨hx.2 vs hs, x, ?_⟩
  simp only [contHook, if_neg h1, if_neg h2, if_neg h3]

/-- What the constructors establish from data holds everywhere. -/
theorem arrived_everywhere {E : Env} {Q : Cls → Attrs → Prop}
    (hQ : ∀ c as, Arrived E c as → Q c as) {c : Cls} {as : Attrs} (h : Arrived E c as)
    (ty ts enc sig : Val) : Everywhere Q (.msg c ty ts enc sig as) := by
  induction h generalizing ty ts enc sig with
  | mk c attrs names fields slots heads nested ih =>
    refine .mk _ _ _ _ _ _ (hQ _ _ (.mk c attrs names fields slots heads nested)) ?_
    intro name sd x hs hx
    have hl := msgSlots_lookup.mp hs
    have hp : name ∈ c.payload := msgSlot_payload hs
    have hm : (name, getAttr attrs name) ∈ attrs := mem_getAttr (by rw [names]; exact hp)
    have hmsg : isMsg sd.cls x = true := by
      rcases slots name sd _ hm hl with h | ⟨h, _⟩
      · unfold SlotOk at h
        split at h
        · obtain ⟨l, e, _, hall⟩ := h
          rw [e] at hx
          exact hall x hx
        · rcases h with ⟨e, _⟩ | h
          · rw [e] at hx; cases hx
          · obtain ⟨ty, ts, enc, sig, as, e⟩ := isMsg_cases h
            rw [e] at hx
            simp only [members, List.mem_singleton] at hx
            rw [hx, ← e]; exact h
      · rw [h] at hx; cases hx
    obtain ⟨ty, ts, enc, sig, as, rfl⟩ := isMsg_cases hmsg
    exact ih name sd _ ty ts enc sig as hm hl hx ty ts enc sig

end Verif
