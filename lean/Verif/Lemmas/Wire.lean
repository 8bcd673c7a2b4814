import Verif.Lemmas.Plain
import Verif.Lemmas.ContRoundTrip
import Verif.Lemmas.FDict
import Verif.Spec.RoundTrip
/-! # Containers and dictionaries survive the wire -/

set_option linter.unusedSimpArgs false

namespace Verif

open Spec

/-- `y` can be encoded, and reading its decoded form with `f` gives `x`. -/
def Trip (y : Val) (f : Val → Res Val) (x : Val) : Prop :=
  y.wireOk = true ∧ f y.wireNorm = .ok x

theorem data_wire {v : Val} (h : Data v) : v.wireOk = true ∧ v.wireNorm = v :=
  wired_data v h

theorem wireNormL_map (l : List Val) : Val.wireNormL l = l.map Val.wireNorm := by
  induction l with
  | nil => rfl
  | cons x xs ih => simp only [Val.wireNormL, ih, List.map_cons]

theorem wireOkL_all (l : List Val) : Val.wireOkL l = true ↔ ∀ x ∈ l, x.wireOk = true := by
  induction l with
  | nil => simp [Val.wireOkL]
  | cons x xs ih => simp [Val.wireOkL, ih]

theorem wireNormD_map (kw : Attrs) :
    Val.wireNormD (kw.map fun p => (.str p.1, p.2)) =
      (kw.map fun p => (p.1, p.2.wireNorm)).map fun p => (.str p.1, p.2) := by
  induction kw with
  | nil => rfl
  | cons x xs ih => simp only [List.map_cons, Val.wireNormD, ih, Val.wireNorm]

theorem wireNormF_map (kw : Attrs) :
    Val.wireNormF kw = (kw.map fun p => (p.1, p.2.wireNorm)).map fun p => (.str p.1, p.2) := by
  induction kw with
  | nil => rfl
  | cons x xs ih => simp only [List.map_cons, Val.wireNormF, ih]

theorem wireOkD_names {kw : Attrs} (h : ∀ k x, (k, x) ∈ kw → x.wireOk = true) :
    Val.wireOkD (kw.map fun p => (.str p.1, p.2)) = true := by
  induction kw with
  | nil => rfl
  | cons p xs ih =>
    simp only [List.map_cons, Val.wireOkD, Bool.and_eq_true]
    exact ⟨⟨rfl, h p.1 p.2 (by simp)⟩, ih (fun k x hm => h k x (List.mem_cons_of_mem _ hm))⟩

theorem wireOkF_names {kw : Attrs} (h : ∀ k x, (k, x) ∈ kw → x.wireOk = true) :
    Val.wireOkF kw = true := by
  induction kw with
  | nil => rfl
  | cons p xs ih =>
    obtain ⟨k, v⟩ := p
    simp only [Val.wireOkF, Bool.and_eq_true]
    exact ⟨h k v (by simp), ih (fun k x hm => h k x (List.mem_cons_of_mem _ hm))⟩

theorem keysOk_names {kw : Attrs} (h : (kw.map Prod.fst).Nodup) :
    keysOk (kw.map fun p => (Val.str p.1, p.2)) = true := by
  induction kw with
  | nil => rfl
  | cons p xs ih =>
    simp only [List.map_cons, List.nodup_cons] at h
    simp only [List.map_cons, keysOk, Bool.and_eq_true]
    refine ⟨⟨rfl, ?_⟩, ih h.2⟩
    rw [List.all_eq_true]
    intro kv hkv
    obtain ⟨q, hq, rfl⟩ := List.mem_map.mp hkv
    simp only [Bool.not_eq_true']
    cases hx : (Val.str p.1).keyEq (.str q.1) with
    | false => rfl
    | true =>
      rw [keyEq_str] at hx
      injection hx with hx
      exact absurd (List.mem_map.mpr ⟨q, hq, hx.symm⟩) h.1

/-- A dictionary with text keys on the wire. -/
theorem dict_wire {kw : Attrs} (hn : (kw.map Prod.fst).Nodup)
    (h : ∀ k x, (k, x) ∈ kw → x.wireOk = true) :
    (Val.dict (kw.map fun p => (.str p.1, p.2))).wireOk = true ∧
    (Val.dict (kw.map fun p => (.str p.1, p.2))).wireNorm =
      .dict ((kw.map fun p => (p.1, p.2.wireNorm)).map fun p => (.str p.1, p.2)) := by
  simp only [Val.wireOk, Val.wireNorm, wireNormD_map, Bool.and_eq_true]
  refine ⟨⟨wireOkD_names h, keysOk_names ?_⟩, trivial⟩
  rw [List.map_map]; exact hn

/-- A frozen dictionary on the wire. -/
theorem fdict_wire {c : FDictId} {kw : Attrs} (hn : (kw.map Prod.fst).Nodup)
    (h : ∀ k x, (k, x) ∈ kw → x.wireOk = true) :
    (Val.fdict c kw).wireOk = true ∧
    (Val.fdict c kw).wireNorm =
      .dict ((kw.map fun p => (p.1, p.2.wireNorm)).map fun p => (.str p.1, p.2)) := by
  simp only [Val.wireOk, Val.wireNorm, wireNormF_map, Bool.and_eq_true]
  refine ⟨⟨wireOkF_names h, keysOk_names ?_⟩, trivial⟩
  rw [List.map_map]; exact hn

theorem map_norm_data {kw : Attrs} (h : ∀ k x, (k, x) ∈ kw → Data x) :
    (kw.map fun p => (p.1, p.2.wireNorm)) = kw := by
  induction kw with
  | nil => rfl
  | cons p xs ih =>
    obtain ⟨k, v⟩ := p
    simp only [List.map_cons]
    rw [ih (fun k x hm => h k x (List.mem_cons_of_mem _ hm)), (data_wire (h k v (by simp))).2]

/-- Rebuilding a container from its dictionary as it comes off the wire. -/
theorem rebuild_wire {E : Env} {hook : PStr → Val → Res Val} {c : ContId} {fs : Attrs}
    (hf : fs.map Prod.fst = c.slots.map Prod.fst)
    (h : ∀ k vs v, (k, vs) ∈ c.slots → (k, v) ∈ fs →
      ∃ y, toDictV c k v = .ok y ∧ Trip y (contDeser E hook c k vs) v) :
    ∃ d, toDictF c fs = .ok d ∧ Trip (.dict d) (contCall E hook c) (.cont c fs) ∧
      (Val.dict d).wireNorm.truthy = true ∧ (Val.dict d).wireNorm.asDict.isSome = true := by
  let g : PStr → Val → Val := fun k v => match toDictV c k v with
    | .ok y => y
    | .error _ => .none
  have hmem : ∀ k v, (k, v) ∈ fs → ∃ vs, (k, vs) ∈ c.slots := by
    intro k v hm
    have : k ∈ c.slots.map Prod.fst := by rw [← hf]; exact List.mem_map.mpr ⟨_, hm, rfl⟩
    obtain ⟨⟨k', vs⟩, hm', e⟩ := List.mem_map.mp this
    simp only at e
    subst e
    exact ⟨vs, hm'⟩
  have hg : ∀ k v, (k, v) ∈ fs → toDictV c k v = .ok (g k v) := by
    intro k v hm
    obtain ⟨vs, hvs⟩ := hmem k v hm
    obtain ⟨y, hy, _⟩ := h k vs v hvs hm
    show _ = Except.ok (match toDictV c k v with | .ok y => y | .error _ => .none)
    rw [hy]
  have htrip : ∀ k vs v, (k, vs) ∈ c.slots → (k, v) ∈ fs →
      Trip (g k v) (contDeser E hook c k vs) v := by
    intro k vs v hs hm
    obtain ⟨y, hy, hd⟩ := h k vs v hs hm
    rw [hg k v hm] at hy
    injection hy with hy
    rw [hy]; exact hd
  have hkw : (fs.map fun p => (p.1, g p.1 p.2)).map Prod.fst = c.slots.map Prod.fst := by
    rw [List.map_map, ← hf]; rfl
  obtain ⟨w1, w2⟩ := dict_wire (kw := fs.map fun p => (p.1, g p.1 p.2))
    (by rw [hkw]; exact slots_nodup c) (by
      intro k x hm
      obtain ⟨⟨k', v⟩, hm', e⟩ := List.mem_map.mp hm
      injection e with e1 e2
      subst e1 e2
      obtain ⟨vs, hvs⟩ := hmem k' v hm'
      exact (htrip k' vs v hvs hm').1)
  have hkw2 : ((fs.map fun p => (p.1, g p.1 p.2)).map fun p => (p.1, p.2.wireNorm)).map Prod.fst =
      c.slots.map Prod.fst := by
    rw [List.map_map, ← hkw]; rfl
  refine ⟨_, toDictF_of hg, ⟨w1, ?_⟩, ?_, ?_⟩
  · rw [w2]
    refine contCall_of hkw2 hf ?_
    intro k vs v hs hm
    have hl : lookupName k ((fs.map fun p => (p.1, g p.1 p.2)).map fun p => (p.1, p.2.wireNorm)) =
        some (g k v).wireNorm :=
      lookupName_of_mem (by rw [hkw2]; exact slots_nodup c)
        (List.mem_map.mpr ⟨(k, g k v), List.mem_map.mpr ⟨(k, v), hm, rfl⟩, rfl⟩)
    rw [contField_present hl]
    exact (htrip k vs v hs hm).2
  · rw [w2]; exact dict_truthy hkw2
  · rw [w2]; rfl

theorem trip_none {E : Env} {hook : PStr → Val → Res Val} {c : ContId} {k : PStr}
    {vs : List Validator} (h : k ∉ c.required) :
    ∃ y, toDictV c k .none = .ok y ∧ Trip y (contDeser E hook c k vs) .none :=
  ⟨_, toDictV_none, rfl, contDeser_none h⟩

theorem data_not_enum {v : Val} (h : Data v) : ∀ e s, v ≠ .enum e s := by
  rintro e s rfl; simp [Data, data] at h

/-- A field that keeps its data. -/
theorem trip_data {E : Env} {hook : PStr → Val → Res Val} {c : ContId} {k : PStr}
    {vs : List Validator} {x : Val} (hs : (k, vs) ∈ c.slots) (h : DataField E c k x)
    (hc : callsToDict c k = false) (ht : toDictLeaf c k x = .ok x.unEnum)
    (hh : hook k x = .ok x) :
    ∃ y, toDictV c k x = .ok y ∧ Trip y (contDeser E hook c k vs) x := by
  obtain ⟨h1, h2⟩ := h
  have hu := unEnum_id (data_not_enum h1)
  refine ⟨x, toDictV_keep hc (by rw [ht, hu]), (data_wire h1).1, ?_⟩
  rw [(data_wire h1).2]
  unfold contDeser
  split
  · rfl
  · rw [runAll_ok (u := ()) |>.mpr (h2 vs hs)]
    exact hh

/-- Classes whose fields are all data. -/
theorem simple_wire {E : Env} {c : ContId} {v : Val}
    (hc : c = .node ∨ c = .blockIoStats ∨ c = .memoryStats ∨ c = .pidStats)
    (h : SimpleOk E c v) :
    ∃ fs d, v = .cont c fs ∧ toDictF c fs = .ok d ∧ Trip (.dict d) (leafCall E c) v ∧
      (Val.dict d).wireNorm.truthy = true ∧ (Val.dict d).wireNorm.asDict.isSome = true := by
  obtain ⟨fs, rfl, hn, hf⟩ := h
  have := rebuild_wire (E := E) (hook := leafHook E c) hn (fun k vs x hs hm => by
    rcases hf k x hm with ⟨rfl, hr⟩ | hd
    · exact trip_none hr
    · rcases hc with rfl | rfl | rfl | rfl <;> exact trip_data hs hd rfl rfl rfl)
  obtain ⟨d, h1, h2, h3, h4⟩ := this
  exact ⟨fs, d, rfl, h1, h2, h3, h4⟩

theorem declared_items {E : Env} {c : FDictId} {items : Attrs} (hd : DeclaredKeys c items)
    (hv : ∀ k x, (k, x) ∈ items → itemOk E c k x) :
    ItemsOk E c items ∧ ∀ k ∈ c.items.map Prod.fst, k ∈ items.map Prod.fst :=
  ⟨⟨hd.1, fun k hk => (hd.2 k).mp hk, fun k x hm => (itemOk_iff E c k x).mpr (hv k x hm)⟩,
    fun k hk => (hd.2 k).mpr hk⟩

theorem fdict_truthy {c : FDictId} {items : Attrs} (hd : DeclaredKeys c items) (hne : c.items ≠ []) :
    items ≠ [] := by
  rintro rfl
  cases hc : c.items with
  | nil => exact hne hc
  | cons a b =>
    have := (hd.2 a.1).mpr (by rw [← keys_listed, hc]; simp)
    simp at this

/-- Frozen dictionaries of data. -/
theorem fdict_trip {E : Env} {c : FDictId} {v : Val} (h : DictOk E c v)
    (hs : p!"self" ∉ c.items.map Prod.fst) (hne : c.items ≠ []) (hp : c ≠ .peer) :
    v.truthy = true ∧ Trip v (fdCall E c) v ∧ Trip v (mkFDict E c) v ∧
      v.wireNorm.truthy = true ∧ ∃ d, v.wireNorm = .dict d := by
  obtain ⟨items, rfl, hd, hv⟩ := h
  obtain ⟨h1, h2⟩ := declared_items hd (fun k x hm => (hv k x hm).1)
  have hdata : ∀ k x, (k, x) ∈ items → Data x := fun k x hm => (hv k x hm).2
  obtain ⟨w1, w2⟩ := fdict_wire (c := c) hd.1 (fun k x hm => (data_wire (hdata k x hm)).1)
  rw [map_norm_data hdata] at w2
  have hi := fdict_truthy hd hne
  have ht : ∀ {α} {l : List α}, l ≠ [] → (!l.isEmpty) = true := by
    intro α l hl; cases l with
    | nil => exact absurd rfl hl
    | cons a b => rfl
  refine ⟨ht hi, ⟨w1, ?_⟩, ⟨w1, ?_⟩, ?_, ⟨_, w2⟩⟩
  · rw [w2]
    unfold fdCall kwargsOf Val.asDict
    simp only [textKeys_map]
    have : (lookupName p!"self" items).isSome = false := by
      cases hl : (lookupName p!"self" items).isSome
      · rfl
      · exact absurd (h1.known _ ((lookupName_isSome _ _).mp hl)) hs
    simp only [this, Bool.false_eq_true, if_false]
    exact fdBuild_of h1 h2 (fun k v _ => rfl)
  · rw [w2]
    unfold mkFDict fdArg Val.asDict
    simp only
    have : fdConv E c = noConv := by cases c <;> first | rfl | exact absurd rfl hp
    rw [this]
    exact fdBuild_of h1 h2 (fun k v _ => rfl)
  · rw [w2]; exact ht (by simpa using hi)

theorem cpu_field {E : Env} {k : PStr} {vs : List Validator} {x : Val}
    (hs : (k, vs) ∈ ContId.slots .cpuStats)
    (h : (k = p!"cpu_usage" ∧ DictOk E .cpuUsage x) ∨
      (k = p!"throttling_data" ∧ DictOk E .throttlingData x)) :
    ∃ y, toDictV .cpuStats k x = .ok y ∧
      Trip y (contDeser E (leafHook E .cpuStats) .cpuStats k vs) x := by
  have hvs : vs = [.dict] := by
    simp only [ContId.slots, List.mem_cons, Prod.mk.injEq, List.mem_nil_iff, or_false] at hs
    rcases hs with h | h <;> exact h.2
  subst hvs
  have key : ∀ c : FDictId, DictOk E c x → p!"self" ∉ c.items.map Prod.fst → c.items ≠ [] →
      c ≠ .peer → (∀ w, leafHook E .cpuStats k w = if w.truthy then fdCall E c w else .ok .none) →
      ∃ y, toDictV .cpuStats k x = .ok y ∧
        Trip y (contDeser E (leafHook E .cpuStats) .cpuStats k [.dict]) x := by
    intro c hx h1 h2 h3 hh
    obtain ⟨t1, ⟨t2, t3⟩, _, t5, d, t6⟩ := fdict_trip hx h1 h2 h3
    obtain ⟨items, e, _⟩ := hx
    refine ⟨x, toDictV_keep rfl ?_, t2, ?_⟩
    · simp only [toDictLeaf, t1, if_true]
      rw [e]; rfl
    · unfold contDeser
      rw [if_neg (by rw [t6]; simp)]
      have : runAll E [.dict] k x.wireNorm = .ok () := by
        rw [runAll_ok]
        intro w hw
        simp only [List.mem_singleton] at hw
        subst hw
        rw [t6]; rfl
      rw [this, hh, if_pos t5]
      exact t3
  rcases h with ⟨rfl, h⟩ | ⟨rfl, h⟩
  · exact key _ h (by decide) (by decide) (by decide) (fun w => by simp [leafHook])
  · exact key _ h (by decide) (by decide) (by decide) (fun w => by
      have hne : p!"throttling_data" ≠ p!"cpu_usage" := by decide
      simp [leafHook, if_neg hne])

theorem cpu_wire {E : Env} {v : Val} (h : CpuOk E v) :
    ∃ fs d, v = .cont .cpuStats fs ∧ toDictF .cpuStats fs = .ok d ∧
      Trip (.dict d) (leafCall E .cpuStats) v ∧
      (Val.dict d).wireNorm.truthy = true ∧ (Val.dict d).wireNorm.asDict.isSome = true := by
  obtain ⟨fs, rfl, hn, hf⟩ := h
  have := rebuild_wire (E := E) (hook := leafHook E .cpuStats) hn (fun k vs x hs hm => by
    rcases hf k x hm with ⟨rfl, hr⟩ | hd
    · exact trip_none hr
    · exact cpu_field hs hd)
  obtain ⟨d, h1, h2, h3, h4⟩ := this
  exact ⟨fs, d, rfl, h1, h2, h3, h4⟩

/-- A nested container field. -/
theorem nested_field {E : Env} {hook : PStr → Val → Res Val} {c c' : ContId} {k : PStr}
    {x : Val} {fs : Attrs} {d : List (Val × Val)} (hc : callsToDict c k = true)
    (hx : x = .cont c' fs) (hd : toDictF c' fs = .ok d)
    (ht : Trip (.dict d) (leafCall E c') x) (h1 : (Val.dict d).wireNorm.truthy = true)
    (hh : ∀ d', (Val.dict d').truthy = true → hook k (.dict d') = leafCall E c' (.dict d')) :
    ∃ y, toDictV c k x = .ok y ∧ Trip y (contDeser E hook c k [.isDictOr c']) x := by
  refine ⟨.dict d, ?_, ht.1, ?_⟩
  · subst hx
    unfold toDictV
    rw [if_pos hc, hd]
  · have he : (Val.dict d).wireNorm = .dict (Val.wireNormD d) := by simp only [Val.wireNorm]
    have ht2 := ht.2
    rw [he] at h1 ht2 ⊢
    unfold contDeser
    rw [if_neg (by simp)]
    have : runAll E [.isDictOr c'] k (.dict (Val.wireNormD d)) = .ok () := by
      rw [runAll_ok]
      intro w hw
      simp only [List.mem_singleton] at hw
      subst hw
      rfl
    rw [this]
    simp only
    rw [hh _ h1]
    exact ht2

theorem stats_wire {E : Env} {v : Val} (h : StatsOk E v) :
    ∃ d, toDict v = .ok d ∧ Trip d (mkCont E .providerStats) v ∧ d.wireNorm ≠ .none := by
  obtain ⟨fs, rfl, hn, hf⟩ := h
  have := rebuild_wire (E := E) (hook := contHook E .providerStats) hn (fun k vs x hs hm => by
    rcases hf k x hm with ⟨rfl, hr⟩ | hd
    · exact trip_none hr
    · obtain ⟨c, hc, hvs⟩ := statsClass_slot hs
      subst hvs
      have hh : ∀ d', (Val.dict d').truthy = true →
          contHook E .providerStats k (.dict d') = leafCall E c (.dict d') := by
        intro d' hd'
        simp only [contHook, hc, hd', if_true]
      have hcall : callsToDict .providerStats k = true := by simp [callsToDict, hc]
      have fin : (∃ fs d, x = .cont c fs ∧ toDictF c fs = .ok d ∧
          Trip (.dict d) (leafCall E c) x ∧ (Val.dict d).wireNorm.truthy = true ∧
          (Val.dict d).wireNorm.asDict.isSome = true) →
          ∃ y, toDictV .providerStats k x = .ok y ∧
            Trip y (contDeser E (contHook E .providerStats) .providerStats k [.isDictOr c]) x := by
        rintro ⟨fs', d, e, h1, h2, h3, _⟩
        exact nested_field hcall e h1 h2 h3 hh
      rcases hd with ⟨rfl, hx⟩ | ⟨rfl, hx⟩ | ⟨rfl, hx⟩ | ⟨rfl, hx⟩ <;>
        (have hc' := hc; simp only [statsClass] at hc') <;>
        first
        | (injection (show some ContId.blockIoStats = some c from hc) with e; subst e
           exact fin (simple_wire (by simp) hx))
        | (injection (show some ContId.cpuStats = some c from hc) with e; subst e
           exact fin (cpu_wire hx))
        | (injection (show some ContId.memoryStats = some c from hc) with e; subst e
           exact fin (simple_wire (by simp) hx))
        | (injection (show some ContId.pidStats = some c from hc) with e; subst e
           exact fin (simple_wire (by simp) hx)))
  obtain ⟨d, h1, h2, h3, h4⟩ := this
  refine ⟨.dict d, ?_, h2, ?_⟩
  · unfold toDict; simp only [h1]
  · intro e; rw [e] at h4; cases h4

theorem header_field {E : Env} {k : PStr} {vs : List Validator} {x : Val}
    (hs : (k, vs) ∈ ContId.slots .taskHeader)
    (h : if k = p!"mask" then ∃ b, x = .mask b
      else if k = p!"market_type" then ∃ s ∈ EnumId.marketType.values, x = .enum .marketType s
      else if k = p!"task_owner" then SimpleOk E .node x
      else DataField E .taskHeader k x) :
    ∃ y, toDictV .taskHeader k x = .ok y ∧
      Trip y (contDeser E (contHook E .taskHeader) .taskHeader k vs) x := by
  have hs' := hs
  by_cases k2 : k = p!"mask"
  · rw [if_pos k2] at h
    obtain ⟨b, rfl⟩ := h
    subst k2
    have hvs : vs = [.isBytes] := by
      simp only [ContId.slots, List.mem_cons, Prod.mk.injEq, List.mem_nil_iff, or_false] at hs
      simpa using hs
    subst hvs
    refine ⟨.bytes b, ?_, rfl, ?_⟩
    · rw [toDictV_leaf (by intro _ _ h; cases h)]
      simp [toDictLeaf]
    · have k1 : p!"mask" ≠ p!"task_owner" := by decide
      show contDeser E _ _ _ _ (.bytes b) = _
      unfold contDeser
      rw [if_neg (by simp)]
      simp only [runAll, Validator.run, Validator.accepts, if_true, contHook, if_neg k1]
  rw [if_neg k2] at h
  by_cases k3 : k = p!"market_type"
  · rw [if_pos k3] at h
    obtain ⟨s, hsv, rfl⟩ := h
    subst k3
    have hvs : vs = [] := by
      simp only [ContId.slots, List.mem_cons, Prod.mk.injEq, List.mem_nil_iff, or_false] at hs
      simpa using hs
    subst hvs
    refine ⟨.str s, ?_, rfl, ?_⟩
    · rw [toDictV_leaf (by intro _ _ h; cases h)]
      simp [toDictLeaf, Val.unEnum]
    · have k1 : p!"market_type" ≠ p!"task_owner" := by decide
      show contDeser E _ _ _ _ (.str s) = _
      unfold contDeser
      rw [if_neg (by simp)]
      simp only [runAll, contHook, if_neg k1, if_neg k2, if_true]
      simp [EnumId.lookup, hsv]
  rw [if_neg k3] at h
  by_cases k1 : k = p!"task_owner"
  · rw [if_pos k1] at h
    subst k1
    have hvs : vs = [.isDictOr .node] := by
      simp only [ContId.slots, List.mem_cons, Prod.mk.injEq, List.mem_nil_iff, or_false] at hs
      simpa using hs
    subst hvs
    obtain ⟨fs', d, e, h1, h2, h3, _⟩ := simple_wire (by simp) h
    exact nested_field rfl e h1 h2 h3 (fun d' _ => by simp [contHook])
  rw [if_neg k1] at h
  refine trip_data hs h (by simp [callsToDict, k1]) ?_ ?_
  · simp only [toDictLeaf, if_neg k2]
  · simp only [contHook, if_neg k1, if_neg k2, if_neg k3]

theorem header_wire {E : Env} {v : Val} (h : HeaderOk E v) :
    (∃ fs, v = .cont .taskHeader fs) ∧ ∃ d, toDict v = .ok (.dict d) ∧
      Trip (.dict d) (mkCont E .taskHeader) v := by
  obtain ⟨fs, rfl, hn, hf⟩ := h
  have := rebuild_wire (E := E) (hook := contHook E .taskHeader) hn (fun k vs x hs hm => by
    rcases hf k x hm with ⟨rfl, hr⟩ | hd
    · exact trip_none hr
    · exact header_field hs hd)
  obtain ⟨d, h1, h2, h3, h4⟩ := this
  refine ⟨⟨fs, rfl⟩, d, ?_, h2⟩
  unfold toDict; simp only [h1]

theorem node_wire {E : Env} {v : Val} (h : SimpleOk E .node v) :
    ∃ fs d, v = .cont .node fs ∧ toDict v = .ok (.dict d) ∧ (Val.dict d).wireOk = true ∧
      leafCall E .node (.dict (Val.wireNormD d)) = .ok v ∧
      mkCont E .node (.dict (Val.wireNormD d)) = .ok v ∧
      (Val.dict (Val.wireNormD d)).truthy = true := by
  obtain ⟨fs, d, rfl, h1, h2, h3, _⟩ := simple_wire (by simp) h
  have he : (Val.dict d).wireNorm = .dict (Val.wireNormD d) := by simp only [Val.wireNorm]
  have h2' := h2.2
  rw [he] at h2' h3
  exact ⟨fs, d, rfl, by unfold toDict; simp only [h1], h2.1, h2', by rw [mkCont_leaf rfl]; exact h2', h3⟩

end Verif
