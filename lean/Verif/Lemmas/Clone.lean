import Verif.Lemmas.WireSlots
/-! # Slots that did not travel are read back

The counterpart of `Lemmas/Wire.lean`, `WireItems.lean` and `WireSlots.lean` for slots that are
given to a constructor as `slots()` made them (`factories/helpers.py:29-38`), with the frozen
dictionaries, enum members and tuples that encoding would have replaced. -/

set_option linter.unusedSimpArgs false

namespace Verif.Clone

open Spec

/-- Rebuilding a container from its dictionary. -/
theorem rebuild {E : Env} {hook : PStr → Val → Res Val} {c : ContId} {fs : Attrs}
    (hf : fs.map Prod.fst = c.slots.map Prod.fst)
    (h : ∀ k vs v, (k, vs) ∈ c.slots → (k, v) ∈ fs →
      ∃ y, toDictV c k v = .ok y ∧ contDeser E hook c k vs y = .ok v) :
    ∃ d, toDictF c fs = .ok d ∧ contCall E hook c (.dict d) = .ok (.cont c fs) ∧
      (Val.dict d).truthy = true := by
  let g : PStr → Val → Val := fun k v => match toDictV c k v with
    | .ok y => y
    | .error _ => .none
  have hmem : ∀ k v, (k, v) ∈ fs → ∃ vs, (k, vs) ∈ c.slots := by
    intro k v hm
    have : k ∈ c.slots.map Prod.fst := by rw [← hf]; exact List.mem_map.mpr ⟨_, hm, rfl⟩
    obtain ⟨⟨k', vs⟩, hm', e⟩ := List.mem_map.mp this
    simp only at e
    subst e
    exact ⟨vs, hm'⟩
  have hg : ∀ k v, (k, v) ∈ fs → toDictV c k v = .ok (g k v) := by
    intro k v hm
    obtain ⟨vs, hvs⟩ := hmem k v hm
    obtain ⟨y, hy, _⟩ := h k vs v hvs hm
    show _ = Except.ok (match toDictV c k v with | .ok y => y | .error _ => .none)
    rw [hy]
  have htrip : ∀ k vs v, (k, vs) ∈ c.slots → (k, v) ∈ fs →
      contDeser E hook c k vs (g k v) = .ok v := by
    intro k vs v hs hm
    obtain ⟨y, hy, hd⟩ := h k vs v hs hm
    rw [hg k v hm] at hy
    injection hy with hy
    rw [hy]; exact hd
  have hkw : (fs.map fun p => (p.1, g p.1 p.2)).map Prod.fst = c.slots.map Prod.fst := by
    rw [List.map_map, ← hf]; rfl
  refine ⟨_, toDictF_of hg, ?_, dict_truthy hkw⟩
  refine contCall_of hkw hf ?_
  intro k vs v hs hm
  have hl : lookupName k (fs.map fun p => (p.1, g p.1 p.2)) = some (g k v) :=
    lookupName_of_mem (by rw [hkw]; exact slots_nodup c) (List.mem_map.mpr ⟨(k, v), hm, rfl⟩)
  rw [contField_present hl]
  exact htrip k vs v hs hm

/-- A field that comes off the wire as it was written is also read when it did not travel. -/
theorem of_trip {y : Val} {f : Val → Res Val} {x : Val} (h : Trip y f x) (hy : y.wireNorm = y) :
    f y = .ok x := by
  have := h.2
  rwa [hy] at this

theorem same_none {E : Env} {hook : PStr → Val → Res Val} {c : ContId} {k : PStr}
    {vs : List Validator} (h : k ∉ c.required) :
    ∃ y, toDictV c k .none = .ok y ∧ contDeser E hook c k vs y = .ok .none :=
  ⟨_, toDictV_none, contDeser_none h⟩

/-- A field that keeps its data. -/
theorem same_data {E : Env} {hook : PStr → Val → Res Val} {c : ContId} {k : PStr}
    {vs : List Validator} {x : Val} (hs : (k, vs) ∈ c.slots) (h : DataField E c k x)
    (hc : callsToDict c k = false) (ht : toDictLeaf c k x = .ok x.unEnum)
    (hh : hook k x = .ok x) :
    ∃ y, toDictV c k x = .ok y ∧ contDeser E hook c k vs y = .ok x := by
  obtain ⟨h1, h2⟩ := h
  have hu := unEnum_id (data_not_enum h1)
  refine ⟨x, toDictV_keep hc (by rw [ht, hu]), ?_⟩
  unfold contDeser
  split
  · rfl
  · rw [runAll_ok (u := ()) |>.mpr (h2 vs hs)]
    exact hh

/-- Classes whose fields are all data. -/
theorem simple {E : Env} {c : ContId} {v : Val}
    (hc : c = .node ∨ c = .blockIoStats ∨ c = .memoryStats ∨ c = .pidStats)
    (h : SimpleOk E c v) :
    ∃ fs d, v = .cont c fs ∧ toDictF c fs = .ok d ∧ leafCall E c (.dict d) = .ok v ∧
      (Val.dict d).truthy = true := by
  obtain ⟨fs, rfl, hn, hf⟩ := h
  have := rebuild (E := E) (hook := leafHook E c) hn (fun k vs x hs hm => by
    rcases hf k x hm with ⟨rfl, hr⟩ | hd
    · exact same_none hr
    · rcases hc with rfl | rfl | rfl | rfl <;> exact same_data hs hd rfl rfl rfl)
  obtain ⟨d, h1, h2, h3⟩ := this
  exact ⟨fs, d, rfl, h1, h2, h3⟩

/-- Frozen dictionaries of data. -/
theorem frozen {E : Env} {c : FDictId} {v : Val} (h : DictOk E c v)
    (hs : p!"self" ∉ c.items.map Prod.fst) (hne : c.items ≠ []) (hp : c ≠ .peer) :
    v.truthy = true ∧ fdCall E c v = .ok v ∧ mkFDict E c v = .ok v := by
  obtain ⟨items, rfl, hd, hv⟩ := h
  obtain ⟨h1, h2⟩ := declared_items hd (fun k x hm => (hv k x hm).1)
  have hi := fdict_truthy hd hne
  refine ⟨?_, ?_, ?_⟩
  · simp only [Val.truthy]
    cases items with
    | nil => exact absurd rfl hi
    | cons a b => rfl
  · unfold fdCall kwargsOf Val.asDict
    simp only [textKeys_map]
    have : (lookupName p!"self" items).isSome = false := by
      cases hl : (lookupName p!"self" items).isSome
      · rfl
      · exact absurd (h1.known _ ((lookupName_isSome _ _).mp hl)) hs
    simp only [this, Bool.false_eq_true, if_false]
    exact fdBuild_of h1 h2 (fun k v _ => rfl)
  · unfold mkFDict fdArg Val.asDict
    simp only
    have : fdConv E c = noConv := by cases c <;> first | rfl | exact absurd rfl hp
    rw [this]
    exact fdBuild_of h1 h2 (fun k v _ => rfl)

theorem cpu_field {E : Env} {k : PStr} {vs : List Validator} {x : Val}
    (hs : (k, vs) ∈ ContId.slots .cpuStats)
    (h : (k = p!"cpu_usage" ∧ DictOk E .cpuUsage x) ∨
      (k = p!"throttling_data" ∧ DictOk E .throttlingData x)) :
    ∃ y, toDictV .cpuStats k x = .ok y ∧
      contDeser E (leafHook E .cpuStats) .cpuStats k vs y = .ok x := by
  have hvs : vs = [.dict] := by
    simp only [ContId.slots, List.mem_cons, Prod.mk.injEq, List.mem_nil_iff, or_false] at hs
    rcases hs with h | h <;> exact h.2
  subst hvs
  have key : ∀ c : FDictId, DictOk E c x → p!"self" ∉ c.items.map Prod.fst → c.items ≠ [] →
      c ≠ .peer → (∀ w, leafHook E .cpuStats k w = if w.truthy then fdCall E c w else .ok .none) →
      ∃ y, toDictV .cpuStats k x = .ok y ∧
        contDeser E (leafHook E .cpuStats) .cpuStats k [.dict] y = .ok x := by
    intro c hx h1 h2 h3 hh
    obtain ⟨t1, t2, _⟩ := frozen hx h1 h2 h3
    obtain ⟨items, e, _⟩ := hx
    refine ⟨x, toDictV_keep rfl ?_, ?_⟩
    · simp only [toDictLeaf, t1, if_true]
      rw [e]; rfl
    · unfold contDeser
      rw [if_neg (by rw [e]; simp)]
      have : runAll E [.dict] k x = .ok () := by
        rw [runAll_ok]
        intro w hw
        simp only [List.mem_singleton] at hw
        subst hw
        rw [e]; rfl
      rw [this, hh, if_pos t1]
      exact t2
  rcases h with ⟨rfl, h⟩ | ⟨rfl, h⟩
  · exact key _ h (by decide) (by decide) (by decide) (fun w => by simp [leafHook])
  · exact key _ h (by decide) (by decide) (by decide) (fun w => by
      have hne : p!"throttling_data" ≠ p!"cpu_usage" := by decide
      simp [leafHook, if_neg hne])

theorem cpu {E : Env} {v : Val} (h : CpuOk E v) :
    ∃ fs d, v = .cont .cpuStats fs ∧ toDictF .cpuStats fs = .ok d ∧
      leafCall E .cpuStats (.dict d) = .ok v ∧ (Val.dict d).truthy = true := by
  obtain ⟨fs, rfl, hn, hf⟩ := h
  have := rebuild (E := E) (hook := leafHook E .cpuStats) hn (fun k vs x hs hm => by
    rcases hf k x hm with ⟨rfl, hr⟩ | hd
    · exact same_none hr
    · exact cpu_field hs hd)
  obtain ⟨d, h1, h2, h3⟩ := this
  exact ⟨fs, d, rfl, h1, h2, h3⟩

/-- A nested container field. -/
theorem nested_field {E : Env} {hook : PStr → Val → Res Val} {c c' : ContId} {k : PStr}
    {x : Val} {fs : Attrs} {d : List (Val × Val)} (hc : callsToDict c k = true)
    (hx : x = .cont c' fs) (hd : toDictF c' fs = .ok d)
    (ht : leafCall E c' (.dict d) = .ok x) (h1 : (Val.dict d).truthy = true)
    (hh : ∀ d', (Val.dict d').truthy = true → hook k (.dict d') = leafCall E c' (.dict d')) :
    ∃ y, toDictV c k x = .ok y ∧ contDeser E hook c k [.isDictOr c'] y = .ok x := by
  refine ⟨.dict d, ?_, ?_⟩
  · subst hx
    unfold toDictV
    rw [if_pos hc, hd]
  · unfold contDeser
    rw [if_neg (by simp)]
    have : runAll E [.isDictOr c'] k (.dict d) = .ok () := by
      rw [runAll_ok]
      intro w hw
      simp only [List.mem_singleton] at hw
      subst hw
      rfl
    rw [this]
    simp only
    rw [hh _ h1]
    exact ht

theorem stats {E : Env} {v : Val} (h : StatsOk E v) :
    ∃ d, toDict v = .ok (.dict d) ∧ mkCont E .providerStats (.dict d) = .ok v := by
  obtain ⟨fs, rfl, hn, hf⟩ := h
  have := rebuild (E := E) (hook := contHook E .providerStats) hn (fun k vs x hs hm => by
    rcases hf k x hm with ⟨rfl, hr⟩ | hd
    · exact same_none hr
    · obtain ⟨c, hc, hvs⟩ := statsClass_slot hs
      subst hvs
      have hh : ∀ d', (Val.dict d').truthy = true →
          contHook E .providerStats k (.dict d') = leafCall E c (.dict d') := by
        intro d' hd'
        simp only [contHook, hc, hd', if_true]
      have hcall : callsToDict .providerStats k = true := by simp [callsToDict, hc]
      have fin : (∃ fs d, x = .cont c fs ∧ toDictF c fs = .ok d ∧
          leafCall E c (.dict d) = .ok x ∧ (Val.dict d).truthy = true) →
          ∃ y, toDictV .providerStats k x = .ok y ∧
            contDeser E (contHook E .providerStats) .providerStats k [.isDictOr c] y = .ok x := by
        rintro ⟨fs', d, e, h1, h2, h3⟩
        exact nested_field hcall e h1 h2 h3 hh
      rcases hd with ⟨rfl, hx⟩ | ⟨rfl, hx⟩ | ⟨rfl, hx⟩ | ⟨rfl, hx⟩ <;>
        (have hc' := hc; simp only [statsClass] at hc') <;>
        first
        | (injection (show some ContId.blockIoStats = some c from hc) with e; subst e
           exact fin (simple (by simp) hx))
        | (injection (show some ContId.cpuStats = some c from hc) with e; subst e
           exact fin (cpu hx))
        | (injection (show some ContId.memoryStats = some c from hc) with e; subst e
           exact fin (simple (by simp) hx))
        | (injection (show some ContId.pidStats = some c from hc) with e; subst e
           exact fin (simple (by simp) hx)))
  obtain ⟨d, h1, h2, _⟩ := this
  exact ⟨d, by unfold toDict; simp only [h1], h2⟩

theorem header_field {E : Env} {k : PStr} {vs : List Validator} {x : Val}
    (hs : (k, vs) ∈ ContId.slots .taskHeader)
    (h : if k = p!"mask" then ∃ b, x = .mask b
      else if k = p!"market_type" then ∃ s ∈ EnumId.marketType.values, x = .enum .marketType s
      else if k = p!"task_owner" then SimpleOk E .node x
      else DataField E .taskHeader k x) :
    ∃ y, toDictV .taskHeader k x = .ok y ∧
      contDeser E (contHook E .taskHeader) .taskHeader k vs y = .ok x := by
  by_cases k2 : k = p!"mask"
  · obtain ⟨y, h1, h2⟩ := Verif.header_field hs h
    rw [if_pos k2] at h
    obtain ⟨b, rfl⟩ := h
    refine ⟨y, h1, of_trip h2 ?_⟩
    subst k2
    rw [toDictV_leaf (by intro _ _ h; cases h)] at h1
    simp [toDictLeaf] at h1
    subst h1; rfl
  by_cases k3 : k = p!"market_type"
  · obtain ⟨y, h1, h2⟩ := Verif.header_field hs h
    rw [if_neg k2, if_pos k3] at h
    obtain ⟨s, hsv, rfl⟩ := h
    refine ⟨y, h1, of_trip h2 ?_⟩
    subst k3
    rw [toDictV_leaf (by intro _ _ h; cases h)] at h1
    simp [toDictLeaf, Val.unEnum] at h1
    subst h1; rfl
  rw [if_neg k2, if_neg k3] at h
  by_cases k1 : k = p!"task_owner"
  · rw [if_pos k1] at h
    subst k1
    have hvs : vs = [.isDictOr .node] := by
      simp only [ContId.slots, List.mem_cons, Prod.mk.injEq, List.mem_nil_iff, or_false] at hs
      simpa using hs
    subst hvs
    obtain ⟨fs', d, e, h1, h2, h3⟩ := simple (by simp) h
    exact nested_field rfl e h1 h2 h3 (fun d' _ => by simp [contHook])
  rw [if_neg k1] at h
  refine same_data hs h (by simp [callsToDict, k1]) ?_ ?_
  · simp only [toDictLeaf, if_neg k2]
  · simp only [contHook, if_neg k1, if_neg k2, if_neg k3]

theorem header {E : Env} {v : Val} (h : HeaderOk E v) :
    (∃ fs, v = .cont .taskHeader fs) ∧ ∃ d, toDict v = .ok (.dict d) ∧
      mkCont E .taskHeader (.dict d) = .ok v := by
  obtain ⟨fs, rfl, hn, hf⟩ := h
  have := rebuild (E := E) (hook := contHook E .taskHeader) hn (fun k vs x hs hm => by
    rcases hf k x hm with ⟨rfl, hr⟩ | hd
    · exact same_none hr
    · exact header_field hs hd)
  obtain ⟨d, h1, h2, _⟩ := this
  refine ⟨⟨fs, rfl⟩, d, ?_, h2⟩
  unfold toDict; simp only [h1]

theorem node {E : Env} {v : Val} (h : SimpleOk E .node v) :
    ∃ fs d, v = .cont .node fs ∧ toDict v = .ok (.dict d) ∧
      leafCall E .node (.dict d) = .ok v ∧ mkCont E .node (.dict d) = .ok v ∧
      (Val.dict d).truthy = true := by
  obtain ⟨fs, d, rfl, h1, h2, h3⟩ := simple (by simp) h
  exact ⟨fs, d, rfl, by unfold toDict; simp only [h1], h2, by rw [mkCont_leaf rfl]; exact h2, h3⟩

theorem peer {E : Env} {v : Val} (h : PeerOk E v) :
    ∃ y, serPeer v = .ok y ∧ mkFDict E .peer y = .ok v := by
  obtain ⟨items, rfl, hd, hv⟩ := h
  obtain ⟨h1, h2⟩ := declared_items hd (fun k x hm => (hv k x hm).1)
  have hmem : p!"node" ∈ items.map Prod.fst := h2 _ (by decide)
  have hnode := mem_getAttr hmem
  have hlook := lookupName_of_mem hd.1 hnode
  have hsimple := (hv _ _ hnode).2
  rw [if_pos rfl] at hsimple
  obtain ⟨fs, d, e, hdict, hcall, _, _⟩ := node hsimple
  have huniq : ∀ x, (p!"node", x) ∈ items → x = getAttr items p!"node" := fun x hm =>
    (getAttr_of_mem hd.1 hm).symm
  refine ⟨.dict ((setName p!"node" (.dict d) items).map fun kv => (.str kv.1, kv.2)), ?_, ?_⟩
  · unfold serPeer
    simp only [hlook, hdict]
  · rw [setName_map hd.1 hmem]
    unfold mkFDict fdArg Val.asDict
    simp only [fdConv]
    rw [List.map_map]
    refine fdBuild_conv (g := fun k v => if k = p!"node" then Val.dict d else v) h1 h2 ?_
    intro k x hm
    simp only [peerConv]
    by_cases hk : k = p!"node"
    · subst hk
      simp only [if_true, Val.asDict, Option.isSome_some, and_self]
      rw [huniq x hm]
      exact hcall
    · simp only [if_neg hk]
      rw [if_neg (fun h => hk h.1)]

theorem setName_same {n : PStr} {w : Val} : ∀ {items : Attrs}, (n, w) ∈ items →
    (items.map Prod.fst).Nodup → setName n w items = items
  | (k, v) :: rest, hm, hn => by
    simp only [List.map_cons, List.nodup_cons] at hn
    unfold setName
    rcases List.mem_cons.mp hm with e | hm
    · injection e with e1 e2
      subst e1 e2
      simp
    · have : ¬ k = n := by rintro rfl; exact hn.1 (List.mem_map.mpr ⟨_, hm, rfl⟩)
      rw [if_neg this, setName_same hm hn.2]

theorem file {E : Env} {v : Val} (h : FileOk E v) : deserFileInfo E v = .ok v := by
  obtain ⟨items, rfl, hd, hv⟩ := h
  obtain ⟨h1, h2⟩ := declared_items hd (fun k x hm => (hv k x hm).1)
  have hmem : p!"category" ∈ items.map Prod.fst := h2 _ (by decide)
  have hcat := mem_getAttr hmem
  obtain ⟨s, hs, e⟩ : ∃ s ∈ EnumId.ftCategory.values,
      getAttr items p!"category" = .enum .ftCategory s := (hv _ _ hcat).1 rfl
  have hmk : mkFDict E .fileInfo (.fdict .fileInfo items) = .ok (.fdict .fileInfo items) := by
    unfold mkFDict fdArg Val.asDict
    simp only [fdConv]
    exact fdBuild_of h1 h2 (fun k v _ => rfl)
  unfold deserFileInfo
  simp only
  split
  · rename_i m hl
    have hm : m = getAttr items p!"category" := by
      rw [e] at hl ⊢
      simp only [EnumId.lookup] at hl
      split at hl <;> simp_all
    subst hm
    have : fdSetV E (fdConv E .fileInfo) .fileInfo items (.str p!"category")
        (getAttr items p!"category") = .ok items := by
      unfold fdSetV
      simp only [fdConv, noConv]
      unfold fdSet
      rw [h1.valid _ _ hcat]
      simp only
      rw [if_pos (by decide), setName_same hcat hd.1]
    rw [this]
    exact hmk
  · exact hmk

/-- Element-wise. -/
theorem list_same {ser f : Val → Res Val} {P : Val → Prop}
    (h : ∀ x, P x → ∃ y, ser x = .ok y ∧ f y = .ok x) :
    ∀ {l : List Val}, (∀ x ∈ l, P x) → ∃ r, mapRes ser l = .ok r ∧ mapRes f r = .ok l
  | [], _ => ⟨[], rfl, rfl⟩
  | x :: xs, hl => by
    obtain ⟨y, h1, h3⟩ := h x (hl x (by simp))
    obtain ⟨r, h4, h6⟩ := list_same h (l := xs) (fun z hz => hl z (by simp [hz]))
    refine ⟨y :: r, ?_, ?_⟩
    · unfold mapRes; rw [h1]; simp only; rw [h4]
    · unfold mapRes; rw [h3]; simp only; rw [h6]

end Verif.Clone
