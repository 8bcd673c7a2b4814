import Verif.Lemmas.Arrived
import Verif.Lemmas.Keyed
import Verif.Lemmas.MessageFactories
/-!
# What factories make of what is drawn
-/

set_option linter.unusedSimpArgs false

namespace Verif

open Spec

/-- The values of the arguments are data. -/
def DataArgs (kw : Attrs) : Prop := ∀ k v, (k, v) ∈ kw → Data v

theorem data_sub {kw : Attrs} (n : PStr) (h : DataArgs kw) : DataArgs (subArgs n kw) := by
  intro k v hm
  unfold subArgs at hm
  obtain ⟨kv, hkv, e⟩ := List.mem_filterMap.mp hm
  split at e
  · injection e with e
    injection e with _ e
    subst e
    exact h _ _ hkv
  · cases e

theorem data_extra {kw : Attrs} (r : List PStr) (h : DataArgs kw) : DataArgs (extraArgs r kw) :=
  fun k v hm => h k v (List.mem_filter.mp hm).1

theorem data_given {kw : Attrs} {n : PStr} {r : Res Val} {v : Val} (hk : DataArgs kw)
    (hr : ∀ x, r = .ok x → Data x) (h : given kw n r = .ok v) : Data v := by
  unfold given at h
  split at h
  · rename_i x hx
    injection h with h
    subst h
    exact hk _ _ (mem_of_lookupName hx)
  · exact hr v h

theorem data_merge {a kw : Attrs} (ha : DataArgs a) (hk : DataArgs kw) : DataArgs (mergeArgs a kw) := by
  intro k v hm
  unfold mergeArgs at hm
  rcases List.mem_append.mp hm with e | e
  · exact ha k v (List.mem_filter.mp e).1
  · exact hk k v e

theorem pairs_inj {L kw : Attrs}
    (h : (Val.dict (L.map fun p => (.str p.1, p.2))).asDict = some (kw.map fun p => (.str p.1, p.2))) :
    kw = L := by
  unfold Val.asDict at h
  injection h with h
  have hi : ∀ a b : PStr × Val, ((Val.str a.1, a.2) : Val × Val) = (.str b.1, b.2) → a = b := by
    rintro ⟨a1, a2⟩ ⟨b1, b2⟩ e
    injection e with e1 e2
    injection e1 with e1
    subst e1 e2
    rfl
  exact (List.map_inj_right (fun a b e => hi a b e)).mp h.symm

/-- A made node. -/
theorem node_made {E : Env} {name : PStr} {kw : Attrs} {v : Val} (hk : DataArgs kw)
    (h : nodeFactory E name kw = .ok v) : SimpleOk E .node v := by
  unfold nodeFactory at h
  simp only [bind, Except.bind] at h
  split at h
  · cases h
  rename_i x1 hx1
  split at h
  · cases h
  rename_i x2 hx2
  have d1 := data_given hk (by intro x e; injection e with e; subst e; rfl) hx1
  have d2 := data_given hk (by intro x e; injection e with e; subst e; rfl) hx2
  rw [mkCont_leaf (by rfl)] at h
  refine contCall_fields (Q := fun _ x => Data x) (fun kw' hd k x hm => ?_) h
    (fun k vs hs _ => simple_default (by simp) E k vs hs) ?_
  · rw [pairs_inj hd] at hm
    simp only [List.cons_append, List.nil_append, List.mem_cons, Prod.mk.injEq] at hm
    rcases hm with ⟨_, rfl⟩ | ⟨_, rfl⟩ | hm
    · exact d1
    · exact d2
    · exact data_extra _ hk k x hm
  · intro k vs y x hs hy _ ha hx
    have : leafHook E .node k y = .ok y := rfl
    rw [this] at hx
    cases hx
    exact Or.inr (data_field hs hy ha)

/-- The dictionary of an owner. -/
theorem owner_made {E : Env} {name : PStr} {key v : Val} (hkey : Data key) (h : fakeOwner E name key = .ok v) :
    Data v := by
  unfold fakeOwner at h
  simp only [bind, Except.bind] at h
  split at h
  · cases h
  rename_i n hn
  have hok : SimpleOk E .node n := node_made (name := name) (kw := [(p!"key", key)])
    (by intro k v hm; simp only [List.mem_singleton, Prod.mk.injEq] at hm; rw [hm.2]; exact hkey)
    (by unfold nodeFactory; exact hn)
  obtain ⟨fs, rfl, hnames, hf⟩ := hok
  unfold toDict at h
  simp only at h
  have hdat : ∀ k x, (k, x) ∈ fs → Data x := fun k x hm => by
    rcases hf k x hm with ⟨rfl, _⟩ | e
    · rfl
    · exact e.1
  rw [toDictF_of (g := fun _ x => x)] at h
  · injection h with h
    subst h
    rw [dictData_iff]
    have hm : ∀ k x, (k, x) ∈ ((fs.map fun p => (p.1, p.2)).map fun p => ((Val.str p.1, p.2) : Val × Val)) →
        ∃ k', k = .str k' ∧ (k', x) ∈ fs := by
      intro k x hm
      obtain ⟨p, hp, e⟩ := List.mem_map.mp hm
      obtain ⟨q, hq, e'⟩ := List.mem_map.mp hp
      subst e'
      injection e with e1 e2
      subst e1 e2
      exact ⟨_, rfl, hq⟩
    refine ⟨fun k x h => ?_, fun k x h => ?_, ?_⟩
    · obtain ⟨k', _, h'⟩ := hm k x h
      exact hdat k' x h'
    · obtain ⟨k', rfl, h'⟩ := hm k x h
      rfl
    · have := distinct_str (fs := fs) (by rw [hnames]; exact slots_nodup .node)
      rw [List.map_map, List.map_map]
      exact this
  · intro k x hm
    have hx := hdat k x hm
    cases x <;> first | rfl | simp [Data, data] at hx

/-- A signed header. -/
theorem signed_header {E : Env} {fs fs' : Attrs} {priv : Bytes} (h : HeaderOk E (.cont .taskHeader fs))
    (hs : headerSign E fs priv = .ok fs') : HeaderOk E (.cont .taskHeader fs') := by
  unfold headerSign at hs
  split at hs
  · cases hs
  split at hs
  · cases hs
  rename_i b _
  injection hs with hs
  subst hs
  obtain ⟨fs0, e, hn, hf⟩ := h
  injection e with _ e
  subst e
  have hmem : p!"signature" ∈ fs.map Prod.fst := by rw [hn]; decide
  refine ⟨_, rfl, by rw [setName_names _ _ _ hmem, hn], fun k x hm => ?_⟩
  rcases setName_mem hm with ⟨rfl, rfl⟩ | hm
  · right
    dsimp only
    rw [if_neg (by decide), if_neg (by decide), if_neg (by decide)]
    refine ⟨rfl, fun vs hvs w hw => ?_⟩
    have : vs = [.isBytes] := by
      simp only [ContId.slots, List.mem_cons, Prod.mk.injEq, List.mem_nil_iff, or_false] at hvs
      simpa using hvs
    subst this
    simp only [List.mem_singleton] at hw
    subst hw
    rfl
  · exact hf k x hm

/-- A made header. -/
theorem header_made {E : Env} {d : HeaderDraw} {kw : Attrs} {v : Val} (hk : DataArgs kw)
    (h : headerFactory E d kw = .ok v) : HeaderOk E v := by
  unfold headerFactory at h
  simp only [bind, Except.bind] at h
  split at h
  · cases h
  rename_i x0 h0
  split at h
  · cases h
  rename_i x1 h1
  split at h
  · cases h
  rename_i x2 h2
  split at h
  · cases h
  rename_i x3 h3
  split at h
  · cases h
  rename_i x4 h4
  split at h
  · cases h
  rename_i x5 h5
  split at h
  · cases h
  rename_i x6 h6
  split at h
  · cases h
  rename_i x7 h7
  split at h
  · cases h
  rename_i x8 h8
  split at h
  · cases h
  rename_i x9 h9
  split at h
  · cases h
  rename_i x10 h10
  split at h
  · cases h
  rename_i x11 h11
  split at h
  · cases h
  rename_i x12 h12
  split at h
  · cases h
  rename_i x13 h13
  split at h
  · cases h
  rename_i hd hhd
  have d0 := data_given hk (by
    intro x e
    cases he : encodeHex (.bytes d.key) with
    | error _ => rw [he] at e; cases e
    | ok s => rw [he] at e; cases e; rfl) h0
  have d1 := data_given hk (by intro x e; cases e; rfl) h1
  have d2 := data_given hk (by intro x e; cases e; rfl) h2
  have d3 := data_given hk (by
    intro x e
    cases he : fakeGolemUuid d.uuid x0 with
    | error _ => rw [he] at e; cases e
    | ok s => rw [he] at e; cases e; rfl) h3
  have d5 := data_given hk (fun x e => owner_made d0 e) h5
  have d6 := data_given hk (by intro x e; cases e; rfl) h6
  have d7 := data_given hk (by intro x e; cases e; rfl) h7
  have d8 := data_given hk (by intro x e; cases e; rfl) h8
  have d9 := data_given hk (by intro x e; cases e; rfl) h9
  have d10 := data_given hk (by intro x e; cases e; rfl) h10
  have d11 := data_given hk (by intro x e; cases e; rfl) h11
  have d12 := data_given hk (by intro x e; cases e; rfl) h12
  have d13 := data_given hk (by intro x e; cases e; rfl) h13
  have hok : HeaderOk E hd := by
    refine header_fields (fun kw' hdict k x hm hmk => ?_) hhd
    rw [pairs_inj hdict] at hm
    simp only [List.cons_append, List.nil_append, List.mem_cons, Prod.mk.injEq] at hm
    rcases hm with ⟨_, rfl⟩ | ⟨_, rfl⟩ | ⟨_, rfl⟩ | ⟨rfl, rfl⟩ | ⟨_, rfl⟩ | ⟨_, rfl⟩ | ⟨_, rfl⟩ | ⟨_, rfl⟩ |
      ⟨_, rfl⟩ | ⟨_, rfl⟩ | ⟨_, rfl⟩ | ⟨_, rfl⟩ | ⟨_, rfl⟩ | hm
    all_goals first
      | assumption
      | exact absurd rfl hmk
      | exact data_extra _ hk k x hm
  split at h
  · cases h
  rename_i o ho
  cases o with
  | none =>
    split at h
    · rename_i e; cases e
    · injection h with h; subst h; exact hok
  | some priv =>
    split at h
    · rename_i fs p e
      cases he : headerSign E fs p with
      | error _ => rw [he] at h; cases h
      | ok fs' =>
        rw [he] at h
        injection h with h
        subst h
        exact signed_header hok he
    · injection h with h; subst h; exact hok

/-- A made description of a file; only its category may be no data. -/
theorem file_made {E : Env} {d : Draws} {path : List PStr} {kw : Attrs} {v : Val}
    (hk : ∀ k x, (k, x) ∈ kw → k ≠ p!"category" → Data x) (h : fileFactory E d path kw = .ok v) :
    FileOk E v := by
  unfold fileFactory at h
  simp only [bind, Except.bind] at h
  split at h
  · cases h
  rename_i x0 h0
  split at h
  · cases h
  rename_i x1 h1
  split at h
  · cases h
  rename_i x2 h2
  have lit : ∀ {n : PStr} {w x : Val}, n ≠ p!"category" → Data w → given kw n (.ok w) = .ok x → Data x := by
    intro n w x hn hw e
    unfold given at e
    split at e
    · rename_i y hy
      injection e with e
      subst e
      exact hk _ _ (mem_of_lookupName hy) hn
    · injection e with e
      subst e
      exact hw
  have d0 := lit (by decide) (w := .str _) rfl h0
  have d1 := lit (by decide) (w := .str _) rfl h1
  have d2 := lit (by decide) (w := .int _) rfl h2
  unfold mkFDict fdArg Val.asDict at h
  simp only [fdConv] at h
  obtain ⟨items, rfl, hd, hi⟩ := fdBuild_every (P := fun k x => k ≠ p!"category" → Data x)
    (fun k v v' hm e => by
      unfold noConv at e
      cases e
      intro hn
      obtain ⟨p, hp, e⟩ := List.mem_map.mp hm
      injection e with e1 e2
      injection e1 with e1
      subst e1 e2
      simp only [List.cons_append, List.nil_append, List.mem_cons] at hp
      rcases hp with rfl | rfl | rfl | hp
      · exact d0
      · exact d1
      · exact d2
      · exact hk p.1 p.2 (List.mem_filter.mp hp).1 hn)
    (fun k v v' hm e => by
      unfold noConv at e; cases e
      simp only [FDictId.items, List.mem_cons, List.not_mem_nil, or_false, Prod.mk.injEq] at hm
      rcases hm with ⟨rfl, rfl⟩ | ⟨rfl, rfl⟩ | ⟨rfl, rfl⟩ | ⟨rfl, rfl⟩
      · exact fun _ => rfl
      · exact fun _ => rfl
      · exact fun _ => rfl
      · exact fun h => absurd rfl h) h
  exact ⟨items, rfl, hd, hi⟩

private theorem blender_data : data (.dict (blenderExtra.map fun kv => (.str kv.1, kv.2))) = true := by
  decide +kernel

/-- A made task definition. -/
theorem def_made {E : Env} {d : DefDraw} {kw : Attrs} {v : Val} (hk : DataArgs kw)
    (h : defFactory E d kw = .ok v) : DictOk E .computeTaskDef v := by
  unfold defFactory at h
  simp only [bind, Except.bind] at h
  split at h
  · cases h
  rename_i x0 h0
  split at h
  · cases h
  rename_i x1 h1
  split at h
  · cases h
  rename_i x2 h2
  split at h
  · cases h
  rename_i x3 h3
  split at h
  · cases h
  rename_i x4 h4
  have d0 := data_given hk (by intro x e; cases e; rfl) h0
  have d1 := data_given hk (by intro x e; cases e; rfl) h1
  have d2 := data_given hk (by intro x e; cases e; rfl) h2
  have d3 := data_given hk (by intro x e; cases e; exact blender_data) h3
  have d4 := data_given hk (by intro x e; cases e; rfl) h4
  unfold mkFDict fdArg Val.asDict at h
  simp only at h
  refine fdBuild_data (by decide) (fun k v hm => ?_) h
  obtain ⟨p, hp, e⟩ := List.mem_map.mp hm
  injection e with e1 e2
  subst e2
  simp only [List.cons_append, List.nil_append, List.mem_cons] at hp
  rcases hp with rfl | rfl | rfl | rfl | rfl | hp
  · exact d0
  · exact d1
  · exact d2
  · exact d3
  · exact d4
  · exact data_extra _ hk p.1 p.2 hp

/-- Another id in a task definition. -/
theorem def_set {E : Env} {items items' : Attrs} {key : PStr} {v : Val}
    (h : DictOk E .computeTaskDef (.fdict .computeTaskDef items)) (hv : Data v)
    (hs : fdSetV E (fdConv E .computeTaskDef) .computeTaskDef items (.str key) v = .ok items') :
    DictOk E .computeTaskDef (.fdict .computeTaskDef items') := by
  obtain ⟨items0, e, hd, hi⟩ := h
  injection e with _ e
  subst e
  obtain ⟨hio, hfull⟩ := declared_items hd (fun k x hm => (hi k x hm).1)
  obtain ⟨h1, h2, _⟩ := fdSetV_inv hio hs
  obtain ⟨k, v', e1, e2, _, _, e5⟩ := fdSetV_ok hs
  subst e5
  refine ⟨_, rfl, ⟨h1.nodup, fun x => ⟨h1.known x, fun hx => h2 x (hfull x hx)⟩⟩, fun x y hm =>
    ⟨(itemOk_iff E _ x y).mp (h1.valid x y hm), ?_⟩⟩
  rcases setName_mem hm with ⟨_, rfl⟩ | hm
  · have : fdConv E .computeTaskDef k v = .ok v := rfl
    rw [this] at e2
    injection e2 with e2
    subst e2
    exact hv
  · exact (hi x y hm).2

end Verif
