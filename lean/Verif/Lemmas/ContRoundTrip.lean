import Verif.Lemmas.Cont
import Verif.Spec.Data
/-! # Containers survive `to_dict` and reconstruction -/

set_option linter.unusedSimpArgs false

namespace Verif

open Spec

/-- The container classes without nested containers. -/
def ContId.leaf : ContId → Bool
  | .taskHeader | .providerStats => false
  | _ => true

theorem leaf_required {c : ContId} (h : c.leaf = true) : c.required = [] := by
  cases c <;> first | rfl | cases h

theorem contHook_leaf {E : Env} {c : ContId} (h : c.leaf = true) : contHook E c = leafHook E c := by
  funext k v
  cases c <;> first | rfl | cases h

theorem mkCont_leaf {E : Env} {c : ContId} (h : c.leaf = true) (v : Val) :
    mkCont E c v = leafCall E c v := by
  unfold mkCont leafCall
  rw [contHook_leaf h]

theorem contDeser_none {E : Env} {hook : PStr → Val → Res Val} {c : ContId} {k : PStr}
    {vs : List Validator} (h : k ∉ c.required) : contDeser E hook c k vs .none = .ok .none := by
  unfold contDeser
  rw [if_pos ⟨rfl, h⟩]

theorem fdCall_again {E : Env} {c : FDictId} {v x : Val} (h : fdCall E c v = .ok x)
    (hs : p!"self" ∉ c.items.map Prod.fst) (hne : c.items ≠ []) :
    (∃ items, x = .fdict c items) ∧ x.truthy = true ∧ fdCall E c x = .ok x := by
  unfold fdCall at h
  split at h
  · cases h
  obtain ⟨items, hx, hi, hfull, _⟩ := fdBuild_ok h
  subst hx
  refine ⟨⟨items, rfl⟩, ?_, ?_⟩
  · unfold Val.truthy
    cases items with
    | nil =>
      cases hc : c.items with
      | nil => exact absurd hc hne
      | cons a b =>
        have := hfull a.1 (by rw [hc]; simp)
        simp at this
    | cons a b => rfl
  · unfold fdCall kwargsOf Val.asDict
    simp only [textKeys_map]
    have : (lookupName p!"self" items).isSome = false := by
      cases hl : (lookupName p!"self" items).isSome
      · rfl
      · exact absurd (hi.known _ ((lookupName_isSome _ _).mp hl)) hs
    simp only [this, Bool.false_eq_true, if_false]
    exact fdBuild_of hi hfull (fun k v _ => rfl)

theorem cpuHook {E : Env} {k : PStr} {vs : List Validator} {v x : Val}
    (hs : (k, vs) ∈ ContId.slots .cpuStats)
    (h : leafHook E .cpuStats k v = .ok x) :
    x = .none ∨ ((∃ c items, x = .fdict c items) ∧ x.truthy = true ∧ leafHook E .cpuStats k x = .ok x) := by
  simp only [ContId.slots, List.mem_cons, Prod.mk.injEq, List.mem_nil_iff, or_false] at hs
  rcases hs with ⟨e, _⟩ | ⟨e, _⟩
  · subst e
    unfold leafHook at h ⊢
    simp only [if_true] at h ⊢
    split at h
    · obtain ⟨⟨i, h1⟩, h2, h3⟩ := fdCall_again h (by decide) (by decide)
      exact Or.inr ⟨⟨_, i, h1⟩, h2, by rw [if_pos h2]; exact h3⟩
    · injection h with h; exact Or.inl h.symm
  · subst e
    have hne : p!"throttling_data" ≠ p!"cpu_usage" := by decide
    unfold leafHook at h ⊢
    simp only [if_neg hne, if_true] at h ⊢
    split at h
    · obtain ⟨⟨i, h1⟩, h2, h3⟩ := fdCall_again h (by decide) (by decide)
      exact Or.inr ⟨⟨_, i, h1⟩, h2, by rw [if_pos h2]; exact h3⟩
    · injection h with h; exact Or.inl h.symm

theorem toDictLeaf_none {c : ContId} {k : PStr} : toDictLeaf c k .none = .ok .none := by
  cases c <;> simp [toDictLeaf, Val.unEnum, Val.truthy]

theorem toDictV_none {c : ContId} {k : PStr} : toDictV c k .none = .ok .none := by
  rw [toDictV_leaf (by intro _ _ h; cases h)]; exact toDictLeaf_none

theorem leaf_calls {c : ContId} (h : c.leaf = true) (k : PStr) : callsToDict c k = false := by
  cases c <;> first | rfl | cases h

theorem leaf_stable {E : Env} {c : ContId} {kw : Attrs} {k : PStr} {vs : List Validator} {x : Val}
    (hl : c.leaf = true) (hs : (k, vs) ∈ c.slots)
    (h : contField E (leafHook E c) c kw k vs = .ok x) (he : ∀ e s, x ≠ .enum e s) :
    ∃ y, toDictV c k x = .ok y ∧ contDeser E (leafHook E c) c k vs y = .ok x := by
  have hreq : k ∉ c.required := by rw [leaf_required hl]; simp
  by_cases hx : x = .none
  · subst hx
    exact ⟨_, toDictV_none, contDeser_none hreq⟩
  unfold contField at h
  split at h
  · rw [if_neg hreq] at h
    injection h with h
    cases c <;> simp only [ContId.leaf] at hl <;> simp only [ContId.default] at h
    case node =>
      simp only [ContId.slots, List.mem_cons, Prod.mk.injEq, List.mem_nil_iff, or_false] at hs
      refine ⟨x, ?_, ?_⟩
      · refine toDictV_keep rfl ?_
        simp only [toDictLeaf]
        rw [unEnum_id he]
      · split at h
        · rename_i e; subst e
          have : vs = [] := by simpa using hs
          subst this; subst h
          simp [contDeser, runAll, leafHook]
        · split at h
          · rename_i e; subst e
            have : vs = [] := by simpa using hs
            subst this; subst h
            simp [contDeser, runAll, leafHook]
          · split at h
            · rename_i e; subst e
              have : vs = [] := by simpa using hs
              subst this; subst h
              simp [contDeser, runAll, leafHook]
            · exact absurd h.symm hx
    all_goals first | exact absurd h.symm hx | cases hl
  · rename_i v hv
    by_cases hc : c = .cpuStats
    · subst hc
      unfold contDeser at h
      split at h
      · rename_i hv0
        injection h with h
        exact absurd (h.symm.trans hv0.1) hx
      · rename_i hv0
        split at h
        · cases h
        · rename_i u hu
          rcases cpuHook hs h with e | ⟨⟨c', i, e⟩, h1, h2⟩
          · exact absurd e hx
          · refine ⟨x, ?_, ?_⟩
            · refine toDictV_keep rfl ?_
              simp only [toDictLeaf, if_pos h1]
              rw [unEnum_id he]
            · unfold contDeser
              rw [if_neg (fun e => hx e.1)]
              have : runAll E vs k x = .ok () := by
                rw [runAll_ok]
                simp only [ContId.slots, List.mem_cons, Prod.mk.injEq, List.mem_nil_iff,
                  or_false] at hs
                intro y hy
                have : vs = [Validator.dict] := by rcases hs with h | h <;> exact h.2
                rw [this] at hy
                simp only [List.mem_singleton] at hy
                rw [hy, e]
                rfl
              rw [this]
              exact h2
    · have hh : leafHook E c k v = .ok v := by
        unfold leafHook
        cases c <;> first | rfl | exact absurd rfl hc
      obtain ⟨e, h'⟩ := contDeser_idem hh h
      subst e
      refine ⟨x, toDictV_keep (leaf_calls hl k) ?_, h'⟩
      have : toDictLeaf c k x = .ok x.unEnum := by
        cases c <;> first | rfl | exact absurd rfl hc | cases hl
      rw [this, unEnum_id he]

theorem slots_ne_nil (c : ContId) : c.slots ≠ [] := by cases c <;> decide

theorem leaf_rebuild {E : Env} {c : ContId} {v : Val} {fs : Attrs} (hl : c.leaf = true)
    (h : leafCall E c v = .ok (.cont c fs)) (he : EnumFree fs) :
    ∃ kw : Attrs, toDictF c fs = .ok (kw.map fun p => (.str p.1, p.2)) ∧
      kw.map Prod.fst = c.slots.map Prod.fst ∧
      leafCall E c (.dict (kw.map fun p => (.str p.1, p.2))) = .ok (.cont c fs) := by
  obtain ⟨kw, fs', _, _, e, hn, _, hf⟩ := contCall_ok h
  injection e with _ e
  subst e
  refine rebuild hn fun k vs x hs hm => ?_
  obtain ⟨x', hx', hf'⟩ := hf k vs hs
  have hnd : (fs.map Prod.fst).Nodup := by rw [hn]; exact slots_nodup c
  have hxx : x' = x := (getAttr_of_mem hnd hx').symm.trans (getAttr_of_mem hnd hm)
  subst hxx
  refine leaf_stable hl hs hf' (he k x' hm ?_)
  intro hk
  have : p!"market_type" ∉ c.slots.map Prod.fst := by cases c <;> first | decide | cases hl
  exact this (hk ▸ List.mem_map.mpr ⟨_, hs, rfl⟩)

theorem leafCall_cont {E : Env} {c : ContId} {v x : Val} (h : leafCall E c v = .ok x) :
    ∃ fs, x = .cont c fs := by
  obtain ⟨kw, fs, _, _, e, _⟩ := contCall_ok h
  exact ⟨fs, e⟩

theorem statsClass_leaf {k : PStr} {c : ContId} (h : statsClass k = some c) : c.leaf = true := by
  unfold statsClass at h
  repeat' split at h
  all_goals first | cases h; rfl | cases h

theorem statsClass_slot {k : PStr} {vs : List Validator}
    (h : (k, vs) ∈ ContId.slots .providerStats) : ∃ c, statsClass k = some c ∧ vs = [.isDictOr c] := by
  simp only [ContId.slots, List.mem_cons, Prod.mk.injEq, List.mem_nil_iff, or_false] at h
  rcases h with ⟨e, e'⟩ | ⟨e, e'⟩ | ⟨e, e'⟩ | ⟨e, e'⟩ <;> subst e e' <;> exact ⟨_, rfl, rfl⟩

theorem dict_truthy {kw : Attrs} {c : ContId} (h : kw.map Prod.fst = c.slots.map Prod.fst) :
    (Val.dict (kw.map fun p => (.str p.1, p.2))).truthy = true := by
  cases kw with
  | nil =>
    cases hc : c.slots with
    | nil => exact absurd hc (slots_ne_nil c)
    | cons a b => rw [hc] at h; simp at h
  | cons a b => rfl

/-- A nested container field, as rebuilt from its dictionary. -/
theorem nested_rebuild {E : Env} {c c' : ContId} {k : PStr} {v : Val} {fs : Attrs}
    (hl : c'.leaf = true) (hc : callsToDict c k = true)
    (h : leafCall E c' v = .ok (.cont c' fs)) (he : EnumFree fs) :
    ∃ kw : Attrs, toDictV c k (.cont c' fs) = .ok (.dict (kw.map fun p => (.str p.1, p.2))) ∧
      (Val.dict (kw.map fun p => (.str p.1, p.2))).truthy = true ∧
      leafCall E c' (.dict (kw.map fun p => (.str p.1, p.2))) = .ok (.cont c' fs) := by
  obtain ⟨kw, h1, h2, h3⟩ := leaf_rebuild hl h he
  refine ⟨kw, ?_, dict_truthy h2, h3⟩
  unfold toDictV
  rw [if_pos hc, h1]

theorem stats_stable {E : Env} {kw : Attrs} {k : PStr} {vs : List Validator} {x : Val}
    (hs : (k, vs) ∈ ContId.slots .providerStats)
    (h : contField E (contHook E .providerStats) .providerStats kw k vs = .ok x)
    (he : ∀ c fs, x = .cont c fs → EnumFree fs) :
    ∃ y, toDictV .providerStats k x = .ok y ∧
      contDeser E (contHook E .providerStats) .providerStats k vs y = .ok x := by
  have hreq : k ∉ ContId.required .providerStats := by simp [ContId.required]
  by_cases hx : x = .none
  · subst hx
    exact ⟨_, toDictV_none, contDeser_none hreq⟩
  obtain ⟨c, hc, hvs⟩ := statsClass_slot hs
  subst hvs
  unfold contField at h
  split at h
  · rw [if_neg hreq] at h
    injection h with h
    exact absurd h.symm hx
  · rename_i v hv
    unfold contDeser at h
    split at h
    · rename_i hv0
      injection h with h
      exact absurd (h.symm.trans hv0.1) hx
    · split at h
      · cases h
      · simp only [contHook, hc] at h
        split at h
        · obtain ⟨fs, e⟩ := leafCall_cont h
          subst e
          obtain ⟨kw, h1, h2, h3⟩ := nested_rebuild (c := .providerStats) (k := k)
            (statsClass_leaf hc) (by simp [callsToDict, hc]) h (he _ _ rfl)
          refine ⟨_, h1, ?_⟩
          unfold contDeser
          rw [if_neg (by simp)]
          simp only [runAll, Validator.run, Validator.accepts, Val.asDict, Option.isSome_some,
            if_true, contHook, hc, h2]
          exact h3
        · injection h with h
          exact absurd h.symm hx

theorem header_stable {E : Env} {kw : Attrs} {k : PStr} {vs : List Validator} {x : Val}
    (hs : (k, vs) ∈ ContId.slots .taskHeader)
    (hw : ∀ fs, lookupName p!"task_owner" kw = some (.cont .node fs) →
      ∃ d, mkCont E .node d = .ok (.cont .node fs))
    (h : contField E (contHook E .taskHeader) .taskHeader kw k vs = .ok x)
    (hx : k ≠ p!"market_type" → ∀ e s, x ≠ .enum e s)
    (he : ∀ c fs, x = .cont c fs → EnumFree fs) :
    ∃ y, toDictV .taskHeader k x = .ok y ∧
      contDeser E (contHook E .taskHeader) .taskHeader k vs y = .ok x := by
  unfold contField at h
  split at h
  · split at h
    · cases h
    · rename_i hreq
      injection h with h
      simp only [ContId.default] at h
      subst h
      exact ⟨_, toDictV_none, contDeser_none hreq⟩
  rename_i v hv
  by_cases hv0 : v = .none ∧ k ∉ ContId.required .taskHeader
  · unfold contDeser at h
    rw [if_pos hv0] at h
    injection h with h
    rw [hv0.1] at h
    subst h
    exact ⟨_, toDictV_none, contDeser_none hv0.2⟩
  have hgo := h
  unfold contDeser at h
  rw [if_neg hv0] at h
  split at h
  · cases h
  rename_i u hu
  rw [runAll_ok] at hu
  by_cases k1 : k = p!"task_owner"
  · subst k1
    have hvs : vs = [.isDictOr .node] := by
      simp only [ContId.slots, List.mem_cons, Prod.mk.injEq, List.mem_nil_iff, or_false] at hs
      simpa using hs
    subst hvs
    have hfin : ∀ d fs, leafCall E .node d = .ok (.cont .node fs) → EnumFree fs →
        ∃ y, toDictV .taskHeader p!"task_owner" (.cont .node fs) = .ok y ∧
          contDeser E (contHook E .taskHeader) .taskHeader p!"task_owner" [.isDictOr .node] y =
            .ok (.cont .node fs) := by
      intro d fs hd hef
      obtain ⟨kw', h1, h2, h3⟩ := nested_rebuild (c := .taskHeader) (k := p!"task_owner")
        (c' := .node) rfl rfl hd hef
      refine ⟨_, h1, ?_⟩
      unfold contDeser
      rw [if_neg (by simp)]
      simp only [runAll, Validator.run, Validator.accepts, Val.asDict, Option.isSome_some,
        if_true, contHook]
      exact h3
    simp only [contHook, if_true] at h
    split at h
    · rename_i fs
      injection h with h
      subst h
      obtain ⟨d, hd⟩ := hw fs hv
      rw [mkCont_leaf rfl] at hd
      exact hfin d fs hd (he _ _ rfl)
    · obtain ⟨fs, e⟩ := leafCall_cont h
      subst e
      exact hfin v fs h (he _ _ rfl)
  by_cases k2 : k = p!"mask"
  · subst k2
    have hvs : vs = [.isBytes] := by
      simp only [ContId.slots, List.mem_cons, Prod.mk.injEq, List.mem_nil_iff, or_false] at hs
      simpa using hs
    subst hvs
    have := hu .isBytes (by simp)
    cases v <;> simp only [Validator.accepts, Bool.false_eq_true] at this
    rename_i b
    simp only [contHook, if_neg k1, if_true] at h
    injection h with h
    subst h
    refine ⟨.bytes b, ?_, ?_⟩
    · rw [toDictV_leaf (by intro _ _ h; cases h)]
      simp [toDictLeaf]
    · unfold contDeser
      rw [if_neg (by simp)]
      simp only [runAll, Validator.run, Validator.accepts, if_true, contHook, if_neg k1]
  by_cases k3 : k = p!"market_type"
  · subst k3
    have hvs : vs = [] := by
      simp only [ContId.slots, List.mem_cons, Prod.mk.injEq, List.mem_nil_iff, or_false] at hs
      simpa using hs
    subst hvs
    simp only [contHook, if_neg k1, if_neg k2, if_true] at h
    split at h
    · rename_i m hm
      injection h with h
      subst h
      obtain ⟨s, hs, e⟩ := enum_lookup_ok hm
      subst e
      refine ⟨.str s, ?_, ?_⟩
      · rw [toDictV_leaf (by intro _ _ h; cases h)]
        simp [toDictLeaf, Val.unEnum]
      · unfold contDeser
        rw [if_neg (by simp)]
        simp only [runAll, contHook, if_neg k1, if_neg k2, if_true]
        simp [EnumId.lookup, hs]
    · cases h
  have hh : contHook E .taskHeader k v = .ok v := by
    simp only [contHook, if_neg k1, if_neg k2, if_neg k3]
  obtain ⟨e, h'⟩ := contDeser_idem hh hgo
  subst e
  refine ⟨x, toDictV_keep (by simp [callsToDict, k1]) ?_, h'⟩
  simp only [toDictLeaf, if_neg k2]
  rw [unEnum_id (hx k3)]

theorem dictGet_textKeys (n : PStr) : ∀ kw : Attrs,
    dictGet (.str n) (kw.map fun p => (Val.str p.1, p.2)) = lookupName n kw
  | [] => rfl
  | (k, v) :: rest => by
    simp only [List.map_cons]
    unfold dictGet lookupName
    by_cases e : k = n
    · rw [if_pos e, if_pos ((keyEq_str _ _).mpr (by rw [e]))]
    · rw [if_neg e, if_neg (fun h => e (by have := (keyEq_str _ _).mp h; injection this))]
      exact dictGet_textKeys n rest

/-- Any container is rebuilt from its dictionary. -/
theorem mkCont_rebuild {E : Env} {c : ContId} {v : Val} {fs : Attrs}
    (h : mkCont E c v = .ok (.cont c fs))
    (hw : c = .taskHeader → ∀ d fs', v.asDict = some d →
      dictGet (.str p!"task_owner") d = some (.cont .node fs') →
      ∃ d', mkCont E .node d' = .ok (.cont .node fs'))
    (he : EnumFree fs) (hn : ∀ k c' fs', (k, .cont c' fs') ∈ fs → EnumFree fs') :
    ∃ kw : Attrs, toDictF c fs = .ok (kw.map fun p => (.str p.1, p.2)) ∧
      kw.map Prod.fst = c.slots.map Prod.fst ∧
      mkCont E c (.dict (kw.map fun p => (.str p.1, p.2))) = .ok (.cont c fs) := by
  by_cases hl : c.leaf = true
  · rw [mkCont_leaf hl] at h
    obtain ⟨kw, h1, h2, h3⟩ := leaf_rebuild hl h he
    exact ⟨kw, h1, h2, by rw [mkCont_leaf hl]; exact h3⟩
  obtain ⟨kw, fs', hd, _, e, hnames, _, hf⟩ := contCall_ok h
  injection e with _ e
  subst e
  refine rebuild hnames fun k vs x hs hm => ?_
  obtain ⟨x', hx', hf'⟩ := hf k vs hs
  have hnd : (fs.map Prod.fst).Nodup := by rw [hnames]; exact slots_nodup c
  have hxx : x' = x := (getAttr_of_mem hnd hx').symm.trans (getAttr_of_mem hnd hm)
  subst hxx
  cases c <;> simp only [ContId.leaf, not_true_eq_false] at hl
  case providerStats =>
    exact stats_stable hs hf' (fun c fs' e => hn k c fs' (e ▸ hm))
  case taskHeader =>
    refine header_stable hs ?_ hf' (he k x' hm) (fun c fs' e => hn k c fs' (e ▸ hm))
    intro fs' hl'
    refine hw rfl _ fs' hd ?_
    rw [dictGet_textKeys]; exact hl'

/-! ### Containers built from plain data -/

theorem plainD_mem {k x : Val} : ∀ {d : List (Val × Val)}, plainD d = true → (k, x) ∈ d →
    plain x = true
  | (a, b) :: rest, h, hm => by
    simp only [plainD, Bool.and_eq_true] at h
    rcases List.mem_cons.mp hm with e | e
    · injection e with _ e; rw [e]; exact h.1
    · exact plainD_mem h.2 e

theorem plain_asDict {v : Val} {d : List (Val × Val)} (hp : plain v = true)
    (h : v.asDict = some d) : ∀ k x, (k, x) ∈ d → plain x = true := by
  cases v <;> simp only [Val.asDict, reduceCtorEq, Option.some.injEq] at h
  case dict d' =>
    subst h
    simp only [plain, Bool.and_eq_true] at hp
    exact fun k x hm => plainD_mem hp.1.1 hm
  case fdict => simp [plain] at hp

theorem plain_not_lib {v : Val} (h : plain v = true) :
    (∀ e s, v ≠ .enum e s) ∧ ∀ c fs, v ≠ .cont c fs := by
  cases v <;> simp [plain] at h ⊢

/-- The keyword pairs of a plain value are plain. -/
theorem plain_kw {v : Val} {kw : Attrs} (hp : plain v = true)
    (h : v.asDict = some (kw.map fun p => (.str p.1, p.2))) :
    ∀ k x, lookupName k kw = some x → plain x = true := by
  intro k x hl
  exact plain_asDict hp h (.str k) x (List.mem_map.mpr ⟨(k, x), mem_of_lookupName hl, rfl⟩)

theorem default_not_lib (c : ContId) (k : PStr) :
    (∀ e s, c.default k ≠ .enum e s) ∧ ∀ c' fs, c.default k ≠ .cont c' fs := by
  unfold ContId.default
  cases c <;> simp
  constructor
  · intro e s
    repeat' split
    all_goals simp
  · intro e s
    repeat' split
    all_goals simp

/-- A leaf field built from plain data holds neither enumeration members nor containers. -/
theorem leaf_field_plain {E : Env} {c : ContId} {kw : Attrs} {k : PStr} {vs : List Validator}
    {x : Val} (hs : (k, vs) ∈ c.slots) (hp : ∀ k x, lookupName k kw = some x → plain x = true)
    (h : contField E (leafHook E c) c kw k vs = .ok x) :
    (∀ e s, x ≠ .enum e s) ∧ ∀ c fs, x ≠ .cont c fs := by
  unfold contField at h
  split at h
  · split at h
    · cases h
    · injection h with h; rw [← h]; exact default_not_lib c k
  · rename_i v hv
    have hpv := plain_not_lib (hp k v hv)
    unfold contDeser at h
    split at h
    · injection h with h; rw [← h]; exact hpv
    · split at h
      · cases h
      · by_cases hc : c = .cpuStats
        · subst hc
          rcases cpuHook hs h with e | ⟨⟨c', i, e⟩, _⟩ <;> rw [e] <;> simp
        · have hh : leafHook E c k v = .ok v := by
            unfold leafHook
            cases c <;> first | rfl | exact absurd rfl hc
          rw [hh] at h
          injection h with h; rw [← h]; exact hpv

theorem leaf_plain {E : Env} {c : ContId} {v : Val} {fs : Attrs} (hp : plain v = true)
    (h : leafCall E c v = .ok (.cont c fs)) :
    EnumFree fs ∧ ∀ k c' fs', (k, .cont c' fs') ∉ fs := by
  obtain ⟨kw, fs', hd, _, e, hn, _, hf⟩ := contCall_ok h
  injection e with _ e
  subst e
  have hnd : (fs.map Prod.fst).Nodup := by rw [hn]; exact slots_nodup c
  have key : ∀ k x, (k, x) ∈ fs → (∀ e s, x ≠ .enum e s) ∧ ∀ c fs, x ≠ .cont c fs := by
    intro k x hm
    have hk : k ∈ c.slots.map Prod.fst := by rw [← hn]; exact List.mem_map.mpr ⟨_, hm, rfl⟩
    obtain ⟨⟨k', vs⟩, hs, e⟩ := List.mem_map.mp hk
    simp only at e
    subst e
    obtain ⟨x', hx', hf'⟩ := hf k' vs hs
    have hxx : x' = x := (getAttr_of_mem hnd hx').symm.trans (getAttr_of_mem hnd hm)
    subst hxx
    exact leaf_field_plain hs (plain_kw hp hd) hf'
  exact ⟨fun k x hm _ => (key k x hm).1, fun k c' fs' hm => (key k _ hm).2 c' fs' rfl⟩

/-- Containers built from plain data hold no enumeration members but the market type, and
neither do their nested containers. -/
theorem mkCont_plain {E : Env} {c : ContId} {v : Val} {fs : Attrs} (hp : plain v = true)
    (h : mkCont E c v = .ok (.cont c fs)) :
    EnumFree fs ∧ ∀ k c' fs', (k, .cont c' fs') ∈ fs → EnumFree fs' := by
  by_cases hl : c.leaf = true
  · rw [mkCont_leaf hl] at h
    obtain ⟨a, b⟩ := leaf_plain hp h
    exact ⟨a, fun k c' fs' hm => absurd hm (b k c' fs')⟩
  obtain ⟨kw, fs', hd, _, e, hn, _, hf⟩ := contCall_ok h
  injection e with _ e
  subst e
  have hnd : (fs.map Prod.fst).Nodup := by rw [hn]; exact slots_nodup c
  have key : ∀ k x, (k, x) ∈ fs → (k ≠ p!"market_type" → ∀ e s, x ≠ .enum e s) ∧
      ∀ c fs, x = .cont c fs → EnumFree fs := by
    intro k x hm
    have hk : k ∈ c.slots.map Prod.fst := by rw [← hn]; exact List.mem_map.mpr ⟨_, hm, rfl⟩
    obtain ⟨⟨k', vs⟩, hs, e⟩ := List.mem_map.mp hk
    simp only at e
    subst e
    obtain ⟨x', hx', hf'⟩ := hf k' vs hs
    have hxx : x' = x := (getAttr_of_mem hnd hx').symm.trans (getAttr_of_mem hnd hm)
    subst hxx
    have hkw := plain_kw hp hd
    clear hd
    unfold contField at hf'
    split at hf'
    · split at hf'
      · cases hf'
      · injection hf' with h; rw [← h]
        exact ⟨fun _ => (default_not_lib c k').1, fun c' fs' e => absurd e ((default_not_lib c k').2 c' fs')⟩
    rename_i w hw
    have hpw := hkw k' w hw
    have hpv := plain_not_lib hpw
    have hid : x' = w → (k' ≠ p!"market_type" → ∀ e s, x' ≠ .enum e s) ∧
        ∀ c fs, x' = .cont c fs → EnumFree fs := by
      intro e; subst e
      exact ⟨fun _ => hpv.1, fun c fs e => absurd e (hpv.2 c fs)⟩
    have hleaf : ∀ c', leafCall E c' w = .ok x' → (k' ≠ p!"market_type" → ∀ e s, x' ≠ .enum e s) ∧
        ∀ c fs, x' = .cont c fs → EnumFree fs := by
      intro c' hc'
      obtain ⟨fs', e⟩ := leafCall_cont hc'
      subst e
      exact ⟨fun _ => by simp, fun c fs e => by
        injection e with e1 e2; subst e1 e2; exact (leaf_plain hpw hc').1⟩
    unfold contDeser at hf'
    split at hf'
    · injection hf' with h; exact hid h.symm
    split at hf'
    · cases hf'
    cases c <;> simp only [ContId.leaf, not_true_eq_false] at hl
    case providerStats =>
      obtain ⟨c', hc', _⟩ := statsClass_slot hs
      simp only [contHook, hc'] at hf'
      split at hf'
      · exact hleaf c' hf'
      · injection hf' with h; subst h; simp
    case taskHeader =>
      by_cases k1 : k' = p!"task_owner"
      · simp only [contHook, if_pos k1] at hf'
        split at hf'
        · rename_i fs'; exact absurd rfl (hpv.2 _ _)
        · exact hleaf _ hf'
      by_cases k2 : k' = p!"mask"
      · simp only [contHook, if_neg k1, if_pos k2] at hf'
        split at hf'
        · injection hf' with h; subst h; simp
        · injection hf' with h; exact hid h.symm
      by_cases k3 : k' = p!"market_type"
      · simp only [contHook, if_neg k1, if_neg k2, if_pos k3] at hf'
        split at hf'
        · rename_i m hlk
          injection hf' with h
          subst h
          obtain ⟨s, _, e⟩ := enum_lookup_ok hlk
          subst e
          exact ⟨fun h => absurd k3 h, fun c fs e => by cases e⟩
        · cases hf'
      · simp only [contHook, if_neg k1, if_neg k2, if_neg k3] at hf'
        injection hf' with h; exact hid h.symm
  exact ⟨fun k x hm hk => (key k x hm).1 hk, fun k c' fs' hm => (key k _ hm).2 c' fs' rfl⟩

/-- A container built from plain data is rebuilt from its dictionary. -/
theorem mkCont_rebuild_plain {E : Env} {c : ContId} {v : Val} {fs : Attrs} (hp : plain v = true)
    (h : mkCont E c v = .ok (.cont c fs)) :
    ∃ kw : Attrs, toDictF c fs = .ok (kw.map fun p => (.str p.1, p.2)) ∧
      kw.map Prod.fst = c.slots.map Prod.fst ∧
      mkCont E c (.dict (kw.map fun p => (.str p.1, p.2))) = .ok (.cont c fs) := by
  obtain ⟨a, b⟩ := mkCont_plain hp h
  refine mkCont_rebuild h (fun _ d fs' hd hg => ?_) a b
  exfalso
  have : ∃ k, (k, Val.cont .node fs') ∈ d := by
    clear hd
    induction d with
    | nil => cases hg
    | cons p rest ih =>
      unfold dictGet at hg
      split at hg
      · injection hg with hg; exact ⟨p.1, by rw [← hg]; simp⟩
      · obtain ⟨k, hk⟩ := ih hg; exact ⟨k, List.mem_cons_of_mem _ hk⟩
  obtain ⟨k, hk⟩ := this
  have := plain_asDict hp hd k _ hk
  simp [plain] at this

end Verif
