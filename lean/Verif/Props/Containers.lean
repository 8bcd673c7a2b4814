import Verif.Lemmas.ContRoundTrip
import Verif.Lemmas.FDict
import Verif.Lemmas.Toy
import Verif.Model.Misc
/-!
# C40, C41: containers, frozen and validating dictionaries
-/

set_option linter.unusedSimpArgs false

namespace Verif.Props

open Verif Spec

/-! ### C40 -/

private theorem hook_id {E : Env} {c : ContId} {k : PStr} {v : Val} (h : k ∉ converted c) :
    contHook E c k v = .ok v := by
  cases c
  case taskHeader =>
    simp only [converted, List.mem_cons, List.mem_nil_iff, or_false, not_or] at h
    simp only [contHook, if_neg h.1, if_neg h.2.1, if_neg h.2.2]
  case cpuStats =>
    simp only [converted, List.mem_cons, List.mem_nil_iff, or_false, not_or] at h
    simp only [contHook, leafHook, if_neg h.1, if_neg h.2]
  case providerStats =>
    simp only [converted, List.mem_cons, List.mem_nil_iff, or_false, not_or] at h
    have : statsClass k = none := by
      unfold statsClass
      rw [if_neg h.1, if_neg h.2.1, if_neg h.2.2.1, if_neg h.2.2.2]
    simp only [contHook, this]
  all_goals rfl

/-- C40: a container is only built from acceptable keywords; it has every declared field, with
the default for an absent one and the given value for a present one (unless the class converts
it). -/
theorem container_sound (E : Env) (c : ContId) (v w : Val) (h : mkCont E c v = .ok w) :
    ∃ kw fs, v.asDict = some (asPairs kw) ∧ Acceptable E c kw ∧ w = .cont c fs ∧
      fs.map Prod.fst = fieldNames c ∧
      (∀ k ∈ fieldNames c, k ∉ kw.map Prod.fst → getAttr fs k = c.default k) ∧
      ∀ k x, lookupName k kw = some x → k ∉ converted c → getAttr fs k = x := by
  obtain ⟨kw, fs, hd, _, hw, hn, hk, hf⟩ := contCall_ok h
  have hnd : (fs.map Prod.fst).Nodup := by rw [hn]; exact slots_nodup c
  have slot_of : ∀ k ∈ c.slots.map Prod.fst, ∃ vs, (k, vs) ∈ c.slots := by
    intro k hk
    obtain ⟨⟨k', vs⟩, hm, e⟩ := List.mem_map.mp hk
    simp only at e
    subst e
    exact ⟨vs, hm⟩
  refine ⟨kw, fs, hd, ⟨?_, hk, ?_⟩, hw, hn, ?_, ?_⟩
  · intro k hr
    obtain ⟨vs, hvs⟩ := slot_of k (required_slots c k hr)
    obtain ⟨x, _, hx⟩ := hf k vs hvs
    rw [← lookupName_isSome]
    unfold contField at hx
    cases hl : lookupName k kw with
    | none => rw [hl] at hx; simp [hr] at hx
    | some y => rfl
  · intro k vs x hs hl
    obtain ⟨y, _, hy⟩ := hf k vs hs
    rw [contField_present hl] at hy
    unfold contDeser at hy
    split at hy
    · rename_i hc; exact Or.inl hc
    · split at hy
      · cases hy
      · rename_i u hu; exact Or.inr (runAll_ok.mp hu)
  · intro k hk' hab
    obtain ⟨vs, hvs⟩ := slot_of k hk'
    obtain ⟨x, hm, hx⟩ := hf k vs hvs
    rw [getAttr_of_mem hnd hm]
    unfold contField at hx
    rw [(lookupName_none k kw).mpr hab] at hx
    simp only at hx
    split at hx
    · cases hx
    · injection hx with hx; exact hx.symm
  · intro k x hl hcv
    obtain ⟨vs, hvs⟩ := slot_of k (hk k ((lookupName_isSome _ _).mp (by rw [hl]; rfl)))
    obtain ⟨y, hm, hy⟩ := hf k vs hvs
    rw [contField_present hl] at hy
    rw [getAttr_of_mem hnd hm, (contDeser_idem (hook_id hcv) hy).1]

/-- C40, conversely: acceptable keywords give a container, provided the conversions of the
converted fields succeed. -/
theorem container_complete (E : Env) (c : ContId) (kw : Attrs) (ha : Acceptable E c kw)
    (hc : ∀ k x, lookupName k kw = some x → k ∈ converted c → x ≠ .none →
      ∃ y, contHook E c k x = .ok y) :
    ∃ fs, mkCont E c (.dict (asPairs kw)) = .ok (.cont c fs) := by
  have hself : (lookupName p!"self" kw).isSome = false := by
    cases hl : (lookupName p!"self" kw).isSome
    · rfl
    · exact absurd (ha.known _ ((lookupName_isSome _ _).mp hl)) (self_not_slot c)
  have hreqconv : ∀ k, k ∈ c.required → ∀ vs, (k, vs) ∈ c.slots → lookupName k kw = some .none →
      k ∈ converted c → ∃ y, contHook E c k .none = .ok y := by
    intro k hr vs hs hl hcv
    rcases ha.valid k vs .none hs hl with ⟨_, h⟩ | h
    · exact absurd hr h
    · exfalso
      cases c <;> simp only [ContId.required, List.mem_nil_iff] at hr
      simp only [converted, List.mem_cons, List.mem_nil_iff, or_false] at hcv
      rcases hcv with e | e | e <;> subst e <;> simp at hr
      simp only [ContId.slots, List.mem_cons, Prod.mk.injEq, List.mem_nil_iff, or_false] at hs
      have hvs : vs = [.isDictOr .node] := by simpa using hs
      have := h (.isDictOr .node) (by simp [hvs])
      simp [Validator.accepts, Val.asDict] at this
  have hfield : ∀ k vs, (k, vs) ∈ c.slots → ∃ y, contField E (contHook E c) c kw k vs = .ok y := by
    intro k vs hs
    unfold contField
    cases hl : lookupName k kw with
    | none =>
      simp only
      by_cases hr : k ∈ c.required
      · have := ha.required k hr
        rw [lookupName_none] at hl
        exact absurd this hl
      · exact ⟨_, by rw [if_neg hr]⟩
    | some x =>
      simp only
      unfold contDeser
      by_cases hn : x = .none ∧ k ∉ c.required
      · exact ⟨_, by rw [if_pos hn]⟩
      · rw [if_neg hn]
        have hv : runAll E vs k x = .ok () := by
          rw [runAll_ok]
          rcases ha.valid k vs x hs hl with h | h
          · exact absurd h hn
          · exact h
        rw [hv]
        simp only
        by_cases hcv : k ∈ converted c
        · by_cases hx : x = .none
          · subst hx
            have hr : k ∈ c.required := Classical.byContradiction fun hr => hn ⟨rfl, hr⟩
            exact hreqconv k hr vs hs hl hcv
          · exact hc k x hl hcv hx
        · exact ⟨x, hook_id hcv⟩
  have hall : ∀ l : List (PStr × List Validator), (∀ p ∈ l, p ∈ c.slots) →
      ∃ fs, contFields E (contHook E c) c kw l = .ok fs := by
    intro l
    induction l with
    | nil => exact fun _ => ⟨[], rfl⟩
    | cons a b ih =>
      intro hl
      obtain ⟨k, vs⟩ := a
      obtain ⟨y, hy⟩ := hfield k vs (hl _ (by simp))
      obtain ⟨fs, hfs⟩ := ih (fun p hp => hl p (List.mem_cons_of_mem _ hp))
      exact ⟨(k, y) :: fs, by unfold contFields; rw [hy]; simp only; rw [hfs]⟩
  obtain ⟨fs, hfs⟩ := hall c.slots (fun _ h => h)
  refine ⟨fs, ?_⟩
  unfold mkCont contCall kwargsOf Val.asDict asPairs
  simp only [textKeys_map, hself, Bool.false_eq_true, if_false]
  unfold contBuild
  rw [hfs]
  simp only
  rw [firstUnknown_none.mpr ha.known]
  rfl

/-- C40: keyword sets that are not acceptable are refused with `FieldError` or
`MessageError`. -/
theorem container_refuses (E : Env) (c : ContId) (kw : Attrs) (hs : p!"self" ∉ kw.map Prod.fst)
    (ha : ¬ Acceptable E c kw) : mkCont E c (.dict (asPairs kw)) = .error .messageError ∨
      ∃ f, mkCont E c (.dict (asPairs kw)) = .error (.fieldError f) := by
  have hne : ∀ w, mkCont E c (.dict (asPairs kw)) ≠ .ok w := by
    intro w h
    obtain ⟨kw', _, hd, ha', _⟩ := container_sound E c _ w h
    have e1 := textKeys_map kw
    have e2 := textKeys_map kw'
    simp only [Val.asDict, Option.some.injEq, asPairs] at hd
    rw [hd] at e1
    rw [e1] at e2
    injection e2 with e2
    exact ha (e2 ▸ ha')
  unfold mkCont contCall kwargsOf Val.asDict asPairs at hne ⊢
  have hself : (lookupName p!"self" kw).isSome = false := by
    cases hl : (lookupName p!"self" kw).isSome
    · rfl
    · exact absurd ((lookupName_isSome _ _).mp hl) hs
  simp only [textKeys_map, hself, Bool.false_eq_true, if_false] at hne ⊢
  unfold contBuild wrapLoad at hne ⊢
  split at hne
  · rename_i a _; exact absurd rfl (hne a)
  · rename_i f hf
    exact Or.inr ⟨f, rfl⟩
  · exact Or.inl rfl

/-- C40: a missing required field, and a field that is not declared, are refused. -/
theorem container_field_errors (E : Env) (c : ContId) (kw : Attrs) (k : PStr)
    (hs : p!"self" ∉ kw.map Prod.fst)
    (h : (k ∈ c.required ∧ k ∉ kw.map Prod.fst) ∨ (k ∈ kw.map Prod.fst ∧ k ∉ fieldNames c)) :
    mkCont E c (.dict (asPairs kw)) = .error .messageError ∨
      ∃ f, mkCont E c (.dict (asPairs kw)) = .error (.fieldError f) := by
  refine container_refuses E c kw hs fun ha => ?_
  rcases h with ⟨h1, h2⟩ | ⟨h1, h2⟩
  · exact h2 (ha.required k h1)
  · exact h2 (ha.known k h1)

/-- C40: converting a container to a dictionary and back gives a container with the same
fields.  A field other than the market type that holds an enumeration member would come back as
its text; a task owner given as an instance must itself have been constructed. -/
theorem container_round_trip (E : Env) (c : ContId) (v : Val) (fs : Attrs)
    (h : mkCont E c v = .ok (.cont c fs))
    (hw : c = .taskHeader → ∀ d fs', v.asDict = some d →
      dictGet (.str p!"task_owner") d = some (.cont .node fs') →
      ∃ d', mkCont E .node d' = .ok (.cont .node fs'))
    (he : EnumFree fs) (hn : ∀ k c' fs', (k, .cont c' fs') ∈ fs → EnumFree fs') :
    ∃ d, toDict (.cont c fs) = .ok d ∧ mkCont E c d = .ok (.cont c fs) := by
  obtain ⟨kw, h1, _, h3⟩ := mkCont_rebuild h hw he hn
  exact ⟨_, by unfold toDict; simp only; rw [h1], h3⟩

/-- C40: for a container built from plain data (as received on the wire) nothing else is needed. -/
theorem container_round_trip_plain (E : Env) (c : ContId) (v w : Val) (hp : plain v = true)
    (h : mkCont E c v = .ok w) : ∃ d, toDict w = .ok d ∧ mkCont E c d = .ok w := by
  obtain ⟨_, fs, _, _, hw, _⟩ := contCall_ok h
  subst hw
  obtain ⟨kw, h1, _, h3⟩ := mkCont_rebuild_plain hp h
  exact ⟨_, by unfold toDict; simp only; rw [h1], h3⟩

example : mkCont toyEnv .pidStats (.dict [(.str p!"current", .int 3)]) =
    .ok (.cont .pidStats [(p!"current", .int 3), (p!"limit", .none)]) ∧
    mkCont toyEnv .pidStats (.dict [(.str p!"nope", .int 3)]) = .error (.fieldError p!"nope") := by
  decide +kernel

/-- A provider statistics example with nested containers, as `container_round_trip` needs. -/
example : ∃ fs, mkCont toyEnv .providerStats (.dict [(.str p!"pids_stats",
      .dict [(.str p!"limit", .int 9)]), (.str p!"cpu_stats", .dict [(.str p!"cpu_usage",
        .dict [(.str p!"total_usage", .int 5)])])]) = .ok (.cont .providerStats fs) ∧
    getAttr fs p!"pids_stats" = .cont .pidStats [(p!"current", .none), (p!"limit", .int 9)] := by
  refine ⟨[(p!"blkio_stats", .none), (p!"cpu_stats", .cont .cpuStats
    [(p!"cpu_usage", .fdict .cpuUsage [(p!"total_usage", .int 5), (p!"percpu_usage", .list []),
      (p!"usage_in_kernelmode", .int 0), (p!"usage_in_usermode", .int 0)]),
     (p!"throttling_data", .none)]), (p!"memory_stats", .none),
    (p!"pids_stats", .cont .pidStats [(p!"current", .none), (p!"limit", .int 9)])], ?_, rfl⟩
  decide +kernel

/-! ### C41 -/

private theorem history_inv (E : Env) (c : FDictId) : ∀ (ops : List (Val × Val)) (items : Attrs),
    ItemsOk E c items → (∀ k ∈ c.items.map Prod.fst, k ∈ items.map Prod.fst) →
    ItemsOk E c (fdHistory E c items ops) ∧
      ∀ k ∈ c.items.map Prod.fst, k ∈ (fdHistory E c items ops).map Prod.fst
  | [], items, hi, hf => ⟨hi, hf⟩
  | (k, v) :: rest, items, hi, hf => by
    unfold fdHistory fdAssign
    cases h : fdSetV E (fdConv E c) c items k v with
    | error e => exact history_inv E c rest items hi hf
    | ok i' =>
      obtain ⟨a, b, _⟩ := fdSetV_inv hi h
      exact history_inv E c rest i' a (fun k hk => b k (hf k hk))

/-- C41: constructed from any data and after any sequence of item assignments, refused ones
included, a frozen dictionary has exactly its declared keys and only accepted values. -/
theorem frozen_dict_history (E : Env) (c : FDictId) (v w : Val) (ops : List (Val × Val))
    (h : mkFDict E c v = .ok w) : ∃ items, w = .fdict c items ∧
      DeclaredKeys c (fdHistory E c items ops) ∧
      ∀ k x, (k, x) ∈ fdHistory E c items ops → itemOk E c k x := by
  unfold mkFDict at h
  split at h
  · cases h
  obtain ⟨items, hw, hi, hf, _⟩ := fdBuild_ok h
  obtain ⟨a, b⟩ := history_inv E c ops items hi hf
  exact ⟨items, hw, ⟨a.nodup, fun k => keys_listed c ▸ ⟨a.known k, b k⟩⟩, fun k x hx =>
    (itemOk_iff E c k x).mp (a.valid k x hx)⟩

/-- C41: the decision about an item assignment (to a dictionary that does not convert values):
done exactly if the key is declared and the value accepted, otherwise an error and no change. -/
theorem assignment_decision (E : Env) (c : FDictId) (items : Attrs) (key v : Val)
    (hc : c ≠ .peer) :
    ((∃ k, key = .str k ∧ k ∈ dictKeys c ∧ itemOk E c k v ∧
      fdAssign E c items key v = (.ok (), setName k v items)) ∨
     ((¬ ∃ k, key = .str k ∧ k ∈ dictKeys c ∧ itemOk E c k v) ∧
      ∃ e, fdAssign E c items key v = (.error e, items))) := by
  unfold fdAssign
  have hconv : fdConv E c = noConv := by cases c <;> first | rfl | exact absurd rfl hc
  rw [hconv]
  cases h : fdSetV E noConv c items key v with
  | ok i' =>
    obtain ⟨k, v', h1, h2, h3, h4, h5⟩ := fdSetV_ok h
    injection h2 with h2
    subst h2
    exact Or.inl ⟨k, h1, h3, (itemOk_iff E c k v).mp h4, by rw [h5]⟩
  | error e =>
    refine Or.inr ⟨?_, e, rfl⟩
    rintro ⟨k, rfl, hk, hok⟩
    unfold fdSetV noConv fdSet at h
    simp only at h
    rw [(itemOk_iff E c k v).mpr hok] at h
    simp only at h
    rw [if_pos ((lookupName_isSome _ _).mpr ((keys_listed c).symm ▸ hk))] at h
    cases h

/-- C41 holds of item assignments only: `update` is inherited from `dict` and puts any key and
any value into a frozen dictionary. -/
theorem update_bypass_refuted : ∃ items, mkFDict toyEnv .computeTaskDef (.dict []) =
      .ok (.fdict .computeTaskDef items) ∧
    ¬ DeclaredKeys .computeTaskDef (fdUpdate items p!"nope" (.int 1)) ∧
    ¬ itemOk toyEnv .computeTaskDef p!"task_id" (getAttr (fdUpdate items p!"task_id" (.int 1)) p!"task_id") := by
  refine ⟨[(p!"task_id", .str []), (p!"subtask_id", .str []), (p!"deadline", .int 0),
     (p!"extra_data", .dict []), (p!"performance", .int 0), (p!"docker_images", .none),
     (p!"resources", .list [])], by decide +kernel, ?_, ?_⟩
  · intro h
    have := (h.2 p!"nope").mp (by decide)
    revert this; decide
  · intro h
    obtain ⟨s, hs, _⟩ := h (Or.inl rfl)
    revert hs
    have : getAttr (fdUpdate [(p!"task_id", .str []), (p!"subtask_id", .str []), (p!"deadline", .int 0),
     (p!"extra_data", .dict []), (p!"performance", .int 0), (p!"docker_images", .none),
     (p!"resources", .list [])] p!"task_id" (.int 1)) p!"task_id" = .int 1 := by decide
    rw [this]
    simp [Val.asStr]

example : fdHistory toyEnv .computeTaskDef [(p!"task_id", .str p!"a")]
    [(.str p!"task_id", .int 3), (.str p!"nope", .int 3), (.str p!"task_id", .str p!"b")] =
    [(p!"task_id", .str p!"b")] := by decide +kernel

end Verif.Props
