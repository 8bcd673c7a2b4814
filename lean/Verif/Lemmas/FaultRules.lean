import Verif.Lemmas.Faults
/-! # Lemmas about the first fault of data with a structure of its own -/

set_option linter.unusedSimpArgs false
set_option linter.unusedVariables false

namespace Verif

open Spec

/-! ### Records -/

theorem unset_plain {E : Env} {c : FDictId} (hv : ∀ k v, fdValidate E c k v = .ok ()) {e : Exc} {p : Val × Val}
    (h : Unset E noConv c e p) : e = .messageError := by
  obtain ⟨x, hx, rfl⟩ := h
  unfold fdSetV at hx
  split at hx
  · unfold noConv fdSet at hx
    dsimp only at hx
    rw [hv] at hx
    dsimp only at hx
    split at hx
    · cases hx
    · injection hx with hx; subst hx; rfl
  · split at hx <;> injection hx with hx <;> subst hx <;> rfl

theorem call_message {E : Env} {c : FDictId} (hv : ∀ k v, fdValidate E c k v = .ok ()) {d : List (Val × Val)}
    (hd : Data (.dict d)) {e : Exc} (h : Raises (fdCall E c (.dict d)) e) : e = .messageError := by
  unfold fdCall at h
  cases hk : kwargsOf (.dict d) with
  | error x =>
    rw [hk] at h
    rw [← raises_error.mp h]
    exact (kwargs_iff hd).2 x hk
  | ok kw =>
    rw [hk] at h
    dsimp only at h
    rcases build_raises.mp h with ⟨_, p, _, _, _, hu⟩ | ⟨_, _, p, _, _, _, _, hu⟩
    · exact unset_plain hv hu
    · exact unset_plain hv hu

/-- A field that is a dictionary with known keys. -/
theorem counters_bad {E : Env} {hook : PStr → Val → Res Val} {f : Field} {c : FDictId}
    (hv : ∀ k v, fdValidate E c k v = .ok ()) (hf : f.name ∈ counterFields)
    (hok : ∀ w, Data w → ((∃ y, checked E hook f.name [.dict] w = .ok y) ↔ f.ok w))
    (hh : ∀ w, hook f.name w = if w.truthy = true then fdCall E c w else .ok .none) (w : Val) (e : Exc)
    (hw : Data w) : Raises (checked E hook f.name [.dict] w) e ↔ BadValue E f w e := by
  have hnp : ∀ fs, (f.name, fs) ∉ partFields E := fun fs h => (part_named h).2 hf
  rw [badValue_inv, ← hok w hw]
  rcases data_dict_or hw with ⟨d, rfl⟩ | ⟨_, hne⟩
  · have key : ∀ x, Raises (checked E hook f.name [.dict] (.dict d)) x → x = .messageError := by
      intro x hx
      unfold checked at hx
      have : runAll E [.dict] f.name (.dict d) = .ok () := runAll_ok.mpr ((field_dict hw).mpr ⟨d, rfl⟩)
      rw [this, hh] at hx
      dsimp only at hx
      split at hx
      · exact call_message hv hw hx
      · exact (raises_ok.mp hx).elim
    constructor
    · intro h
      refine ⟨?_, .inr (.inl ⟨⟨d, rfl⟩, hf, key e h⟩)⟩
      rintro ⟨y, hy⟩
      rw [hy] at h
      exact raises_ok.mp h
    · rintro ⟨hno, h⟩
      have he : e = .messageError := by
        rcases h with ⟨h | h, _⟩ | ⟨_, _, h⟩ | ⟨_, fs, _, h, _⟩
        · exact absurd rfl (h d)
        · exact absurd hf h.2
        · exact h
        · exact absurd h (hnp fs)
      obtain ⟨x, hx⟩ := no_ok.mp hno
      have := key (wrapped x) ⟨x, hx, rfl⟩
      rw [hx, raises_error, this, he]
  · have : ∃ x, checked E hook f.name [.dict] w = .error x ∧ x = .fieldError f.name := by
      unfold checked
      cases h : runAll E [.dict] f.name w with
      | ok u =>
        obtain ⟨d, e⟩ := (field_dict hw).mp (runAll_ok.mp h)
        exact absurd e (hne d)
      | error x => exact ⟨x, rfl, runAll_error h⟩
    obtain ⟨x, hx, rfl⟩ := this
    rw [hx, raises_field]
    constructor
    · exact fun h => ⟨fun ⟨_, h⟩ => (by cases h), .inl ⟨.inl hne, h⟩⟩
    · rintro ⟨_, ⟨_, h⟩ | ⟨⟨d, h⟩, _⟩ | ⟨d, _, h, _⟩⟩
      · exact h
      · exact absurd h (hne d)
      · exact absurd h (hne d)

theorem agree_ok {E : Env} {hook : PStr → Val → Res Val} {c : ContId} {fl : List Field}
    {sl : List (PStr × List Validator)} (h : Agree E hook c fl sl) (hnd : (sl.map Prod.fst).Nodup) {f : Field}
    (hf : f ∈ fl) {vs : List Validator} (hv : (f.name, vs) ∈ sl) (w : Val) (hw : Data w) :
    (∃ y, checked E hook f.name vs w = .ok y) ↔ f.ok w := by
  obtain ⟨vs', hm, _, hiff⟩ := h.field f hf
  have : vs = vs' := by
    have h1 := lookupName_of_mem hnd hv
    have h2 := lookupName_of_mem hnd hm
    rw [h1] at h2
    exact Option.some.inj h2
  subst this
  rw [checked_ok]
  exact hiff w hw

theorem cont_slots_nodup (c : ContId) : (c.slots.map Prod.fst).Nodup := by cases c <;> decide

theorem aligned_plain {E : Env} {c : ContId} {fl : List Field} {hook : PStr → Val → Res Val}
    (h : Agree E hook c fl c.slots) (hh : ∀ k v, hook k v = .ok v) (hn : fl.map Field.name = c.slots.map Prod.fst)
    (hp : ∀ n ∈ c.slots.map Prod.fst, n ∉ partNames) : Aligned E hook c fl c.slots := by
  refine aligned_of h (fun f _ _ w x hx => ?_) fun f hf hb => ?_
  · rw [hh] at hx; cases hx
  · exact absurd hb (hp _ (hn ▸ List.mem_map.mpr ⟨f, hf, rfl⟩))

theorem aligned_cpu (E : Env) : Aligned E (leafHook E .cpuStats) .cpuStats cpuFields ContId.cpuStats.slots := by
  refine aligned_of (agree_cpu E) (fun f hf hn => ?_) fun f hf hn vs hv => ?_
  · exfalso
    simp only [cpuFields, List.mem_cons, List.mem_nil_iff, or_false] at hf
    rcases hf with rfl | rfl <;> simp [partNames] at hn
  · have hok := agree_ok (agree_cpu E) (cont_slots_nodup .cpuStats) hf hv
    simp only [cpuFields, List.mem_cons, List.mem_nil_iff, or_false] at hf
    rcases hf with rfl | rfl
    · have : vs = [.dict] := by simpa [ContId.slots] using hv
      subst this
      exact counters_bad (c := .cpuUsage) (fun _ _ => rfl) (by simp [counterFields]) hok fun w => rfl
    · have : vs = [.dict] := by simpa [ContId.slots] using hv
      subst this
      exact counters_bad (c := .throttlingData) (fun _ _ => rfl) (by simp [counterFields]) hok fun w => rfl

theorem leaf_raises (E : Env) {c : ContId} (hc : c ≠ .taskHeader ∧ c ≠ .providerStats) {v : Val} (hv : Data v)
    {e : Exc} : Raises (leafCall E c v) e ↔ BadRecord E (fieldsOf E c) v e := by
  refine aligned_call ?_ hv
  cases c
  · exact aligned_plain (agree_node E _ fun _ _ => rfl) (fun _ _ => rfl) rfl (by decide)
  · exact absurd rfl hc.1
  · exact aligned_plain (agree_blockIo E _ fun _ _ => rfl) (fun _ _ => rfl) rfl (by decide)
  · exact aligned_cpu E
  · exact aligned_plain (agree_memory E _ fun _ _ => rfl) (fun _ _ => rfl) rfl (by decide)
  · exact aligned_plain (agree_pid E _ fun _ _ => rfl) (fun _ _ => rfl) rfl (by decide)
  · exact absurd rfl hc.2

theorem dictOr_not {E : Env} {c : ContId} (w : Val) (hw : Data w) (hn : ∀ d, w ≠ .dict d) :
    ¬ ∀ x ∈ [Validator.isDictOr c], x.accepts E w = true := by
  intro h
  obtain ⟨d, e⟩ := (field_dictOr hw).mp h
  exact hn d e

theorem aligned_header (E : Env) : Aligned E (contHook E .taskHeader) .taskHeader (headerFields E)
    ContId.taskHeader.slots := by
  refine aligned_of (agree_header E) (fun f hf hn w x hx => ?_) fun f hf hn vs hv => ?_
  · unfold contHook at hx
    dsimp only at hx
    split at hx
    · rename_i e; rw [e] at hn; exact absurd (by decide) hn
    split at hx
    · split at hx <;> cases hx
    split at hx
    · rename_i e
      split at hx
      · cases hx
      · injection hx with hx; rw [← hx, e]
    · cases hx
  · have hok := agree_ok (agree_header E) (cont_slots_nodup .taskHeader) hf hv
    simp only [headerFields, List.mem_cons, List.mem_nil_iff, or_false] at hf
    rcases hf with rfl | rfl | rfl | rfl | rfl | rfl | rfl | rfl | rfl | rfl | rfl | rfl | rfl | rfl | rfl | rfl <;>
      try (simp [partNames] at hn; done)
    have : vs = [.isDictOr .node] := by simpa [ContId.slots] using hv
    subst this
    refine part_bad (fs := nodeFields E) (r := leafCall E .node) (by simp [partFields]) hok dictOr_not
      (fun d hd => ⟨(field_dictOr hd).mpr ⟨d, rfl⟩, .inr rfl⟩) (fun d e hd => leaf_raises E (by decide) hd)

theorem aligned_provider (E : Env) : Aligned E (contHook E .providerStats) .providerStats providerFields
    ContId.providerStats.slots := by
  refine aligned_of (agree_provider E) (fun f hf hn => ?_) fun f hf hn vs hv => ?_
  · exfalso
    simp only [providerFields, List.mem_cons, List.mem_nil_iff, or_false] at hf
    rcases hf with rfl | rfl | rfl | rfl <;> simp [partNames] at hn
  · have hok := agree_ok (agree_provider E) (cont_slots_nodup .providerStats) hf hv
    simp only [providerFields, List.mem_cons, List.mem_nil_iff, or_false] at hf
    rcases hf with rfl | rfl | rfl | rfl
    · have : vs = [.isDictOr .blockIoStats] := by simpa [ContId.slots] using hv
      subst this
      refine part_bad (fs := blockIoFields) (r := leafCall E .blockIoStats) (by simp [partFields]) hok dictOr_not
        (fun d hd => ⟨(field_dictOr hd).mpr ⟨d, rfl⟩, ?_⟩) (fun d e hd => leaf_raises E (by decide) hd)
      cases d with
      | nil => exact .inl (.inl rfl)
      | cons => exact .inr rfl
    · have : vs = [.isDictOr .cpuStats] := by simpa [ContId.slots] using hv
      subst this
      refine part_bad (fs := cpuFields) (r := leafCall E .cpuStats) (by simp [partFields]) hok dictOr_not
        (fun d hd => ⟨(field_dictOr hd).mpr ⟨d, rfl⟩, ?_⟩) (fun d e hd => leaf_raises E (by decide) hd)
      cases d with
      | nil => exact .inl (.inl rfl)
      | cons => exact .inr rfl
    · have : vs = [.isDictOr .memoryStats] := by simpa [ContId.slots] using hv
      subst this
      refine part_bad (fs := memoryFields) (r := leafCall E .memoryStats) (by simp [partFields]) hok dictOr_not
        (fun d hd => ⟨(field_dictOr hd).mpr ⟨d, rfl⟩, ?_⟩) (fun d e hd => leaf_raises E (by decide) hd)
      cases d with
      | nil => exact .inl (.inl rfl)
      | cons => exact .inr rfl
    · have : vs = [.isDictOr .pidStats] := by simpa [ContId.slots] using hv
      subst this
      refine part_bad (fs := pidFields) (r := leafCall E .pidStats) (by simp [partFields]) hok dictOr_not
        (fun d hd => ⟨(field_dictOr hd).mpr ⟨d, rfl⟩, ?_⟩) (fun d e hd => leaf_raises E (by decide) hd)
      cases d with
      | nil => exact .inl (.inl rfl)
      | cons => exact .inr rfl

theorem record_raises (E : Env) (c : ContId) {v : Val} (hv : Data v) {e : Exc} :
    Raises (mkCont E c v) e ↔ BadRecord E (fieldsOf E c) v e := by
  refine aligned_call ?_ hv
  cases c
  · exact aligned_plain (agree_node E _ fun _ _ => rfl) (fun _ _ => rfl) rfl (by decide)
  · exact aligned_header E
  · exact aligned_plain (agree_blockIo E _ fun _ _ => rfl) (fun _ _ => rfl) rfl (by decide)
  · exact aligned_cpu E
  · exact aligned_plain (agree_memory E _ fun _ _ => rfl) (fun _ _ => rfl) rfl (by decide)
  · exact aligned_plain (agree_pid E _ fun _ _ => rfl) (fun _ _ => rfl) rfl (by decide)
  · exact aligned_provider E

/-! ### Frozen dictionaries -/

theorem first_congr {α : Type _} {P P' Q Q' : α → Prop} : ∀ {l : List α}, (∀ x ∈ l, P x ↔ P' x) →
    (∀ x ∈ l, Q x ↔ Q' x) → (First P Q l ↔ First P' Q' l)
  | [], _, _ => by rw [first_nil, first_nil]
  | x :: xs, hp, hq => by
    rw [first_cons, first_cons, hp x (by simp), hq x (by simp),
      first_congr (l := xs) (fun y hy => hp y (by simp [hy])) fun y hy => hq y (by simp [hy])]

theorem first_map {α β : Type _} {f : α → β} {P Q : β → Prop} : ∀ {l : List α},
    (First P Q (l.map f) ↔ First (fun x => P (f x)) (fun x => Q (f x)) l)
  | [] => by rw [List.map_nil, first_nil, first_nil]
  | x :: xs => by rw [List.map_cons, first_cons, first_cons, first_map (l := xs)]

theorem first_never {α : Type _} {P Q : α → Prop} {l : List α} (h : ∀ x ∈ l, ¬ Q x) : First P Q l ↔ False := by
  constructor
  · rintro ⟨b, x, a, rfl, _, hx⟩
    exact h x (by simp) hx
  · exact False.elim

theorem unset_str {E : Env} {c : FDictId} {k : PStr} {w : Val} {e : Exc} :
    Unset E noConv c e (.str k, w) ↔ (∃ x, fdValidate E c k w = .error x ∧ wrapped x = e) ∨
      (fdValidate E c k w = .ok () ∧ k ∉ dictKeys c ∧ e = .messageError) := by
  unfold Unset fdSetV noConv
  dsimp only
  unfold fdSet
  cases hv : fdValidate E c k w with
  | error x =>
    dsimp only
    rw [raises_error]
    constructor
    · exact fun h => .inl ⟨x, rfl, h⟩
    · rintro (⟨y, h, h'⟩ | ⟨h, _⟩)
      · injection h with h; rw [h]; exact h'
      · cases h
  | ok u =>
    dsimp only
    rw [← keys_listed, ← lookupName_isSome]
    by_cases hk : (lookupName k c.items).isSome = true
    · rw [if_pos hk, raises_ok]
      refine ⟨False.elim, ?_⟩
      rintro (⟨y, h, _⟩ | ⟨_, h, _⟩)
      · cases h
      · exact h hk
    · rw [if_neg hk, raises_error]
      constructor
      · exact fun h => .inr ⟨rfl, hk, h.symm⟩
      · rintro (⟨y, h, _⟩ | ⟨_, _, h⟩)
        · cases h
        · exact h.symm

theorem unset_other {E : Env} {conv : PStr → Val → Res Val} {c : FDictId} {k w : Val} {e : Exc} (hk : ∀ s, k ≠ .str s) :
    Unset E conv c e (k, w) ↔ e = .messageError := by
  have h : ∃ x, fdSetV E conv c [] k w = .error x ∧ wrapped x = .messageError := by
    unfold fdSetV
    split
    · exact absurd rfl (hk _)
    · split <;> exact ⟨_, rfl, rfl⟩
  obtain ⟨x, hx, hw⟩ := h
  unfold Unset
  dsimp only
  rw [hx, raises_error, hw]
  exact eq_comm

theorem run_error {E : Env} {x : Validator} {key : PStr} {w : Val} {e : Exc} :
    (∃ y, x.run E key w = .error y ∧ wrapped y = e) ↔ ¬ x.accepts E w = true ∧ e = .fieldError key := by
  unfold Validator.run
  by_cases h : x.accepts E w = true
  · rw [if_pos h]
    exact ⟨fun ⟨_, h, _⟩ => (by cases h), fun h' => absurd h h'.1⟩
  · rw [if_neg h]
    constructor
    · rintro ⟨y, hy, hw⟩
      injection hy with hy
      subst hy
      exact ⟨h, hw.symm⟩
    · rintro ⟨_, rfl⟩
      exact ⟨_, rfl, rfl⟩

theorem run_fine {E : Env} {x : Validator} {key : PStr} {w : Val} : x.run E key w = .ok () ↔ x.accepts E w = true := by
  unfold Validator.run
  by_cases h : x.accepts E w = true
  · rw [if_pos h]; exact ⟨fun _ => h, fun _ => rfl⟩
  · rw [if_neg h]; exact ⟨fun e => (by cases e), fun e => absurd e h⟩

theorem badEntry_key {E : Env} {c : FDictId} {k w : Val} {e : Exc} (hk : ∀ s, k ≠ .str s) :
    BadEntry E c k w e ↔ e = .messageError := by
  constructor
  · intro h
    cases h with
    | key _ => rfl
    | _ => exact absurd rfl (hk _)
  · rintro rfl
    exact .key hk

theorem task_entry {E : Env} {k w : Val} {e : Exc} (hw : Data w) :
    Unset E (fdConv E .computeTaskDef) .computeTaskDef e (k, w) ↔ BadEntry E .computeTaskDef k w e := by
  by_cases hk : ∃ s, k = .str s
  · obtain ⟨s, rfl⟩ := hk
    have inv : BadEntry E .computeTaskDef (.str s) w e ↔ (s ∉ dictKeys .computeTaskDef ∧ e = .messageError) ∨
        ((s = p!"task_id" ∨ s = p!"subtask_id") ∧ ¬ TextUpTo 128 w ∧ e = .fieldError s) := by
      constructor
      · intro h
        cases h with
        | key h => exact absurd rfl (h s)
        | unknown h => exact .inl ⟨h, rfl⟩
        | id h h' => exact .inr ⟨h, h', rfl⟩
      · rintro (⟨h, rfl⟩ | ⟨h, h', rfl⟩)
        · exact .unknown h
        · exact .id h h'
    show Unset E noConv _ _ _ ↔ _
    rw [unset_str, inv]
    unfold fdValidate
    dsimp only
    by_cases h : s = p!"task_id" ∨ s = p!"subtask_id"
    · rw [if_pos h, run_error, run_fine]
      have t : (Validator.varchar (some 128)).accepts E w = true ↔ TextUpTo 128 w := by
        rw [← field_varchar (E := E) hw]; simp
      rw [t]
      have hin : s ∈ dictKeys .computeTaskDef := by rcases h with rfl | rfl <;> decide
      constructor
      · rintro (a | a)
        · exact .inr ⟨h, a⟩
        · exact absurd hin a.2.1
      · rintro (a | a)
        · exact absurd hin a.1
        · exact .inl a.2
    · rw [if_neg h]
      constructor
      · rintro (⟨_, a, _⟩ | a)
        · cases a
        · exact .inl a.2
      · rintro (a | a)
        · exact .inr ⟨rfl, a⟩
        · exact absurd a.1 h
  · have hk : ∀ s, k ≠ .str s := fun s e => hk ⟨s, e⟩
    rw [unset_other hk, badEntry_key hk]

theorem peer_entry {E : Env} {k w : Val} {e : Exc} (hw : Data w) :
    Unset E (fdConv E .peer) .peer e (k, w) ↔ BadEntry E .peer k w e := by
  by_cases hk : ∃ s, k = .str s
  · obtain ⟨s, rfl⟩ := hk
    have inv : BadEntry E .peer (.str s) w e ↔ (s ∉ dictKeys .peer ∧ e = .messageError) ∨
        (s = p!"address" ∧ ¬ E.ipOk w = true ∧ e = .fieldError s) ∨ (s = p!"port" ∧ ¬ PortNumber w ∧ e = .fieldError s) ∨
        (s = p!"node" ∧ (∀ d, w ≠ .dict d) ∧ e = .fieldError s) ∨
        (s = p!"node" ∧ (∃ d, w = .dict d) ∧ BadRecord E (nodeFields E) w e) := by
      constructor
      · intro h
        cases h with
        | key h => exact absurd rfl (h s)
        | unknown h => exact .inl ⟨h, rfl⟩
        | address h => exact .inr (.inl ⟨rfl, h, rfl⟩)
        | port h => exact .inr (.inr (.inl ⟨rfl, h, rfl⟩))
        | noNode h => exact .inr (.inr (.inr (.inl ⟨rfl, h, rfl⟩)))
        | node h => exact .inr (.inr (.inr (.inr ⟨rfl, ⟨_, rfl⟩, h⟩)))
      · rintro (⟨h, rfl⟩ | ⟨rfl, h, rfl⟩ | ⟨rfl, h, rfl⟩ | ⟨rfl, h, rfl⟩ | ⟨rfl, ⟨d, rfl⟩, h⟩)
        · exact .unknown h
        · exact .address h
        · exact .port h
        · exact .noNode h
        · exact .node h
    rw [inv]
    by_cases hn : s = p!"node"
    · subst hn
      have hin : p!"node" ∈ dictKeys .peer := by decide
      unfold Unset fdSetV
      dsimp only
      show Raises (match peerConv E p!"node" w with
        | .error e => .error e
        | .ok v' => fdSet E .peer [] p!"node" v') e ↔ _
      unfold peerConv
      rcases data_dict_or hw with ⟨d, rfl⟩ | ⟨hd, hne⟩
      · rw [if_pos ⟨rfl, rfl⟩]
        have hr := leaf_raises E (c := .node) (by decide) hw (e := e)
        cases hl : leafCall E .node (.dict d) with
        | error x =>
          rw [hl] at hr
          dsimp only
          rw [raises_error]
          rw [raises_error] at hr
          rw [hr]
          constructor
          · exact fun h => .inr (.inr (.inr (.inr ⟨rfl, ⟨d, rfl⟩, h⟩)))
          · rintro (h | h | h | h | h)
            · exact absurd hin h.1
            · exact absurd h.1 (by decide)
            · exact absurd h.1 (by decide)
            · exact absurd rfl (h.2.1 d)
            · exact h.2.2
        | ok y =>
          rw [hl] at hr
          rw [raises_ok] at hr
          obtain ⟨_, fs, _, _, ey, _⟩ := contCall_ok hl
          subst ey
          dsimp only
          have : fdSet E .peer [] p!"node" (.cont .node fs) = .ok [(p!"node", .cont .node fs)] := rfl
          rw [this, raises_ok]
          refine ⟨False.elim, ?_⟩
          rintro (h | h | h | h | h)
          · exact absurd hin h.1
          · exact absurd h.1 (by decide)
          · exact absurd h.1 (by decide)
          · exact absurd rfl (h.2.1 d)
          · exact hr.mpr h.2.2
      · rw [if_neg (by rw [hd]; simp)]
        have : fdSet E .peer [] p!"node" w = .error (.fieldError p!"node") := by
          cases w <;> simp [Data, data] at hw <;> first | rfl | exact absurd rfl (hne _)
        dsimp only
        rw [this, raises_field]
        constructor
        · exact fun h => .inr (.inr (.inr (.inl ⟨rfl, hne, h⟩)))
        · rintro (h | h | h | h | h)
          · exact absurd hin h.1
          · exact absurd h.1 (by decide)
          · exact absurd h.1 (by decide)
          · exact h.2.2
          · obtain ⟨d, hd'⟩ := h.2.1
            exact absurd hd' (hne d)
    · have conv : Unset E (fdConv E .peer) .peer e (.str s, w) ↔ Unset E noConv .peer e (.str s, w) := by
        unfold Unset fdSetV
        dsimp only
        have : fdConv E .peer s w = noConv s w := by
          show peerConv E s w = _
          unfold peerConv
          rw [if_neg (fun h => hn h.1)]
          rfl
        rw [this]
      rw [conv, unset_str]
      unfold fdValidate
      dsimp only
      by_cases ha : s = p!"address"
      · subst ha
        have hin : p!"address" ∈ dictKeys .peer := by decide
        rw [if_pos rfl, run_error, run_fine]
        constructor
        · rintro (h | h)
          · exact .inr (.inl ⟨rfl, h⟩)
          · exact absurd hin h.2.1
        · rintro (h | h | h | h | h)
          · exact absurd hin h.1
          · exact .inl h.2
          · exact absurd h.1 (by decide)
          · exact absurd h.1 (by decide)
          · exact absurd h.1 (by decide)
      · rw [if_neg ha]
        by_cases hp : s = p!"port"
        · subst hp
          have hin : p!"port" ∈ dictKeys .peer := by decide
          rw [if_pos rfl, run_error, run_fine]
          have t : Validator.port.accepts E w = true ↔ PortNumber w := by
            rw [← field_port (E := E)]; simp
          rw [t]
          constructor
          · rintro (h | h)
            · exact .inr (.inr (.inl ⟨rfl, h⟩))
            · exact absurd hin h.2.1
          · rintro (h | h | h | h | h)
            · exact absurd hin h.1
            · exact absurd h.1 (by decide)
            · exact .inl h.2
            · exact absurd h.1 (by decide)
            · exact absurd h.1 (by decide)
        · rw [if_neg hp, if_neg hn]
          constructor
          · rintro (⟨_, h, _⟩ | h)
            · cases h
            · exact .inl h.2
          · rintro (h | h | h | h | h)
            · exact .inr ⟨rfl, h⟩
            · exact absurd h.1 ha
            · exact absurd h.1 hp
            · exact absurd h.1 hn
            · exact absurd h.1 hn
  · have hk : ∀ s, k ≠ .str s := fun s e => hk ⟨s, e⟩
    rw [unset_other hk, badEntry_key hk]

/-- What the class of a task definition or a peer says about the pairs. -/
def BadGiven (E : Env) (c : FDictId) (e : Exc) (ps : List (Val × Val)) : Prop :=
  First (fun p => ∀ x, ¬ BadEntry E c p.1 p.2 x) (fun p => BadEntry E c p.1 p.2 e) ps ∨
    (c = .peer ∧ (∀ p ∈ ps, ∀ x, ¬ BadEntry E c p.1 p.2 x) ∧
      First (PeerKey E ps) (fun n => e = .fieldError n ∧ ¬ PeerKey E ps n) [p!"address", p!"port", p!"node"])

theorem class_entry {E : Env} {c : FDictId} (hc : c = .computeTaskDef ∨ c = .peer) {k w : Val} {e : Exc} (hw : Data w) :
    Unset E (fdConv E c) c e (k, w) ↔ BadEntry E c k w e := by
  rcases hc with rfl | rfl
  · exact task_entry hw
  · exact peer_entry hw

theorem class_settable {E : Env} {c : FDictId} (hc : c = .computeTaskDef ∨ c = .peer) {p : Val × Val} (hw : Data p.2) :
    Settable E (fdConv E c) c p ↔ ∀ x, ¬ BadEntry E c p.1 p.2 x := by
  rw [settable_iff]
  obtain ⟨k, w⟩ := p
  exact ⟨fun h x hb => h x ((class_entry hc hw).mpr hb), fun h x hb => h x ((class_entry hc hw).mp hb)⟩

theorem given_pairs {E : Env} {c : FDictId} (hc : c = .computeTaskDef ∨ c = .peer) {ps : List (Val × Val)}
    (hd : ∀ p ∈ ps, Data p.2) {e : Exc} : BadPairs E (fdConv E c) c e ps ↔ BadGiven E c e ps := by
  unfold BadPairs BadGiven
  have h1 := first_congr (l := ps) (fun p hp => class_settable (E := E) hc (hd p hp))
    (fun p hp => class_entry (E := E) (e := e) (k := p.1) hc (hd p hp))
  have h2 : (∀ p ∈ ps, Settable E (fdConv E c) c p) ↔ ∀ p ∈ ps, ∀ x, ¬ BadEntry E c p.1 p.2 x :=
    ⟨fun h p hp => (class_settable hc (hd p hp)).mp (h p hp), fun h p hp => (class_settable hc (hd p hp)).mpr (h p hp)⟩
  refine or_congr h1 ?_
  rw [h2]
  rcases hc with rfl | rfl
  · have : First (Filled E (fdConv E .computeTaskDef) .computeTaskDef ps)
        (fun p => (¬ ∃ w, (.str p.1, w) ∈ ps) ∧ Unset E (fdConv E .computeTaskDef) .computeTaskDef e (.str p.1, p.2))
        (dictEntries .computeTaskDef) ↔ False := by
      refine first_never ?_
      rintro ⟨k, dv⟩ hm ⟨_, hu⟩
      refine settable_iff.mp ?_ e hu
      simp only [dictEntries, List.mem_cons, Prod.mk.injEq, List.mem_nil_iff, or_false] at hm
      rcases hm with ⟨rfl, rfl⟩ | ⟨rfl, rfl⟩ | ⟨rfl, rfl⟩ | ⟨rfl, rfl⟩ | ⟨rfl, rfl⟩ | ⟨rfl, rfl⟩ | ⟨rfl, rfl⟩ <;>
        exact ⟨_, _, rfl, rfl, by decide, by rfl⟩
    rw [this]
    exact ⟨fun h => h.2.elim, fun h => (by cases h.1)⟩
  · have hn : ∀ n ∈ [p!"address", p!"port", p!"node"], ∀ x, Unset E (fdConv E .peer) .peer x (.str n, .none) ↔
        ¬ (n = p!"address" ∧ E.ipOk .none = true) ∧ x = .fieldError n := by
      intro n hn x
      rw [peer_entry (by rfl)]
      simp only [List.mem_cons, List.mem_nil_iff, or_false] at hn
      constructor
      · intro h
        cases h with
        | key h => exact absurd rfl (h n)
        | unknown h => rcases hn with rfl | rfl | rfl <;> exact absurd (by decide) h
        | address h => exact ⟨fun h' => h h'.2, rfl⟩
        | port h => exact ⟨fun h' => absurd h'.1 (by decide), rfl⟩
        | noNode h => exact ⟨fun h' => absurd h'.1 (by decide), rfl⟩
      · rintro ⟨h, rfl⟩
        rcases hn with rfl | rfl | rfl
        · exact .address fun h' => h ⟨rfl, h'⟩
        · refine .port ?_
          rintro ⟨i, e, _⟩
          cases e
        · exact .noNode fun d h => (by cases h)
    have hs : ∀ n ∈ [p!"address", p!"port", p!"node"], Settable E (fdConv E .peer) .peer (.str n, .none) ↔
        n = p!"address" ∧ E.ipOk .none = true := by
      intro n hm
      rw [settable_iff]
      constructor
      · intro h
        by_cases hc : n = p!"address" ∧ E.ipOk .none = true
        · exact hc
        · exact absurd ((hn n hm _).mpr ⟨hc, rfl⟩) (h _)
      · exact fun h x hu => ((hn n hm x).mp hu).1 h
    have he : dictEntries .peer = [p!"address", p!"port", p!"node"].map fun n => (n, Val.none) := rfl
    rw [he, first_map]
    refine Iff.trans (and_congr_right fun _ => first_congr (P' := PeerKey E ps)
      (Q' := fun n => e = .fieldError n ∧ ¬ PeerKey E ps n) ?_ ?_)
      ⟨fun h => ⟨rfl, h⟩, fun h => h.2⟩
    · intro n hm
      unfold Filled PeerKey
      dsimp only
      rw [hs n hm]
    · intro n hm
      unfold PeerKey
      dsimp only
      rw [hn n hm]
      constructor
      · exact fun ⟨a, b, c⟩ => ⟨c, fun h => h.elim a b⟩
      · exact fun ⟨c, h⟩ => ⟨fun a => h (.inl a), fun b => h (.inr b), c⟩

/-- The last entry that is looked at. -/
theorem first_prefix {α : Type _} {P Q : α → Prop} {l : List α} :
    First P Q l ↔ ∃ before x, (∃ more, l = (before ++ [x]) ++ more) ∧ (∀ y ∈ before, P y) ∧ Q x := by
  constructor
  · rintro ⟨b, x, a, rfl, hb, hx⟩
    exact ⟨b, x, ⟨a, by simp⟩, hb, hx⟩
  · rintro ⟨b, x, ⟨a, rfl⟩, hb, hx⟩
    exact ⟨b, x, a, by simp, hb, hx⟩

theorem good_iff {E : Env} {c : FDictId} {ps : List (Val × Val)} :
    GoodEntries E c ps ↔ ∀ p ∈ ps, ∀ x, ¬ BadEntry E c p.1 p.2 x :=
  ⟨fun h p hp x => h p.1 p.2 hp x, fun h k w hm x => h (k, w) hm x⟩

theorem badDict_dict {E : Env} {c : FDictId} {d : List (Val × Val)} {e : Exc} :
    BadDict E c (.dict d) e ↔ BadGiven E c e d := by
  unfold BadGiven
  rw [first_prefix]
  constructor
  · intro h
    cases h with
    | shape h => exact absurd (.dict d) (h _)
    | entry hb hg hx =>
      cases hb with
      | dict h => exact .inl ⟨_, _, ⟨_, h⟩, good_iff.mp hg, hx⟩
      | pairs h _ _ => exact absurd rfl (h d)
    | pair h _ _ _ _ => exact absurd rfl (h d)
    | missing he hg hs hb hn =>
      cases he with
      | dict => exact .inr ⟨rfl, good_iff.mp hg, _, _, _, hs, hb, rfl, hn⟩
      | pairs h _ _ => exact absurd rfl (h d)
  · rintro (⟨b, ⟨k, w⟩, ⟨more, h⟩, hg, hx⟩ | ⟨rfl, hg, b, n, a, hs, hb, rfl, hn⟩)
    · exact .entry (.dict h) (good_iff.mpr hg) hx
    · exact .missing (.dict d) (good_iff.mpr hg) hs hb hn

theorem badDict_other {E : Env} {c : FDictId} {v : Val} {e : Exc} (hn : ∀ d, v ≠ .dict d) : BadDict E c v e ↔
    ((∀ l, ¬ Elements v l) ∧ e = .messageError) ∨ ∃ l, Elements v l ∧
      ((∃ before p, (∃ l1 rest, l = l1 ++ rest ∧ PairUp l1 (before ++ [p])) ∧
          (∀ q ∈ before, ∀ x, ¬ BadEntry E c q.1 q.2 x) ∧ BadEntry E c p.1 p.2 e) ∨
       (∃ l1 x rest ps, l = l1 ++ x :: rest ∧ PairUp l1 ps ∧ (∀ q ∈ ps, ∀ x, ¬ BadEntry E c q.1 q.2 x) ∧
          (∀ k w, ¬ Elements x [k, w]) ∧ e = .messageError) ∨
       (∃ ps, PairUp l ps ∧ c = .peer ∧ (∀ q ∈ ps, ∀ x, ¬ BadEntry E c q.1 q.2 x) ∧
          First (PeerKey E ps) (fun n => e = .fieldError n ∧ ¬ PeerKey E ps n) [p!"address", p!"port", p!"node"])) := by
  constructor
  · intro h
    cases h with
    | shape h => exact .inl ⟨h, rfl⟩
    | entry hb hg hx =>
      cases hb with
      | dict h => exact absurd rfl (hn _)
      | pairs _ he hp => exact .inr ⟨_, he, .inl ⟨_, _, ⟨_, _, rfl, hp⟩, good_iff.mp hg, hx⟩⟩
    | pair _ he hp hg hx => exact .inr ⟨_, he, .inr (.inl ⟨_, _, _, _, rfl, hp, good_iff.mp hg, hx, rfl⟩)⟩
    | missing he hg hs hb hnk =>
      cases he with
      | dict => exact absurd rfl (hn _)
      | pairs _ he hp => exact .inr ⟨_, he, .inr (.inr ⟨_, hp, rfl, good_iff.mp hg, _, _, _, hs, hb, rfl, hnk⟩)⟩
  · rintro (⟨h, rfl⟩ | ⟨l, he, ⟨b, ⟨k, w⟩, ⟨l1, rest, rfl, hp⟩, hg, hx⟩ | ⟨l1, x, rest, ps, rfl, hp, hg, hx, rfl⟩ |
      ⟨ps, hp, rfl, hg, b, n, a, hs, hb, rfl, hnk⟩⟩)
    · exact .shape h
    · exact .entry (.pairs hn he hp) (good_iff.mpr hg) hx
    · exact .pair hn he hp (good_iff.mpr hg) hx
    · exact .missing (.pairs hn he hp) (good_iff.mpr hg) hs hb hnk

theorem pairUp_data : ∀ {l : List Val} {ps : List (Val × Val)}, PairUp l ps → (∀ x ∈ l, Data x) → ∀ p ∈ ps, Data p.2
  | _, _, .nil, _, p, hp => by cases hp
  | _, _, .cons (x := x) he h, hd, p, hp => by
    rcases List.mem_cons.mp hp with rfl | hp
    · exact iter_data (hd x (by simp)) ((elements_iff (hd x (by simp))).mpr he) _ (by simp)
    · exact pairUp_data h (fun y hy => hd y (by simp [hy])) p hp

theorem pairsBefore_pairUp : ∀ {l : List Val}, (∀ x ∈ l, Data x) → ∃ l1 rest, l = l1 ++ rest ∧ PairUp l1 (pairsBefore l) :=
  fun hd => (pairs_prefix hd).mp ⟨[], by simp⟩

theorem fdict_raises {E : Env} {c : FDictId} (hc : c = .computeTaskDef ∨ c = .peer) {v : Val} (hv : Data v) {e : Exc} :
    Raises (mkFDict E c v) e ↔ BadDict E c v e := by
  unfold mkFDict
  rcases data_dict_or hv with ⟨d, rfl⟩ | ⟨hd, hne⟩
  · rw [badDict_dict, ← given_pairs hc (fun p hp => (data_dict hv p.1 p.2 hp).2), ← build_raises]
    exact Iff.rfl
  · rw [badDict_other hne]
    cases hi : v.iter with
    | none =>
      have no : ∀ l, ¬ Elements v l := by
        intro l he
        rw [(elements_iff hv).mpr he] at hi
        cases hi
      have : fdArg v = .error .typeError := by
        unfold fdArg
        rw [hd, hi]
      rw [this]
      dsimp only
      unfold fdArgError
      rw [hi]
      dsimp only
      rw [raises_error]
      constructor
      · exact fun h => .inl ⟨no, h.symm⟩
      · rintro (h | ⟨l, he, _⟩)
        · exact h.2.symm
        · exact absurd he (no l)
    | some l =>
      have hel := (elements_iff hv).mp hi
      have hdl : ∀ x ∈ l, Data x := iter_data hv hi
      have uniq : ∀ l', Elements v l' → l' = l := by
        intro l' he
        have := (elements_iff hv).mpr he
        rw [hi] at this
        injection this with this
        exact this.symm
      have harg : fdArg v = pairsOf l := by
        unfold fdArg
        rw [hd, hi]
      obtain ⟨lb, rb, elb, hpb⟩ := pairsBefore_pairUp hdl
      have hdb : ∀ p ∈ pairsBefore l, Data p.2 := pairUp_data hpb fun x hx => hdl x (by rw [elb]; simp [hx])
      have h1 := first_congr (l := pairsBefore l) (fun p hp => class_settable (E := E) hc (hdb p hp))
        (fun p hp => class_entry (E := E) (e := e) (k := p.1) hc (hdb p hp))
      have hfirst : First (Settable E (fdConv E c) c) (Unset E (fdConv E c) c e) (pairsBefore l) ↔
          ∃ before p, (∃ l1 rest, l = l1 ++ rest ∧ PairUp l1 (before ++ [p])) ∧
          (∀ q ∈ before, ∀ x, ¬ BadEntry E c q.1 q.2 x) ∧ BadEntry E c p.1 p.2 e := by
        refine h1.trans ?_
        rw [first_prefix]
        constructor
        · rintro ⟨b, p, hm, hb, hp⟩
          exact ⟨b, p, (pairs_prefix hdl).mp hm, hb, hp⟩
        · rintro ⟨b, p, hm, hb, hp⟩
          exact ⟨b, p, (pairs_prefix hdl).mpr hm, hb, hp⟩
      rw [harg]
      cases hp : pairsOf l with
      | ok ps =>
        dsimp only
        have epb := pairs_all hp
        have hpu := (pairUp_iff hdl).mp hp
        rw [build_raises]
        unfold BadPairs
        rw [epb] at hfirst
        rw [hfirst]
        have hdp : ∀ p ∈ ps, Data p.2 := epb ▸ hdb
        have hrest := given_pairs (E := E) (e := e) hc hdp
        unfold BadPairs BadGiven at hrest
        constructor
        · rintro (h | h)
          · exact .inr ⟨l, hel, .inl h⟩
          · rcases hrest.mp (.inr h) with h' | h'
            · obtain ⟨b, p, a, rfl, _, hx⟩ := h'
              exact absurd hx ((class_settable hc (hdp p (by simp))).mp (h.1 p (by simp)) e)
            · exact .inr ⟨l, hel, .inr (.inr ⟨ps, hpu, h'⟩)⟩
        · rintro (h | ⟨l', he, h⟩)
          · exact absurd hel (h.1 l)
          · have := uniq l' he
            subst this
            rcases h with h | ⟨l1, x, rest, ps', hl, hpu', _, hx, _⟩ | ⟨ps', hpu', h⟩
            · exact .inl h
            · obtain ⟨_, y, hy⟩ := pairs_until hdl hl hpu' hx
              rw [hp] at hy
              cases hy
            · have := (pairUp_iff hdl).mpr hpu'
              rw [hp] at this
              injection this with this
              subst this
              rcases hrest.mpr (.inr h) with h' | h'
              · obtain ⟨b, p, a, rfl, _, hx⟩ := h'
                exact absurd ((class_entry hc (hdp p (by simp))).mp hx) (h.2.1 p (by simp) e)
              · exact .inr h'
      | error x =>
        dsimp only
        obtain ⟨hwx, l1, y, rest, hl, hpu, hy⟩ := pairs_stop hdl hp
        have only : ∀ ps, PairUp l ps → False := by
          intro ps hps
          have := (pairUp_iff hdl).mpr hps
          rw [hp] at this
          cases this
        unfold fdArgError
        rw [hi]
        dsimp only
        have hset := setAll_first (E := E) (conv := fdConv E c) (c := c) (e := e) (ps := pairsBefore l) (items := [])
        rw [hfirst] at hset
        cases hs : fdSetAll E (fdConv E c) c [] (pairsBefore l) with
        | error z =>
          rw [hs, raises_error] at hset
          dsimp only
          rw [raises_error, hset]
          constructor
          · exact fun h => .inr ⟨l, hel, .inl h⟩
          · rintro (h | ⟨l', he, h⟩)
            · exact absurd hel (h.1 l)
            · have := uniq l' he
              subst this
              rcases h with h | ⟨l1', x', rest', ps', hl', hpu', hg', hx', _⟩ | ⟨ps', hpu', _⟩
              · exact h
              · exfalso
                obtain ⟨eb, _⟩ := pairs_until hdl hl' hpu' hx'
                rw [← eb] at hg'
                obtain ⟨i, hi'⟩ := (fdSetAll_assignable (E := E) (conv := fdConv E c) (c := c) (items := [])).2
                  fun key v hm => (class_settable hc (hdb _ hm)).mpr (hg' _ hm)
                rw [hs] at hi'
                cases hi'
              · exact (only ps' hpu').elim
        | ok items =>
          rw [hs, raises_ok] at hset
          dsimp only
          rw [raises_error, hwx]
          have a1 := (fdSetAll_assignable.1 _ hs).1
          constructor
          · intro h
            exact .inr ⟨l, hel, .inr (.inl ⟨l1, y, rest, _, hl, hpu,
              fun q hq => (class_settable hc (hdb q hq)).mp (a1 q.1 q.2 hq), hy, h.symm⟩)⟩
          · rintro (h | ⟨l', he, h⟩)
            · exact h.2.symm
            · have := uniq l' he
              subst this
              rcases h with h | ⟨l1', x', rest', ps', hl', hpu', hg', hx', h⟩ | ⟨ps', hpu', _⟩
              · exact (hset.mpr h).elim
              · exact h.symm
              · exact (only ps' hpu').elim

/-! ### Files -/

/-- The text of a known category becomes a member. -/
def asMember (p : Val × Val) : Val × Val :=
  if p.1 = .str p!"category" then
    match EnumId.ftCategory.lookup p.2 with
    | some m => (p.1, m)
    | none => p
  else p

theorem asMember_fst (p : Val × Val) : (asMember p).1 = p.1 := by
  unfold asMember
  split
  · split <;> rfl
  · rfl

theorem dictSet_member {m : Val} : ∀ {d : List (Val × Val)} {x : Val}, (d.map Prod.fst).Nodup →
    dictGet (.str p!"category") d = some x → EnumId.ftCategory.lookup x = some m →
    dictSet (.str p!"category") m d = d.map asMember
  | [], x, _, hg, _ => by cases hg
  | (k, w) :: rest, x, hn, hg, hl => by
    rw [List.map_cons, List.nodup_cons] at hn
    rw [List.map_cons]
    unfold dictSet
    by_cases e : k.keyEq (.str p!"category") = true
    · have e' := (keyEq_str _ _).mp e
      subst e'
      have hx : w = x := by
        unfold dictGet at hg
        rw [if_pos e] at hg
        exact Option.some.inj hg
      subst hx
      rw [if_pos e]
      have h1 : asMember (.str p!"category", w) = (.str p!"category", m) := by
        unfold asMember
        rw [if_pos rfl]
        dsimp only
        rw [hl]
      have h2 : rest.map asMember = rest := by
        rw [List.map_congr_left (g := id), List.map_id]
        intro q hq
        unfold asMember
        rw [if_neg]
        · rfl
        · intro e'
          exact hn.1 (List.mem_map.mpr ⟨q, hq, e'⟩)
      rw [h1, h2]
    · rw [if_neg e]
      have hk : k ≠ .str p!"category" := fun e' => e ((keyEq_str _ _).mpr e')
      have h1 : asMember (k, w) = (k, w) := by
        unfold asMember
        rw [if_neg hk]
      have hg' : dictGet (.str p!"category") rest = some x := by
        unfold dictGet at hg
        rw [if_neg e] at hg
        exact hg
      rw [h1, dictSet_member hn.2 hg' hl]

theorem file_conv {E : Env} {d : List (Val × Val)} (hd : Data (.dict d)) :
    deserFileInfo E (.dict d) = fdBuild E noConv .fileInfo (d.map asMember) := by
  have hdk : distinctKeys (d.map Prod.fst) = true := by
    unfold Data at hd
    simp only [data, Bool.and_eq_true] at hd
    exact hd.2
  have hnd : (d.map Prod.fst).Nodup :=
    List.Pairwise.of_map _ (fun a b hab e => hab (by rw [e])) (distinct_iff.mp hdk)
  have same : (∀ x, dictGet (.str p!"category") d = some x → EnumId.ftCategory.lookup x = none) →
      d.map asMember = d := by
    intro h
    rw [List.map_congr_left (g := id), List.map_id]
    rintro ⟨k, w⟩ hq
    unfold asMember
    dsimp only
    by_cases hk : k = .str p!"category"
    · subst hk
      rw [if_pos rfl, h w (dictGet_of_mem hnd hq)]
      rfl
    · rw [if_neg hk]; rfl
  unfold deserFileInfo
  dsimp only
  cases hg : dictGet (.str p!"category") d with
  | none =>
    dsimp only
    rw [same fun x hx => by rw [hg] at hx; cases hx]
    rfl
  | some x =>
    dsimp only
    cases hl : EnumId.ftCategory.lookup x with
    | none =>
      dsimp only
      rw [same fun y hy => by rw [hg] at hy; injection hy with hy; rw [← hy]; exact hl]
      rfl
    | some m =>
      dsimp only
      rw [dictSet_member hnd hg hl]
      rfl

theorem file_entry {E : Env} {p : Val × Val} {e : Exc} (hw : Data p.2) :
    Unset E noConv .fileInfo e (asMember p) ↔ BadEntry E .fileInfo p.1 p.2 e := by
  obtain ⟨k, w⟩ := p
  dsimp only at hw ⊢
  by_cases hk : ∃ s, k = .str s
  · obtain ⟨s, rfl⟩ := hk
    have inv : BadEntry E .fileInfo (.str s) w e ↔ (s ∉ dictKeys .fileInfo ∧ e = .messageError) ∨
        (s = p!"category" ∧ ¬ OneOf [p!"results", p!"resources"] w ∧ e = .fieldError s) := by
      constructor
      · intro h
        cases h with
        | key h => exact absurd rfl (h s)
        | unknown h => exact .inl ⟨h, rfl⟩
        | category h => exact .inr ⟨rfl, h, rfl⟩
      · rintro (⟨h, rfl⟩ | ⟨rfl, h, rfl⟩)
        · exact .unknown h
        · exact .category h
    rw [inv]
    by_cases hs : s = p!"category"
    · subst hs
      have hin : p!"category" ∈ dictKeys .fileInfo := by decide
      unfold asMember
      rw [if_pos rfl]
      dsimp only
      cases hl : EnumId.ftCategory.lookup w with
      | some m =>
        obtain ⟨t, ht, rfl, rfl⟩ : ∃ t ∈ [p!"results", p!"resources"], w = .str t ∧ m = .enum .ftCategory t := by
          cases w <;> simp [Data, data] at hw <;> unfold EnumId.lookup at hl <;> simp only at hl <;> try cases hl
          rename_i t
          split at hl
          · rename_i hc
            injection hl with hl
            exact ⟨t, List.contains_iff_mem.mp hc, rfl, hl.symm⟩
          · cases hl
        dsimp only
        have hv : fdValidate E .fileInfo p!"category" (.enum .ftCategory t) = .ok () := by
          unfold fdValidate
          dsimp only
          rw [if_pos rfl, if_pos (show t ∈ EnumId.ftCategory.values from ht)]
        rw [unset_str, hv]
        constructor
        · rintro (⟨_, h, _⟩ | h)
          · cases h
          · exact absurd hin h.2.1
        · rintro (h | h)
          · exact absurd hin h.1
          · exact absurd ⟨t, ht, rfl⟩ h.2.1
      | none =>
        dsimp only
        have hno : ¬ OneOf [p!"results", p!"resources"] w := by
          rintro ⟨t, ht, rfl⟩
          unfold EnumId.lookup at hl
          dsimp only at hl
          rw [if_pos] at hl
          · cases hl
          · exact List.contains_iff_mem.mpr ht
        have hv : fdValidate E .fileInfo p!"category" w = .error (.fieldError p!"category") := by
          unfold fdValidate
          dsimp only
          rw [if_pos rfl]
          cases w <;> simp [Data, data] at hw <;> rfl
        rw [unset_str, hv]
        constructor
        · rintro (⟨x, h, hx⟩ | h)
          · injection h with h
            subst h
            exact .inr ⟨rfl, hno, hx.symm⟩
          · cases h.1
        · rintro (h | h)
          · exact absurd hin h.1
          · exact .inl ⟨_, rfl, h.2.2.symm⟩
    · have hm : asMember (.str s, w) = (.str s, w) := by
        unfold asMember
        rw [if_neg]
        intro e'
        injection e' with e'
        exact hs e'
      have hv : fdValidate E .fileInfo s w = .ok () := by
        unfold fdValidate
        dsimp only
        rw [if_neg hs]
      rw [hm, unset_str, hv]
      constructor
      · rintro (⟨_, h, _⟩ | h)
        · cases h
        · exact .inl h.2
      · rintro (h | h)
        · exact .inr ⟨rfl, h⟩
        · exact absurd h.1 hs
  · have hk : ∀ s, k ≠ .str s := fun s e => hk ⟨s, e⟩
    have hm : asMember (k, w) = (k, w) := by
      unfold asMember
      rw [if_neg (hk _)]
    rw [hm, unset_other hk, badEntry_key hk]

theorem file_raises {E : Env} {v : Val} (hv : Data v) {e : Exc} : Raises (deserFileInfo E v) e ↔ BadFile E v e := by
  rcases data_dict_or hv with ⟨d, rfl⟩ | ⟨_, hne⟩
  · have inv : BadFile E (.dict d) e ↔ BadDict E .fileInfo (.dict d) e := by
      constructor
      · intro h
        cases h with
        | shape h => exact absurd rfl (h d)
        | entries h => exact h
      · exact .entries
    rw [inv, badDict_dict, file_conv hv, build_raises]
    unfold BadPairs BadGiven
    have never : First (Filled E noConv .fileInfo (d.map asMember))
        (fun p => (¬ ∃ w, (.str p.1, w) ∈ d.map asMember) ∧ Unset E noConv .fileInfo e (.str p.1, p.2))
        (dictEntries .fileInfo) ↔ False := by
      refine first_never ?_
      rintro ⟨k, dv⟩ hm ⟨hno, hu⟩
      rcases file_defaults (E := E) (ps := d.map asMember) k dv hm with h | h
      · exact hno h
      · exact settable_iff.mp (show Settable E noConv .fileInfo (.str k, dv) from h) e hu
    rw [never, first_map]
    have hd : ∀ p ∈ d, Data p.2 := fun p hp => (data_dict hv p.1 p.2 hp).2
    refine or_congr (first_congr (fun p hp => ?_) fun p hp => file_entry (hd p hp)) ?_
    · rw [settable_iff]
      exact ⟨fun h x hb => h x ((file_entry (hd p hp)).mpr hb), fun h x hb => h x ((file_entry (hd p hp)).mp hb)⟩
    · exact ⟨fun h => h.2.elim, fun h => (by cases h.1)⟩
  · have : deserFileInfo E v = .error .attributeError := by
      cases v <;> simp [Data, data] at hv <;> first | rfl | exact absurd rfl (hne _)
    rw [this, raises_error]
    constructor
    · rintro rfl
      exact .shape hne
    · intro h
      cases h with
      | shape _ => rfl
      | entries _ => exact absurd rfl (hne _)

/-! ### Rules -/

theorem badRule_inv {E : Env} {c : Cls} {name : PStr} {w : Val} {e : Exc} : BadRule E c name w e ↔
    (c = .Peers ∧ name = p!"peers" ∧ (((∀ l, w ≠ .list l) ∧ e = .fieldError p!"peers") ∨
      ∃ l, w = .list l ∧ First (PeerData E) (fun x => BadDict E .peer x e) l)) ∨
    (c = .Tasks ∧ name = p!"tasks" ∧ (((∀ l, w ≠ .list l) ∧ e = .fieldError p!"tasks") ∨
      ∃ l, w = .list l ∧ First (Record (headerFields E)) (fun x => ((∀ d, x ≠ .dict d) ∧ e = .fieldError p!"tasks") ∨
        ((∃ d, x = .dict d) ∧ BadRecord E (headerFields E) x e)) l)) ∨
    (c = .WantToComputeTask ∧ name = p!"task_header" ∧ w ≠ .none ∧ BadRecord E (headerFields E) w e) ∨
    (c = .WantToComputeTask ∧ name = p!"cpu_usage" ∧ w ≠ .none ∧ ¬ IntegerFrom 0 w ∧ e = .fieldError name) ∨
    (c = .WantToComputeTask ∧ name = p!"num_subtasks" ∧ ¬ IntegerFrom 1 w ∧ e = .fieldError name) ∨
    (c = .TaskToCompute ∧ name = p!"compute_task_def" ∧ BadDict E .computeTaskDef w e) ∨
    (c = .TaskToCompute ∧ (name = p!"price" ∨ name = p!"size") ∧ ¬ Integer w ∧ e = .fieldError name) ∨
    (c = .ReportComputedTask ∧ name = p!"stats" ∧ w ≠ .none ∧ BadRecord E providerFields w e) ∨
    (c = .FileTransferToken ∧ name = p!"files" ∧ (((∀ l, ¬ Elements w l) ∧ e = .messageError) ∨
      ∃ l, Elements w l ∧ First FileData (fun x => BadFile E x e) l)) := by
  constructor
  · intro h
    cases h with
    | peers h => exact .inl ⟨rfl, rfl, .inl ⟨h, rfl⟩⟩
    | peer hb hx => exact .inl ⟨rfl, rfl, .inr ⟨_, rfl, _, _, _, rfl, hb, hx⟩⟩
    | tasks h => exact .inr (.inl ⟨rfl, rfl, .inl ⟨h, rfl⟩⟩)
    | noTask hb hx => exact .inr (.inl ⟨rfl, rfl, .inr ⟨_, rfl, _, _, _, rfl, hb, .inl ⟨hx, rfl⟩⟩⟩)
    | task hb hx => exact .inr (.inl ⟨rfl, rfl, .inr ⟨_, rfl, _, _, _, rfl, hb, .inr ⟨⟨_, rfl⟩, hx⟩⟩⟩)
    | header a b => exact .inr (.inr (.inl ⟨rfl, rfl, a, b⟩))
    | usage a b => exact .inr (.inr (.inr (.inl ⟨rfl, rfl, a, b, rfl⟩)))
    | subtasks a => exact .inr (.inr (.inr (.inr (.inl ⟨rfl, rfl, a, rfl⟩))))
    | definition a => exact .inr (.inr (.inr (.inr (.inr (.inl ⟨rfl, rfl, a⟩)))))
    | number a b => exact .inr (.inr (.inr (.inr (.inr (.inr (.inl ⟨rfl, a, b, rfl⟩))))))
    | stats a b => exact .inr (.inr (.inr (.inr (.inr (.inr (.inr (.inl ⟨rfl, rfl, a, b⟩)))))))
    | files a => exact .inr (.inr (.inr (.inr (.inr (.inr (.inr (.inr ⟨rfl, rfl, .inl ⟨a, rfl⟩⟩)))))))
    | file a b c =>
      exact .inr (.inr (.inr (.inr (.inr (.inr (.inr (.inr ⟨rfl, rfl, .inr ⟨_, a, _, _, _, rfl, b, c⟩⟩)))))))
  · rintro (⟨rfl, rfl, ⟨h, rfl⟩ | ⟨l, rfl, b, x, a, rfl, hb, hx⟩⟩ |
      ⟨rfl, rfl, ⟨h, rfl⟩ | ⟨l, rfl, b, x, a, rfl, hb, ⟨hx, rfl⟩ | ⟨⟨d, rfl⟩, hx⟩⟩⟩ | ⟨rfl, rfl, a, b⟩ |
      ⟨rfl, rfl, a, b, rfl⟩ | ⟨rfl, rfl, a, rfl⟩ | ⟨rfl, rfl, a⟩ | ⟨rfl, a, b, rfl⟩ | ⟨rfl, rfl, a, b⟩ |
      ⟨rfl, rfl, ⟨a, rfl⟩ | ⟨l, he, b, x, a, rfl, hb, hx⟩⟩)
    · exact .peers h
    · exact .peer hb hx
    · exact .tasks h
    · exact .noTask hb hx
    · exact .task hb hx
    · exact .header a b
    · exact .usage a b
    · exact .subtasks a
    · exact .definition a
    · exact .number a b
    · exact .stats a b
    · exact .files a
    · exact .file he hb hx

theorem mapRes_raises {α β : Type _} {f : α → Res β} {l : List α} {e : Exc} :
    Raises (mapRes f l) e ↔ First (fun x => ∃ y, f x = .ok y) (fun x => Raises (f x) e) l := by
  constructor
  · rintro ⟨x, hx, hw⟩
    obtain ⟨b, y, a, h1, h2, h3⟩ := mapRes_first.mp hx
    exact ⟨b, y, a, h1, h2, x, h3, hw⟩
  · rintro ⟨b, y, a, h1, h2, x, h3, hw⟩
    exact ⟨x, mapRes_first.mpr ⟨b, y, a, h1, h2, h3⟩, hw⟩

theorem list_raises {α : Type _} {f : α → Res Val} {l : List α} {e : Exc} :
    Raises (match mapRes f l with
      | .error e => (Except.error e : Res Val)
      | .ok r => .ok (.list r)) e ↔ First (fun x => ∃ y, f x = .ok y) (fun x => Raises (f x) e) l := by
  rw [← mapRes_raises]
  cases mapRes f l with
  | error x => dsimp only; rw [raises_error, raises_error]
  | ok r => dsimp only; rw [raises_ok, raises_ok]

theorem run_raises {E : Env} {x : Validator} {key : PStr} {v w : Val} {e : Exc} :
    Raises (match x.run E key v with
      | .error e => (Except.error e : Res Val)
      | .ok _ => .ok w) e ↔ ¬ x.accepts E v = true ∧ e = .fieldError key := by
  rw [← run_error]
  cases x.run E key v with
  | error y =>
    dsimp only
    rw [raises_error]
    exact ⟨fun h => ⟨y, rfl, h⟩, fun ⟨z, hz, hw⟩ => by injection hz with hz; rw [hz]; exact hw⟩
  | ok u => dsimp only; rw [raises_ok]; exact ⟨False.elim, fun ⟨_, h, _⟩ => (by cases h)⟩

theorem dict_raises {E : Env} {c : ContId} {key : PStr} {v : Val} (h : Data v) {e : Exc} :
    Raises (match Validator.dict.run E key v with
      | .error e => (Except.error e : Res Val)
      | .ok _ => mkCont E c v) e ↔ ((∀ d, v ≠ .dict d) ∧ e = .fieldError key) ∨
        ((∃ d, v = .dict d) ∧ BadRecord E (fieldsOf E c) v e) := by
  unfold Validator.run
  rcases data_dict_or h with ⟨d, rfl⟩ | ⟨hd, hne⟩
  · rw [if_pos (show Validator.dict.accepts E (.dict d) = true from rfl)]
    dsimp only
    rw [record_raises E c h]
    exact ⟨fun h => .inr ⟨⟨d, rfl⟩, h⟩, fun h' => h'.elim (fun h' => absurd rfl (h'.1 d)) fun h' => h'.2⟩
  · have hna : ¬ Validator.dict.accepts E v = true := by
      show ¬ (v.asDict.isSome = true)
      rw [hd]; simp
    rw [if_neg hna]
    dsimp only
    rw [raises_field]
    exact ⟨fun h => .inl ⟨hne, h⟩, fun h' => h'.elim (fun h' => h'.2) fun ⟨⟨d, e⟩, _⟩ => absurd e (hne d)⟩

theorem rule_raises {E : Env} {rec : Loader} {c : Cls} {name : PStr} {P : Val → Prop} {w : Val}
    (hr : fieldRule E c name = some P) (hd : Data w) {e : Exc} :
    Raises (deserSlot E rec c name w) e ↔ BadRule E c name w e := by
  rw [badRule_inv]
  cases c <;> simp only [fieldRule] at hr <;> try cases hr
  case Peers =>
    split at hr
    · rename_i en
      subst en
      unfold deserSlot
      rw [if_neg (by decide), if_pos (by decide)]
      simp only [reduceCtorEq, false_and, or_false, true_and]
      by_cases hl : ∃ l, w = .list l
      · obtain ⟨l, rfl⟩ := hl
        dsimp only
        refine list_raises.trans ?_
        refine (first_congr (P' := PeerData E) (Q' := fun x => BadDict E .peer x e)
          (fun x hx => peer_iff (data_list hd x hx))
          (fun x hx => fdict_raises (.inr rfl) (data_list hd x hx))).trans ?_
        constructor
        · exact fun h => .inr ⟨l, rfl, h⟩
        · rintro (⟨h, _⟩ | ⟨l', e', h⟩)
          · exact absurd rfl (h l)
          · injection e' with e'
            rw [e']; exact h
      · have hl' : ∀ l, w ≠ .list l := fun l e => hl ⟨l, e⟩
        cases w <;> dsimp only <;> first
          | exact absurd rfl (hl' _)
          | (rw [raises_field]
             constructor
             · exact fun h => .inl ⟨hl', h⟩
             · rintro (⟨_, h⟩ | ⟨l, e', _⟩)
               · exact h
               · exact absurd e' (hl' l))
    · cases hr
  case Tasks =>
    split at hr
    · rename_i en
      subst en
      unfold deserSlot
      rw [if_neg (by decide), if_neg (by decide), if_pos (by decide)]
      simp only [reduceCtorEq, false_and, or_false, true_and, false_or]
      by_cases hl : ∃ l, w = .list l
      · obtain ⟨l, rfl⟩ := hl
        dsimp only
        refine list_raises.trans ?_
        refine (first_congr (P' := Record (headerFields E)) (Q' := fun x => ((∀ d, x ≠ .dict d) ∧ e = .fieldError p!"tasks") ∨
            ((∃ d, x = .dict d) ∧ BadRecord E (headerFields E) x e))
          (fun x hx => dict_then (c := .taskHeader) (data_list hd x hx))
          (fun x hx => dict_raises (c := .taskHeader) (data_list hd x hx))).trans ?_
        constructor
        · exact fun h => .inr ⟨l, rfl, h⟩
        · rintro (⟨h, _⟩ | ⟨l', e', h⟩)
          · exact absurd rfl (h l)
          · injection e' with e'
            rw [e']; exact h
      · have hl' : ∀ l, w ≠ .list l := fun l e => hl ⟨l, e⟩
        cases w <;> dsimp only <;> first
          | exact absurd rfl (hl' _)
          | (rw [raises_field]
             constructor
             · exact fun h => .inl ⟨hl', h⟩
             · rintro (⟨_, h⟩ | ⟨l, e', _⟩)
               · exact h
               · exact absurd e' (hl' l))
    · cases hr
  case WantToComputeTask =>
    by_cases e1 : name = p!"task_header"
    · rw [if_pos e1] at hr
      subst e1
      have n1 : ¬ p!"task_header" = p!"cpu_usage" := by decide
      have n2 : ¬ p!"task_header" = p!"num_subtasks" := by decide
      simp only [reduceCtorEq, false_and, or_false, true_and, false_or, n1, n2]
      unfold deserSlot
      rw [if_neg (by decide), if_neg (by decide), if_neg (by decide)]
      by_cases hn : w = .none
      · subst hn
        exact ⟨fun h => (raises_ok.mp h).elim, fun h => absurd rfl h.1⟩
      · rw [if_pos ⟨rfl, rfl, hn⟩, record_raises E _ hd]
        exact ⟨fun h => ⟨hn, h⟩, fun h => h.2⟩
    rw [if_neg e1] at hr
    by_cases e2 : name = p!"cpu_usage"
    · rw [if_pos e2] at hr
      subst e2
      have n2 : ¬ p!"cpu_usage" = p!"num_subtasks" := by decide
      simp only [reduceCtorEq, false_and, or_false, true_and, false_or, e1, n2]
      unfold deserSlot
      rw [if_neg (by decide), if_neg (by decide), if_neg (by decide), if_neg (fun h => e1 h.2.1)]
      by_cases hn : w = .none
      · subst hn
        exact ⟨fun h => (raises_ok.mp h).elim, fun h => absurd rfl h.1⟩
      · rw [if_pos ⟨rfl, rfl, hn⟩, ← field_nonneg (E := E) (v := w),
          ← runAll_ok (E := E) (f := p!"cpu_usage") (u := ())]
        cases hx : runAll E [Validator.integer, Validator.nonNegative] p!"cpu_usage" w with
        | error x =>
          dsimp only
          rw [runAll_error hx, raises_field]
          exact ⟨fun h => ⟨hn, (fun h' => by cases h'), h⟩, fun h => h.2.2⟩
        | ok _ =>
          dsimp only
          rw [raises_ok]
          exact ⟨False.elim, fun h => h.2.1 rfl⟩
    rw [if_neg e2] at hr
    by_cases e3 : name = p!"num_subtasks"
    · rw [if_pos e3] at hr
      subst e3
      simp only [reduceCtorEq, false_and, or_false, true_and, false_or, e1, e2]
      unfold deserSlot
      rw [if_neg (by decide), if_neg (by decide), if_neg (by decide), if_neg (fun h => e1 h.2.1),
        if_neg (fun h => e2 h.2.1), if_pos (by decide)]
      refine Iff.trans run_raises ?_
      have : Validator.positiveInteger.accepts E w = true ↔ IntegerFrom 1 w := by
        cases w <;> simp [Validator.accepts, Val.asInt, IntegerFrom]
      rw [this]
    · rw [if_neg e3] at hr
      cases hr
  case TaskToCompute =>
    by_cases e1 : name = p!"compute_task_def"
    · rw [if_pos e1] at hr
      subst e1
      have n1 : ¬ (p!"compute_task_def" = p!"price" ∨ p!"compute_task_def" = p!"size") := by decide
      simp only [reduceCtorEq, false_and, or_false, true_and, false_or, n1]
      unfold deserSlot
      rw [if_neg (by decide), if_neg (by decide), if_neg (by decide), if_neg (fun h => by cases h.1),
        if_neg (fun h => by cases h.1), if_neg (by decide), if_pos (by decide)]
      exact fdict_raises (.inl rfl) hd
    rw [if_neg e1] at hr
    by_cases e2 : name = p!"price" ∨ name = p!"size"
    · rw [if_pos e2] at hr
      simp only [reduceCtorEq, false_and, or_false, true_and, false_or, e1, e2]
      unfold deserSlot
      rw [if_neg (by rcases e2 with rfl | rfl <;> decide), if_neg (fun h => by cases h.1),
        if_neg (fun h => by cases h.1), if_neg (fun h => by cases h.1),
        if_neg (fun h => by cases h.1), if_neg (fun h => by cases h.1), if_neg (fun h => e1 h.2),
        if_pos ⟨rfl, e2⟩]
      refine Iff.trans run_raises ?_
      have : Validator.integer.accepts E w = true ↔ Integer w := by
        cases w <;> simp [Validator.accepts, Val.asInt, Integer]
      rw [this]
    · rw [if_neg e2] at hr
      cases hr
  case ReportComputedTask =>
    split at hr
    · rename_i en
      subst en
      simp only [reduceCtorEq, false_and, or_false, true_and, false_or]
      unfold deserSlot
      rw [if_neg (by decide), if_neg (by decide), if_neg (by decide), if_neg (fun h => by cases h.1),
        if_neg (fun h => by cases h.1), if_neg (by decide), if_neg (by decide), if_neg (by decide)]
      by_cases hn : w = .none
      · subst hn
        exact ⟨fun h => (raises_ok.mp h).elim, fun h => absurd rfl h.1⟩
      · rw [if_pos ⟨rfl, rfl, hn⟩, record_raises E _ hd]
        exact ⟨fun h => ⟨hn, h⟩, fun h => h.2⟩
    · cases hr
  case FileTransferToken =>
    split at hr
    · rename_i en
      subst en
      simp only [reduceCtorEq, false_and, or_false, true_and, false_or]
      unfold deserSlot
      rw [if_neg (by decide), if_neg (by decide), if_neg (by decide), if_neg (fun h => by cases h.1),
        if_neg (fun h => by cases h.1), if_neg (by decide), if_neg (by decide), if_neg (by decide),
        if_neg (fun h => by cases h.1), if_pos (by decide)]
      cases hi : w.iter with
      | none =>
        have no : ∀ l, ¬ Elements w l := by
          intro l he
          rw [(elements_iff hd).mpr he] at hi
          cases hi
        dsimp only
        rw [raises_error]
        constructor
        · exact fun h => .inl ⟨no, h.symm⟩
        · rintro (h | ⟨l, h, _⟩)
          · exact h.2.symm
          · exact absurd h (no l)
      | some l =>
        have hel := (elements_iff hd).mp hi
        have hdl := iter_data hd hi
        dsimp only
        refine list_raises.trans ?_
        rw [first_congr (P' := FileData) (Q' := fun x => BadFile E x e)
          (fun x hx => file_iff (hdl x hx)) (fun x hx => file_raises (hdl x hx))]
        constructor
        · exact fun h => .inr ⟨l, hel, h⟩
        · rintro (h | ⟨l', h', h⟩)
          · exact absurd hel (h.1 l)
          · have := (elements_iff hd).mpr h'
            rw [hi] at this
            injection this with this
            rw [this]; exact h
    · cases hr

end Verif
