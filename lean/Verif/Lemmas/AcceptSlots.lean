import Verif.Lemmas.Accept
/-! # Lemmas about which fields and payloads can be read -/

set_option linter.unusedSimpArgs false
set_option linter.unusedVariables false

namespace Verif

open Spec

/-! ### Tables -/

/-- The kind of a slot according to the tables of the model. -/
def slotKind (c : Cls) (name : PStr) : Kind :=
  if c.nodeSlots.contains name then .node
  else match lookupName name c.enumSlots with
    | some e => .choice e.values
    | none =>
      match lookupName name c.msgSlots with
      | some sd => .message sd.cls sd.allowNone sd.isList
      | none => .plain

theorem slotKind_table : ∀ e ∈ catalogue, ∀ p ∈ e.fields, p.2 = slotKind e.cls p.1 := by decide +kernel

theorem payload_table : ∀ e ∈ catalogue, e.cls.payload = e.fields.map Prod.fst := by decide +kernel

theorem enum_not_msg (c : Cls) : ∀ p ∈ c.enumSlots, lookupName p.1 c.msgSlots = none := by
  cases c <;> decide

theorem list_required (c : Cls) : ∀ p ∈ c.msgSlots, p.2.isList = true → p.2.allowNone = false := by
  cases c <;> decide

theorem listed_cls (c : Cls) : ∃ e ∈ catalogue, e.cls = c := by
  have : (catalogue.any fun e => e.cls == c) = true := by cases c <;> decide +kernel
  obtain ⟨e, he, h⟩ := List.any_eq_true.mp this
  exact ⟨e, he, eq_of_beq h⟩

/-! ### Fields with their own rules -/

theorem run_iff {E : Env} {x : Validator} {key : PStr} {v w : Val} :
    (∃ y, (match x.run E key v with
      | .error e => (Except.error e : Res Val)
      | .ok _ => .ok w) = .ok y) ↔ x.accepts E v = true := by
  unfold Validator.run
  by_cases h : x.accepts E v = true
  · rw [if_pos h]; exact ⟨fun _ => h, fun _ => ⟨_, rfl⟩⟩
  · rw [if_neg h]; exact ⟨fun ⟨_, e⟩ => (by cases e), fun e => absurd e h⟩

theorem list_iff {α : Type _} {f : α → Res Val} {l : List α} :
    (∃ y, (match mapRes f l with
      | .error e => (Except.error e : Res Val)
      | .ok r => .ok (.list r)) = .ok y) ↔ ∀ x ∈ l, ∃ y, f x = .ok y := by
  rw [← mapRes_iff]
  cases mapRes f l with
  | error e => exact ⟨fun ⟨_, h⟩ => (by cases h), fun ⟨_, h⟩ => (by cases h)⟩
  | ok r => exact ⟨fun _ => ⟨_, rfl⟩, fun _ => ⟨_, rfl⟩⟩

theorem record_dict {fs : List Field} {E : Env} {v : Val} (h : Record fs v) : Validator.dict.accepts E v = true := by
  obtain ⟨kw, rfl, _⟩ := h
  rfl

theorem dict_then {E : Env} {c : ContId} {key : PStr} {v : Val} (h : Data v) :
    (∃ y, (match Validator.dict.run E key v with
      | .error e => (Except.error e : Res Val)
      | .ok _ => mkCont E c v) = .ok y) ↔ Record (fieldsOf E c) v := by
  rw [← record_iff E c h]
  unfold Validator.run
  by_cases hd : Validator.dict.accepts E v = true
  · rw [if_pos hd]
  · rw [if_neg hd]
    constructor
    · rintro ⟨_, e⟩; cases e
    · intro e
      exact absurd (record_dict ((record_iff E c h).mp e)) hd

theorem deserBase_plain {rec : Loader} {c : Cls} {key : PStr} {v : Val} (he : lookupName key c.enumSlots = none)
    (hm : lookupName key c.msgSlots = none) : deserBase rec c key v = .ok v := by
  unfold deserBase
  rw [he, hm]
  simp

theorem rule_iff {E : Env} {rec : Loader} {c : Cls} {name : PStr} {P : Val → Prop} {w : Val}
    (hr : fieldRule E c name = some P) (hd : Data w) : (∃ x, deserSlot E rec c name w = .ok x) ↔ P w := by
  cases c <;> simp only [fieldRule] at hr <;> try cases hr
  case Peers =>
    split at hr
    · rename_i e
      subst e
      injection hr with hr
      subst hr
      unfold deserSlot
      rw [if_neg (by decide), if_pos (by decide)]
      unfold EachOf
      cases w <;> dsimp only
      case list l =>
        refine Iff.trans list_iff ?_
        constructor
        · exact fun h => ⟨l, rfl, fun x hx => (peer_iff (data_list hd x hx)).mp (h x hx)⟩
        · rintro ⟨l', e, h⟩ x hx
          injection e with e
          subst e
          exact (peer_iff (data_list hd x hx)).mpr (h x hx)
      all_goals exact ⟨fun ⟨_, e⟩ => (by cases e), fun ⟨_, e, _⟩ => (by cases e)⟩
    · cases hr
  case Tasks =>
    split at hr
    · rename_i e
      subst e
      injection hr with hr
      subst hr
      unfold deserSlot
      rw [if_neg (by decide), if_neg (by decide), if_pos (by decide)]
      unfold EachOf
      cases w <;> dsimp only
      case list l =>
        refine Iff.trans list_iff ?_
        constructor
        · exact fun h => ⟨l, rfl, fun x hx => (dict_then (data_list hd x hx)).mp (h x hx)⟩
        · rintro ⟨l', e, h⟩ x hx
          injection e with e
          subst e
          exact (dict_then (c := .taskHeader) (data_list hd x hx)).mpr (h x hx)
      all_goals exact ⟨fun ⟨_, e⟩ => (by cases e), fun ⟨_, e, _⟩ => (by cases e)⟩
    · cases hr
  case WantToComputeTask =>
    by_cases e1 : name = p!"task_header"
    · rw [if_pos e1] at hr
      subst e1
      injection hr with hr
      subst hr
      unfold deserSlot
      rw [if_neg (by decide), if_neg (by decide), if_neg (by decide)]
      by_cases hn : w = .none
      · subst hn
        exact ⟨fun _ => .inl rfl, fun _ => ⟨.none, rfl⟩⟩
      · rw [if_pos ⟨rfl, rfl, hn⟩, record_iff E _ hd]
        exact ⟨.inr, fun h => h.resolve_left hn⟩
    rw [if_neg e1] at hr
    by_cases e2 : name = p!"cpu_usage"
    · rw [if_pos e2] at hr
      subst e2
      injection hr with hr
      subst hr
      unfold deserSlot
      rw [if_neg (by decide), if_neg (by decide), if_neg (by decide), if_neg (fun h => e1 h.2.1)]
      by_cases hn : w = .none
      · subst hn
        exact ⟨fun _ => .inl rfl, fun _ => ⟨.none, rfl⟩⟩
      · rw [if_pos ⟨rfl, rfl, hn⟩]
        have := (field_nonneg (E := E) (v := w))
        unfold NoneOr
        rw [← this, ← runAll_ok (E := E) (f := p!"cpu_usage") (u := ())]
        cases runAll E [Validator.integer, Validator.nonNegative] p!"cpu_usage" w with
        | error e => exact ⟨fun ⟨_, e⟩ => (by cases e), fun h => by rcases h with h | h; exact absurd h hn; cases h⟩
        | ok _ => exact ⟨fun _ => .inr rfl, fun _ => ⟨_, rfl⟩⟩
    rw [if_neg e2] at hr
    by_cases e3 : name = p!"num_subtasks"
    · rw [if_pos e3] at hr
      subst e3
      injection hr with hr
      subst hr
      unfold deserSlot
      rw [if_neg (by decide), if_neg (by decide), if_neg (by decide), if_neg (fun h => e1 h.2.1),
        if_neg (fun h => e2 h.2.1), if_pos (by decide)]
      refine Iff.trans run_iff ?_
      cases w <;> simp [Validator.accepts, Val.asInt, IntegerFrom]
    · rw [if_neg e3] at hr
      cases hr
  case TaskToCompute =>
    by_cases e1 : name = p!"compute_task_def"
    · rw [if_pos e1] at hr
      subst e1
      injection hr with hr
      subst hr
      unfold deserSlot
      rw [if_neg (by decide), if_neg (by decide), if_neg (by decide), if_neg (fun h => by cases h.1),
        if_neg (fun h => by cases h.1), if_neg (by decide), if_pos (by decide)]
      exact taskDef_iff hd
    rw [if_neg e1] at hr
    by_cases e2 : name = p!"price" ∨ name = p!"size"
    · rw [if_pos e2] at hr
      injection hr with hr
      subst hr
      unfold deserSlot
      rw [if_neg (by rcases e2 with rfl | rfl <;> decide), if_neg (fun h => by cases h.1),
        if_neg (fun h => by cases h.1), if_neg (fun h => by cases h.1),
        if_neg (fun h => by cases h.1), if_neg (fun h => by cases h.1), if_neg (fun h => e1 h.2),
        if_pos ⟨rfl, e2⟩]
      refine Iff.trans run_iff ?_
      cases w <;> simp [Validator.accepts, Val.asInt, Integer]
    · rw [if_neg e2] at hr
      cases hr
  case ReportComputedTask =>
    split at hr
    · rename_i e
      subst e
      injection hr with hr
      subst hr
      unfold deserSlot
      rw [if_neg (by decide), if_neg (by decide), if_neg (by decide), if_neg (fun h => by cases h.1),
        if_neg (fun h => by cases h.1), if_neg (by decide), if_neg (by decide), if_neg (by decide)]
      by_cases hn : w = .none
      · subst hn
        exact ⟨fun _ => .inl rfl, fun _ => ⟨.none, rfl⟩⟩
      · rw [if_pos ⟨rfl, rfl, hn⟩, record_iff E _ hd]
        exact ⟨.inr, fun h => h.resolve_left hn⟩
    · cases hr
  case FileTransferToken =>
    split at hr
    · rename_i e
      subst e
      injection hr with hr
      subst hr
      unfold deserSlot
      rw [if_neg (by decide), if_neg (by decide), if_neg (by decide), if_neg (fun h => by cases h.1),
        if_neg (fun h => by cases h.1), if_neg (by decide), if_neg (by decide), if_neg (by decide),
        if_neg (fun h => by cases h.1), if_pos (by decide)]
      cases hl : w.iter with
      | none =>
        dsimp only
        constructor
        · rintro ⟨_, e⟩; cases e
        · rintro ⟨l, e, _⟩
          rw [(elements_iff hd).mpr e] at hl
          cases hl
      | some l =>
        dsimp only
        refine Iff.trans list_iff ?_
        have hdl := iter_data hd hl
        constructor
        · exact fun h => ⟨l, (elements_iff hd).mp hl, fun x hx => (file_iff (hdl x hx)).mp (h x hx)⟩
        · rintro ⟨l', e, h⟩ x hx
          rw [(elements_iff hd).mpr e] at hl
          injection hl with hl
          subst hl
          exact (file_iff (hdl x hx)).mpr (h x hx)
    · cases hr

theorem ruled_not_node {E : Env} {c : Cls} {name : PStr} {P : Val → Prop} (hr : fieldRule E c name = some P) :
    c.nodeSlots.contains name = false := by
  cases c <;> simp only [fieldRule] at hr <;> first | cases hr | rfl

theorem deserSlot_unruled {E : Env} {rec : Loader} {c : Cls} {name : PStr} {w : Val}
    (hr : fieldRule E c name = none) (hn : c.nodeSlots.contains name = false) :
    deserSlot E rec c name w = deserBase rec c name w := by
  unfold deserSlot
  rw [if_neg (by rw [hn]; decide)]
  rw [if_neg, if_neg, if_neg, if_neg, if_neg, if_neg, if_neg, if_neg, if_neg]
  all_goals
    rintro ⟨rfl, h⟩
    simp only [fieldRule] at hr
    simp_all
  split at hr <;> cases hr

/-! ### Choices -/

theorem lookup_iff {e : EnumId} {v : Val} (h : Data v) : (∃ m, e.lookup v = some m) ↔ OneOf e.values v := by
  cases v <;> simp [Data, data] at h
  case str s =>
    unfold EnumId.lookup
    dsimp only
    by_cases hc : e.values.contains s = true
    · rw [if_pos hc]
      exact ⟨fun _ => ⟨s, List.contains_iff_mem.mp hc, rfl⟩, fun _ => ⟨_, rfl⟩⟩
    · rw [if_neg hc]
      refine ⟨fun ⟨_, e⟩ => (by cases e), ?_⟩
      rintro ⟨s', hs, e⟩
      injection e with e
      subst e
      exact absurd (List.contains_iff_mem.mpr hs) hc
  all_goals exact ⟨fun ⟨_, e⟩ => (by simp [EnumId.lookup] at e), fun ⟨_, _, e⟩ => (by cases e)⟩

theorem choice_iff {rec : Loader} {c : Cls} {key : PStr} {e : EnumId} {w : Val} (h : Data w)
    (he : lookupName key c.enumSlots = some e) (hm : lookupName key c.msgSlots = none) :
    (∃ x, deserBase rec c key w = .ok x) ↔ NoneOr (OneOf e.values) w := by
  unfold deserBase
  rw [he, hm]
  by_cases hn : w = .none
  · rw [if_pos hn]
    exact ⟨fun _ => .inl hn, fun _ => ⟨_, rfl⟩⟩
  · rw [if_neg hn]
    dsimp only
    unfold NoneOr
    rw [← lookup_iff h]
    cases e.lookup w with
    | none => exact ⟨fun ⟨_, e⟩ => (by cases e), fun h => by rcases h with h | ⟨_, h⟩; exact absurd h hn; cases h⟩
    | some m => exact ⟨fun _ => .inr ⟨_, rfl⟩, fun _ => ⟨_, rfl⟩⟩

/-! ### Nested messages -/

/-- The constructor of the class takes a payload exactly if it can be read. -/
def ReadsAll (E : Env) (rec : Loader) (cls : Cls) : Prop :=
  ∀ ty ts enc sig v, Data v → ((∃ x, rec cls ty ts enc sig v = .ok x) ↔ Legible E cls v)

theorem legibleMessage_inv {E : Env} {cls : Cls} {x : Val} (h : LegibleMessage E cls x) :
    ∃ header sig slots ty ts enc, Elements x [header, sig, slots] ∧ Elements header [ty, ts, enc] ∧
      Legible E cls slots := by
  cases h with
  | mk a b c => exact ⟨_, _, _, _, _, _, a, b, c⟩

theorem single_iff {E : Env} {rec : Loader} {sd : SlotDef} {key : PStr} {x : Val} (hr : ReadsAll E rec sd.cls)
    (h : Data x) : (∃ m, deserSingle rec sd key x = .ok m) ↔
      (x = .none ∧ sd.allowNone = true) ∨ LegibleMessage E sd.cls x := by
  unfold deserSingle
  by_cases hn : x = .none
  · rw [if_pos hn]
    subst hn
    have : ¬ LegibleMessage E sd.cls .none := by
      intro h
      obtain ⟨_, _, _, _, _, _, a, _⟩ := legibleMessage_inv h
      cases a
    cases sd.allowNone <;> simp [this]
  · rw [if_neg hn]
    have key : (∃ header sig slots ty ts enc m, x.iter = some [header, sig, slots] ∧
        header.iter = some [ty, ts, enc] ∧ rec sd.cls ty ts enc sig slots = .ok m) ↔ LegibleMessage E sd.cls x := by
      constructor
      · rintro ⟨header, sig, slots, ty, ts, enc, m, h1, h2, h3⟩
        have hd := iter_data h h1
        exact .mk ((elements_iff h).mp h1) ((elements_iff (hd header (by simp))).mp h2)
          ((hr ty ts enc sig slots (hd slots (by simp))).mp ⟨m, h3⟩)
      · intro hl
        obtain ⟨header, sig, slots, ty, ts, enc, h1, h2, h3⟩ := legibleMessage_inv hl
        have h1 := (elements_iff h).mpr h1
        have hd := iter_data h h1
        obtain ⟨m, hm⟩ := (hr ty ts enc sig slots (hd slots (by simp))).mpr h3
        exact ⟨_, _, _, _, _, _, m, h1, (elements_iff (hd header (by simp))).mpr h2, hm⟩
    have : ¬ (x = .none ∧ sd.allowNone = true) := fun e => hn e.1
    rw [or_iff_right this, ← key]
    constructor
    · rintro ⟨m, hm⟩
      split at hm
      · rename_i header sig slots h1
        split at hm
        · rename_i ty ts enc h2
          split at hm
          · rename_i m' h3
            exact ⟨_, _, _, _, _, _, m', h1, h2, h3⟩
          all_goals cases hm
        · cases hm
      · cases hm
    · rintro ⟨header, sig, slots, ty, ts, enc, m, h1, h2, h3⟩
      rw [h1]
      dsimp only
      rw [h2]
      dsimp only
      rw [h3]
      exact ⟨m, rfl⟩

theorem falsy_illegible {E : Env} {cls : Cls} {x : Val} (h : x.truthy = false) : ¬ LegibleMessage E cls x := by
  intro hl
  obtain ⟨_, _, _, _, _, _, a, _⟩ := legibleMessage_inv hl
  generalize hg : [_, _, _] = l at a
  cases a with
  | list l => subst hg; simp [Val.truthy] at h
  | text s =>
    cases s with
    | nil => cases hg
    | cons => simp [Val.truthy] at h
  | bytes b =>
    cases b with
    | nil => cases hg
    | cons => simp [Val.truthy] at h
  | dict d =>
    cases d with
    | nil => cases hg
    | cons => simp [Val.truthy] at h

theorem sameKey_truthy {x : Val} {b : Bool} (h : sameKey x (.bool b) = true) : x.truthy = b := by
  rw [← eqBool_sameKey] at h
  cases x <;> simp only [eqBool, Bool.false_eq_true] at h
  case bool c => simpa [Val.truthy] using h
  case int i =>
    have := eq_of_beq h
    subst this
    cases b <;> rfl
  case float f =>
    cases b
    · simpa [Val.truthy] using h
    · have : f = 0x3FF0000000000000 := by simpa using h
      subst this
      rfl

theorem message_iff {E : Env} {rec : Loader} {sd : SlotDef} {c : Cls} {key : PStr} {w : Val}
    (hu : fieldRule E c key = none) (hr : ReadsAll E rec sd.cls) (hl : sd.isList = true → sd.allowNone = false)
    (h : Data w) : (∃ m, deserMessage rec sd key w = .ok m) ↔
      LegibleField E c key (.message sd.cls sd.allowNone sd.isList) w := by
  unfold deserMessage
  constructor
  · rintro ⟨m, hm⟩
    split at hm
    · rename_i flag value hi
      have hd := iter_data h hi
      have hi := (elements_iff h).mp hi
      have hv : Data value := hd value (by simp)
      split at hm
      · cases hm
      rename_i h1
      rw [eqBool_sameKey] at h1
      by_cases ht : value.truthy = true
      · have hs : sameKey flag (.bool sd.isList) = true := by
          simpa [ht] using h1
        have hf := sameKey_truthy hs
        rw [ht, hf] at hm
        cases hb : sd.isList with
        | true =>
          rw [hb] at hm hs
          rw [if_pos (by decide)] at hm
          split at hm
          · rename_i l _
            obtain hm := (list_iff (f := deserSingle rec sd key) (l := l)).mp ⟨m, hm⟩
            refine .several hu hi ?_ hs fun x hx => ?_
            · rintro rfl
              simp [Val.truthy] at ht
            · rcases (single_iff hr (data_list hv x hx)).mp (hm x hx) with ⟨_, e⟩ | e
              · rw [hl hb] at e; cases e
              · exact e
          · cases hm
        | false =>
          rw [hb] at hm hs
          rw [if_neg (by decide)] at hm
          rcases (single_iff hr hv).mp ⟨m, hm⟩ with ⟨e, _⟩ | e
          · subst e
            simp [Val.truthy] at ht
          · exact .single hu hi hs e
      · have ht := Bool.not_eq_true _ ▸ ht
        rw [ht, Bool.false_and, if_neg (by decide)] at hm
        rcases (single_iff hr hv).mp ⟨m, hm⟩ with ⟨e, e'⟩ | e
        · subst e
          rw [e']
          exact .absent hu hi
        · exact absurd e (falsy_illegible ht)
    · cases hm
  · intro hf
    generalize hk : Kind.message sd.cls sd.allowNone sd.isList = kind at hf
    cases hf with
    | ruled a _ => rw [hu] at a; cases a
    | plain _ => cases hk
    | node _ _ => cases hk
    | choice _ _ => cases hk
    | absent _ hi =>
      injection hk with k1 k2 k3
      rw [(elements_iff h).mpr hi]
      dsimp only
      have : Val.none.truthy = false := rfl
      rw [this, Bool.false_and, if_neg (by decide), Bool.false_and, if_neg (by decide)]
      exact ⟨.none, by unfold deserSingle; rw [if_pos rfl, k2]; rfl⟩
    | @single _ _ _ _ _ flag x _ hi hs hx =>
      injection hk with k1 k2 k3
      subst k1
      have hi := (elements_iff h).mpr hi
      have hd := iter_data h hi
      rw [hi]
      dsimp only
      rw [eqBool_sameKey, k3, hs, sameKey_truthy hs]
      rw [if_neg (by simp), Bool.and_false, if_neg (by decide)]
      exact (single_iff hr (hd x (by simp))).mpr (.inr hx)
    | @several _ _ _ _ _ flag l _ hi hne hs hx =>
      injection hk with k1 k2 k3
      subst k1
      have hi := (elements_iff h).mpr hi
      have hd := data_list (iter_data h hi (.list l) (by simp))
      rw [hi]
      dsimp only
      rw [eqBool_sameKey, k3, hs, sameKey_truthy hs]
      have ht : (Val.list l).truthy = true := by
        cases l with
        | nil => exact absurd rfl hne
        | cons => rfl
      rw [ht, if_neg (by decide), if_pos (by decide)]
      exact list_iff.mpr fun x hxl => (single_iff hr (hd x hxl)).mpr (.inr (hx x hxl))

/-! ### All fields -/

theorem field_iff {E : Env} {rec : Loader} {e : Entry} {name : PStr} {kind : Kind} {w : Val} (he : e ∈ catalogue)
    (hf : (name, kind) ∈ e.fields) (h : Data w) (hr : ∀ cls, Declares e.cls cls → ReadsAll E rec cls) :
    (∃ x, deserSlot E rec e.cls name w = .ok x) ↔ LegibleField E e.cls name kind w := by
  cases hu : fieldRule E e.cls name with
  | some P =>
    rw [rule_iff hu h]
    constructor
    · exact .ruled hu
    · intro hl
      cases hl with
      | ruled a b =>
        rw [hu] at a
        injection a with a
        subst a
        exact b
      | plain a => rw [hu] at a; cases a
      | node a _ => rw [hu] at a; cases a
      | choice a _ => rw [hu] at a; cases a
      | absent a _ => rw [hu] at a; cases a
      | single a _ _ _ => rw [hu] at a; cases a
      | several a _ _ _ _ => rw [hu] at a; cases a
  | none =>
    have hk : kind = slotKind e.cls name := slotKind_table e he _ hf
    unfold slotKind at hk
    by_cases hn : e.cls.nodeSlots.contains name = true
    · rw [if_pos hn] at hk
      subst hk
      unfold deserSlot
      rw [if_pos hn]
      have inv : LegibleField E e.cls name .node w ↔ w.truthy = false ∨ Record (nodeFields E) w := by
        constructor
        · intro hl
          cases hl with
          | ruled a _ => rw [hu] at a; cases a
          | node _ b => rwa [holds_eq] at b
        · intro hl
          exact .node hu (by rwa [holds_eq])
      rw [inv]
      by_cases ht : w.truthy = true
      · rw [if_pos ht]
        refine Iff.trans (dict_then (c := .node) h) ?_
        rw [ht]
        exact ⟨.inr, fun a => a.resolve_left (by decide)⟩
      · rw [if_neg ht]
        exact ⟨fun _ => .inl (by simpa using ht), fun _ => ⟨_, rfl⟩⟩
    · rw [if_neg hn] at hk
      rw [deserSlot_unruled hu (by simpa using hn)]
      cases hce : lookupName name e.cls.enumSlots with
      | some en =>
        rw [hce] at hk
        dsimp only at hk
        subst hk
        rw [choice_iff h hce (enum_not_msg e.cls _ (mem_of_lookupName hce))]
        constructor
        · exact .choice hu
        · intro hl
          cases hl with
          | ruled a _ => rw [hu] at a; cases a
          | choice _ b => exact b
      | none =>
        rw [hce] at hk
        dsimp only at hk
        cases hm : lookupName name e.cls.msgSlots with
        | some sd =>
          rw [hm] at hk
          dsimp only at hk
          subst hk
          have hmem := mem_of_lookupName hm
          rw [← message_iff hu (hr sd.cls ⟨name, sd, hmem, rfl⟩) (list_required e.cls _ hmem) h]
          unfold deserBase
          rw [hce, hm]
          simp
        | none =>
          rw [hm] at hk
          dsimp only at hk
          subst hk
          rw [deserBase_plain hce hm]
          exact ⟨fun _ => .plain hu, fun _ => ⟨_, rfl⟩⟩

theorem loadSlots_iff {E : Env} {rec : Loader} {c : Cls} {d : List (Val × Val)} : ∀ {names : List PStr},
    (∃ r, loadSlots E rec c d names = .ok r) ↔ ∀ n ∈ names, ¬ Unread c n → ∀ w, dictGet (.str n) d = some w →
      ∃ x, deserSlot E rec c n w = .ok x
  | [] => by simp [loadSlots]
  | n :: rest => by
    unfold loadSlots
    have head : (∃ v, (if c = .StartSessionResponse ∧ n = p!"conn_id" then .ok .none
           else match dictGet (.str n) d with
             | Option.none => .ok .none
             | some v => deserSlot E rec c n v : Res Val) = .ok v) ↔
        (¬ Unread c n → ∀ w, dictGet (.str n) d = some w → ∃ x, deserSlot E rec c n w = .ok x) := by
      unfold Unread
      by_cases hu : c = .StartSessionResponse ∧ n = p!"conn_id"
      · rw [if_pos hu]
        exact ⟨fun _ e => absurd hu e, fun _ => ⟨_, rfl⟩⟩
      · rw [if_neg hu]
        cases dictGet (.str n) d with
        | none => exact ⟨fun _ _ w e => (by cases e), fun _ => ⟨_, rfl⟩⟩
        | some w =>
          constructor
          · intro h _ w' e
            injection e with e
            subst e
            exact h
          · exact fun h => h hu w rfl
    constructor
    · rintro ⟨r, h⟩
      split at h
      · cases h
      rename_i v hv
      split at h
      · cases h
      rename_i r' hr
      have h1 := head.mp ⟨v, hv⟩
      have h2 := loadSlots_iff.mp ⟨r', hr⟩
      intro m hm
      rcases List.mem_cons.mp hm with e | e
      · subst e; exact h1
      · exact h2 m e
    · intro h
      obtain ⟨v, hv⟩ := head.mpr (h n (by simp))
      obtain ⟨r', hr⟩ := loadSlots_iff.mpr fun m hm => h m (List.mem_cons_of_mem _ hm)
      refine ⟨(n, v) :: r', ?_⟩
      split
      · rename_i e he
        cases hv.symm.trans he
      · rename_i v' hv'
        injection hv.symm.trans hv' with hv'
        subst hv'
        rw [hr]

theorem loadAttrs_iff {E : Env} {rec : Loader} {c : Cls} {slots : Val} :
    (∃ as, loadAttrs E rec c slots = .ok as) ↔ ∃ r, loadSlots E rec c (dictOf slots) c.payload = .ok r := by
  unfold loadAttrs wrapLoad
  cases loadSlots E rec c (dictOf slots) c.payload with
  | ok r => exact ⟨fun _ => ⟨_, rfl⟩, fun _ => ⟨_, rfl⟩⟩
  | error e =>
    refine ⟨?_, fun ⟨_, h⟩ => (by cases h)⟩
    rintro ⟨as, h⟩
    cases e <;> cases h

theorem legible_inv {E : Env} {c : Cls} {v : Val} (h : Legible E c v) : ∃ e ∈ catalogue, e.cls = c ∧
    ∀ name kind w, (name, kind) ∈ e.fields → ¬ Unread e.cls name → Given v name w →
      LegibleField E e.cls name kind w := by
  cases h with
  | mk a b => exact ⟨_, a, rfl, b⟩

theorem attrs_iff {E : Env} {rec : Loader} {c : Cls} {v : Val} (h : Data v)
    (hr : ∀ cls, Declares c cls → ReadsAll E rec cls) :
    (∃ as, loadAttrs E rec c v = .ok as) ↔ Legible E c v := by
  rw [loadAttrs_iff, loadSlots_iff]
  have main : ∀ e ∈ catalogue, e.cls = c → ((∀ n ∈ c.payload, ¬ Unread c n → ∀ w,
      dictGet (.str n) (dictOf v) = some w → ∃ x, deserSlot E rec c n w = .ok x) ↔
      ∀ name kind w, (name, kind) ∈ e.fields → ¬ Unread e.cls name → Given v name w →
        LegibleField E e.cls name kind w) := by
    rintro e he rfl
    constructor
    · intro hh name kind w hf hu hg
      refine (field_iff he hf (given_data h hg) hr).mp (hh name ?_ hu w ((given_iff h name w).mpr hg))
      rw [payload_table e he]
      exact List.mem_map.mpr ⟨_, hf, rfl⟩
    · intro hh n hn hu w hg
      rw [payload_table e he] at hn
      obtain ⟨⟨name, kind⟩, hf, rfl⟩ := List.mem_map.mp hn
      have hg := (given_iff h _ w).mp hg
      exact (field_iff he hf (given_data h hg) hr).mpr (hh name kind w hf hu hg)
  constructor
  · intro hh
    obtain ⟨e, he, hc⟩ := listed_cls c
    have := (main e he hc).mp hh
    subst hc
    exact .mk he this
  · intro hl
    obtain ⟨e, he, hc, hh⟩ := legible_inv hl
    exact (main e he hc).mpr hh

theorem reads_all (E : Env) : ∀ (n : Nat) (c : Cls), c.rank < n → ReadsAll E (loadMsg E n) c
  | 0, _, h => absurd h (Nat.not_lt_zero _)
  | n + 1, c, h => by
    intro ty ts enc sig v hv
    unfold loadMsg
    rw [← attrs_iff (rec := loadMsg E n) hv fun cls hd => reads_all E n cls (by have := declares_rank hd; omega)]
    cases loadAttrs E (loadMsg E n) c v with
    | ok as => exact ⟨fun _ => ⟨_, rfl⟩, fun _ => ⟨_, rfl⟩⟩
    | error e => exact ⟨fun ⟨_, e⟩ => (by cases e), fun ⟨_, e⟩ => (by cases e)⟩

/-- The constructor of a class takes the payload exactly if it can be read. -/
theorem construct_iff {E : Env} {c : Cls} {h : Header} {sig : Bytes} {version : Option PStr} {v : Val} (hv : Data v) :
    (∃ m, construct E c h sig version v = .ok m) ↔ Legible E c v := by
  rw [← attrs_iff (rec := loadMsg E maxDepth) hv fun cls _ => reads_all E _ cls
    (by have := rank_le cls; unfold maxDepth; omega)]
  unfold construct
  cases loadAttrs E (loadMsg E maxDepth) c v with
  | ok as => exact ⟨fun _ => ⟨_, rfl⟩, fun _ => ⟨_, rfl⟩⟩
  | error e => exact ⟨fun ⟨_, e⟩ => (by cases e), fun ⟨_, e⟩ => (by cases e)⟩

end Verif
