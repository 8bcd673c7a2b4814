import Verif.Lemmas.ArrivedItems
import Verif.Lemmas.WireSlots
/-! # What the constructors make of data: messages that hold what their class declares -/

set_option linter.unusedSimpArgs false

namespace Verif

open Spec

/-! ### Fields -/

theorem mapRes_all {P : Val → Prop} {f : Val → Res Val} {l r : List Val}
    (hf : ∀ x y, x ∈ l → f x = .ok y → P y) (h : mapRes f l = .ok r) : ∀ y ∈ r, P y := by
  intro y hy
  obtain ⟨x, hx, e⟩ := mapRes_ok h y hy
  exact hf x y hx e

theorem mkCont_node (E : Env) (v : Val) : mkCont E .node v = leafCall E .node v := rfl

/-- A field read from data holds a value of the declared kind. -/
theorem field_data {E : Env} {rec : Loader} {c : Cls} {name : PStr} {w v : Val} (hw : Data w)
    (hm : lookupName name c.msgSlots = none) (hc : ¬ (c = .StartSessionResponse ∧ name = p!"conn_id"))
    (h : deserSlot E rec c name w = .ok v) : FieldOk E c name v ∨ v = .none := by
  unfold FieldOk
  unfold deserSlot at h
  by_cases g0 : name ∈ c.nodeSlots
  · have hcont : c.nodeSlots.contains name = true := List.contains_iff_mem.mpr g0
    rw [if_pos g0]
    rw [if_pos hcont] at h
    left
    split at h
    · split at h
      · cases h
      · exact Or.inr (leaf_data (Or.inl rfl) hw h)
    · rename_i ht
      cases h
      exact Or.inl ⟨hw, by simpa using ht⟩
  have hcont : ¬ c.nodeSlots.contains name = true := fun hc => g0 (List.contains_iff_mem.mp hc)
  rw [if_neg g0]
  rw [if_neg hcont] at h
  by_cases g1 : c = .Peers ∧ name = p!"peers"
  · rw [if_pos g1]
    rw [if_pos g1] at h
    left
    split at h
    · rename_i l
      split at h
      · cases h
      rename_i r hr
      cases h
      exact ⟨r, rfl, mapRes_all (fun x y hx e => peer_data (data_list hw x hx) e) hr⟩
    · cases h
  rw [if_neg g1]
  rw [if_neg g1] at h
  by_cases g2 : c = .Tasks ∧ name = p!"tasks"
  · rw [if_pos g2]
    rw [if_pos g2] at h
    left
    split at h
    · rename_i l
      split at h
      · cases h
      rename_i r hr
      cases h
      refine ⟨r, rfl, mapRes_all (fun x y hx e => ?_) hr⟩
      split at e
      · cases e
      · exact header_data (data_list hw x hx) e
    · cases h
  rw [if_neg g2]
  rw [if_neg g2] at h
  by_cases hn : w = .none ∧ ¬ (c = .WantToComputeTask ∧ name = p!"num_subtasks") ∧
      ¬ (c = .TaskToCompute ∧ name = p!"compute_task_def") ∧
      ¬ (c = .TaskToCompute ∧ (name = p!"price" ∨ name = p!"size")) ∧
      ¬ (c = .FileTransferToken ∧ name = p!"files")
  · obtain ⟨rfl, n1, n2, n3, n4⟩ := hn
    right
    rw [if_neg (by simp), if_neg (by simp), if_neg n1, if_neg n2, if_neg n3, if_neg (by simp),
      if_neg n4] at h
    unfold deserBase at h
    simp only [if_true, hm] at h
    cases h
    rfl
  by_cases g3 : c = .WantToComputeTask ∧ name = p!"task_header"
  · have hwn : w ≠ .none := by
      rintro rfl; apply hn; obtain ⟨rfl, rfl⟩ := g3; decide
    rw [if_pos g3]
    rw [if_pos ⟨g3.1, g3.2, hwn⟩] at h
    exact Or.inl (Or.inr (header_data hw h))
  rw [if_neg g3]
  rw [if_neg (fun e => g3 ⟨e.1, e.2.1⟩)] at h
  by_cases g4 : c = .WantToComputeTask ∧ name = p!"cpu_usage"
  · have hwn : w ≠ .none := by
      rintro rfl; apply hn; obtain ⟨rfl, rfl⟩ := g4; decide
    rw [if_pos g4]
    rw [if_pos ⟨g4.1, g4.2, hwn⟩] at h
    left; right
    split at h
    · cases h
    rename_i hr
    cases h
    cases w <;> simp_all [runAll, Validator.run, Validator.accepts, Val.asInt]
    rename_i i
    by_cases hi : 0 ≤ i
    · exact ⟨i.toNat, by omega⟩
    · simp [hi] at hr
  rw [if_neg g4]
  rw [if_neg (fun e => g4 ⟨e.1, e.2.1⟩)] at h
  by_cases g5 : c = .WantToComputeTask ∧ name = p!"num_subtasks"
  · rw [if_pos g5]
    rw [if_pos g5] at h
    left
    split at h
    · cases h
    rename_i hr
    cases h
    cases w <;> simp_all [Validator.run, Validator.accepts, Val.asInt]
    rename_i i
    exact ⟨i.toNat, by omega, by omega⟩
  rw [if_neg g5]
  rw [if_neg g5] at h
  by_cases g6 : c = .TaskToCompute ∧ name = p!"compute_task_def"
  · rw [if_pos g6]
    rw [if_pos g6] at h
    exact Or.inl (mkFDict_data (by decide) (by decide) hw h)
  rw [if_neg g6]
  rw [if_neg g6] at h
  by_cases g7 : c = .TaskToCompute ∧ (name = p!"price" ∨ name = p!"size")
  · rw [if_pos g7]
    rw [if_pos g7] at h
    left
    split at h
    · cases h
    rename_i hr
    cases h
    cases w <;> simp_all [Validator.run, Validator.accepts, Val.asInt]
  rw [if_neg g7]
  rw [if_neg g7] at h
  by_cases g8 : c = .ReportComputedTask ∧ name = p!"stats"
  · have hwn : w ≠ .none := by
      rintro rfl; apply hn; obtain ⟨rfl, rfl⟩ := g8; decide
    rw [if_pos g8]
    rw [if_pos ⟨g8.1, g8.2, hwn⟩] at h
    exact Or.inl (Or.inr (stats_data hw h))
  rw [if_neg g8]
  rw [if_neg (fun e => g8 ⟨e.1, e.2.1⟩)] at h
  by_cases g9 : c = .FileTransferToken ∧ name = p!"files"
  · rw [if_pos g9]
    rw [if_pos g9] at h
    left
    split at h
    · cases h
    rename_i l hl
    split at h
    · cases h
    rename_i r hr
    cases h
    exact ⟨r, rfl, mapRes_all (fun x y hx e => file_data (iter_data hw hl x hx) e) hr⟩
  rw [if_neg g9]
  rw [if_neg g9] at h
  rw [if_neg hc]
  have hwn : w ≠ .none := fun e => hn ⟨e, g5, g6, g7, g9⟩
  unfold deserBase at h
  rw [if_neg hwn, hm] at h
  left
  split
  · rename_i e he
    rw [he] at h
    simp only at h
    split at h
    · rename_i m hl
      cases h
      exact Or.inr (enum_lookup_ok hl)
    · cases h
  · rename_i he
    rw [he] at h
    simp only at h
    cases h
    exact hw

/-- Class defaults keep a value of the declared kind, and replace `None` except where the field
is mandatory. -/
theorem field_default {E : Env} {c : Cls} {name : PStr} {v : Val} (hm : lookupName name c.msgSlots = none)
    (h : FieldOk E c name v ∨ v = .none) :
    (FieldOk E c name (defaulted c name v) ∨ (defaulted c name v = .none ∧ mandatory c name = true)) ∧
    defaulted c name (defaulted c name v) = defaulted c name v := by
  unfold defaulted
  by_cases g1 : (c, name) ∈ [(Cls.Peers, p!"peers"), (.Tasks, p!"tasks"),
      (.ResourcePeers, p!"resource_peers"), (.Gossip, p!"gossip")]
  · simp only [if_pos g1]
    have he : FieldOk E c name (.list []) := by
      simp only [List.mem_cons, List.not_mem_nil, or_false, Prod.mk.injEq] at g1
      rcases g1 with ⟨rfl, rfl⟩ | ⟨rfl, rfl⟩ | ⟨rfl, rfl⟩ | ⟨rfl, rfl⟩ <;>
        simp [FieldOk, Cls.nodeSlots, ListOf, Cls.enumSlots, lookupName, Data, data, dataL]
    split
    · rename_i ht
      refine ⟨Or.inl ?_, rfl⟩
      rcases h with h | rfl
      · exact h
      · cases ht
    · exact ⟨Or.inl he, rfl⟩
  simp only [if_neg g1]
  by_cases g2 : (c, name) ∈ [(Cls.WantToComputeTask, p!"concent_enabled"),
      (.TaskToCompute, p!"concent_enabled")]
  · simp only [if_pos g2]
    refine ⟨Or.inl ?_, rfl⟩
    simp only [List.mem_cons, List.not_mem_nil, or_false, Prod.mk.injEq] at g2
    rcases g2 with ⟨rfl, rfl⟩ | ⟨rfl, rfl⟩ <;>
      simp [FieldOk, Cls.nodeSlots, Cls.enumSlots, lookupName, Data, data]
  simp only [if_neg g2]
  by_cases g3 : (c, name) = (Cls.WantToComputeTask, p!"num_subtasks")
  · simp only [if_pos g3]
    obtain ⟨rfl, rfl⟩ := Prod.mk.inj g3
    split
    · rw [if_neg (by simp)]
      refine ⟨Or.inl ?_, rfl⟩
      simp only [FieldOk, Cls.nodeSlots]
      simp
      exact ⟨1, by decide, rfl⟩
    · rename_i hv
      exact ⟨Or.inl (h.resolve_right hv), rfl⟩
  simp only [if_neg g3]
  by_cases g4 : (c, name) = (Cls.TaskFailure, p!"reason")
  · simp only [if_pos g4]
    obtain ⟨rfl, rfl⟩ := Prod.mk.inj g4
    split
    · rw [if_neg (by simp)]
      refine ⟨Or.inl ?_, rfl⟩
      simp [FieldOk, Cls.nodeSlots, Cls.enumSlots, lookupName]
      decide
    · rename_i hv
      exact ⟨Or.inl (h.resolve_right hv), rfl⟩
  simp only [if_neg g4]
  refine ⟨?_, trivial⟩
  rcases h with h | rfl
  · exact Or.inl h
  by_cases hman : mandatory c name = true
  · exact Or.inr ⟨rfl, hman⟩
  left
  unfold FieldOk
  have a1 : ¬ (c = .Peers ∧ name = p!"peers") := by rintro ⟨rfl, rfl⟩; exact g1 (by decide)
  have a2 : ¬ (c = .Tasks ∧ name = p!"tasks") := by rintro ⟨rfl, rfl⟩; exact g1 (by decide)
  have a3 : ¬ (c = .WantToComputeTask ∧ name = p!"num_subtasks") := by
    rintro ⟨rfl, rfl⟩; exact g3 rfl
  have a4 : ¬ (c = .TaskToCompute ∧ name = p!"compute_task_def") := by
    rintro ⟨rfl, rfl⟩; exact hman (by decide)
  have a5 : ¬ (c = .TaskToCompute ∧ (name = p!"price" ∨ name = p!"size")) := by
    rintro ⟨rfl, rfl | rfl⟩ <;> exact hman (by decide)
  have a6 : ¬ (c = .FileTransferToken ∧ name = p!"files") := by
    rintro ⟨rfl, rfl⟩; exact hman (by decide)
  rw [if_neg a1, if_neg a2, if_neg a3, if_neg a4, if_neg a5, if_neg a6]
  by_cases b0 : name ∈ c.nodeSlots
  · rw [if_pos b0]; exact Or.inl ⟨rfl, rfl⟩
  rw [if_neg b0]
  by_cases b1 : c = .WantToComputeTask ∧ name = p!"task_header"
  · rw [if_pos b1]; exact Or.inl rfl
  rw [if_neg b1]
  by_cases b2 : c = .WantToComputeTask ∧ name = p!"cpu_usage"
  · rw [if_pos b2]; exact Or.inl rfl
  rw [if_neg b2]
  by_cases b3 : c = .ReportComputedTask ∧ name = p!"stats"
  · rw [if_pos b3]; exact Or.inl rfl
  rw [if_neg b3]
  by_cases b4 : c = .StartSessionResponse ∧ name = p!"conn_id"
  · rw [if_pos b4]
  rw [if_neg b4]
  split
  · exact Or.inl rfl
  · rfl

/-! ### Message slots -/

theorem deserSingle_data {rec : Loader} {sd : SlotDef} {key : PStr} {w v : Val} {Q : Val → Prop}
    (hrec : ∀ ty ts enc sig slots x, Data ty → Data ts → Data enc → Data sig → Data slots →
      rec sd.cls ty ts enc sig slots = .ok x → isMsg sd.cls x = true ∧ Q x)
    (hw : Data w) (h : deserSingle rec sd key w = .ok v) :
    (w = .none ∧ v = .none ∧ sd.allowNone = true) ∨
    (w.truthy = true ∧ isMsg sd.cls v = true ∧ Q v) := by
  unfold deserSingle at h
  split at h
  · rename_i hn
    split at h
    · cases h; exact Or.inl ⟨hn, rfl, by assumption⟩
    · cases h
  · split at h
    · rename_i a b c hi
      have h3 := iter_data hw hi
      split at h
      · rename_i ty ts enc hi'
        have h4 := iter_data (h3 a (by simp)) hi'
        split at h
        · rename_i m hm
          cases h
          have := hrec _ _ _ _ _ _ (h4 ty (by simp)) (h4 ts (by simp)) (h4 enc (by simp))
            (h3 b (by simp)) (h3 c (by simp)) hm
          refine Or.inr ⟨?_, this⟩
          cases w <;> simp_all [Val.iter, Val.truthy] <;> (rintro rfl; cases hi)
        · cases h
        · cases h
      · cases h
    · cases h

/-- A message slot read from data holds what is declared. -/
theorem deserMessage_data {rec : Loader} {sd : SlotDef} {key : PStr} {w v : Val} {Q : Val → Prop}
    (hsd : sd.isList = true → sd.allowNone = false)
    (hrec : ∀ ty ts enc sig slots x, Data ty → Data ts → Data enc → Data sig → Data slots →
      rec sd.cls ty ts enc sig slots = .ok x → isMsg sd.cls x = true ∧ Q x)
    (hw : Data w) (h : deserMessage rec sd key w = .ok v) :
    SlotOk sd v ∧ ∀ x ∈ members v, Q x := by
  unfold deserMessage at h
  unfold SlotOk
  split at h
  · rename_i il value hi
    have hd := iter_data hw hi
    by_cases h1 : (value.truthy && !(eqBool il sd.isList)) = true
    · rw [if_pos h1] at h; cases h
    · rw [if_neg h1] at h
      by_cases h2 : (value.truthy && il.truthy) = true
      · rw [if_pos h2] at h
        simp only [Bool.and_eq_true, Bool.not_eq_true', not_and, Bool.not_eq_false] at h1 h2
        have he := h1 h2.1
        have hl : sd.isList = true := by
          cases hb : sd.isList with
          | true => rfl
          | false =>
            rw [hb] at he
            unfold eqBool at he
            split at he <;> simp_all [Val.truthy]
        rw [if_pos hl]
        split at h
        · rename_i l
          split at h
          · cases h
          rename_i r hr
          cases h
          have hm : ∀ x ∈ r, isMsg sd.cls x = true ∧ Q x := by
            intro x hx
            obtain ⟨y, hy, e⟩ := mapRes_ok hr x hx
            have hyd := data_list (hd _ (by simp)) y hy
            rcases deserSingle_data hrec hyd e with ⟨_, _, h3⟩ | ⟨_, h3⟩
            · rw [hsd hl] at h3; cases h3
            · exact h3
          refine ⟨⟨r, rfl, ?_, fun x hx => (hm x hx).1⟩, fun x hx => (hm x hx).2⟩
          rintro rfl
          cases l with
          | nil => simp [Val.truthy] at h2
          | cons a b =>
            unfold mapRes at hr
            split at hr
            · cases hr
            split at hr
            · cases hr
            · cases hr
        · cases h
      · rw [if_neg h2] at h
        rcases deserSingle_data hrec (hd _ (by simp)) h with ⟨_, rfl, h3⟩ | ⟨ht, h3, h4⟩
        · have hl : ¬ sd.isList = true := by intro e; rw [hsd e] at h3; cases h3
          rw [if_neg hl]
          exact ⟨Or.inl ⟨rfl, h3⟩, by intro x hx; cases hx⟩
        · have hl : ¬ sd.isList = true := by
            intro hb
            simp only [ht, Bool.true_and, Bool.not_eq_true', Bool.not_eq_false, Bool.not_eq_true] at h1 h2
            rw [hb] at h1
            unfold eqBool at h1
            split at h1 <;> simp_all [Val.truthy, floatIsZero]
          rw [if_neg hl]
          refine ⟨Or.inr h3, ?_⟩
          intro x hx
          obtain ⟨ty, ts, enc, sig, as, rfl⟩ := isMsg_cases h3
          simp only [members, List.mem_singleton] at hx
          subst hx; exact h4
  · cases h

/-! ### Whole messages -/

/-- `WellTyped`, except that mandatory fields may be `None`. -/
inductive Arrived (E : Env) : Cls → Attrs → Prop
  | mk (c : Cls) (attrs : Attrs) (names : attrs.map Prod.fst = c.payload)
    (fields : ∀ name v, (name, v) ∈ attrs → lookupName name c.msgSlots = none →
      (FieldOk E c name v ∨ (v = .none ∧ mandatory c name = true)) ∧ defaulted c name v = v)
    (slots : ∀ name sd v, (name, v) ∈ attrs → lookupName name c.msgSlots = some sd →
      SlotOk sd v ∨ (v = .none ∧ sd.allowNone = false))
    (heads : ∀ name sd v ty ts enc sig as, (name, v) ∈ attrs →
      lookupName name c.msgSlots = some sd → .msg sd.cls ty ts enc sig as ∈ members v →
      Data ty ∧ Data ts ∧ Data enc ∧ Data sig)
    (nested : ∀ name sd v ty ts enc sig as, (name, v) ∈ attrs →
      lookupName name c.msgSlots = some sd → .msg sd.cls ty ts enc sig as ∈ members v →
      Arrived E sd.cls as) : Arrived E c attrs

/-- One constructor call with data, given its nested calls. -/
theorem arrived_step {E : Env} {rec : Loader}
    (hrec : ∀ c ty ts enc sig sl x, Data ty → Data ts → Data enc → Data sig → Data sl →
      rec c ty ts enc sig sl = .ok x → ∃ ty ts enc sig as, x = .msg c ty ts enc sig as ∧
        (Data ty ∧ Data ts ∧ Data enc ∧ Data sig) ∧ Arrived E c as)
    {c : Cls} {s : Val} {as : Attrs} (hs : Data s) (h : loadAttrs E rec c s = .ok as) :
    Arrived E c as := by
  have hnames : as.map Prod.fst = c.payload := loadAttrs_names h
  have hnd : (as.map Prod.fst).Nodup := by rw [hnames]; exact payload_nodup c
  have hval : ∀ name v, (name, v) ∈ as → ∃ v', v = defaulted c name v' ∧
      (v' = .none ∨ (¬ (c = .StartSessionResponse ∧ name = p!"conn_id") ∧
        ∃ w, Data w ∧ deserSlot E rec c name w = .ok v')) := by
    intro name v hm
    have hp : name ∈ c.payload := by rw [← hnames]; exact List.mem_map.mpr ⟨(name, v), hm, rfl⟩
    obtain ⟨v', h1, h2, h3⟩ := loadAttrs_get h name hp
    rw [getAttr_of_mem hnd hm] at h1
    refine ⟨v', h1, ?_⟩
    by_cases hc : c = .StartSessionResponse ∧ name = p!"conn_id"
    · exact Or.inl (h2 hc)
    · obtain ⟨h4, h5⟩ := h3 hc
      cases hg : dictGet (.str name) (dictOf s) with
      | none => exact Or.inl (h4 hg)
      | some w =>
        refine Or.inr ⟨hc, w, ?_, h5 w hg⟩
        exact (dictOf_data hs).vals _ w (dictGet_mem hg)
  have hslot : ∀ name sd v, (name, v) ∈ as → lookupName name c.msgSlots = some sd →
      (SlotOk sd v ∨ (v = .none ∧ sd.allowNone = false)) ∧ ∀ x ∈ members v,
        ∃ ty ts enc sig as, x = .msg sd.cls ty ts enc sig as ∧
        (Data ty ∧ Data ts ∧ Data enc ∧ Data sig) ∧ Arrived E sd.cls as := by
    intro name sd v hm hl
    have hmem := msgSlots_lookup.mpr hl
    obtain ⟨v', h1, h2⟩ := hval name v hm
    rw [defaulted_msgSlot _ hl] at h1
    subst h1
    rcases h2 with rfl | ⟨_, w, hw, hd⟩
    · refine ⟨?_, by intro x hx; cases hx⟩
      cases ha : sd.allowNone with
      | false => exact Or.inr ⟨rfl, rfl⟩
      | true =>
        left
        unfold SlotOk
        rw [if_neg (fun e => by rw [list_not_none hmem e] at ha; cases ha)]
        exact Or.inl ⟨rfl, ha⟩
    · rw [deserSlot_unhooked _ _ _ _ _ (msgSlot_unhooked hmem)] at hd
      unfold deserBase at hd
      rw [msgSlot_not_enum hmem, hl] at hd
      have he : (if w = .none then (none : Option EnumId) else none) = none := by split <;> rfl
      rw [he] at hd
      simp only at hd
      obtain ⟨h3, h4⟩ := deserMessage_data (list_not_none hmem) (Q := fun x =>
        ∃ ty ts enc sig as, x = .msg sd.cls ty ts enc sig as ∧
        (Data ty ∧ Data ts ∧ Data enc ∧ Data sig) ∧ Arrived E sd.cls as)
        (fun ty ts enc sig sl x d1 d2 d3 d4 d5 hx => by
          have := hrec _ _ _ _ _ _ _ d1 d2 d3 d4 d5 hx
          refine ⟨?_, this⟩
          obtain ⟨_, _, _, _, _, rfl, _⟩ := this
          simp [isMsg]) hw hd
      exact ⟨Or.inl h3, h4⟩
  refine .mk c as hnames ?_ (fun name sd v hm hl => (hslot name sd v hm hl).1) ?_ ?_
  · intro name v hm hl
    obtain ⟨v', rfl, h2⟩ := hval name v hm
    refine field_default hl ?_
    rcases h2 with rfl | ⟨hc, w, hw, hd⟩
    · exact Or.inr rfl
    · exact field_data hw hl hc hd
  · intro name sd v ty ts enc sig as' hm hl hx
    obtain ⟨_, _, _, _, _, e, hd, _⟩ := (hslot name sd v hm hl).2 _ hx
    injection e with _ e1 e2 e3 e4 _
    subst e1 e2 e3 e4
    exact hd
  · intro name sd v ty ts enc sig as' hm hl hx
    obtain ⟨_, _, _, _, _, e, _, ha⟩ := (hslot name sd v hm hl).2 _ hx
    injection e with _ _ _ _ _ e
    subst e
    exact ha

/-- A constructor called with data. -/
theorem arrived_of_load {E : Env} : ∀ (n : Nat) {c : Cls} {s : Val} {as : Attrs}, Data s →
    loadAttrs E (loadMsg E n) c s = .ok as → Arrived E c as := by
  intro n
  induction n with
  | zero => exact arrived_step (fun c ty ts enc sig sl x _ _ _ _ _ h => by unfold loadMsg at h; cases h)
  | succ n ih =>
    refine arrived_step (fun c ty ts enc sig sl x h1 h2 h3 h4 h5 h => ?_)
    obtain ⟨n', as, e, ha, rfl⟩ := loadMsg_isMsg h
    injection e with e
    subst e
    exact ⟨_, _, _, _, _, rfl, ⟨h1, h2, h3, h4⟩, ih h5 ha⟩

/-- A loaded message with no mandatory field missing, at any depth. -/
theorem arrived_wellTyped {E : Env} {c : Cls} {as : Attrs} (h : Arrived E c as)
    (hfull : ∀ name, mandatory c name = true → name ∈ c.payload → getAttr as name ≠ .none)
    (hdeep : ∀ path x, Sits path as x → ∀ name, mandatory x.cls name = true → name ∈ x.cls.payload →
      getAttr x.attrs name ≠ .none) : WellTyped E c as := by
  induction h with
  | mk c attrs names fields slots heads nested ih =>
    have hnd : (attrs.map Prod.fst).Nodup := by rw [names]; exact payload_nodup c
    have hpay : ∀ name v, (name, v) ∈ attrs → name ∈ c.payload := fun name v hm => by
      rw [← names]; exact List.mem_map.mpr ⟨(name, v), hm, rfl⟩
    refine .mk c attrs names ?_ ?_ heads ?_
    · intro name v hm hl
      obtain ⟨h1, h2⟩ := fields name v hm hl
      refine ⟨?_, h2⟩
      rcases h1 with h1 | ⟨rfl, h1⟩
      · exact h1
      · exact absurd (getAttr_of_mem hnd hm) (hfull name h1 (hpay _ _ hm))
    · intro name sd v hm hl
      rcases slots name sd v hm hl with h1 | ⟨rfl, h1⟩
      · exact h1
      · refine absurd (getAttr_of_mem hnd hm) (hfull name ?_ (hpay _ _ hm))
        unfold mandatory
        rw [hl]
        simp [h1]
    · intro name sd v ty ts enc sig as hm hl hx
      obtain ⟨i, hi⟩ := List.getElem?_of_mem hx
      have hat : (members (getAttr attrs name))[i]? =
          some (Msg.val ⟨sd.cls, ty, ts, enc, sig, as⟩) := by
        rw [getAttr_of_mem hnd hm]; exact hi
      refine ih name sd v ty ts enc sig as hm hl hx ?_ ?_
      · intro name' h1 h2
        exact hdeep _ _ (.here hat) name' h1 h2
      · intro path x hs
        exact hdeep _ x (.deeper hat hs)

/-! ### Written again -/

theorem serAttrs_inv {c : Cls} : ∀ {as : Attrs} {l : List Val}, (∀ k v, (k, v) ∈ as → k ∈ c.payload) →
    serAttrs c as = .ok l →
    ∃ ys : Attrs, l = (ys.map fun p => .list [.str p.1, p.2]) ∧ ys.map Prod.fst = as.map Prod.fst ∧
      (∀ k v, (k, v) ∈ as → ∃ y, (k, y) ∈ ys ∧ serSlot c k v = .ok y) ∧
      (∀ k y, (k, y) ∈ ys → ∃ v, (k, v) ∈ as ∧ serSlot c k v = .ok y)
  | [], l, _, h => by unfold serAttrs at h; cases h; exact ⟨[], rfl, rfl, by simp, by simp⟩
  | (k, v) :: rest, l, hp, h => by
    unfold serAttrs at h
    have hv : c.validSlot k = true := List.contains_iff_mem.mpr (hp k v (by simp))
    rw [if_pos hv] at h
    split at h
    · cases h
    rename_i y hy
    split at h
    · cases h
    rename_i r hr
    cases h
    obtain ⟨ys, rfl, h2, h3, h4⟩ := serAttrs_inv (fun k v hm => hp k v (by simp [hm])) hr
    refine ⟨(k, y) :: ys, rfl, by simp [h2], ?_, ?_⟩
    · intro k' v' hm
      rcases List.mem_cons.mp hm with e | hm
      · injection e with e1 e2; subst e1 e2; exact ⟨y, by simp, hy⟩
      · obtain ⟨y', hy', e⟩ := h3 k' v' hm
        exact ⟨y', by simp [hy'], e⟩
    · intro k' y' hm
      rcases List.mem_cons.mp hm with e | hm
      · injection e with e1 e2; subst e1 e2; exact ⟨v, by simp, hy⟩
      · obtain ⟨v', hv', e⟩ := h4 k' y' hm
        exact ⟨v', by simp [hv'], e⟩

/-- What the wire makes of a loaded message: it can be encoded, and if it can be read again no
mandatory field was missing. -/
def Again (E : Env) (c : Cls) (as : Attrs) : Prop :=
  ∀ l, serAttrs c as = .ok l → Val.wireOkL l = true ∧
    ∀ n as', loadAttrs E (loadMsg E n) c (.list (Val.wireNormL l)) = .ok as' → WellTyped E c as

theorem single_again {E : Env} {sd : SlotDef} {key : PStr} {ty ts enc sig : Val} {as : Attrs}
    {s : List Val} (hd : (Data ty ∧ Data ts ∧ Data enc ∧ Data sig) ∧ Again E sd.cls as)
    (hs : serAttrs sd.cls as = .ok s) :
    (Val.tuple [.tuple [ty, ts, enc], sig, .list s]).wireOk = true ∧
    ∀ n v, deserSingle (loadMsg E n) sd key (Val.tuple [.tuple [ty, ts, enc], sig, .list s]).wireNorm = .ok v →
      WellTyped E sd.cls as := by
  obtain ⟨⟨h1, h2, h3, h4⟩, ha⟩ := hd
  obtain ⟨h5, h6⟩ := ha s hs
  refine ⟨?_, ?_⟩
  · simp only [Val.wireOk, Val.wireOkL, (data_wire h1).1, (data_wire h2).1, (data_wire h3).1,
      (data_wire h4).1, h5, Bool.and_self]
  · intro n v h
    have e : (Val.tuple [.tuple [ty, ts, enc], sig, .list s]).wireNorm =
        .list [.list [ty.wireNorm, ts.wireNorm, enc.wireNorm], sig.wireNorm, .list (Val.wireNormL s)] := by
      simp only [Val.wireNorm, Val.wireNormL]
    rw [e] at h
    unfold deserSingle at h
    rw [if_neg (show ¬ (Val.list _ = Val.none) by simp)] at h
    simp only [Val.iter] at h
    split at h
    · rename_i m hm
      obtain ⟨n', as', _, hl, _⟩ := loadMsg_isMsg hm
      exact h6 n' as' hl
    · cases h
    · cases h

theorem msgs_again {E : Env} {sd : SlotDef} {key : PStr} : ∀ {l r : List Val},
    (∀ x ∈ l, isMsg sd.cls x = true) →
    (∀ ty ts enc sig as, .msg sd.cls ty ts enc sig as ∈ l →
      (Data ty ∧ Data ts ∧ Data enc ∧ Data sig) ∧ Again E sd.cls as) →
    serMsgs sd.cls key l = .ok r →
    Val.wireOkL r = true ∧ (l ≠ [] → r ≠ []) ∧
    ∀ n r', mapRes (deserSingle (loadMsg E n) sd key) (Val.wireNormL r) = .ok r' →
      ∀ ty ts enc sig as, .msg sd.cls ty ts enc sig as ∈ l → WellTyped E sd.cls as
  | [], r, _, _, h => by unfold serMsgs at h; cases h; exact ⟨rfl, by simp, by simp⟩
  | x :: xs, r, hm, hd, h => by
    obtain ⟨ty, ts, enc, sig, as, rfl⟩ := isMsg_cases (hm x (by simp))
    unfold serMsgs at h
    rw [if_pos rfl] at h
    split at h
    · cases h
    rename_i s hs
    split at h
    · cases h
    rename_i r0 hr
    cases h
    obtain ⟨h1, h2⟩ := single_again (key := key) (hd ty ts enc sig as (by simp)) hs
    obtain ⟨h3, _, h4⟩ := msgs_again (l := xs) (fun y hy => hm y (by simp [hy]))
      (fun ty ts enc sig as h => hd ty ts enc sig as (by simp [h])) hr
    refine ⟨by simp only [Val.wireOkL, h1, h3, Bool.and_self], by simp, ?_⟩
    intro n r' hr' ty' ts' enc' sig' as' hx
    rw [Val.wireNormL] at hr'
    unfold mapRes at hr'
    split at hr'
    · cases hr'
    rename_i y hy
    split at hr'
    · cases hr'
    rename_i r'' hr''
    rcases List.mem_cons.mp hx with e | hx
    · injection e with _ _ _ _ _ e
      subst e
      exact h2 n y hy
    · exact h4 n r'' hr'' ty' ts' enc' sig' as' hx

theorem slot_again {E : Env} {c : Cls} {name : PStr} {sd : SlotDef} {v y : Val}
    (hs : lookupName name c.msgSlots = some sd) (hv : SlotOk sd v ∨ (v = .none ∧ sd.allowNone = false))
    (hd : ∀ ty ts enc sig as, .msg sd.cls ty ts enc sig as ∈ members v →
      (Data ty ∧ Data ts ∧ Data enc ∧ Data sig) ∧ Again E sd.cls as)
    (h : serSlot c name v = .ok y) :
    y.wireOk = true ∧ SlotOk sd v ∧
    ∀ n v', deserSlot E (loadMsg E n) c name y.wireNorm = .ok v' →
      ∀ ty ts enc sig as, .msg sd.cls ty ts enc sig as ∈ members v → WellTyped E sd.cls as := by
  have hmem := msgSlots_lookup.mpr hs
  have hu := msgSlot_unhooked hmem
  have hk := serHook_unhooked c name v hu
  have hdes : ∀ n w, deserSlot E (loadMsg E n) c name w = deserMessage (loadMsg E n) sd name w := by
    intro n w
    rw [deserSlot_unhooked _ _ _ _ _ hu]
    unfold deserBase
    simp [msgSlot_not_enum hmem, hs]
  rcases hv with hv | ⟨rfl, ha⟩
  · have hv0 := hv
    unfold SlotOk at hv
    split at hv
    · rename_i hl
      obtain ⟨l, rfl, hne, hm⟩ := hv
      unfold serSlot at h
      rw [hk] at h
      simp only [hs] at h
      split at h
      · cases h
      rename_i r hr
      cases h
      obtain ⟨h1, h2, h3⟩ := msgs_again hm (fun ty ts enc sig as h => hd ty ts enc sig as h) hr
      refine ⟨by simp only [Val.wireOk, Val.wireOkL, h1, Bool.and_self], hv0, ?_⟩
      intro n v' hd'
      rw [hdes] at hd'
      unfold deserMessage at hd'
      simp only [Val.wireNorm, Val.wireNormL, Val.iter] at hd'
      have ht : (Val.list (Val.wireNormL r)).truthy = true := by
        cases r with
        | nil => exact absurd rfl (h2 hne)
        | cons a b => rfl
      rw [ht, hl, if_neg (by decide), if_pos (by decide)] at hd'
      split at hd'
      · cases hd'
      rename_i r' hr'
      exact h3 n r' hr'
    · rename_i hl
      rcases hv with ⟨rfl, ha⟩ | hm
      · unfold serSlot at h
        rw [hk] at h
        simp only [hs] at h
        rw [if_pos ha] at h
        cases h
        exact ⟨rfl, hv0, by intro n v' _ ty ts enc sig as hx; cases hx⟩
      · obtain ⟨ty, ts, enc, sig, as, rfl⟩ := isMsg_cases hm
        unfold serSlot at h
        rw [hk] at h
        simp only [hs, if_true] at h
        split at h
        · cases h
        rename_i s hss
        cases h
        obtain ⟨h1, h2⟩ := single_again (key := name) (hd ty ts enc sig as (by simp [members])) hss
        have h3 : (Val.tuple [.tuple [ty, ts, enc], sig, .list s]).wireNorm.truthy = true := rfl
        generalize Val.tuple [.tuple [ty, ts, enc], sig, .list s] = z at *
        refine ⟨by simp only [Val.wireOk, Val.wireOkL, h1, Bool.and_self], hv0, ?_⟩
        intro n v' hd' ty' ts' enc' sig' as' hx
        rw [hdes] at hd'
        unfold deserMessage at hd'
        simp only [Val.wireNorm, Val.wireNormL, Val.iter] at hd'
        rw [if_neg (by simp [h3, eqBool, hl]), if_neg (by simp [h3, Val.truthy])] at hd'
        simp only [members, List.mem_singleton] at hx
        injection hx with _ _ _ _ _ e
        subst e
        exact h2 n v' hd'
  · unfold serSlot at h
    rw [hk] at h
    simp only [hs] at h
    rw [if_neg (by simp [ha])] at h
    cases h

/-- A missing mandatory field that is not a message slot is written as `None` and refused when
read. -/
theorem missing_again {E : Env} {rec : Loader} {c : Cls} {name : PStr} {y : Val}
    (hm : lookupName name c.msgSlots = none) (hman : mandatory c name = true)
    (h : serSlot c name .none = .ok y) :
    y = .none ∧ ∀ v, deserSlot E rec c name .none ≠ .ok v := by
  have hc : (c = .TaskToCompute ∧ (name = p!"compute_task_def" ∨ name = p!"price" ∨ name = p!"size")) ∨
      (c = .FileTransferToken ∧ name = p!"files") := by
    unfold mandatory at hman
    rw [hm] at hman
    simpa using hman
  rcases hc with ⟨rfl, rfl | rfl | rfl⟩ | ⟨rfl, rfl⟩
  · refine ⟨?_, ?_⟩
    · have : serSlot .TaskToCompute p!"compute_task_def" .none = .ok .none := rfl
      rw [this] at h; cases h; rfl
    · intro v hv
      unfold deserSlot at hv
      rw [if_neg (by decide), if_neg (by decide), if_neg (by decide), if_neg (fun e => by cases e.1),
        if_neg (fun e => by cases e.1), if_neg (fun e => by cases e.1), if_pos ⟨rfl, rfl⟩] at hv
      unfold mkFDict fdArg at hv
      cases hv
  · refine ⟨?_, ?_⟩
    · have : serSlot .TaskToCompute p!"price" .none = .ok .none := rfl
      rw [this] at h; cases h; rfl
    · intro v hv; cases hv
  · refine ⟨?_, ?_⟩
    · have : serSlot .TaskToCompute p!"size" .none = .ok .none := rfl
      rw [this] at h; cases h; rfl
    · intro v hv; cases hv
  · refine ⟨?_, ?_⟩
    · have : serSlot .FileTransferToken p!"files" .none = .ok .none := rfl
      rw [this] at h; cases h; rfl
    · intro v hv; cases hv

theorem arrived_again {E : Env} {c : Cls} {as : Attrs} (h : Arrived E c as) : Again E c as := by
  induction h with
  | mk c attrs names fields slots heads nested ih =>
    intro l hl
    have hnd : (attrs.map Prod.fst).Nodup := by rw [names]; exact payload_nodup c
    have hpay : ∀ name v, (name, v) ∈ attrs → name ∈ c.payload := fun name v hm => by
      rw [← names]; exact List.mem_map.mpr ⟨(name, v), hm, rfl⟩
    obtain ⟨ys, rfl, h2, h3, h4⟩ := serAttrs_inv hpay hl
    have hslot : ∀ k sd v y, (k, v) ∈ attrs → lookupName k c.msgSlots = some sd → serSlot c k v = .ok y →
        y.wireOk = true ∧ SlotOk sd v ∧
        ∀ n v', deserSlot E (loadMsg E n) c k y.wireNorm = .ok v' →
          ∀ ty ts enc sig as, .msg sd.cls ty ts enc sig as ∈ members v → WellTyped E sd.cls as := by
      intro k sd v y hm hs hy
      exact slot_again hs (slots k sd v hm hs) (fun ty ts enc sig as hx =>
        ⟨heads k sd v ty ts enc sig as hm hs hx, ih k sd v ty ts enc sig as hm hs hx⟩) hy
    refine ⟨?_, ?_⟩
    · rw [wireOkL_all]
      intro x hx
      obtain ⟨⟨k, y⟩, hm, rfl⟩ := List.mem_map.mp hx
      obtain ⟨v, hv, hy⟩ := h4 k y hm
      have : y.wireOk = true := by
        cases hs : lookupName k c.msgSlots with
        | some sd => exact (hslot k sd v y hv hs hy).1
        | none =>
          rcases (fields k v hv hs).1 with hf | ⟨rfl, hman⟩
          · obtain ⟨y', e, t, _⟩ := field_wire (rec := loadMsg E 0) hf hs
            rw [hy] at e
            injection e with e
            subst e
            exact t
          · rw [(missing_again (E := E) (rec := loadMsg E 0) hs hman hy).1]; rfl
      simp only [Val.wireOk, Val.wireOkL, this, Bool.and_self]
    · intro n as' hload
      have hread : ∀ k v y, (k, v) ∈ attrs → (k, y) ∈ ys →
          ¬ (c = .StartSessionResponse ∧ k = p!"conn_id") →
          ∃ v', deserSlot E (loadMsg E n) c k y.wireNorm = .ok v' := by
        intro k v y hm hy hc
        obtain ⟨v', _, _, h5⟩ := loadAttrs_get hload k (hpay k v hm)
        refine ⟨v', (h5 hc).2 _ ?_⟩
        rw [wireNormL_pairs, dictOf_wire _ (by
          intro p hp
          obtain ⟨q, _, rfl⟩ := List.mem_map.mp hp
          rfl)]
        refine lastValue_unique ?_ (List.mem_map.mpr ⟨(k, y), hy, rfl⟩)
        rw [List.map_map]
        exact h2 ▸ hnd
      refine .mk c attrs names ?_ ?_ heads ?_
      · intro k v hm hs
        obtain ⟨hf, hdef⟩ := fields k v hm hs
        refine ⟨?_, hdef⟩
        rcases hf with hf | ⟨rfl, hman⟩
        · exact hf
        · exfalso
          obtain ⟨y, hy, hser⟩ := h3 k .none hm
          obtain ⟨rfl, hno⟩ := missing_again (E := E) (rec := loadMsg E n) hs hman hser
          obtain ⟨v', hv'⟩ := hread k .none .none hm hy (by rintro ⟨rfl, rfl⟩; revert hman; decide)
          exact hno v' hv'
      · intro k sd v hm hs
        obtain ⟨y, _, hser⟩ := h3 k v hm
        exact (hslot k sd v y hm hs hser).2.1
      · intro k sd v ty ts enc sig as hm hs hx
        obtain ⟨y, hy, hser⟩ := h3 k v hm
        have hc : ¬ (c = .StartSessionResponse ∧ k = p!"conn_id") := by
          rintro ⟨rfl, rfl⟩; revert hs; simp [Cls.msgSlots, lookupName]
        obtain ⟨v', hv'⟩ := hread k v y hm hy hc
        exact (hslot k sd v y hm hs hser).2.2 n v' hv' ty ts enc sig as hx

end Verif
