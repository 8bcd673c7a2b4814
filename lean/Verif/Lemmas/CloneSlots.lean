import Verif.Lemmas.Clone
/-! # Messages rebuilt from slots that did not travel -/

set_option linter.unusedSimpArgs false

namespace Verif.Clone

open Spec

/-- A field that is not a message slot is written and read back. -/
theorem field {E : Env} {rec : Loader} {c : Cls} {name : PStr} {v : Val}
    (h : FieldOk E c name v) (hm : lookupName name c.msgSlots = none) :
    ∃ y, serSlot c name v = .ok y ∧ deserSlot E rec c name y = .ok v := by
  have h0 := h
  unfold FieldOk at h
  by_cases g0 : name ∈ c.nodeSlots
  · rw [if_pos g0] at h
    have hn := g0
    have hcont : c.nodeSlots.contains name = true := List.contains_iff_mem.mpr hn
    rcases h with ⟨hd, hf⟩ | h
    · refine ⟨v, serSlot_keep ?_ hm (data_enum hd), ?_⟩
      · cases c <;> simp_all [Cls.nodeSlots, serHook]
      · unfold deserSlot
        rw [if_pos hcont, ← holds_eq, hf]
        simp
    · obtain ⟨fs, d, rfl, h1, _, h3, h4⟩ := node h
      refine ⟨.dict d, ?_, ?_⟩
      · unfold serSlot serHook
        rw [hcont]
        simp only [Val.truthy, Bool.and_self, if_true, h1]
      · unfold deserSlot
        rw [if_pos hcont, if_pos h4]
        simp only [Validator.run, Validator.accepts, Val.asDict]
        exact h3
  have hcont : c.nodeSlots.contains name = false := by
    cases hc : c.nodeSlots.contains name with
    | false => rfl
    | true => exact absurd (List.contains_iff_mem.mp hc) g0
  rw [if_neg g0] at h
  by_cases g1 : c = .Peers ∧ name = p!"peers"
  · rw [if_pos g1] at h
    have hp := g1
    obtain ⟨rfl, rfl⟩ := hp
    obtain ⟨l, rfl, hl⟩ := h
    obtain ⟨r, h1, h3⟩ := list_same (f := mkFDict E .peer) (fun x hx => peer hx) hl
    refine ⟨.list r, ?_, ?_⟩
    · unfold serSlot serHook
      simp [Cls.nodeSlots, Val.iter, h1]
    · unfold deserSlot
      simp [Cls.nodeSlots, h3]
  rw [if_neg g1] at h
  by_cases g2 : c = .Tasks ∧ name = p!"tasks"
  · rw [if_pos g2] at h
    have hq := g2
    obtain ⟨rfl, rfl⟩ := hq
    obtain ⟨l, rfl, hl⟩ := h
    obtain ⟨r, h1, h3⟩ := list_same (ser := toDict) (f := fun h =>
          match Validator.dict.run E p!"tasks" h with
          | .error e => .error e
          | .ok _ => mkCont E .taskHeader h) (P := HeaderOk E) (fun x hx => by
        obtain ⟨_, d, h1, h2⟩ := header hx
        refine ⟨_, h1, ?_⟩
        simp only [Validator.run, Validator.accepts, Val.asDict]
        exact h2) hl
    refine ⟨.list r, ?_, ?_⟩
    · unfold serSlot serHook
      simp [Cls.nodeSlots, Val.iter, h1]
    · unfold deserSlot
      rw [if_neg (by decide), if_neg (by decide), if_pos (And.intro rfl rfl)]
      have key : ∀ z : Res (List Val), z = .ok l → (match z with
          | .error e => .error e
          | .ok r => .ok (.list r) : Res Val) = .ok (.list l) := by
        rintro _ rfl; rfl
      exact key _ h3
  rw [if_neg g2] at h
  by_cases g3 : c = .WantToComputeTask ∧ name = p!"task_header"
  · rw [if_pos g3] at h
    have hw := g3
    obtain ⟨rfl, rfl⟩ := hw
    rcases h with rfl | h
    · exact ⟨.none, rfl, rfl⟩
    · obtain ⟨⟨fs, rfl⟩, d, h1, h2⟩ := header h
      refine ⟨.dict d, ?_, ?_⟩
      · unfold serSlot serHook
        simp [Cls.nodeSlots, h1]
      · unfold deserSlot
        simp [Cls.nodeSlots, h2]
  rw [if_neg g3] at h
  by_cases g4 : c = .WantToComputeTask ∧ name = p!"cpu_usage"
  · rw [if_pos g4] at h
    have hw := g4
    obtain ⟨rfl, rfl⟩ := hw
    rcases h with rfl | ⟨n, rfl⟩
    · exact ⟨.none, rfl, rfl⟩
    · refine ⟨.int n, rfl, ?_⟩
      unfold deserSlot
      simp [Cls.nodeSlots, runAll, Validator.run, Validator.accepts, Val.asInt]
  rw [if_neg g4] at h
  by_cases g5 : c = .WantToComputeTask ∧ name = p!"num_subtasks"
  · rw [if_pos g5] at h
    have hw := g5
    obtain ⟨rfl, rfl⟩ := hw
    obtain ⟨n, hpos, rfl⟩ := h
    refine ⟨.int n, rfl, ?_⟩
    unfold deserSlot
    simp [Cls.nodeSlots, runAll, Validator.run, Validator.accepts, Val.asInt]
    rw [if_pos (by omega)]
  rw [if_neg g5] at h
  by_cases g6 : c = .TaskToCompute ∧ name = p!"compute_task_def"
  · rw [if_pos g6] at h
    have hw := g6
    obtain ⟨rfl, rfl⟩ := hw
    obtain ⟨_, _, h2⟩ := frozen h (by decide) (by decide) (by decide)
    obtain ⟨items, rfl, _⟩ := h
    refine ⟨_, rfl, ?_⟩
    unfold deserSlot
    rw [if_neg (by decide), if_neg (by decide), if_neg (by decide), if_neg (fun e => by cases e.1),
      if_neg (fun e => by cases e.1), if_neg (fun e => by cases e.1), if_pos ⟨rfl, rfl⟩]
    exact h2
  rw [if_neg g6] at h
  by_cases g7 : c = .TaskToCompute ∧ (name = p!"price" ∨ name = p!"size")
  · rw [if_pos g7] at h
    have hw := g7
    obtain ⟨rfl, hw⟩ := hw
    obtain ⟨i, rfl⟩ := h
    rcases hw with rfl | rfl
    · exact ⟨.int i, rfl, rfl⟩
    · exact ⟨.int i, rfl, rfl⟩
  rw [if_neg g7] at h
  by_cases g8 : c = .ReportComputedTask ∧ name = p!"stats"
  · rw [if_pos g8] at h
    have hw := g8
    obtain ⟨rfl, rfl⟩ := hw
    rcases h with rfl | h
    · exact ⟨.none, rfl, rfl⟩
    · obtain ⟨d, h1, h2⟩ := stats h
      obtain ⟨fs, rfl, _⟩ := h
      refine ⟨.dict d, ?_, ?_⟩
      · unfold serSlot serHook
        simp [Cls.nodeSlots, h1]
      · unfold deserSlot
        simp [Cls.nodeSlots, h2]
  rw [if_neg g8] at h
  by_cases g9 : c = .FileTransferToken ∧ name = p!"files"
  · rw [if_pos g9] at h
    have hw := g9
    obtain ⟨rfl, rfl⟩ := hw
    obtain ⟨l, rfl, hl⟩ := h
    obtain ⟨r, h1, h3⟩ := list_same (ser := fun x => .ok x) (f := deserFileInfo E)
      (fun x hx => ⟨x, rfl, file hx⟩) hl
    have hr : r = l := by
      have : ∀ l : List Val, mapRes (fun x => (.ok x : Res Val)) l = .ok l := by
        intro l
        induction l with
        | nil => rfl
        | cons x xs ih => unfold mapRes; simp only [ih]
      rw [this] at h1
      injection h1 with h1
      exact h1.symm
    subst hr
    refine ⟨.list r, ?_, ?_⟩
    · rfl
    · unfold deserSlot
      simp [Cls.nodeSlots, Val.iter, h3]
  rw [if_neg g9] at h
  by_cases g10 : c = .StartSessionResponse ∧ name = p!"conn_id"
  · rw [if_pos g10] at h
    have hw := g10
    obtain ⟨rfl, rfl⟩ := hw
    subst h
    exact ⟨.none, rfl, rfl⟩
  rw [if_neg g10] at h
  have hu : name ∉ c.hooked := by
    intro hx
    cases c <;> simp_all [Cls.hooked, Cls.nodeSlots]
  have hk := serHook_unhooked c name v hu
  obtain ⟨y, h1, h2⟩ := field_wire (rec := rec) h0 hm
  refine ⟨y, h1, of_trip h2 ?_⟩
  split at h
  · rename_i e he
    rcases h with rfl | ⟨s, hs, rfl⟩
    · rw [serSlot_keep hk hm (by simp)] at h1
      injection h1 with h1; subst h1; rfl
    · unfold serSlot at h1
      rw [hk] at h1
      injection h1 with h1; subst h1; rfl
  · rw [serSlot_keep hk hm (data_enum h)] at h1
    injection h1 with h1; subst h1
    exact (data_wire h).2

/-- A message of a tree as it sits in the slots of its parent. -/
def Again (E : Env) (c : Cls) (as : Attrs) : Prop :=
  ∃ l, serAttrs c as = .ok l ∧
    ∀ n, c.rank ≤ n → loadAttrs E (loadMsg E n) c (.list l) = .ok as

theorem single {E : Env} {sd : SlotDef} {key : PStr} {ty ts enc sig : Val} {as : Attrs} {l : List Val}
    {n : Nat} (hn : sd.cls.rank < n)
    (hload : ∀ n, sd.cls.rank ≤ n → loadAttrs E (loadMsg E n) sd.cls (.list l) = .ok as) :
    deserSingle (loadMsg E n) sd key (.tuple [.tuple [ty, ts, enc], sig, .list l]) =
      .ok (.msg sd.cls ty ts enc sig as) := by
  cases n with
  | zero => omega
  | succ n =>
    unfold deserSingle
    rw [if_neg (by simp)]
    simp only [Val.iter]
    unfold loadMsg
    rw [hload n (by omega)]

theorem msgs {E : Env} {sd : SlotDef} {key : PStr} {n : Nat} (hn : sd.cls.rank < n) :
    ∀ {l : List Val}, (∀ x ∈ l, isMsg sd.cls x = true) →
    (∀ ty ts enc sig as, .msg sd.cls ty ts enc sig as ∈ l → Again E sd.cls as) →
    ∃ r, serMsgs sd.cls key l = .ok r ∧
      mapRes (deserSingle (loadMsg E n) sd key) r = .ok l ∧ (l ≠ [] → r ≠ [])
  | [], _, _ => ⟨[], by unfold serMsgs; rfl, rfl, fun h => h⟩
  | x :: xs, hm, hd => by
    obtain ⟨ty, ts, enc, sig, as, rfl⟩ := isMsg_cases (hm x (by simp))
    obtain ⟨l, h1, h3⟩ := hd ty ts enc sig as (by simp)
    obtain ⟨r, h4, h6, _⟩ := msgs (key := key) hn (l := xs) (fun y hy => hm y (by simp [hy]))
      (fun ty ts enc sig as h => hd ty ts enc sig as (by simp [h]))
    refine ⟨.tuple [.tuple [ty, ts, enc], sig, .list l] :: r, ?_, ?_, by simp⟩
    · unfold serMsgs
      simp only [if_true, h1, h4]
    · unfold mapRes
      rw [single (key := key) hn h3, h6]

/-- A message slot is written and read back. -/
theorem slot {E : Env} {c : Cls} {name : PStr} {sd : SlotDef} {v : Val} {n : Nat}
    (hn : c.rank ≤ n) (hs : lookupName name c.msgSlots = some sd) (hv : SlotOk sd v)
    (hd : ∀ ty ts enc sig as, .msg sd.cls ty ts enc sig as ∈ members v → Again E sd.cls as) :
    ∃ y, serSlot c name v = .ok y ∧ deserSlot E (loadMsg E n) c name y = .ok v := by
  have hmem := msgSlots_lookup.mpr hs
  have hu := msgSlot_unhooked hmem
  have hk := serHook_unhooked c name v hu
  have hrank : sd.cls.rank < n := Nat.lt_of_lt_of_le (declares_rank ⟨name, sd, hmem, rfl⟩) hn
  have hdes : ∀ w, deserSlot E (loadMsg E n) c name w = deserMessage (loadMsg E n) sd name w := by
    intro w
    rw [deserSlot_unhooked _ _ _ _ _ hu]
    unfold deserBase
    simp [msgSlot_not_enum hmem, hs]
  unfold SlotOk at hv
  split at hv
  · rename_i hl
    obtain ⟨l, rfl, hne, hm⟩ := hv
    obtain ⟨r, h1, h3, h4⟩ := msgs (key := name) hrank hm (fun ty ts enc sig as h => hd ty ts enc sig as h)
    refine ⟨.tuple [.bool true, .list r], ?_, ?_⟩
    · unfold serSlot
      rw [hk]
      simp only [hs, h1]
    · rw [hdes]
      unfold deserMessage
      simp only [Val.iter]
      have ht : (Val.list r).truthy = true := by
        cases r with
        | nil => exact absurd rfl (h4 hne)
        | cons a b => rfl
      rw [ht, hl, if_neg (by decide), if_pos (by decide)]
      simp only [h3]
  · rename_i hl
    rcases hv with ⟨rfl, ha⟩ | hm
    · refine ⟨.tuple [.bool false, .none], ?_, ?_⟩
      · unfold serSlot
        rw [hk]
        simp only [hs]
        rw [if_pos ha]
      · rw [hdes]
        unfold deserMessage
        simp [Val.iter, Val.truthy, deserSingle, ha]
    · obtain ⟨ty, ts, enc, sig, as, rfl⟩ := isMsg_cases hm
      obtain ⟨l, h1, h3⟩ := hd ty ts enc sig as (by simp [members])
      refine ⟨.tuple [.bool false, .tuple [.tuple [ty, ts, enc], sig, .list l]], ?_, ?_⟩
      · unfold serSlot
        rw [hk]
        simp only [hs, if_true, h1]
      · rw [hdes]
        have t2 := single (key := name) (ty := ty) (ts := ts) (enc := enc) (sig := sig) hrank h3
        unfold deserMessage
        have t3 : (Val.tuple [.tuple [ty, ts, enc], sig, .list l]).truthy = true := rfl
        generalize Val.tuple [.tuple [ty, ts, enc], sig, .list l] = z at *
        simp only [Val.iter]
        rw [if_neg (by simp [t3, eqBool, hl]), if_neg (by simp [t3, Val.truthy])]
        exact t2

/-- Every attribute is written under its name. -/
theorem attrs_all {c : Cls} {Q : PStr → Val → Val → Prop} :
    ∀ {as : Attrs}, (∀ k v, (k, v) ∈ as → k ∈ c.payload ∧ ∃ y, serSlot c k v = .ok y ∧ Q k v y) →
    ∃ ys : Attrs, serAttrs c as = .ok (ys.map fun p => .list [.str p.1, p.2]) ∧
      ys.map Prod.fst = as.map Prod.fst ∧ ∀ k v, (k, v) ∈ as → ∃ y, (k, y) ∈ ys ∧ Q k v y
  | [], _ => ⟨[], by unfold serAttrs; rfl, rfl, by simp⟩
  | (k, v) :: rest, h => by
    obtain ⟨hp, y, h1, h3⟩ := h k v (by simp)
    obtain ⟨ys, i1, i2, i4⟩ := attrs_all (as := rest) (fun k v hm => h k v (by simp [hm]))
    refine ⟨(k, y) :: ys, ?_, by simp [i2], ?_⟩
    · unfold serAttrs
      have hv : c.validSlot k = true := List.contains_iff_mem.mpr hp
      rw [if_pos hv, h1, i1]
      rfl
    · intro k' v' hm
      rcases List.mem_cons.mp hm with e | hm
      · injection e with e1 e2; subst e1 e2; exact ⟨y, by simp, h3⟩
      · obtain ⟨y', hy, hq⟩ := i4 k' v' hm
        exact ⟨y', by simp [hy], hq⟩

theorem pairs (ys : Attrs) : Val.list (ys.map fun p => .list [.str p.1, p.2]) =
    wirePairs (ys.map fun p => (.str p.1, p.2)) := by
  unfold wirePairs
  rw [List.map_map]
  rfl

/-- A well-typed message is written, and read back from what is written. -/
theorem wellTyped_again {E : Env} {c : Cls} {as : Attrs} (h : WellTyped E c as) : Again E c as := by
  induction h with
  | mk c attrs names fields slots heads nested ih =>
    have hnd : (attrs.map Prod.fst).Nodup := by rw [names]; exact payload_nodup c
    have key : ∀ k v, (k, v) ∈ attrs → k ∈ c.payload ∧ ∃ y, serSlot c k v = .ok y ∧
        ∀ n, c.rank ≤ n → deserSlot E (loadMsg E n) c k y = .ok v := by
      intro k v hm
      refine ⟨by rw [← names]; exact List.mem_map.mpr ⟨(k, v), hm, rfl⟩, ?_⟩
      cases hs : lookupName k c.msgSlots with
      | none =>
        obtain ⟨y, h1, _⟩ := field (rec := loadMsg E 0) (fields k v hm hs).1 hs
        refine ⟨y, h1, fun n _ => ?_⟩
        obtain ⟨y', h1', h3⟩ := field (rec := loadMsg E n) (fields k v hm hs).1 hs
        rw [h1] at h1'
        injection h1' with e
        subst e
        exact h3
      | some sd =>
        have hd : ∀ ty ts enc sig as, .msg sd.cls ty ts enc sig as ∈ members v →
            Again E sd.cls as :=
          fun ty ts enc sig as hx => ih k sd v ty ts enc sig as hm hs hx
        obtain ⟨y, h1, _⟩ := slot (Nat.le_refl c.rank) hs (slots k sd v hm hs) hd
        refine ⟨y, h1, fun n hn => ?_⟩
        obtain ⟨y', h1', h3⟩ := slot hn hs (slots k sd v hm hs) hd
        rw [h1] at h1'
        injection h1' with e
        subst e
        exact h3
    obtain ⟨ys, h1, h2, h4⟩ := attrs_all key
    refine ⟨_, h1, ?_⟩
    intro n hn
    have hld : loadSlots E (loadMsg E n) c
        (dictOf (.list (ys.map fun p => .list [.str p.1, p.2]))) c.payload = .ok attrs := by
      rw [← names]
      refine loadSlots_all (fun k v hm => ⟨?_, ?_⟩)
      · rintro ⟨rfl, rfl⟩
        have := (fields _ v hm rfl).1
        simpa [FieldOk, Cls.nodeSlots] using this
      · obtain ⟨y, hy, hq⟩ := h4 k v hm
        refine ⟨y, ?_, hq n hn⟩
        rw [pairs, dictOf_wire _ (by
          intro p hp
          obtain ⟨q, _, rfl⟩ := List.mem_map.mp hp
          rfl)]
        exact lastValue_unique (h2 ▸ hnd) hy
    unfold loadAttrs
    rw [hld]
    simp only [wrapLoad]
    congr 1
    refine attrs_ext (postInit_names c attrs) (by rw [postInit_names]; exact hnd) ?_
    intro m hm
    rw [postInit_names] at hm
    rw [getAttr_postInit names]
    have hmem := mem_getAttr hm
    cases hs : lookupName m c.msgSlots with
    | none => exact (fields m _ hmem hs).2
    | some sd => exact defaulted_msgSlot _ hs

end Verif.Clone
