import Verif.Lemmas.WireItems
import Verif.Lemmas.Slots
import Verif.Lemmas.Depth
/-! # Fields survive the wire -/

set_option linter.unusedSimpArgs false

namespace Verif

open Spec

/-- What the generic code writes for a value that is neither an enum member nor in a message
slot. -/
theorem serSlot_keep {c : Cls} {name : PStr} {v : Val} (hk : serHook c name v = none)
    (hm : lookupName name c.msgSlots = none) (he : ∀ e s, v ≠ .enum e s) :
    serSlot c name v = .ok v := by
  unfold serSlot
  rw [hk]
  cases v <;> simp only [hm]
  exact absurd rfl (he _ _)

theorem data_enum {v : Val} (h : Data v) : ∀ e s, v ≠ .enum e s := data_not_enum h

theorem int_data (i : Int) : (Val.int i).wireOk = true ∧ (Val.int i).wireNorm = .int i := ⟨rfl, rfl⟩

/-- A field that is not a message slot is written and read back. -/
theorem field_wire {E : Env} {rec : Loader} {c : Cls} {name : PStr} {v : Val}
    (h : FieldOk E c name v) (hm : lookupName name c.msgSlots = none) :
    ∃ y, serSlot c name v = .ok y ∧ Trip y (deserSlot E rec c name) v := by
  unfold FieldOk at h
  by_cases g0 : name ∈ c.nodeSlots
  · rw [if_pos g0, holds_eq] at h
    have hn := g0
    have hcont : c.nodeSlots.contains name = true := List.contains_iff_mem.mpr hn
    rcases h with ⟨hd, hf⟩ | h
    · refine ⟨v, serSlot_keep ?_ hm (data_enum hd), (data_wire hd).1, ?_⟩
      · cases c <;> simp_all [Cls.nodeSlots, serHook]
      · rw [(data_wire hd).2]
        unfold deserSlot
        rw [if_pos hcont, hf]
        simp
    · obtain ⟨fs, d, rfl, h1, h2, _, h3, h4⟩ := node_wire h
      refine ⟨.dict d, ?_, h2, ?_⟩
      · unfold serSlot serHook
        rw [hcont]
        simp only [Val.truthy, Bool.and_self, if_true, h1]
      · unfold deserSlot
        rw [if_pos hcont, show (Val.dict d).wireNorm = .dict (Val.wireNormD d) by simp only [Val.wireNorm],
          if_pos h4]
        simp only [Validator.run, Validator.accepts, Val.asDict]
        exact h3
  have hcont : c.nodeSlots.contains name = false := by
    cases hc : c.nodeSlots.contains name with
    | false => rfl
    | true => exact absurd (List.contains_iff_mem.mp hc) g0
  rw [if_neg g0] at h
  by_cases g1 : c = .Peers ∧ name = p!"peers"
  · rw [if_pos g1] at h
    have hp := g1
    obtain ⟨rfl, rfl⟩ := hp
    obtain ⟨l, rfl, hl⟩ := h
    obtain ⟨r, h1, h2, h3⟩ := list_trip (f := mkFDict E .peer) (fun x hx => peer_wire hx) hl
    refine ⟨.list r, ?_, ?_⟩
    · unfold serSlot serHook
      simp [Cls.nodeSlots, Val.iter, h1]
    · refine ⟨by simpa only [Val.wireOk] using h2, ?_⟩
      unfold deserSlot
      simp [Cls.nodeSlots, Val.wireNorm, h3]
  rw [if_neg g1] at h
  by_cases g2 : c = .Tasks ∧ name = p!"tasks"
  · rw [if_pos g2] at h
    have hq := g2
    obtain ⟨rfl, rfl⟩ := hq
    obtain ⟨l, rfl, hl⟩ := h
    obtain ⟨r, h1, h2, h3⟩ := list_trip (ser := toDict) (f := fun h =>
          match Validator.dict.run E p!"tasks" h with
          | .error e => .error e
          | .ok _ => mkCont E .taskHeader h) (P := HeaderOk E) (fun x hx => by
        obtain ⟨_, d, h1, h2⟩ := header_wire hx
        refine ⟨_, h1, h2.1, ?_⟩
        have := h2.2
        rw [show (Val.dict d).wireNorm = .dict (Val.wireNormD d) by simp only [Val.wireNorm]] at this ⊢
        simp only [Validator.run, Validator.accepts, Val.asDict]
        exact this) hl
    refine ⟨.list r, ?_, ?_⟩
    · unfold serSlot serHook
      simp [Cls.nodeSlots, Val.iter, h1]
    · refine ⟨by simpa only [Val.wireOk] using h2, ?_⟩
      rw [show (Val.list r).wireNorm = .list (Val.wireNormL r) by simp only [Val.wireNorm]]
      unfold deserSlot
      rw [if_neg (by decide), if_neg (by decide), if_pos (And.intro rfl rfl)]
      have key : ∀ z : Res (List Val), z = .ok l → (match z with
          | .error e => .error e
          | .ok r => .ok (.list r) : Res Val) = .ok (.list l) := by
        rintro _ rfl; rfl
      exact key _ h3
  rw [if_neg g2] at h
  by_cases g3 : c = .WantToComputeTask ∧ name = p!"task_header"
  · rw [if_pos g3] at h
    have hw := g3
    obtain ⟨rfl, rfl⟩ := hw
    rcases h with rfl | h
    · exact ⟨.none, rfl, rfl, rfl⟩
    · obtain ⟨⟨fs, rfl⟩, d, h1, h2⟩ := header_wire h
      refine ⟨.dict d, ?_, h2.1, ?_⟩
      · unfold serSlot serHook
        simp [Cls.nodeSlots, h1]
      · have := h2.2
        rw [show (Val.dict d).wireNorm = .dict (Val.wireNormD d) by simp only [Val.wireNorm]] at this ⊢
        unfold deserSlot
        simp [Cls.nodeSlots, this]
  rw [if_neg g3] at h
  by_cases g4 : c = .WantToComputeTask ∧ name = p!"cpu_usage"
  · rw [if_pos g4] at h
    have hw := g4
    obtain ⟨rfl, rfl⟩ := hw
    rcases h with rfl | ⟨n, rfl⟩
    · exact ⟨.none, rfl, rfl, rfl⟩
    · refine ⟨.int n, rfl, rfl, ?_⟩
      unfold deserSlot
      simp [Cls.nodeSlots, Val.wireNorm, runAll, Validator.run, Validator.accepts, Val.asInt]
  rw [if_neg g4] at h
  by_cases g5 : c = .WantToComputeTask ∧ name = p!"num_subtasks"
  · rw [if_pos g5] at h
    have hw := g5
    obtain ⟨rfl, rfl⟩ := hw
    obtain ⟨n, hpos, rfl⟩ := h
    refine ⟨.int n, rfl, rfl, ?_⟩
    unfold deserSlot
    simp [Cls.nodeSlots, Val.wireNorm, runAll, Validator.run, Validator.accepts, Val.asInt]
    rw [if_pos (by omega)]
  rw [if_neg g5] at h
  by_cases g6 : c = .TaskToCompute ∧ name = p!"compute_task_def"
  · rw [if_pos g6] at h
    have hw := g6
    obtain ⟨rfl, rfl⟩ := hw
    obtain ⟨_, _, h2, _⟩ := fdict_trip h (by decide) (by decide) (by decide)
    obtain ⟨items, rfl, _⟩ := h
    refine ⟨_, rfl, h2.1, ?_⟩
    unfold deserSlot
    rw [if_neg (by decide), if_neg (by decide), if_neg (by decide), if_neg (fun e => by cases e.1),
      if_neg (fun e => by cases e.1), if_neg (fun e => by cases e.1), if_pos ⟨rfl, rfl⟩]
    exact h2.2
  rw [if_neg g6] at h
  by_cases g7 : c = .TaskToCompute ∧ (name = p!"price" ∨ name = p!"size")
  · rw [if_pos g7] at h
    have hw := g7
    obtain ⟨rfl, hw⟩ := hw
    obtain ⟨i, rfl⟩ := h
    rcases hw with rfl | rfl
    · exact ⟨.int i, rfl, rfl, rfl⟩
    · exact ⟨.int i, rfl, rfl, rfl⟩
  rw [if_neg g7] at h
  by_cases g8 : c = .ReportComputedTask ∧ name = p!"stats"
  · rw [if_pos g8] at h
    have hw := g8
    obtain ⟨rfl, rfl⟩ := hw
    rcases h with rfl | h
    · exact ⟨.none, rfl, rfl, rfl⟩
    · obtain ⟨d, h1, h2, h3⟩ := stats_wire h
      obtain ⟨fs, rfl, _⟩ := h
      refine ⟨d, ?_, h2.1, ?_⟩
      · unfold serSlot serHook
        simp [Cls.nodeSlots, h1]
      · have := h2.2
        unfold deserSlot
        simp [Cls.nodeSlots, this, h3]
  rw [if_neg g8] at h
  by_cases g9 : c = .FileTransferToken ∧ name = p!"files"
  · rw [if_pos g9] at h
    have hw := g9
    obtain ⟨rfl, rfl⟩ := hw
    obtain ⟨l, rfl, hl⟩ := h
    obtain ⟨r, h1, h2, h3⟩ := list_trip (ser := fun x => .ok x) (f := deserFileInfo E)
      (fun x hx => ⟨x, rfl, file_wire hx⟩) hl
    have hr : r = l := by
      have : ∀ l : List Val, mapRes (fun x => (.ok x : Res Val)) l = .ok l := by
        intro l
        induction l with
        | nil => rfl
        | cons x xs ih => unfold mapRes; simp only [ih]
      rw [this] at h1
      injection h1 with h1
      exact h1.symm
    subst hr
    refine ⟨.list r, ?_, ?_, ?_⟩
    · rfl
    · simpa only [Val.wireOk] using h2
    · unfold deserSlot
      simp [Cls.nodeSlots, Val.wireNorm, Val.iter, h3]
  rw [if_neg g9] at h
  by_cases g10 : c = .StartSessionResponse ∧ name = p!"conn_id"
  · rw [if_pos g10] at h
    have hw := g10
    obtain ⟨rfl, rfl⟩ := hw
    subst h
    exact ⟨.none, rfl, rfl, rfl⟩
  rw [if_neg g10] at h
  have hu : name ∉ c.hooked := by
    intro hx
    cases c <;> simp_all [Cls.hooked, Cls.nodeSlots]
  have hk := serHook_unhooked c name v hu
  split at h
  · rename_i e he
    rcases h with rfl | ⟨s, hs, rfl⟩
    · refine ⟨.none, serSlot_keep hk hm (by simp), rfl, ?_⟩
      rw [deserSlot_unhooked _ _ _ _ _ hu]
      unfold deserBase
      simp [Val.wireNorm, hm]
    · refine ⟨.str s, ?_, rfl, ?_⟩
      · unfold serSlot; rw [hk]
      · rw [deserSlot_unhooked _ _ _ _ _ hu]
        rw [show (Val.str s).wireNorm = .str s by simp only [Val.wireNorm]]
        unfold deserBase
        rw [if_neg (by simp), he]
        simp only [EnumId.lookup]
        rw [if_pos (List.contains_iff_mem.mpr hs)]
  · rename_i he
    refine ⟨v, serSlot_keep hk hm (data_enum h), (data_wire h).1, ?_⟩
    rw [deserSlot_unhooked _ _ _ _ _ hu, (data_wire h).2]
    unfold deserBase
    rw [he]
    simp [hm]

/-! ### Message slots -/

/-- A message of a tree as it travels in a slot of its parent. -/
def Nested (E : Env) (c : Cls) (as : Attrs) : Prop :=
  ∃ l, serAttrs c as = .ok l ∧ Val.wireOkL l = true ∧
    ∀ n, c.rank ≤ n → loadAttrs E (loadMsg E n) c (.list (Val.wireNormL l)) = .ok as

theorem single_wire {E : Env} {sd : SlotDef} {key : PStr} {ty ts enc sig : Val} {as : Attrs} {l : List Val}
    {n : Nat} (hn : sd.cls.rank < n) (h1 : Data ty) (h2 : Data ts) (h3 : Data enc) (h4 : Data sig)
    (hl : Val.wireOkL l = true)
    (hload : ∀ n, sd.cls.rank ≤ n → loadAttrs E (loadMsg E n) sd.cls (.list (Val.wireNormL l)) = .ok as) :
    Trip (.tuple [.tuple [ty, ts, enc], sig, .list l]) (deserSingle (loadMsg E n) sd key)
      (.msg sd.cls ty ts enc sig as) ∧
    (Val.tuple [.tuple [ty, ts, enc], sig, .list l]).wireNorm.truthy = true := by
  refine ⟨⟨?_, ?_⟩, rfl⟩
  · simp only [Val.wireOk, Val.wireOkL, (data_wire h1).1, (data_wire h2).1, (data_wire h3).1,
      (data_wire h4).1, hl, Bool.and_self]
  · cases n with
    | zero => omega
    | succ n =>
      unfold deserSingle
      simp only [Val.wireNorm, Val.wireNormL, (data_wire h1).2, (data_wire h2).2, (data_wire h3).2,
        (data_wire h4).2]
      rw [if_neg (by simp)]
      simp only [Val.iter]
      unfold loadMsg
      rw [hload n (by omega)]

theorem isMsg_cases {c : Cls} {v : Val} (h : isMsg c v = true) :
    ∃ ty ts enc sig as, v = .msg c ty ts enc sig as := by
  cases v <;> simp [isMsg] at h
  subst h
  exact ⟨_, _, _, _, _, rfl⟩

theorem msgs_wire {E : Env} {sd : SlotDef} {key : PStr} {n : Nat} (hn : sd.cls.rank < n) :
    ∀ {l : List Val}, (∀ x ∈ l, isMsg sd.cls x = true) →
    (∀ ty ts enc sig as, .msg sd.cls ty ts enc sig as ∈ l →
      (Data ty ∧ Data ts ∧ Data enc ∧ Data sig) ∧ Nested E sd.cls as) →
    ∃ r, serMsgs sd.cls key l = .ok r ∧ Val.wireOkL r = true ∧
      mapRes (deserSingle (loadMsg E n) sd key) (Val.wireNormL r) = .ok l ∧ (l ≠ [] → r ≠ [])
  | [], _, _ => ⟨[], by unfold serMsgs; rfl, rfl, rfl, fun h => h⟩
  | x :: xs, hm, hd => by
    obtain ⟨ty, ts, enc, sig, as, rfl⟩ := isMsg_cases (hm x (by simp))
    obtain ⟨⟨d1, d2, d3, d4⟩, l, h1, h2, h3⟩ := hd ty ts enc sig as (by simp)
    obtain ⟨r, h4, h5, h6, _⟩ := msgs_wire (key := key) hn (l := xs) (fun y hy => hm y (by simp [hy]))
      (fun ty ts enc sig as h => hd ty ts enc sig as (by simp [h]))
    obtain ⟨⟨t1, t2⟩, _⟩ := single_wire (key := key) hn d1 d2 d3 d4 h2 h3
    refine ⟨.tuple [.tuple [ty, ts, enc], sig, .list l] :: r, ?_, ?_, ?_, by simp⟩
    · unfold serMsgs
      simp only [if_true, h1, h4]
    · simp only [Val.wireOkL, h5, Bool.and_true] at t1 ⊢
      exact t1
    · simp only [Val.wireNormL]
      unfold mapRes
      rw [t2, h6]

/-- A message slot is written and read back. -/
theorem slot_wire {E : Env} {c : Cls} {name : PStr} {sd : SlotDef} {v : Val} {n : Nat}
    (hn : c.rank ≤ n) (hs : lookupName name c.msgSlots = some sd) (hv : SlotOk sd v)
    (hd : ∀ ty ts enc sig as, .msg sd.cls ty ts enc sig as ∈ members v →
      (Data ty ∧ Data ts ∧ Data enc ∧ Data sig) ∧ Nested E sd.cls as) :
    ∃ y, serSlot c name v = .ok y ∧ Trip y (deserSlot E (loadMsg E n) c name) v := by
  have hmem := msgSlots_lookup.mpr hs
  have hu := msgSlot_unhooked hmem
  have hk := serHook_unhooked c name v hu
  have hrank : sd.cls.rank < n := Nat.lt_of_lt_of_le (declares_rank ⟨name, sd, hmem, rfl⟩) hn
  have hdes : ∀ w, deserSlot E (loadMsg E n) c name w = deserMessage (loadMsg E n) sd name w := by
    intro w
    rw [deserSlot_unhooked _ _ _ _ _ hu]
    unfold deserBase
    simp [msgSlot_not_enum hmem, hs]
  unfold SlotOk at hv
  split at hv
  · rename_i hl
    obtain ⟨l, rfl, hne, hm⟩ := hv
    obtain ⟨r, h1, h2, h3, h4⟩ := msgs_wire (key := name) hrank hm (fun ty ts enc sig as h => hd ty ts enc sig as h)
    refine ⟨.tuple [.bool true, .list r], ?_, ?_, ?_⟩
    · unfold serSlot
      rw [hk]
      simp only [hs, h1]
    · simp only [Val.wireOk, Val.wireOkL, h2, Bool.and_self]
    · rw [hdes]
      unfold deserMessage
      simp only [Val.wireNorm, Val.wireNormL, Val.iter]
      have ht : (Val.list (Val.wireNormL r)).truthy = true := by
        cases r with
        | nil => exact absurd rfl (h4 hne)
        | cons a b => rfl
      rw [ht, hl, if_neg (by decide), if_pos (by decide)]
      simp only [h3]
  · rename_i hl
    rcases hv with ⟨rfl, ha⟩ | hm
    · refine ⟨.tuple [.bool false, .none], ?_, rfl, ?_⟩
      · unfold serSlot
        rw [hk]
        simp only [hs]
        rw [if_pos ha]
      · rw [hdes]
        unfold deserMessage
        simp [Val.wireNorm, Val.wireNormL, Val.iter, Val.truthy, deserSingle, ha]
    · obtain ⟨ty, ts, enc, sig, as, rfl⟩ := isMsg_cases hm
      obtain ⟨⟨d1, d2, d3, d4⟩, l, h1, h2, h3⟩ := hd ty ts enc sig as (by simp [members])
      obtain ⟨⟨t1, t2⟩, t3⟩ := single_wire (key := name) hrank d1 d2 d3 d4 h2 h3
      refine ⟨.tuple [.bool false, .tuple [.tuple [ty, ts, enc], sig, .list l]], ?_, ?_, ?_⟩
      · unfold serSlot
        rw [hk]
        simp only [hs, if_true, h1]
      · simp only [Val.wireOk, Val.wireOkL, Bool.and_true, Bool.true_and] at t1 ⊢
        exact t1
      · rw [hdes]
        unfold deserMessage
        generalize Val.tuple [.tuple [ty, ts, enc], sig, .list l] = z at *
        simp only [Val.wireNorm, Val.wireNormL, Val.iter]
        rw [if_neg (by simp [t3, eqBool, hl]), if_neg (by simp [t3, Val.truthy])]
        exact t2

/-! ### All fields of a message -/

theorem attrs_ext : ∀ {as bs : Attrs}, as.map Prod.fst = bs.map Prod.fst → (as.map Prod.fst).Nodup →
    (∀ m ∈ as.map Prod.fst, getAttr as m = getAttr bs m) → as = bs
  | [], [], _, _, _ => rfl
  | [], _ :: _, h, _, _ => by cases h
  | _ :: _, [], h, _, _ => by cases h
  | (k, v) :: as, (k', v') :: bs, h, hn, hg => by
    simp only [List.map_cons, List.cons.injEq] at h
    simp only [List.map_cons, List.nodup_cons] at hn
    obtain ⟨rfl, h⟩ := h
    have h1 := hg k (by simp)
    simp only [getAttr, lookupName, if_true] at h1
    subst h1
    congr 1
    refine attrs_ext h hn.2 (fun m hm => ?_)
    have := hg m (by simp at hm ⊢; exact Or.inr hm)
    have hk : ¬ k = m := by rintro rfl; exact hn.1 hm
    simpa only [getAttr, lookupName, hk, if_false] using this

/-- Every attribute is written under its name. -/
theorem serAttrs_all {c : Cls} {Q : PStr → Val → Val → Prop} :
    ∀ {as : Attrs}, (∀ k v, (k, v) ∈ as → k ∈ c.payload ∧
      ∃ y, serSlot c k v = .ok y ∧ y.wireOk = true ∧ Q k v y) →
    ∃ ys : Attrs, serAttrs c as = .ok (ys.map fun p => .list [.str p.1, p.2]) ∧
      ys.map Prod.fst = as.map Prod.fst ∧ (∀ k y, (k, y) ∈ ys → y.wireOk = true) ∧
      ∀ k v, (k, v) ∈ as → ∃ y, (k, y) ∈ ys ∧ Q k v y
  | [], _ => ⟨[], by unfold serAttrs; rfl, rfl, by simp, by simp⟩
  | (k, v) :: rest, h => by
    obtain ⟨hp, y, h1, h2, h3⟩ := h k v (by simp)
    obtain ⟨ys, i1, i2, i3, i4⟩ := serAttrs_all (as := rest) (fun k v hm => h k v (by simp [hm]))
    refine ⟨(k, y) :: ys, ?_, by simp [i2], ?_, ?_⟩
    · unfold serAttrs
      have hv : c.validSlot k = true := List.contains_iff_mem.mpr hp
      rw [if_pos hv, h1, i1]
      rfl
    · intro k' y' hm
      rcases List.mem_cons.mp hm with e | hm
      · injection e with e1 e2; subst e1 e2; exact h2
      · exact i3 k' y' hm
    · intro k' v' hm
      rcases List.mem_cons.mp hm with e | hm
      · injection e with e1 e2; subst e1 e2; exact ⟨y, by simp, h3⟩
      · obtain ⟨y', hy, hq⟩ := i4 k' v' hm
        exact ⟨y', by simp [hy], hq⟩

theorem lastValue_unique {ps : Attrs} {k : PStr} {y : Val} (hn : (ps.map Prod.fst).Nodup)
    (hm : (k, y) ∈ ps) : lastValue k (ps.map fun p => (.str p.1, p.2)) = some y := by
  unfold lastValue
  cases hf : (ps.map fun p => (Val.str p.1, p.2)).reverse.find? fun p => p.1 = .str k with
  | none =>
    rw [List.find?_eq_none] at hf
    have := hf (.str k, y) (by simp [hm])
    simp at this
  | some q =>
    have h1 := List.find?_some hf
    have h2 := List.mem_of_find?_eq_some hf
    simp only [List.mem_reverse, List.mem_map] at h2
    obtain ⟨⟨k', y'⟩, hm', rfl⟩ := h2
    simp only [Val.str.injEq, decide_eq_true_eq] at h1
    subst h1
    have e1 := getAttr_of_mem hn hm
    have e2 := getAttr_of_mem hn hm'
    simp only [Option.map_some, Option.some.injEq]
    rw [← e1, ← e2]

theorem loadSlots_all {E : Env} {rec : Loader} {c : Cls} {d : List (Val × Val)} :
    ∀ {as : Attrs}, (∀ k v, (k, v) ∈ as →
      (c = .StartSessionResponse ∧ k = p!"conn_id" → v = .none) ∧
      ∃ w, dictGet (.str k) d = some w ∧ deserSlot E rec c k w = .ok v) →
    loadSlots E rec c d (as.map Prod.fst) = .ok as
  | [], _ => rfl
  | (k, v) :: rest, h => by
    obtain ⟨h0, w, h1, h2⟩ := h k v (by simp)
    have ih := loadSlots_all (as := rest) (fun k v hm => h k v (by simp [hm]))
    simp only [List.map_cons]
    unfold loadSlots
    rw [ih]
    by_cases hc : c = .StartSessionResponse ∧ k = p!"conn_id"
    · rw [if_pos hc, h0 hc]
    · rw [if_neg hc, h1]
      simp only [h2]

theorem wireNormL_pairs (ys : Attrs) :
    Val.list (Val.wireNormL (ys.map fun p => .list [.str p.1, p.2])) =
      wirePairs ((ys.map fun p => (p.1, p.2.wireNorm)).map fun p => (.str p.1, p.2)) := by
  unfold wirePairs
  congr 1
  rw [wireNormL_map, List.map_map, List.map_map, List.map_map]
  refine List.map_congr_left ?_
  intro p _
  simp only [Function.comp, Val.wireNorm, Val.wireNormL]

theorem defaulted_msgSlot {c : Cls} {name : PStr} {sd : SlotDef} (v : Val)
    (hs : lookupName name c.msgSlots = some sd) : defaulted c name v = v := by
  have h' : ∀ p ∈ c.msgSlots, defaulted c p.1 v = v := by
    cases c <;> simp [Cls.msgSlots, defaulted]
  exact h' _ (msgSlots_lookup.mpr hs)

/-- A well-typed message is written, and read back from what is written. -/
theorem wellTyped_nested {E : Env} {c : Cls} {as : Attrs} (h : WellTyped E c as) : Nested E c as := by
  induction h with
  | mk c attrs names fields slots heads nested ih =>
    have hnd : (attrs.map Prod.fst).Nodup := by rw [names]; exact payload_nodup c
    have key : ∀ k v, (k, v) ∈ attrs → k ∈ c.payload ∧ ∃ y, serSlot c k v = .ok y ∧ y.wireOk = true ∧
        ∀ n, c.rank ≤ n → deserSlot E (loadMsg E n) c k y.wireNorm = .ok v := by
      intro k v hm
      refine ⟨by rw [← names]; exact List.mem_map.mpr ⟨(k, v), hm, rfl⟩, ?_⟩
      cases hs : lookupName k c.msgSlots with
      | none =>
        obtain ⟨y, h1, h2, _⟩ := field_wire (rec := loadMsg E 0) (fields k v hm hs).1 hs
        refine ⟨y, h1, h2, fun n _ => ?_⟩
        obtain ⟨y', h1', _, h3⟩ := field_wire (rec := loadMsg E n) (fields k v hm hs).1 hs
        rw [h1] at h1'
        injection h1' with e
        subst e
        exact h3
      | some sd =>
        have hd : ∀ ty ts enc sig as, .msg sd.cls ty ts enc sig as ∈ members v →
            (Data ty ∧ Data ts ∧ Data enc ∧ Data sig) ∧ Nested E sd.cls as :=
          fun ty ts enc sig as hx => ⟨heads k sd v ty ts enc sig as hm hs hx,
            ih k sd v ty ts enc sig as hm hs hx⟩
        obtain ⟨y, h1, h2, _⟩ := slot_wire (Nat.le_refl c.rank) hs (slots k sd v hm hs) hd
        refine ⟨y, h1, h2, fun n hn => ?_⟩
        obtain ⟨y', h1', _, h3⟩ := slot_wire hn hs (slots k sd v hm hs) hd
        rw [h1] at h1'
        injection h1' with e
        subst e
        exact h3
    obtain ⟨ys, h1, h2, h3, h4⟩ := serAttrs_all key
    refine ⟨_, h1, ?_, ?_⟩
    · rw [wireOkL_all]
      intro x hx
      obtain ⟨⟨k, y⟩, hm, rfl⟩ := List.mem_map.mp hx
      simp only [Val.wireOk, Val.wireOkL, h3 k y hm, Bool.and_self]
    · intro n hn
      have hld : loadSlots E (loadMsg E n) c
          (dictOf (.list (Val.wireNormL (ys.map fun p => .list [.str p.1, p.2])))) c.payload = .ok attrs := by
        rw [← names]
        refine loadSlots_all (fun k v hm => ⟨?_, ?_⟩)
        · rintro ⟨rfl, rfl⟩
          have := (fields _ v hm rfl).1
          simpa [FieldOk, Cls.nodeSlots] using this
        · obtain ⟨y, hy, hq⟩ := h4 k v hm
          refine ⟨y.wireNorm, ?_, hq n hn⟩
          rw [wireNormL_pairs, dictOf_wire _ (by
            intro p hp
            obtain ⟨q, _, rfl⟩ := List.mem_map.mp hp
            rfl)]
          refine lastValue_unique ?_ (List.mem_map.mpr ⟨(k, y), hy, rfl⟩)
          rw [List.map_map]
          exact h2 ▸ hnd
      unfold loadAttrs
      rw [hld]
      simp only [wrapLoad]
      congr 1
      refine attrs_ext (postInit_names c attrs) (by rw [postInit_names]; exact hnd) ?_
      intro m hm
      rw [postInit_names] at hm
      rw [getAttr_postInit names]
      have hmem := mem_getAttr hm
      cases hs : lookupName m c.msgSlots with
      | none => exact (fields m _ hmem hs).2
      | some sd => exact defaulted_msgSlot _ hs

end Verif
