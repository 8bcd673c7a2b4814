import Verif.Lemmas.Meaning
/-! # Lemmas about the values that are read: fields and messages -/

set_option linter.unusedSimpArgs false
set_option linter.unusedVariables false

namespace Verif

open Spec

/-! ### Lists -/

theorem each_map {f : Val → Res Val} {R : Val → Val → Prop} : ∀ {l ys : List Val},
    (∀ x ∈ l, ∀ y, f x = .ok y → R x y) → mapRes f l = .ok ys → Each R l ys
  | [], ys, _, h => by
    unfold mapRes at h
    injection h with h
    subst h
    exact .nil
  | x :: xs, ys, hr, h => by
    unfold mapRes at h
    split at h
    · cases h
    rename_i y hy
    split at h
    · cases h
    rename_i r hr'
    injection h with h
    subst h
    exact .cons (hr x (by simp) y hy) (each_map (fun z hz => hr z (by simp [hz])) hr')

theorem each_unique {R : Val → Val → Prop} {l ys zs : List Val}
    (hr : ∀ x ∈ l, ∀ y z, R x y → R x z → y = z) (h : Each R l ys) (h' : Each R l zs) : ys = zs := by
  induction h generalizing zs with
  | nil => cases h'; rfl
  | cons a b ih =>
    cases h' with
    | cons a' b' =>
      rw [hr _ (by simp) _ _ a a', ih (fun x hx => hr x (by simp [hx])) b']

theorem each_fun {g : Val → Val} {l ys : List Val} (h : Each (fun x y => y = g x) l ys) : ys = l.map g := by
  induction h with
  | nil => rfl
  | cons a _ ih => rw [a, ih]; rfl

/-! ### Frozen dictionaries -/

theorem mkFDict_build {E : Env} {c : FDictId} {v w : Val} (hd : Data v) (h : mkFDict E c v = .ok w) :
    ∃ ps, Entries v ps ∧ fdBuild E (fdConv E c) c ps = .ok w := by
  unfold mkFDict at h
  split at h
  · cases h
  · rename_i ps hps
    exact ⟨ps, (fdArg_iff hd).mp hps, h⟩

theorem peer_value {E : Env} {v w : Val} (hd : Data v) (h : mkFDict E .peer v = .ok w) : PeerAs v w := by
  obtain ⟨ps, he, hb⟩ := mkFDict_build hd h
  refine ⟨ps, he, items_value ?_ ?_ hb⟩
  · intro k x y hm hc hv
    have hx := (entries_data hd he _ _ hm).2
    unfold fdConv peerConv at hc
    dsimp only at hc ⊢
    by_cases hk : k = p!"node"
    · rw [if_pos hk]
      split at hc
      · exact node_value hx hc
      · injection hc with hc
        subst hc
        subst hk
        rw [itemOk_iff] at hv
        obtain ⟨fs, rfl⟩ := hv.2.2 rfl
        simp [Data, data] at hx
    · rw [if_neg hk]
      rw [if_neg (fun e => hk e.1)] at hc
      injection hc with hc
      exact hc.symm
  · intro k x y hm hc
    rw [items_listed] at hm
    unfold fdConv peerConv at hc
    dsimp only at hc
    simp only [dictEntries, List.mem_cons, Prod.mk.injEq, List.mem_nil_iff, or_false] at hm
    rw [if_neg (by rcases hm with ⟨_, rfl⟩ | ⟨_, rfl⟩ | ⟨_, rfl⟩ <;> simp [Val.asDict])] at hc
    injection hc with hc
    exact hc.symm

theorem taskDef_value {E : Env} {v w : Val} (hd : Data v) (h : mkFDict E .computeTaskDef v = .ok w) :
    TaskDefAs v w := by
  obtain ⟨ps, he, hb⟩ := mkFDict_build hd h
  exact ⟨ps, he, items_value (fun k x y _ hc _ => by cases hc; rfl) (fun k x y _ hc => by cases hc; rfl) hb⟩

theorem keyOrder_congr : ∀ {ps qs : List (Val × Val)}, ps.map Prod.fst = qs.map Prod.fst → keyOrder ps = keyOrder qs
  | [], [], _ => rfl
  | [], _ :: _, h => by cases h
  | _ :: _, [], h => by cases h
  | (a, _) :: ps, (b, _) :: qs, h => by
    simp only [List.map_cons, List.cons.injEq] at h
    obtain ⟨rfl, h⟩ := h
    have ih := keyOrder_congr h
    cases a <;> simp only [keyOrder, ih]

theorem dictSet_names {n : PStr} {m : Val} : ∀ {d : List (Val × Val)}, (∃ w, (.str n, w) ∈ d) →
    (dictSet (.str n) m d).map Prod.fst = d.map Prod.fst
  | [], ⟨w, h⟩ => by cases h
  | (k, x) :: rest, ⟨w, h⟩ => by
    unfold dictSet
    by_cases e : k.keyEq (.str n) = true
    · rw [if_pos e]; rfl
    · rw [if_neg e]
      rcases List.mem_cons.mp h with h | h
      · injection h with h _
        subst h
        exact absurd ((keyEq_str _ _).mpr rfl) e
      · rw [List.map_cons, List.map_cons, dictSet_names ⟨w, h⟩]

theorem file_value {E : Env} {v w : Val} (hd : Data v) (h : deserFileInfo E v = .ok w) : FileAs v w := by
  rcases data_dict_or hd with ⟨d, rfl⟩ | ⟨_, hn⟩
  case inr => cases v <;> simp [Data, data] at hd <;> simp [deserFileInfo] at h; exact absurd rfl (hn _)
  refine ⟨d, rfl, ?_⟩
  have hnd := data_distinct hd
  have hdat := fun k w hm => (data_dict hd k w hm).2
  unfold deserFileInfo at h
  dsimp only at h
  split at h
  case h_2 =>
    obtain ⟨ps, he, hb⟩ := mkFDict_build hd h
    cases entries_unique hd he (.dict d)
    refine items_value ?_ (fun k x y _ hc => by cases hc; rfl) hb
    intro k x y hm hc hv
    cases hc
    by_cases hk : k = p!"category"
    · subst hk
      rw [itemOk_iff] at hv
      obtain ⟨s, _, rfl⟩ := hv rfl
      have := hdat _ _ hm
      simp [Data, data] at this
    · rw [if_neg hk]
  case h_1 =>
    rename_i m hl
    obtain ⟨x, hg⟩ : ∃ x, dictGet (.str p!"category") d = some x := by
      cases hg : dictGet (.str p!"category") d with
      | none => rw [hg] at hl; cases hl
      | some x => exact ⟨x, rfl⟩
    rw [hg] at hl
    dsimp only at hl
    have hx := dictGet_mem hg
    have hm : m = memberOf .ftCategory x := by
      have := hdat _ _ hx
      cases x <;> simp [Data, data] at this <;> simp [EnumId.lookup] at hl
      exact hl.2.symm
    have hnames := dictSet_names (m := m) ⟨x, hx⟩
    have hb : fdBuild E (fdConv E .fileInfo) .fileInfo (dictSet (.str p!"category") m d) = .ok w := h
    have := items_value (meaning := kept) (fun k x y _ hc _ => by cases hc; rfl)
      (fun k x y _ hc => by cases hc; rfl) hb
    rw [this]
    unfold itemsOf
    rw [keyOrder_congr hnames]
    congr 2
    refine List.map_congr_left fun k hk => ?_
    congr 1
    obtain ⟨z, hz⟩ := keyOrder_mem.mp hk
    have hz' := (lastValue_iff hnd).mpr hz
    rw [hz']
    have hnd' : ((dictSet (.str p!"category") m d).map Prod.fst).Nodup := by rw [hnames]; exact hnd
    show (lastValue k (dictSet (.str p!"category") m d)).getD .none =
      if k = p!"category" then memberOf .ftCategory z else z
    by_cases e : k = p!"category"
    · subst e
      have : lastValue p!"category" (dictSet (.str p!"category") m d) = some m := by
        obtain ⟨y, hy⟩ := keyOrder_mem.mp (by rw [keyOrder_congr hnames]; exact hk)
        rcases dictSet_entries hnd hy with ⟨_, rfl⟩ | ⟨e, _⟩
        · exact (lastValue_iff hnd').mpr hy
        · exact absurd rfl e
      rw [this, if_pos rfl, distinct_value hnd hz hx, ← hm]
      rfl
    · rw [if_neg e, (lastValue_iff hnd').mpr (dictSet_other (fun h => e (by injection h)) hz)]
      rfl

/-! ### Fields with their own rules -/

theorem list_value {f : Val → Res Val} {R : Val → Val → Prop} {l : List Val} {y : Val}
    (hr : ∀ x ∈ l, ∀ y, f x = .ok y → R x y)
    (h : (match mapRes f l with
      | .error e => (Except.error e : Res Val)
      | .ok r => .ok (.list r)) = .ok y) : ∃ ys, y = .list ys ∧ Each R l ys := by
  split at h
  · cases h
  · rename_i r hm
    injection h with h
    exact ⟨r, h.symm, each_map hr hm⟩

theorem run_value {E : Env} {x : Validator} {key : PStr} {v y : Val}
    (h : (match x.run E key v with
      | .error e => (Except.error e : Res Val)
      | .ok _ => .ok v) = .ok y) : y = v := by
  split at h
  · cases h
  · injection h with h; exact h.symm

theorem ruled_value {E : Env} {rec : Loader} {c : Cls} {name : PStr} {P : Val → Prop} {w y : Val}
    (hr : fieldRule E c name = some P) (hd : Data w) (h : deserSlot E rec c name w = .ok y) : RuledAs c name w y := by
  cases c <;> simp only [fieldRule] at hr <;> try cases hr
  case Peers =>
    split at hr
    · rename_i e
      subst e
      unfold deserSlot at h
      rw [if_neg (by decide), if_pos (by decide)] at h
      cases w <;> dsimp only at h <;> try cases h
      rename_i l
      obtain ⟨ys, rfl, he⟩ := list_value (R := PeerAs) (fun x hx y => peer_value (data_list hd x hx)) h
      exact ⟨l, ys, rfl, rfl, he⟩
    · cases hr
  case Tasks =>
    split at hr
    · rename_i e
      subst e
      unfold deserSlot at h
      rw [if_neg (by decide), if_neg (by decide), if_pos (by decide)] at h
      cases w <;> dsimp only at h <;> try cases h
      rename_i l
      obtain ⟨ys, rfl, he⟩ := list_value (R := fun x y => y = headerOf x) (fun x hx y hy => by
        split at hy
        · cases hy
        · exact header_value (data_list hd x hx) hy) h
      exact ⟨l, rfl, by rw [each_fun he]⟩
    · cases hr
  case WantToComputeTask =>
    unfold RuledAs
    dsimp only
    by_cases e1 : name = p!"task_header"
    · rw [if_pos e1]
      subst e1
      unfold deserSlot at h
      rw [if_neg (by decide), if_neg (by decide), if_neg (by decide)] at h
      by_cases hn : w = .none
      · subst hn
        cases h
        rfl
      · rw [if_pos ⟨rfl, rfl, hn⟩] at h
        rw [if_neg hn]
        exact header_value hd h
    rw [if_neg e1] at hr ⊢
    by_cases e2 : name = p!"cpu_usage"
    · subst e2
      unfold deserSlot at h
      rw [if_neg (by decide), if_neg (by decide), if_neg (by decide), if_neg (fun h => e1 h.2.1)] at h
      by_cases hn : w = .none
      · subst hn
        cases h
        rfl
      · rw [if_pos ⟨rfl, rfl, hn⟩] at h
        split at h
        · cases h
        · injection h with h; exact h.symm
    rw [if_neg e2] at hr
    by_cases e3 : name = p!"num_subtasks"
    · subst e3
      unfold deserSlot at h
      rw [if_neg (by decide), if_neg (by decide), if_neg (by decide), if_neg (fun h => e1 h.2.1),
        if_neg (fun h => e2 h.2.1), if_pos (by decide)] at h
      exact run_value h
    · rw [if_neg e3] at hr
      cases hr
  case TaskToCompute =>
    unfold RuledAs
    dsimp only
    by_cases e1 : name = p!"compute_task_def"
    · rw [if_pos e1]
      subst e1
      unfold deserSlot at h
      rw [if_neg (by decide), if_neg (by decide), if_neg (by decide), if_neg (fun h => by cases h.1),
        if_neg (fun h => by cases h.1), if_neg (by decide), if_pos (by decide)] at h
      exact taskDef_value hd h
    rw [if_neg e1] at hr ⊢
    by_cases e2 : name = p!"price" ∨ name = p!"size"
    · unfold deserSlot at h
      rw [if_neg (by rcases e2 with rfl | rfl <;> decide), if_neg (fun h => by cases h.1),
        if_neg (fun h => by cases h.1), if_neg (fun h => by cases h.1),
        if_neg (fun h => by cases h.1), if_neg (fun h => by cases h.1), if_neg (fun h => e1 h.2),
        if_pos ⟨rfl, e2⟩] at h
      exact run_value h
    · rw [if_neg e2] at hr
      cases hr
  case ReportComputedTask =>
    split at hr
    · rename_i e
      subst e
      unfold RuledAs
      dsimp only
      unfold deserSlot at h
      rw [if_neg (by decide), if_neg (by decide), if_neg (by decide), if_neg (fun h => by cases h.1),
        if_neg (fun h => by cases h.1), if_neg (by decide), if_neg (by decide), if_neg (by decide)] at h
      by_cases hn : w = .none
      · subst hn
        cases h
        rfl
      · rw [if_pos ⟨rfl, rfl, hn⟩] at h
        rw [if_neg hn]
        exact stats_value hd h
    · cases hr
  case FileTransferToken =>
    split at hr
    · rename_i e
      subst e
      unfold deserSlot at h
      rw [if_neg (by decide), if_neg (by decide), if_neg (by decide), if_neg (fun h => by cases h.1),
        if_neg (fun h => by cases h.1), if_neg (by decide), if_neg (by decide), if_neg (by decide),
        if_neg (fun h => by cases h.1), if_pos (by decide)] at h
      split at h
      · cases h
      rename_i l hl
      obtain ⟨ys, rfl, he⟩ := list_value (R := FileAs) (fun x hx y => file_value (iter_data hd hl x hx)) h
      exact ⟨l, ys, (elements_iff hd).mp hl, rfl, he⟩
    · cases hr

theorem ruled_unique {c : Cls} {name : PStr} {w y z : Val} (hd : Data w) (h : RuledAs c name w y)
    (h' : RuledAs c name w z) : y = z := by
  cases c <;> unfold RuledAs at h h' <;> dsimp only at h h' <;> try exact h.trans h'.symm
  case Peers =>
    obtain ⟨l, ys, rfl, rfl, a⟩ := h
    obtain ⟨l', zs, e, rfl, b⟩ := h'
    injection e with e
    subst e
    rw [each_unique (fun x hx y z hy hz => ?_) a b]
    obtain ⟨ps, hp, rfl⟩ := hy
    obtain ⟨qs, hq, rfl⟩ := hz
    rw [entries_unique (data_list hd x hx) hp hq]
  case Tasks =>
    obtain ⟨l, rfl, rfl⟩ := h
    obtain ⟨l', e, rfl⟩ := h'
    injection e with e
    rw [e]
  case WantToComputeTask =>
    split at h <;> split at h' <;> first | contradiction | exact h.trans h'.symm
  case TaskToCompute =>
    split at h <;> rename_i e
    · rw [if_pos e] at h'
      obtain ⟨ps, hp, rfl⟩ := h
      obtain ⟨qs, hq, rfl⟩ := h'
      rw [entries_unique hd hp hq]
    · rw [if_neg e] at h'
      exact h.trans h'.symm
  case FileTransferToken =>
    obtain ⟨l, ys, a1, rfl, a⟩ := h
    obtain ⟨l', zs, b1, rfl, b⟩ := h'
    have a1 := (elements_iff hd).mpr a1
    rw [(elements_iff hd).mpr b1] at a1
    injection a1 with a1
    subst a1
    rw [each_unique (fun x hx y z hy hz => ?_) a b]
    obtain ⟨d, rfl, rfl⟩ := hy
    obtain ⟨d', e, rfl⟩ := hz
    injection e with e
    rw [e]

/-! ### Nested messages -/

theorem mapRes_zip {f : Val → Res Val} : ∀ {l ys : List Val},
    mapRes f l = .ok ys ↔ l.length = ys.length ∧ ∀ p ∈ l.zip ys, f p.1 = .ok p.2
  | [], ys => by
    unfold mapRes
    cases ys <;> simp
  | x :: xs, [] => by
    unfold mapRes
    refine ⟨fun h => ?_, fun h => absurd h.1 (by simp)⟩
    split at h
    · cases h
    split at h <;> cases h
  | x :: xs, y :: ys => by
    unfold mapRes
    have ih := mapRes_zip (f := f) (l := xs) (ys := ys)
    constructor
    · intro h
      split at h
      · cases h
      rename_i y' hy
      split at h
      · cases h
      rename_i r hr
      injection h with h
      injection h with h1 h2
      subst h1 h2
      obtain ⟨a, b⟩ := ih.mp hr
      refine ⟨by simp [a], fun p hp => ?_⟩
      rcases List.mem_cons.mp (by simpa using hp) with e | e
      · subst e; exact hy
      · exact b p e
    · rintro ⟨a, b⟩
      rw [b (x, y) (by simp)]
      dsimp only
      rw [ih.mpr ⟨by simpa using a, fun p hp => b p (by simp [hp])⟩]

/-- The constructor of the class gives what the payload reads as. -/
def ReadsAs (E : Env) (rec : Loader) (cls : Cls) : Prop :=
  ∀ ty ts enc sig v x, Data v →
    (rec cls ty ts enc sig v = .ok x ↔ ∃ as, x = .msg cls ty ts enc sig as ∧ Reads E cls v as)

theorem readsMessage_inv {E : Env} {cls : Cls} {x y : Val} (h : ReadsMessage E cls x y) :
    ∃ header sig slots ty ts enc as, Elements x [header, sig, slots] ∧ Elements header [ty, ts, enc] ∧
      Reads E cls slots as ∧ y = .msg cls ty ts enc sig as := by
  cases h with
  | mk a b c => exact ⟨_, _, _, _, _, _, _, a, b, c, rfl⟩

theorem single_reads {E : Env} {rec : Loader} {sd : SlotDef} {key : PStr} {x y : Val} (hr : ReadsAs E rec sd.cls)
    (h : Data x) : deserSingle rec sd key x = .ok y ↔
      (x = .none ∧ sd.allowNone = true ∧ y = .none) ∨ ReadsMessage E sd.cls x y := by
  unfold deserSingle
  by_cases hn : x = .none
  · rw [if_pos hn]
    subst hn
    have : ¬ ReadsMessage E sd.cls .none y := by
      intro h
      obtain ⟨_, _, _, _, _, _, _, a, _⟩ := readsMessage_inv h
      cases a
    cases sd.allowNone <;> simp [this, eq_comm]
  · rw [if_neg hn, or_iff_right (fun e => hn e.1)]
    constructor
    · intro hm
      split at hm
      · rename_i header sig slots h1
        split at hm
        · rename_i ty ts enc h2
          split at hm
          · rename_i m' h3
            injection hm with hm
            subst hm
            have hd := iter_data h h1
            obtain ⟨as, rfl, ha⟩ := (hr _ _ _ _ _ _ (hd slots (by simp))).mp h3
            exact .mk ((elements_iff h).mp h1) ((elements_iff (hd header (by simp))).mp h2) ha
          all_goals cases hm
        · cases hm
      · cases hm
    · intro hl
      obtain ⟨header, sig, slots, ty, ts, enc, as, h1, h2, h3, rfl⟩ := readsMessage_inv hl
      have h1 := (elements_iff h).mpr h1
      have hd := iter_data h h1
      rw [h1]
      dsimp only
      rw [(elements_iff (hd header (by simp))).mpr h2]
      dsimp only
      rw [(hr ty ts enc sig slots _ (hd slots (by simp))).mpr ⟨as, rfl, h3⟩]

theorem falsy_unread {E : Env} {cls : Cls} {x y : Val} (h : x.truthy = false) : ¬ ReadsMessage E cls x y := by
  intro hl
  obtain ⟨_, _, _, _, _, _, _, a, _⟩ := readsMessage_inv hl
  generalize hg : [_, _, _] = l at a
  cases a with
  | list l => subst hg; simp [Val.truthy] at h
  | text s =>
    cases s with
    | nil => cases hg
    | cons => simp [Val.truthy] at h
  | bytes b =>
    cases b with
    | nil => cases hg
    | cons => simp [Val.truthy] at h
  | dict d =>
    cases d with
    | nil => cases hg
    | cons => simp [Val.truthy] at h

theorem message_reads {E : Env} {rec : Loader} {sd : SlotDef} {c : Cls} {key : PStr} {w y : Val}
    (hu : fieldRule E c key = none) (hr : ReadsAs E rec sd.cls) (hl : sd.isList = true → sd.allowNone = false)
    (h : Data w) : deserMessage rec sd key w = .ok y ↔
      ReadsField E c key (.message sd.cls sd.allowNone sd.isList) w y := by
  unfold deserMessage
  constructor
  · intro hm
    split at hm
    · rename_i flag value hi
      have hd := iter_data h hi
      have hi := (elements_iff h).mp hi
      have hv : Data value := hd value (by simp)
      split at hm
      · cases hm
      rename_i h1
      rw [eqBool_sameKey] at h1
      by_cases ht : value.truthy = true
      · have hs : sameKey flag (.bool sd.isList) = true := by
          simpa [ht] using h1
        have hf := sameKey_truthy hs
        rw [ht, hf] at hm
        cases hb : sd.isList with
        | true =>
          rw [hb] at hm hs
          rw [if_pos (by decide)] at hm
          split at hm
          · rename_i l _
            split at hm
            · cases hm
            rename_i ys hys
            injection hm with hm
            subst hm
            obtain ⟨a, b⟩ := mapRes_zip.mp hys
            refine .several hu hi ?_ hs a fun p hp => ?_
            · rintro rfl
              simp [Val.truthy] at ht
            · have hpl : p.1 ∈ l := (List.of_mem_zip hp).1
              rcases (single_reads hr (data_list hv _ hpl)).mp (b p hp) with ⟨_, e, _⟩ | e
              · rw [hl hb] at e; cases e
              · exact e
          · cases hm
        | false =>
          rw [hb] at hm hs
          rw [if_neg (by decide)] at hm
          rcases (single_reads hr hv).mp hm with ⟨e, _⟩ | e
          · subst e
            simp [Val.truthy] at ht
          · exact .single hu hi hs e
      · have ht := Bool.not_eq_true _ ▸ ht
        rw [ht, Bool.false_and, if_neg (by decide)] at hm
        rcases (single_reads hr hv).mp hm with ⟨e, e', rfl⟩ | e
        · subst e
          rw [e']
          exact .absent hu hi
        · exact absurd e (falsy_unread ht)
    · cases hm
  · intro hf
    generalize hk : Kind.message sd.cls sd.allowNone sd.isList = kind at hf
    cases hf with
    | ruled a _ _ => rw [hu] at a; cases a
    | plain _ => cases hk
    | noNode _ _ => cases hk
    | node _ _ _ => cases hk
    | noChoice _ => cases hk
    | choice _ _ _ => cases hk
    | absent _ hi =>
      injection hk with k1 k2 k3
      rw [(elements_iff h).mpr hi]
      dsimp only
      have : Val.none.truthy = false := rfl
      rw [this, Bool.false_and, if_neg (by decide), Bool.false_and, if_neg (by decide)]
      unfold deserSingle
      rw [if_pos rfl, k2]
      rfl
    | @single _ _ _ _ _ flag x _ _ hi hs hx =>
      injection hk with k1 k2 k3
      subst k1
      have hi := (elements_iff h).mpr hi
      have hd := iter_data h hi
      rw [hi]
      dsimp only
      rw [eqBool_sameKey, k3, hs, sameKey_truthy hs]
      rw [if_neg (by simp), Bool.and_false, if_neg (by decide)]
      exact (single_reads hr (hd x (by simp))).mpr (.inr hx)
    | @several _ _ _ _ _ flag l ys _ hi hne hs hlen hx =>
      injection hk with k1 k2 k3
      subst k1
      have hi := (elements_iff h).mpr hi
      have hd := data_list (iter_data h hi (.list l) (by simp))
      rw [hi]
      dsimp only
      rw [eqBool_sameKey, k3, hs, sameKey_truthy hs]
      have ht : (Val.list l).truthy = true := by
        cases l with
        | nil => exact absurd rfl hne
        | cons => rfl
      rw [ht, if_neg (by decide), if_pos (by decide)]
      have : mapRes (deserSingle rec sd key) l = .ok ys := mapRes_zip.mpr ⟨hlen, fun p hp =>
        (single_reads hr (hd _ (List.of_mem_zip hp).1)).mpr (.inr (hx p hp))⟩
      rw [this]

/-! ### All fields -/

theorem values_inj {e e' : EnumId} (h : e.values = e'.values) : e = e' := by
  revert h
  cases e <;> cases e' <;> first | exact fun _ => rfl | exact fun h => absurd h (by decide)

theorem choice_reads {rec : Loader} {c : Cls} {key : PStr} {e : EnumId} {w y : Val} (h : Data w)
    (he : lookupName key c.enumSlots = some e) (hm : lookupName key c.msgSlots = none) :
    deserBase rec c key w = .ok y ↔ (w = .none ∧ y = .none) ∨ ∃ s ∈ e.values, w = .str s ∧ y = .enum e s := by
  unfold deserBase
  rw [he, hm]
  by_cases hn : w = .none
  · rw [if_pos hn]
    subst hn
    simp [eq_comm]
  · rw [if_neg hn, or_iff_right (fun a => hn a.1)]
    dsimp only
    cases w <;> simp [Data, data] at h <;> simp only [EnumId.lookup]
    all_goals first
      | (simp; done)
      | skip
    rename_i s
    by_cases hs : s ∈ e.values
    · rw [if_pos (by simpa using hs)]
      constructor
      · intro a
        injection a with a
        exact ⟨s, hs, rfl, a.symm⟩
      · rintro ⟨_, _, a, rfl⟩
        injection a with a
        subst a
        rfl
    · rw [if_neg (by simpa using hs)]
      constructor
      · intro a
        cases a
      · rintro ⟨_, a, b, _⟩
        injection b with b
        subst b
        exact absurd a hs

theorem field_reads {E : Env} {rec : Loader} {e : Entry} {name : PStr} {kind : Kind} {w y : Val} (he : e ∈ catalogue)
    (hf : (name, kind) ∈ e.fields) (h : Data w) (hr : ∀ cls, Declares e.cls cls → ReadsAs E rec cls) :
    deserSlot E rec e.cls name w = .ok y ↔ ReadsField E e.cls name kind w y := by
  cases hu : fieldRule E e.cls name with
  | some P =>
    constructor
    · intro hy
      exact .ruled hu ((rule_iff hu h).mp ⟨y, hy⟩) (ruled_value hu h hy)
    · intro hl
      cases hl with
      | ruled a b c =>
        rw [hu] at a
        injection a with a
        subst a
        obtain ⟨z, hz⟩ := (rule_iff hu h).mpr b
        rw [hz, ruled_unique h c (ruled_value hu h hz)]
      | plain a => rw [hu] at a; cases a
      | noNode a _ => rw [hu] at a; cases a
      | node a _ _ => rw [hu] at a; cases a
      | noChoice a => rw [hu] at a; cases a
      | choice a _ _ => rw [hu] at a; cases a
      | absent a _ => rw [hu] at a; cases a
      | single a _ _ _ => rw [hu] at a; cases a
      | several a _ _ _ _ _ => rw [hu] at a; cases a
  | none =>
    have hk : kind = slotKind e.cls name := slotKind_table e he _ hf
    unfold slotKind at hk
    by_cases hn : e.cls.nodeSlots.contains name = true
    · rw [if_pos hn] at hk
      subst hk
      unfold deserSlot
      rw [if_pos hn]
      have inv : ReadsField E e.cls name .node w y ↔
          (w.truthy = false ∧ y = w) ∨ (w.truthy = true ∧ Record (nodeFields E) w ∧ y = nodeOf w) := by
        constructor
        · intro hl
          cases hl with
          | ruled a _ => rw [hu] at a; cases a
          | noNode _ b => rw [holds_eq] at b; exact .inl ⟨b, rfl⟩
          | node _ b c => rw [holds_eq] at b; exact .inr ⟨b, c, rfl⟩
        · rintro (⟨a, rfl⟩ | ⟨a, b, rfl⟩)
          · exact .noNode hu (by rwa [holds_eq])
          · exact .node hu (by rwa [holds_eq]) b
      rw [inv]
      by_cases ht : w.truthy = true
      · rw [if_pos ht, or_iff_right (fun a => by rw [ht] at a; cases a.1)]
        constructor
        · intro hy
          refine ⟨ht, (dict_then (c := .node) h).mp ⟨y, hy⟩, ?_⟩
          split at hy
          · cases hy
          · exact node_value h hy
        · rintro ⟨_, a, rfl⟩
          obtain ⟨z, hz⟩ := (dict_then (E := E) (c := .node) (key := name) h).mpr a
          refine hz.trans ?_
          split at hz
          · cases hz
          · rw [node_value h hz]
      · rw [if_neg ht, or_iff_left (fun a => ht a.1)]
        exact ⟨fun a => ⟨by simpa using ht, by injection a with a; exact a.symm⟩, fun a => by rw [a.2]⟩
    · rw [if_neg hn] at hk
      rw [deserSlot_unruled hu (by simpa using hn)]
      cases hce : lookupName name e.cls.enumSlots with
      | some en =>
        rw [hce] at hk
        dsimp only at hk
        subst hk
        rw [choice_reads h hce (enum_not_msg e.cls _ (mem_of_lookupName hce))]
        constructor
        · rintro (⟨rfl, rfl⟩ | ⟨s, hs, rfl, rfl⟩)
          · exact .noChoice hu
          · exact .choice hu rfl hs
        · intro hl
          cases hl with
          | ruled a _ _ => rw [hu] at a; cases a
          | noChoice _ => exact .inl ⟨rfl, rfl⟩
          | @choice _ _ _ e' s _ a b =>
            cases values_inj a
            exact .inr ⟨s, b, rfl, rfl⟩
      | none =>
        rw [hce] at hk
        dsimp only at hk
        cases hm : lookupName name e.cls.msgSlots with
        | some sd =>
          rw [hm] at hk
          dsimp only at hk
          subst hk
          have hmem := mem_of_lookupName hm
          rw [← message_reads hu (hr sd.cls ⟨name, sd, hmem, rfl⟩) (list_required e.cls _ hmem) h]
          unfold deserBase
          rw [hce, hm]
          simp
        | none =>
          rw [hm] at hk
          dsimp only at hk
          subst hk
          rw [deserBase_plain hce hm]
          constructor
          · intro a
            injection a with a
            subst a
            exact .plain hu
          · intro a
            cases a with
            | ruled b _ _ => rw [hu] at b; cases b
            | plain _ => rfl

theorem reads_inv {E : Env} {c : Cls} {v : Val} {as : Attrs} (h : Reads E c v as) : ∃ e ∈ catalogue, e.cls = c ∧
    ∃ read : PStr → Val, (∀ name kind, (name, kind) ∈ e.fields → Unread e.cls name ∨ (∀ w, ¬ Given v name w) →
        read name = .none) ∧
      (∀ name kind w, (name, kind) ∈ e.fields → ¬ Unread e.cls name → Given v name w →
        ReadsField E e.cls name kind w (read name)) ∧
      as = e.fields.map fun p => (p.1, defaulted e.cls p.1 (read p.1)) := by
  cases h with
  | mk read a b c => exact ⟨_, a, rfl, read, b, c, rfl⟩

theorem attrs_reads {E : Env} {rec : Loader} {c : Cls} {v : Val} {as : Attrs} (h : Data v)
    (hr : ∀ cls, Declares c cls → ReadsAs E rec cls) : loadAttrs E rec c v = .ok as ↔ Reads E c v as := by
  have main : ∀ e ∈ catalogue, e.cls = c → ∀ r, loadSlots E rec c (dictOf v) c.payload = .ok r →
      (∀ name kind, (name, kind) ∈ e.fields → Unread e.cls name ∨ (∀ w, ¬ Given v name w) →
        getAttr r name = .none) ∧
      (∀ name kind w, (name, kind) ∈ e.fields → ¬ Unread e.cls name → Given v name w →
        deserSlot E rec c name w = .ok (getAttr r name)) ∧
      postInit c r = e.fields.map fun p => (p.1, defaulted e.cls p.1 (getAttr r p.1)) := by
    rintro e he rfl r hl
    have hmem : ∀ name kind, (name, kind) ∈ e.fields → name ∈ e.cls.payload := by
      intro name kind hf
      rw [payload_table e he]
      exact List.mem_map.mpr ⟨_, hf, rfl⟩
    have hg := loadSlots_get hl (payload_nodup e.cls)
    refine ⟨?_, ?_, ?_⟩
    · intro name kind hf hu
      obtain ⟨g1, g2⟩ := hg name (hmem name kind hf)
      by_cases hun : Unread e.cls name
      · exact g1 hun
      · refine (g2 hun).1 ?_
        rcases hu with hu | hu
        · exact absurd hu hun
        · cases hd : dictGet (.str name) (dictOf v) with
          | none => rfl
          | some w => exact absurd ((given_iff h _ _).mp hd) (hu w)
    · intro name kind w hf hu hw
      exact ((hg name (hmem name kind hf)).2 hu).2 w ((given_iff h _ _).mpr hw)
    · have hn := loadSlots_names hl
      have hnames : (postInit e.cls r).map Prod.fst = e.fields.map Prod.fst := by
        rw [postInit_names, hn, payload_table e he]
      refine attrs_listed (name := Prod.fst) hnames (by rw [← payload_table e he]; exact payload_nodup e.cls) ?_
      intro p hp
      have := getAttr_postInit hn p.1
      rw [← this]
      have hin : p.1 ∈ (postInit e.cls r).map Prod.fst := by rw [hnames]; exact List.mem_map.mpr ⟨_, hp, rfl⟩
      rw [← lookupName_isSome] at hin
      obtain ⟨x, hx⟩ := Option.isSome_iff_exists.mp hin
      unfold getAttr
      rw [hx]
      exact mem_of_lookupName hx
  constructor
  · intro hl
    obtain ⟨e, he, hc⟩ := listed_cls c
    unfold loadAttrs at hl
    split at hl
    · cases hl
    rename_i r hw
    injection hl with hl
    obtain ⟨a, b, d⟩ := main e he hc r (wrapLoad_ok hw)
    subst hl
    rw [d]
    subst hc
    exact .mk (getAttr r) he a fun name kind w hf hu hg =>
      (field_reads he hf (given_data h hg) hr).mp (b name kind w hf hu hg)
  · intro hl
    obtain ⟨e, he, rfl, read, a, b, rfl⟩ := reads_inv hl
    have hb := fun name kind w hf hu hg => (field_reads he hf (given_data h hg) hr).mpr (b name kind w hf hu hg)
    obtain ⟨r, hlo⟩ : ∃ r, loadSlots E rec e.cls (dictOf v) e.cls.payload = .ok r := by
      rw [loadSlots_iff]
      intro n hn hu w hw
      rw [payload_table e he] at hn
      obtain ⟨⟨name, kind⟩, hf, rfl⟩ := List.mem_map.mp hn
      exact ⟨_, hb name kind w hf hu ((given_iff h _ _).mp hw)⟩
    obtain ⟨a', b', d⟩ := main e he rfl r hlo
    unfold loadAttrs
    rw [hlo]
    unfold wrapLoad
    dsimp only
    rw [d]
    congr 1
    refine List.map_congr_left fun p hp => ?_
    have : getAttr r p.1 = read p.1 := by
      by_cases hu : Unread e.cls p.1 ∨ ∀ w, ¬ Given v p.1 w
      · rw [a' p.1 p.2 hp hu, a p.1 p.2 hp hu]
      · have h1 : ¬ Unread e.cls p.1 := fun x => hu (.inl x)
        obtain ⟨w, hw⟩ : ∃ w, Given v p.1 w := Classical.byContradiction fun x => hu (.inr fun w hw => x ⟨w, hw⟩)
        have := (b' p.1 p.2 w hp h1 hw).symm.trans (hb p.1 p.2 w hp h1 hw)
        injection this
    rw [this]

theorem reads_as (E : Env) : ∀ (n : Nat) (c : Cls), c.rank < n → ReadsAs E (loadMsg E n) c
  | 0, _, h => absurd h (Nat.not_lt_zero _)
  | n + 1, c, h => by
    intro ty ts enc sig v x hv
    have := fun as => attrs_reads (c := c) (as := as) (rec := loadMsg E n) hv
      fun cls hd => reads_as E n cls (by have := declares_rank hd; omega)
    simp only [← this]
    unfold loadMsg
    cases loadAttrs E (loadMsg E n) c v with
    | ok as => simp [eq_comm]
    | error e => simp

/-- The constructor of a class gives what the payload reads as. -/
theorem construct_reads {E : Env} {c : Cls} {h : Header} {sig : Bytes} {version : Option PStr} {v : Val} {m : Msg}
    (hv : Data v) : construct E c h sig version v = .ok m ↔ ∃ as, Reads E c v as ∧
      m = ⟨c, .int h.type, .int h.timestamp, .bool h.encrypted, .bytes sig,
        match version with
        | some v => as ++ [(p!"_version", .str v)]
        | none => as⟩ := by
  have := fun as => attrs_reads (as := as) (rec := loadMsg E maxDepth) hv fun cls (_ : Declares c cls) =>
    reads_as E _ cls (by have := rank_le cls; unfold maxDepth; omega)
  simp only [← this]
  unfold construct
  cases loadAttrs E (loadMsg E maxDepth) c v with
  | ok as =>
    dsimp only
    constructor
    · intro a
      injection a with a
      exact ⟨as, rfl, a.symm⟩
    · rintro ⟨_, a, rfl⟩
      injection a with a
      subst a
      rfl
  | error e => simp

end Verif
