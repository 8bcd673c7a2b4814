import Verif.Lemmas.ToyMake
import Verif.Spec.FactoryArgs
import Verif.Lemmas.Made
import Verif.Props.Clone
import Verif.Props.FactoryMethods
/-!
# C93: messages made by factories hold what their class declares
-/

set_option linter.unusedSimpArgs false

namespace Verif.Props

open Verif Spec

/-! ### Which argument means which field -/

private def namesApart (c : Cls) : Bool :=
  c.msgSlots.all (fun fs => c.payload.all fun b => fs.1 == b ||
    (!(fs.1 ++ p!"_").isPrefixOf b && !(b ++ p!"_").isPrefixOf fs.1)) &&
  c.payload.all fun a => c.payload.all fun b => !(a ++ p!"__").isPrefixOf b

private theorem names_apart : ∀ c ∈ Cls.all, namesApart c = true := by decide +kernel

private theorem payload_apart {c : Cls} {a b : PStr} (ha : a ∈ c.payload) (hb : b ∈ c.payload) :
    (a ++ p!"__").isPrefixOf b = false := by
  have h := names_apart c (every_cls c)
  simp only [namesApart, Bool.and_eq_true, List.all_eq_true, Bool.not_eq_true'] at h
  exact h.2 a ha b hb

private theorem slot_apart {c : Cls} {f b : PStr} {sd : SlotDef} (hf : (f, sd) ∈ c.msgSlots)
    (hb : b ∈ c.payload) : f = b ∨ (f ++ p!"_").isPrefixOf b = false ∧ (b ++ p!"_").isPrefixOf f = false := by
  have h := names_apart c (every_cls c)
  simp only [namesApart, Bool.and_eq_true, List.all_eq_true, Bool.or_eq_true, Bool.not_eq_true',
    beq_iff_eq] at h
  exact h.1 _ hf b hb

private theorem prefix_of_append (a r : PStr) : a.isPrefixOf (a ++ r) = true := by
  rw [List.isPrefixOf_iff_prefix]
  exact List.prefix_append a r

/-- One way to read a name with two dashes. -/
private theorem split_name {a b k k' : PStr} (h : a ++ p!"__" ++ k = b ++ p!"__" ++ k')
    (h1 : (a ++ p!"_").isPrefixOf b = false) (h2 : (b ++ p!"_").isPrefixOf a = false) : a = b := by
  rw [List.append_assoc, List.append_assoc, List.append_eq_append_iff] at h
  rcases h with ⟨r, rfl, e⟩ | ⟨r, rfl, e⟩
  · cases r with
    | nil => simp
    | cons x r =>
      injection e with e _
      subst e
      have := prefix_of_append (a ++ p!"_") r
      rw [List.append_assoc] at this
      rw [show a ++ '_' :: r = a ++ (p!"_" ++ r) from rfl, this] at h1
      cases h1
  · cases r with
    | nil => simp
    | cons x r =>
      injection e with e _
      subst e
      have := prefix_of_append (b ++ p!"_") r
      rw [List.append_assoc] at this
      rw [show b ++ '_' :: r = b ++ (p!"_" ++ r) from rfl, this] at h2
      cases h2

private theorem under_not_payload {c : Cls} {f k : PStr} (hf : f ∈ c.payload) : f ++ p!"__" ++ k ∉ c.payload :=
  fun h => by
    have := payload_apart hf h
    rw [prefix_of_append] at this
    cases this

private theorem means_under {c c' : Cls} {f k key n : PStr} (hf : f ∈ c.payload) (hkey : key = f ++ p!"__" ++ k)
    (h : Means c key c' n) : ∃ sd, (f, sd) ∈ c.msgSlots ∧ Means sd.cls k c' n := by
  cases h with
  | field h => exact absurd (hkey ▸ h) (under_not_payload hf)
  | @deeper _ _ f' key' _ sd slot rest =>
    have : f' = f := by
      rcases slot_apart slot hf with e | ⟨h1, h2⟩
      · exact e
      · exact split_name hkey h1 h2
    subst this
    have := List.append_cancel_left hkey
    subst this
    exact ⟨sd, slot, rest⟩

private theorem means_leaf {c c' : Cls} {m n : PStr} (hn : m ∈ c.payload) (h : Means c m c' n) :
    c' = c ∧ n = m := by
  cases h with
  | field h => exact ⟨rfl, rfl⟩
  | deeper slot rest => exact absurd hn (under_not_payload (msgSlot_payload slot))

private theorem file_under {c : Cls} {f k key part : PStr} (hf : f ∈ c.payload) (hkey : key = f ++ p!"__" ++ k)
    (h : MeansFile c key part) : (∃ sd, (f, sd) ∈ c.msgSlots ∧ MeansFile sd.cls k part) ∨
      (c = .FileTransferToken ∧ f = p!"files" ∧ ∃ i, k = Nat.toDigits 10 i ++ part) := by
  cases h with
  | here i =>
    right
    have e : p!"files" ++ p!"__" ++ (Nat.toDigits 10 i ++ part) = f ++ p!"__" ++ k := by
      rw [← hkey, List.append_assoc, List.append_assoc]
      rfl
    have : f = p!"files" := by
      have key : ∀ b ∈ Cls.payload .FileTransferToken, (p!"files" ++ p!"_").isPrefixOf b = false ∧
        (b ++ p!"_").isPrefixOf p!"files" = false := by decide
      exact (split_name e (key f hf).1 (key f hf).2).symm
    subst this
    exact ⟨rfl, rfl, i, (List.append_cancel_left e).symm⟩
  | @deeper _ f' key' _ sd slot rest =>
    left
    have : f' = f := by
      rcases slot_apart slot hf with e | ⟨h1, h2⟩
      · exact e
      · exact split_name hkey h1 h2
    subst this
    have := List.append_cancel_left hkey
    subst this
    exact ⟨sd, slot, rest⟩

private theorem mem_sub {n k : PStr} {v : Val} {kw : Attrs} (h : (k, v) ∈ subArgs n kw) :
    (n ++ p!"__" ++ k, v) ∈ kw := by
  unfold subArgs at h
  obtain ⟨⟨a, b⟩, hab, e⟩ := List.mem_filterMap.mp h
  split at e
  · rename_i hp
    injection e with e
    injection e with e1 e2
    simp only at hp e1 e2
    subst e2
    rw [List.isPrefixOf_iff_prefix] at hp
    obtain ⟨r, rfl⟩ := hp
    have : (n ++ p!"__" ++ r).drop (n.length + 2) = r := by
      have : n.length + 2 = (n ++ p!"__").length := by simp
      rw [this, List.drop_left]
    rw [this] at e1
    rw [← e1]
    exact hab
  · cases e

private theorem slot_unique {c : Cls} {f : PStr} {sd sd' : SlotDef} (h : (f, sd) ∈ c.msgSlots)
    (h' : (f, sd') ∈ c.msgSlots) : sd = sd' := by
  rw [msgSlots_lookup] at h h'
  rw [h] at h'
  injection h'

private theorem slot_classes : ∀ c ∈ Cls.all, ∀ fs ∈ c.msgSlots,
    fs.2.cls ≠ .VerdictReportComputedTask ∧ fs.2.cls ≠ .Hello ∧ fs.2.cls ≠ .ForcePaymentRejected ∧
    (fs.2.cls = .ForcePayment → c = .ForcePaymentRejected) := by decide +kernel

/-- The arguments of a nested message. -/
private theorem args_sub {E : Env} {c : Cls} {kw : Attrs} {f : PStr} {sd : SlotDef} (h : ArgsOk E c kw)
    (hf : (f, sd) ∈ c.msgSlots) : ArgsOk E sd.cls (subArgs f kw) where
  fields k v c' n hm hmean := h.fields _ v c' n (mem_sub hm) (.deeper hf hmean)
  files k v hm hmean := h.files _ v (mem_sub hm) (.deeper hf hmean)
  data k v hm h1 h2 h3 := by
    have hp := msgSlot_payload hf
    refine h.data _ v (mem_sub hm) (fun c' n hmean => ?_) (fun hmean => ?_) (fun hmean => ?_)
    · obtain ⟨sd', hs, hr⟩ := means_under hp rfl hmean
      rw [slot_unique hs hf] at hr
      exact h1 c' n hr
    all_goals
      rcases file_under hp rfl hmean with ⟨sd', hs, hr⟩ | ⟨rfl, _⟩
      · rw [slot_unique hs hf] at hr
        first | exact h2 hr | exact h3 hr
      · cases hf
  shared he := absurd he (slot_classes c (every_cls c) _ hf).1
  version he := absurd he (slot_classes c (every_cls c) _ hf).2.1

private theorem args_mono {E : Env} {c : Cls} {kw kw' : Attrs} (h : ArgsOk E c kw)
    (hs : ∀ k v, (k, v) ∈ kw' → (k, v) ∈ kw) : ArgsOk E c kw' where
  fields k v c' n hm := h.fields k v c' n (hs k v hm)
  files k v hm := h.files k v (hs k v hm)
  data k v hm := h.data k v (hs k v hm)
  shared he k v hm := h.shared he k v (hs k v hm)
  version he hm := by
    obtain ⟨kv, hkv, e⟩ := List.mem_map.mp hm
    exact h.version he (List.mem_map.mpr ⟨kv, hs kv.1 kv.2 hkv, e⟩)

private theorem args_value {E : Env} {c : Cls} {kw : Attrs} {n : PStr} {v : Val} (h : ArgsOk E c kw)
    (hn : n ∈ c.payload) (hv : lookupName n kw = some v) : ValueOk E c n v :=
  h.fields n v c n (mem_of_lookupName hv) (.field hn)

/-- The arguments of what is no message. -/
private theorem args_data {E : Env} {c : Cls} {kw : Attrs} {n : PStr} (h : ArgsOk E c kw)
    (hn : n ∈ c.payload) (hs : lookupName n c.msgSlots = none)
    (hf : ¬ (c = .FileTransferToken ∧ n = p!"files")) : DataArgs (subArgs n kw) := by
  intro k v hm
  refine h.data _ v (mem_sub hm) (fun c' n' hmean => ?_) (fun hmean => ?_) (fun hmean => ?_)
  · obtain ⟨sd, hsd, _⟩ := means_under hn rfl hmean
    rw [msgSlots_lookup, hs] at hsd
    cases hsd
  all_goals
    rcases file_under hn rfl hmean with ⟨sd, hsd, _⟩ | ⟨e1, e2, _⟩
    · rw [msgSlots_lookup, hs] at hsd
      cases hsd
    · exact hf ⟨e1, e2⟩

private theorem plain_not_means {c : Cls} {n : PStr} (hn : n ∉ c.payload) (hd : n.count '_' < 2) :
    (∀ c' k, ¬ Means c n c' k) ∧ ∀ part, ¬ MeansFile c n part := by
  have two : ∀ f k : PStr, n ≠ f ++ p!"__" ++ k := by
    rintro f k rfl
    rw [List.count_append, List.count_append] at hd
    have : (p!"__" : PStr).count '_' = 2 := by decide
    omega
  refine ⟨fun c' k hmean => ?_, fun part hmean => ?_⟩
  · generalize he : n = key at hmean
    cases hmean with
    | field h => exact hn (he ▸ h)
    | deeper slot rest => exact two _ _ he
  · generalize he : n = key at hmean
    cases hmean with
    | here i =>
      refine two p!"files" (Nat.toDigits 10 i ++ part) ?_
      rw [he, List.append_assoc, List.append_assoc]
      rfl
    | deeper slot rest => exact two _ _ he

private theorem args_other {E : Env} {c : Cls} {kw : Attrs} {n : PStr} (h : ArgsOk E c kw)
    (hn : n ∉ c.payload) (hd : n.count '_' < 2) : Data (getAttr kw n) := by
  unfold getAttr
  cases hv : lookupName n kw with
  | none => rfl
  | some v =>
    obtain ⟨h1, h2⟩ := plain_not_means hn hd
    exact h.data n v (mem_of_lookupName hv) h1 (h2 _) (h2 _)

/-- Whether messages are uploaded or downloaded may be declared with a sub-factory. -/
private theorem args_merge {E : Env} {c : Cls} {a kw : Attrs} (h : ArgsOk E c kw)
    (ha : ∀ kv ∈ a, (kv.1 = p!"upload" ∨ kv.1 = p!"download") ∧ Data kv.2) : ArgsOk E c (mergeArgs a kw) := by
  have plain : ∀ k v, (k, v) ∈ a → (∀ c' n, ¬ Means c k c' n) ∧ ∀ part, ¬ MeansFile c k part := by
    intro k v hm
    have key : ∀ c ∈ Cls.all, p!"upload" ∉ c.payload ∧ p!"download" ∉ c.payload := by decide
    rcases (ha _ hm).1 with e | e
    all_goals
      dsimp only at e
      subst e
    · exact plain_not_means (key c (every_cls c)).1 (by decide)
    · exact plain_not_means (key c (every_cls c)).2 (by decide)
  have split : ∀ k v, (k, v) ∈ mergeArgs a kw → (k, v) ∈ a ∨ (k, v) ∈ kw := by
    intro k v hm
    unfold mergeArgs at hm
    rcases List.mem_append.mp hm with e | e
    · exact Or.inl (List.mem_filter.mp e).1
    · exact Or.inr e
  refine ⟨fun k v c' n hm hmean => ?_, fun k v hm hmean => ?_, fun k v hm h1 h2 h3 => ?_, fun he k v hm => ?_,
    fun he hm => ?_⟩
  · rcases split k v hm with e | e
    · exact absurd hmean ((plain k v e).1 c' n)
    · exact h.fields k v c' n e hmean
  · rcases split k v hm with e | e
    · exact absurd hmean ((plain k v e).2 _)
    · exact h.files k v e hmean
  · rcases split k v hm with e | e
    · exact (ha _ e).2
    · exact h.data k v e h1 h2 h3
  · rcases split k v hm with e | e
    · rcases (ha _ e).1 with e | e <;> (dsimp only at e; subst e; rfl)
    · exact h.shared he k v e
  · obtain ⟨⟨k, v⟩, hkv, e⟩ := List.mem_map.mp hm
    dsimp only at e
    subst e
    rcases split _ v hkv with e | e
    · rcases (ha _ e).1 with e | e <;> (dsimp only at e; exact absurd e (by decide))
    · exact h.version he (List.mem_map.mpr ⟨_, e, rfl⟩)

/-! ### Values of fields -/

private def FieldGood (E : Env) (c : Cls) (n : PStr) (v : Val) : Prop :=
  ValueOk E c n v ∧ defaulted c n v = v

private theorem mandatory_kept {c : Cls} {n : PStr} (h : mandatory c n = true) (v : Val) :
    defaulted c n v = v := by
  unfold mandatory at h
  simp only [Bool.or_eq_true, Bool.and_eq_true, beq_iff_eq, List.contains_iff_mem] at h
  rcases h with (⟨rfl, h⟩ | ⟨rfl, rfl⟩) | h
  · simp only [List.mem_cons, List.not_mem_nil, or_false] at h
    rcases h with rfl | rfl | rfl <;> rfl
  · rfl
  · cases hl : lookupName n c.msgSlots with
    | none => rw [hl] at h; cases h
    | some sd => exact defaulted_slot (msgSlots_lookup.mpr hl) v

private theorem value_defaulted {E : Env} {c : Cls} {n : PStr} {v : Val} (h : ValueOk E c n v) :
    FieldGood E c n (defaulted c n v) := by
  unfold FieldGood
  cases hl : lookupName n c.msgSlots with
  | some sd =>
    have hs := msgSlots_lookup.mpr hl
    rw [defaulted_slot hs, defaulted_slot hs]
    exact ⟨h, rfl⟩
  | none =>
    unfold ValueOk at h ⊢
    rw [hl] at h ⊢
    obtain ⟨h1, h2⟩ := field_default hl (Or.inl h)
    refine ⟨?_, h2⟩
    rcases h1 with h1 | ⟨_, h1⟩
    · exact h1
    · rw [mandatory_kept h1]
      exact h

private theorem value_none {E : Env} {c : Cls} {n : PStr} (h : mandatory c n = false) :
    FieldGood E c n (defaulted c n .none) := by
  unfold FieldGood
  cases hl : lookupName n c.msgSlots with
  | some sd =>
    have hs := msgSlots_lookup.mpr hl
    rw [defaulted_slot hs, defaulted_slot hs]
    refine ⟨?_, rfl⟩
    unfold ValueOk
    rw [hl]
    have ha : sd.allowNone = true := by
      unfold mandatory at h
      rw [hl] at h
      simp only [Bool.or_eq_false_iff, Bool.not_eq_false'] at h
      exact h.2
    refine ⟨?_, fun ty ts enc sig as hm => by cases hm⟩
    unfold SlotOk
    cases hi : sd.isList with
    | true => rw [list_not_none hs hi] at ha; cases ha
    | false => exact Or.inl ⟨rfl, ha⟩
  | none =>
    obtain ⟨h1, h2⟩ := field_default (E := E) hl (Or.inr rfl)
    refine ⟨?_, h2⟩
    rcases h1 with h1 | ⟨_, h1⟩
    · unfold ValueOk
      rw [hl]
      exact h1
    · rw [h] at h1
      cases h1

private theorem data_good {E : Env} {c : Cls} {n : PStr} {sd : SlotDef} {v : Val} (hs : (n, sd) ∈ c.msgSlots)
    (h : ValueOk E c n v) : FieldGood E c n v := ⟨h, defaulted_slot hs v⟩

private structure Shape (E : Env) (c : Cls) (m : Msg) : Prop where
  cls : m.cls = c
  ty : m.ty = .int c.typeId
  heads : Data m.ty ∧ Data m.ts ∧ Data m.enc ∧ Data m.sig
  names : (c ≠ .Hello ∧ m.attrs.map Prod.fst = c.payload) ∨
    (c = .Hello ∧ ∃ as, m.attrs = as ++ [(p!"_version", .str E.version)] ∧ as.map Prod.fst = c.payload)

private theorem wellTyped_fields {E : Env} {c : Cls} {as : Attrs} (hn : as.map Prod.fst = c.payload)
    (h : ∀ n ∈ c.payload, FieldGood E c n (getAttr as n)) : WellTyped E c as := by
  have key : ∀ n v, (n, v) ∈ as → FieldGood E c n v := by
    intro n v hm
    have hp : n ∈ c.payload := by rw [← hn]; exact List.mem_map.mpr ⟨_, hm, rfl⟩
    have := h n hp
    rwa [getAttr_of_mem (by rw [hn]; exact payload_nodup c) hm] at this
  refine ⟨_, _, hn, fun n v hm hl => ?_, fun n sd v hm hl => ?_, fun n sd v ty ts enc sig as' hm hl hmem => ?_,
    fun n sd v ty ts enc sig as' hm hl hmem => ?_⟩
  all_goals
    obtain ⟨h1, h2⟩ := key n v hm
    unfold ValueOk at h1
    rw [hl] at h1
  · exact ⟨h1, h2⟩
  · exact h1.1
  · exact (h1.2 _ _ _ _ _ hmem).1
  · exact (h1.2 _ _ _ _ _ hmem).2

private theorem fields_wellTyped {E : Env} {c : Cls} {as : Attrs} (h : WellTyped E c as) :
    as.map Prod.fst = c.payload ∧ ∀ n ∈ c.payload, FieldGood E c n (getAttr as n) := by
  cases h with
  | mk _ _ names fields slots heads nested =>
    refine ⟨names, fun n hn => ?_⟩
    have hm : (n, getAttr as n) ∈ as := mem_getAttr (by rw [names]; exact hn)
    unfold FieldGood ValueOk
    cases hl : lookupName n c.msgSlots with
    | none => exact fields n _ hm hl
    | some sd =>
      exact ⟨⟨slots n sd _ hm hl, fun ty ts enc sig as' hmem =>
        ⟨heads n sd _ ty ts enc sig as' hm hl hmem, nested n sd _ ty ts enc sig as' hm hl hmem⟩⟩,
        defaulted_slot (msgSlots_lookup.mpr hl) _⟩

private theorem wellTyped_of {E : Env} {c : Cls} {m : Msg} (hs : Shape E c m)
    (h : ∀ n ∈ c.payload, FieldGood E c n (getAttr m.attrs n)) : WellTypedMsg E m := by
  unfold WellTypedMsg
  rw [hs.cls]
  rcases hs.names with ⟨hc, hn⟩ | ⟨rfl, as, ha, hn⟩
  · rw [if_neg hc]
    exact wellTyped_fields hn h
  · rw [if_pos rfl]
    refine ⟨as, E.version, ha, wellTyped_fields hn fun n hm => ?_⟩
    have := h n hm
    rwa [ha, show getAttr (as ++ [(p!"_version", .str E.version)]) n = getAttr as n by
      unfold getAttr
      rw [lookupName_append]
      obtain ⟨w, hw⟩ := Option.isSome_iff_exists.mp ((lookupName_isSome n as).mpr (by rw [hn]; exact hm))
      rw [hw]] at this

/-! ### New and signed messages -/

private theorem new_shape {E : Env} {G : Getter} {now : Int} {c : Cls} {kw : Attrs} {m : Msg}
    (h : newMessage E G now c none .none .none false kw = .ok m)
    (hv : c = .Hello → p!"_version" ∉ kw.map Prod.fst) : Shape E c m := by
  obtain ⟨loaded, as, hl, ha, hc, hs, hh, hm⟩ := new_ok h
  simp only [Option.getD_none, Prod.mk.injEq] at hh
  refine ⟨hc, hh.1, ⟨?_, ?_, ?_, ?_⟩, ?_⟩
  · rw [hh.1]; rfl
  · rw [hh.2.1]; rfl
  · rw [hh.2.2]; rfl
  · rw [hs]; rfl
  · by_cases he : c = .Hello
    · right
      subst he
      have hsd : seedConnId .Hello kw loaded = loaded := rfl
      rw [hsd] at ha
      have hln := loadSlots_names hl
      have hp : (postInit .Hello as).map Prod.fst = Cls.Hello.payload := by
        rw [postInit_names]
        rcases applyKws_names ha (fun x hx => by rw [hln]; exact hx) with ⟨e, _⟩ | ⟨_, _, e, _⟩
        · rw [e, hln]
        · refine absurd ?_ (hv rfl)
          obtain ⟨kv, hkv, e⟩ := List.mem_map.mp e
          exact List.mem_map.mpr ⟨kv, (List.mem_filter.mp hkv).1, e⟩
      refine ⟨rfl, postInit .Hello as, ?_, hp⟩
      have h0 : p!"_version" ∉ (postInit .Hello as).map Prod.fst := by
        rw [hp]; exact payload_no_version .Hello
      rw [hm]
      unfold ownVersion
      rw [if_pos ⟨rfl, rfl, by rw [(lookupName_none _ _).mpr h0]; rfl⟩, setName_names_new h0]
    · left
      refine ⟨he, ?_⟩
      rcases nothing_else_stored E G now c none .none .none false kw m h with e | ⟨e, _⟩
      · exact e
      · exact absurd e he

private theorem sign_shape {E : Env} {kw : Attrs} {c : Cls} {m m' : Msg} (h : signHook E kw m = .ok m')
    (hs : Shape E c m) : Shape E c m' := by
  obtain ⟨h1, h2, h3, h4, h5⟩ := signHook_same h
  refine ⟨h1.trans hs.cls, h2.trans hs.ty, ⟨by rw [h2]; exact hs.heads.1, by rw [h3]; exact hs.heads.2.1,
    by rw [h4]; exact hs.heads.2.2.1, ?_⟩, by rw [h5]; exact hs.names⟩
  rcases signHook_cases h with ⟨_, rfl⟩ | ⟨priv, _, e⟩
  · exact hs.heads.2.2.2
  · unfold Msg.signMessage at e
    split at e
    · cases e
    split at e
    · cases e
    · injection e with e
      subst e
      rfl

private theorem set_shape {E : Env} {c : Cls} {m : Msg} {n : PStr} {v : Val} (hs : Shape E c m)
    (hn : n ∈ c.payload) (hc : c ≠ .Hello) : Shape E c (m.set n v) := by
  refine ⟨hs.cls, hs.ty, hs.heads, Or.inl ⟨hc, ?_⟩⟩
  rcases hs.names with ⟨_, h⟩ | ⟨h, _⟩
  · unfold Msg.set
    dsimp only
    rw [setName_names _ _ _ (by rw [h]; exact hn), h]
  · exact absurd h hc

/-! ### Declarations -/

private def onlyCategory (each : List Attrs) : Bool := each.all fun a => a.all fun kv => kv.1 == p!"category"

private def fits (c : Cls) (n : PStr) (dcl : Decl) : Bool :=
  (n != p!"files" || c == .FileTransferToken) && c.payload.contains n &&
  match lookupName n c.msgSlots with
  | some sd => !sd.isList && match dcl with
    | .message c' args other => c' == sd.cls &&
      (args.all fun kv => (kv.1 == p!"upload" || kv.1 == p!"download") && data kv.2) &&
      decide (args.map Prod.fst).Nodup && onlyCategory (other.getD [])
    | _ => false
  | none =>
    if c.nodeSlots.contains n then (match dcl with | .node => true | _ => false)
    else if c == .FileTransferToken && n == p!"files" then
      (match dcl with | .files each => onlyCategory each | _ => false)
    else c != .Peers && c != .Tasks && c != .WantToComputeTask && c != .TaskToCompute &&
      c != .StartSessionResponse && n != p!"stats" &&
      match lookupName n c.enumSlots with
      | some e => (match dcl with
        | .const (.enum e' s) => e' == e && e.values.contains s
        | .choice e' => e' == e
        | _ => false)
      | none => (match dcl with
        | .const v => data v
        | .text _ | .num | .bytes | .now | .key => true
        | _ => false)

private theorem all_fit : ∀ c ∈ Cls.all, (match c.factory with
    | none => true
    | some f => f.decls.all fun nd => fits c nd.1 nd.2) = true := by decide +kernel

private theorem decl_fits {c : Cls} {f : MsgFactory} {n : PStr} {dcl : Decl} {files : Option (List Attrs)}
    (hf : c.factory = some f) (ho : onlyCategory (files.getD []) = true)
    (h : (n, dcl) ∈ withFiles files f.decls) : fits c n dcl = true := by
  have hall := all_fit c (every_cls c)
  rw [hf] at hall
  simp only [List.all_eq_true] at hall
  cases files with
  | none => exact hall _ h
  | some each =>
    unfold withFiles at h
    obtain ⟨⟨k, dk⟩, hk, e⟩ := List.mem_map.mp h
    have hd := hall _ hk
    split at e
    · rename_i hn
      dsimp only at hn hd e
      subst hn
      injection e with e1 e2
      subst e1 e2
      unfold fits at hd ⊢
      simp only [Bool.and_eq_true, Bool.or_eq_true, beq_iff_eq, bne_iff_ne] at hd
      have hc : c = .FileTransferToken := by
        rcases hd.1.1 with e | e
        · exact absurd rfl e
        · exact e
      subst hc
      exact ho
    · injection e with e1 e2
      subst e1 e2
      exact hd

private theorem file_keys {k idx : PStr} {i j : Nat} {part : PStr} (hi : idx = Nat.toDigits 10 i)
    (hp : part = [] ∨ part = p!"__category") (h : idx ++ p!"__" ++ k = Nat.toDigits 10 j ++ part) :
    k = p!"category" := by
  have hdig : ∀ n, '_' ∉ Nat.toDigits 10 n := by
    intro n hm
    have := Nat.isDigit_of_mem_toDigits (by decide) (by decide) hm
    revert this
    decide
  subst hi
  rcases hp with rfl | rfl
  · exfalso
    apply hdig j
    rw [List.append_nil] at h
    rw [← h]
    simp
  · have apart : ∀ a b, ((Nat.toDigits 10 a) ++ p!"_").isPrefixOf (Nat.toDigits 10 b) = false := by
      intro a b
      cases hpx : ((Nat.toDigits 10 a) ++ p!"_").isPrefixOf (Nat.toDigits 10 b) with
      | false => rfl
      | true =>
        rw [List.isPrefixOf_iff_prefix] at hpx
        obtain ⟨r, hr⟩ := hpx
        exfalso
        apply hdig b
        rw [← hr]
        simp
    have h' : Nat.toDigits 10 i ++ p!"__" ++ k = Nat.toDigits 10 j ++ p!"__" ++ p!"category" := by
      rw [h, List.append_assoc]
      rfl
    have e := split_name h' (apart i j) (apart j i)
    rw [e] at h'
    exact List.append_cancel_left h'

private theorem files_made {E : Env} {d : Draws} {path : List PStr} {kw : Attrs}
    (h0 : ∀ i v, lookupName (Nat.toDigits 10 i) kw = some v → FileOk E v)
    (h1 : ∀ i k v, (k, v) ∈ subArgs (Nat.toDigits 10 i) kw → k ≠ p!"category" → Data v) :
    ∀ {each : List Attrs} {i : Nat} {l : List Val}, onlyCategory each = true →
      filesFactory E d path kw i each = .ok l → ∀ x ∈ l, FileOk E x
  | [], i, l, _, h => by
    unfold filesFactory at h
    injection h with h
    subst h
    intro x hx
    cases hx
  | a :: rest, i, l, ho, h => by
    unfold filesFactory at h
    dsimp only at h
    split at h
    · cases h
    rename_i v hv
    split at h
    · cases h
    rename_i vs hvs
    injection h with h
    subst h
    unfold onlyCategory at ho
    simp only [List.all_cons, Bool.and_eq_true] at ho
    intro x hx
    rcases List.mem_cons.mp hx with rfl | hx
    · unfold given at hv
      split at hv
      · rename_i y hy
        injection hv with hv
        subst hv
        exact h0 i _ hy
      · refine file_made (fun k y hm hk => ?_) hv
        unfold mergeArgs at hm
        rcases List.mem_append.mp hm with e | e
        · have := List.all_eq_true.mp ho.1 _ (List.mem_filter.mp e).1
          simp only [beq_iff_eq] at this
          exact absurd this hk
        · exact h1 i k y e hk
    · exact files_made h0 h1 ho.2 hvs x hx

private def Claimed (v : Val) : Prop := ∀ x : Msg, v = x.val → x.cls = .ForcePayment →
  getAttr x.attrs p!"subtask_results_accepted_list" ≠ .none

/-- What is known of a factory that others call. -/
private def MakesOk (E : Env) (mk : Maker) : Prop :=
  ∀ path c files kw m, mk path c files kw = .ok m → (kw.map Prod.fst).Nodup → ArgsOk E c kw →
    onlyCategory (files.getD []) = true → Claims m →
    m.cls = c ∧ (Data m.ty ∧ Data m.ts ∧ Data m.enc ∧ Data m.sig) ∧ WellTypedMsg E m ∧ Shape E c m

private theorem message_value {E : Env} {c : Cls} {n : PStr} {sd : SlotDef} {x : Msg}
    (hl : lookupName n c.msgSlots = some sd) (hi : sd.isList = false) (hc : x.cls = sd.cls)
    (hh : Data x.ty ∧ Data x.ts ∧ Data x.enc ∧ Data x.sig) (hw : WellTypedMsg E x) : ValueOk E c n x.val := by
  have hs := slot_classes c (every_cls c) _ (msgSlots_lookup.mpr hl)
  unfold ValueOk
  rw [hl]
  refine ⟨?_, fun ty ts enc sig as hm => ?_⟩
  · unfold SlotOk
    rw [hi]
    right
    unfold Msg.val isMsg
    simp [hc]
  · unfold Msg.val members at hm
    simp only [List.mem_singleton] at hm
    injection hm with e1 e2 e3 e4 e5 e6
    subst e2 e3 e4 e5 e6
    refine ⟨hh, ?_⟩
    unfold WellTypedMsg at hw
    rw [hc, if_neg hs.2.1] at hw
    exact hw

private theorem claims_nested {c : Cls} {n : PStr} {sd : SlotDef} {x : Msg}
    (hl : lookupName n c.msgSlots = some sd) (hc : x.cls = sd.cls) (h : Claimed x.val) : Claims x := by
  have hs := slot_classes c (every_cls c) _ (msgSlots_lookup.mpr hl)
  refine ⟨fun e => h x rfl e, fun e => absurd (hc.symm.trans e) hs.2.2.1⟩

private theorem decl_value {E : Env} {d : Draws} {mk : Maker} {path : List PStr} {c : Cls} {n : PStr}
    {dcl : Decl} {kw : Attrs} {v : Val} (hmk : MakesOk E mk) (hcls : ∀ path c files kw m, mk path c files kw = .ok m → m.cls = c)
    (hd : MembersDrawn d) (hk : (kw.map Prod.fst).Nodup) (ha : ArgsOk E c kw) (hfit : fits c n dcl = true)
    (hcl : ∀ sd, lookupName n c.msgSlots = some sd → Claimed v) (h : dcl.value E d mk (path ++ [n]) (subArgs n kw) = .ok v) : ValueOk E c n v := by
  unfold fits at hfit
  simp only [Bool.and_eq_true, List.contains_iff_mem] at hfit
  obtain ⟨⟨_, hp⟩, hfit⟩ := hfit
  cases hl : lookupName n c.msgSlots with
  | some sd =>
    rw [hl] at hfit
    simp only [Bool.and_eq_true, Bool.not_eq_true'] at hfit
    obtain ⟨hi, hfit⟩ := hfit
    cases dcl with
    | message c' args other =>
      simp only [Bool.and_eq_true, beq_iff_eq, List.all_eq_true, Bool.or_eq_true, decide_eq_true_eq] at hfit
      obtain ⟨⟨⟨rfl, h1⟩, h2⟩, h3⟩ := hfit
      unfold Decl.value at h
      dsimp only at h
      cases hx : mk (path ++ [n]) sd.cls other (mergeArgs args (subArgs n kw)) with
      | error e => rw [hx] at h; cases h
      | ok x =>
        rw [hx] at h
        injection h with h
        subst h
        have hxc := hcls _ _ _ _ _ hx
        obtain ⟨g1, g2, g3, _⟩ := hmk _ _ _ _ _ hx (merge_nodup h2 (sub_nodup hk))
          (args_merge (args_sub ha (msgSlots_lookup.mpr hl)) h1) h3 (claims_nested hl hxc (hcl sd hl))
        exact message_value hl hi g1 g2 g3
    | _ => cases hfit
  | none =>
    unfold ValueOk FieldOk
    rw [hl] at hfit ⊢
    simp only [List.contains_iff_mem, Bool.and_eq_true, beq_iff_eq] at hfit ⊢
    by_cases g1 : n ∈ c.nodeSlots
    · rw [if_pos g1] at hfit ⊢
      cases dcl with
      | node =>
        unfold Decl.value at h
        refine Or.inr (node_made (args_data ha hp hl ?_) h)
        rintro ⟨rfl, rfl⟩
        cases g1
      | _ => cases hfit
    · rw [if_neg g1] at hfit ⊢
      by_cases g2 : c = .FileTransferToken ∧ n = p!"files"
      · rw [if_pos g2] at hfit
        obtain ⟨rfl, rfl⟩ := g2
        cases dcl with
        | files each =>
          unfold Decl.value at h
          dsimp only at h
          cases hx : filesFactory E d (path ++ [p!"files"]) (subArgs p!"files" kw) 0 each with
          | error e => rw [hx] at h; cases h
          | ok l =>
            rw [hx] at h
            injection h with h
            subst h
            have hok : ∀ x ∈ l, FileOk E x := by
              refine files_made (fun i v hv => ?_) (fun i k v hm hk => ?_) hfit hx
              · rw [lookup_sub] at hv
                refine ha.files _ v (mem_of_lookupName hv) ?_
                have := MeansFile.here i []
                rw [List.append_nil] at this
                exact this
              · have hm' := mem_sub (mem_sub hm)
                have hm2 := mem_sub hm
                refine ha.data _ v hm' (fun c' n' hmean => ?_) (fun hmean => ?_) (fun hmean => ?_)
                · obtain ⟨sd, hsd, _⟩ := means_under hp rfl hmean
                  cases hsd
                · rcases file_under hp rfl hmean with ⟨sd, hsd, _⟩ | ⟨_, _, j, e⟩
                  · cases hsd
                  · exact hk (file_keys rfl (Or.inl rfl) e)
                · rcases file_under hp rfl hmean with ⟨sd, hsd, _⟩ | ⟨_, _, j, e⟩
                  · cases hsd
                  · exact hk (file_keys rfl (Or.inr rfl) e)
            have hlist : ListOf (FileOk E) (.list l) := ⟨l, rfl, hok⟩
            simp
            exact hlist
        | _ => cases hfit
      · rw [if_neg g2] at hfit
        simp only [bne_iff_ne, ne_eq, Bool.and_eq_true] at hfit
        obtain ⟨⟨⟨⟨⟨⟨f1, f2⟩, f3⟩, f4⟩, f5⟩, f6⟩, hfit⟩ := hfit
        rw [if_neg (fun e => f1 e.1), if_neg (fun e => f2 e.1), if_neg (fun e => f3 e.1), if_neg (fun e => f3 e.1),
          if_neg (fun e => f3 e.1), if_neg (fun e => f4 e.1), if_neg (fun e => f4 e.1), if_neg (fun e => f6 e.2),
          if_neg g2, if_neg (fun e => f5 e.1)]
        cases he : lookupName n c.enumSlots with
        | some e =>
          rw [he] at hfit
          dsimp only
          cases dcl with
          | const w =>
            cases w with
            | enum e' s =>
              simp only [Bool.and_eq_true, beq_iff_eq, List.contains_iff_mem] at hfit
              obtain ⟨rfl, hs⟩ := hfit
              unfold Decl.value at h
              injection h with h
              exact Or.inr ⟨s, hs, h.symm⟩
            | _ => cases hfit
          | choice e' =>
            simp only [beq_iff_eq] at hfit
            subst hfit
            unfold Decl.value at h
            injection h with h
            exact Or.inr ⟨_, hd _ _, h.symm⟩
          | _ => cases hfit
        | none =>
          rw [he] at hfit
          dsimp only
          unfold Decl.value at h
          cases dcl with
          | const w =>
            injection h with h
            subst h
            exact hfit
          | text s => injection h with h; subst h; rfl
          | num => injection h with h; subst h; rfl
          | bytes => injection h with h; subst h; rfl
          | now => injection h with h; subst h; rfl
          | key =>
            cases hx : encodeHex (.bytes (d.bytes (path ++ [n]))) with
            | error e => dsimp only at h; rw [hx] at h; cases h
            | ok s => dsimp only at h; rw [hx] at h; injection h with h; subst h; rfl
          | _ => cases hfit

/-! ### Hooks -/

private def hookFits (c : Cls) (name : PStr) : Hook → Bool
  | .optional c' | .generate c' => match lookupName name c.msgSlots with
    | some sd => sd.cls == c' && sd.allowNone && !sd.isList && c' != .ForcePayment
    | none => false
  | .operation s => c == .FileTransferToken && EnumId.ftOperation.values.contains s
  | .acceptedList => c == .ForcePayment && name == p!"subtask_results_accepted_list"
  | .sharedReport => c == .VerdictReportComputedTask && name == p!"arct_report_computed_task"

private theorem all_hooks_fit : ∀ c ∈ Cls.all, (match c.factory with
    | none => true
    | some f => (f.hooks.isEmpty || c != .Hello) && f.hooks.all fun nh => hookFits c nh.1 nh.2) = true := by
  decide +kernel

private structure Inv (E : Env) (c : Cls) (m : Msg) : Prop where
  shape : Shape E c m
  good : ∀ n ∈ c.payload, FieldGood E c n (getAttr m.attrs n) ∨
    (c = .ForcePayment ∧ n = p!"subtask_results_accepted_list" ∧ getAttr m.attrs n = .none)

private theorem inv_set {E : Env} {c : Cls} {m : Msg} {n : PStr} {v : Val} (h : Inv E c m) (hc : c ≠ .Hello)
    (hn : n ∈ c.payload) (hv : FieldGood E c n v) : Inv E c (m.set n v) := by
  refine ⟨set_shape h.shape hn hc, fun k hk => ?_⟩
  by_cases e : k = n
  · subst e
    rw [set_same]
    exact Or.inl hv
  · rw [set_other e]
    exact h.good k hk

private theorem claims_other {x : Msg} (h1 : x.cls ≠ .ForcePayment) (h2 : x.cls ≠ .ForcePaymentRejected) :
    Claims x := ⟨fun e => absurd e h1, fun e => absurd e h2⟩

private theorem many_made {E : Env} {mk : Maker} {path : List PStr} {kw : Attrs} (hmk : MakesOk E mk)
    (hcls : ∀ path c files kw m, mk path c files kw = .ok m → m.cls = c)
    (hk : (kw.map Prod.fst).Nodup) (ha : ArgsOk E .SubtaskResultsAccepted kw) :
    ∀ {n i : Nat} {l : List Val}, makeMany mk path .SubtaskResultsAccepted kw i n = .ok l → ∀ v ∈ l,
      ∃ x : Msg, v = x.val ∧ x.cls = .SubtaskResultsAccepted ∧
        (Data x.ty ∧ Data x.ts ∧ Data x.enc ∧ Data x.sig) ∧ WellTypedMsg E x
  | 0, i, l, h => by
    unfold makeMany at h
    injection h with h
    subst h
    intro v hv
    cases hv
  | n + 1, i, l, h => by
    unfold makeMany at h
    split at h
    · cases h
    rename_i x hx
    split at h
    · cases h
    rename_i vs hvs
    injection h with h
    subst h
    intro v hv
    rcases List.mem_cons.mp hv with rfl | hv
    · have hc := hcls _ _ _ _ _ hx
      obtain ⟨g1, g2, g3, _⟩ := hmk _ _ _ _ _ hx hk ha rfl
        (claims_other (by rw [hc]; decide) (by rw [hc]; decide))
      exact ⟨x, rfl, g1, g2, g3⟩
    · exact many_made hmk hcls hk ha hvs v hv

private theorem filter_args {p : PStr × Val → Bool} {kw : Attrs} (hk : (kw.map Prod.fst).Nodup) :
    ((kw.filter p).map Prod.fst).Nodup :=
  List.Nodup.sublist (List.Sublist.map _ List.filter_sublist) hk

/-- A message made on demand. -/
private theorem made_value {E : Env} {mk : Maker} {path : List PStr} {c : Cls} {name : PStr} {sd : SlotDef}
    {kw : Attrs} {x : Msg} {p : PStr × Val → Bool} (hmk : MakesOk E mk)
    (hcls : ∀ path c files kw m, mk path c files kw = .ok m → m.cls = c)
    (hk : (kw.map Prod.fst).Nodup) (ha : ArgsOk E c kw) (hl : lookupName name c.msgSlots = some sd)
    (hi : sd.isList = false) (hp : sd.cls ≠ .ForcePayment)
    (h : mk path sd.cls none ((subArgs name kw).filter p) = .ok x) : FieldGood E c name x.val := by
  have hs := msgSlots_lookup.mpr hl
  have hc := hcls _ _ _ _ _ h
  obtain ⟨g1, g2, g3, _⟩ := hmk _ _ _ _ _ h (filter_args (sub_nodup hk))
    (args_mono (args_sub ha hs) fun k v hm => (List.mem_filter.mp hm).1) rfl
    (claims_other (by rw [hc]; exact hp) (by rw [hc]; exact (slot_classes c (every_cls c) _ hs).2.2.1))
  exact data_good hs (message_value hl hi g1 g2 g3)

private theorem slot_none {E : Env} {c : Cls} {name : PStr} {sd : SlotDef}
    (hl : lookupName name c.msgSlots = some sd) (hi : sd.isList = false) (hn : sd.allowNone = true) :
    FieldGood E c name .none := by
  refine data_good (msgSlots_lookup.mpr hl) ?_
  unfold ValueOk
  rw [hl]
  refine ⟨?_, fun ty ts enc sig as hm => by cases hm⟩
  unfold SlotOk
  rw [hi]
  exact Or.inl ⟨rfl, hn⟩

private theorem slot_given {E : Env} {c : Cls} {name : PStr} {sd : SlotDef} {kw : Attrs}
    (hl : lookupName name c.msgSlots = some sd) (ha : ArgsOk E c kw) (hne : getAttr kw name ≠ .none) :
    FieldGood E c name (getAttr kw name) := by
  have hs := msgSlots_lookup.mpr hl
  refine data_good hs ?_
  unfold getAttr at hne ⊢
  cases hv : lookupName name kw with
  | none => rw [hv] at hne; exact absurd rfl hne
  | some v => exact args_value ha (msgSlot_payload hs) hv

private theorem truthy_some {v : Val} (h : v.truthy = true) : v ≠ .none := by
  rintro rfl
  cases h

private theorem slot_cases {E : Env} {c : Cls} {n : PStr} {sd : SlotDef} {v : Val}
    (hl : lookupName n c.msgSlots = some sd) (hi : sd.isList = false) (h : ValueOk E c n v) :
    (v = .none ∧ sd.allowNone = true) ∨ ∃ x : Msg, v = x.val ∧ x.cls = sd.cls ∧
      (Data x.ty ∧ Data x.ts ∧ Data x.enc ∧ Data x.sig) ∧ WellTyped E sd.cls x.attrs := by
  unfold ValueOk at h
  rw [hl] at h
  obtain ⟨h1, h2⟩ := h
  unfold SlotOk at h1
  rw [hi] at h1
  rcases h1 with e | e
  · exact Or.inl e
  · right
    cases v with
    | msg c' ty ts enc sig as =>
      simp only [isMsg, beq_iff_eq] at e
      subst e
      obtain ⟨g1, g2⟩ := h2 ty ts enc sig as (List.mem_singleton.mpr rfl)
      exact ⟨⟨sd.cls, ty, ts, enc, sig, as⟩, rfl, rfl, g1, g2⟩
    | _ => cases e

private theorem whole {E : Env} {x : Msg} (h : WellTyped E x.cls x.attrs) (hc : x.cls ≠ .Hello) :
    WellTypedMsg E x := by
  unfold WellTypedMsg
  rw [if_neg hc]
  exact h

private theorem wellTyped_set {E : Env} {c : Cls} {as : Attrs} {n : PStr} {v : Val} (h : WellTyped E c as)
    (hn : n ∈ c.payload) (hv : FieldGood E c n v) : WellTyped E c (setName n v as) := by
  obtain ⟨h1, h2⟩ := fields_wellTyped h
  refine wellTyped_fields (by rw [setName_names _ _ _ (by rw [h1]; exact hn), h1]) fun k hk => ?_
  rw [getAttr_setName]
  split
  · rename_i e; subst e; exact hv
  · exact h2 k hk

private theorem hook_good {E : Env} {G : Getter} {d : Draws} {mk : Maker} {path : List PStr} {c : Cls}
    {name : PStr} {hook : Hook} {kw : Attrs} {m m' : Msg} (hmk : MakesOk E mk)
    (hcls : ∀ path c files kw m, mk path c files kw = .ok m → m.cls = c)
    (hk : (kw.map Prod.fst).Nodup) (ha : ArgsOk E c kw) (hc : c ≠ .Hello) (hfit : hookFits c name hook = true)
    (hi : Inv E c m) (h : hook.run E G d mk path name kw m = .ok m') : Inv E c m' := by
  cases hook with
  | optional c' =>
    unfold hookFits at hfit
    dsimp only at hfit
    cases hl : lookupName name c.msgSlots with
    | none => rw [hl] at hfit; cases hfit
    | some sd =>
      rw [hl] at hfit
      simp only [Bool.and_eq_true, beq_iff_eq, Bool.not_eq_true', bne_iff_ne, ne_eq] at hfit
      obtain ⟨⟨⟨rfl, f1⟩, f2⟩, f3⟩ := hfit
      have hp := msgSlot_payload (msgSlots_lookup.mpr hl)
      unfold Hook.run at h
      dsimp only at h
      split at h
      · split at h
        · cases h
        rename_i x hx
        injection h with h
        subst h
        exact inv_set hi hc hp (made_value hmk hcls hk ha hl f2 f3 hx)
      · injection h with h
        subst h
        refine inv_set hi hc hp ?_
        by_cases he : getAttr kw name = .none
        · rw [he]; exact slot_none hl f2 f1
        · exact slot_given hl ha he
  | generate c' =>
    unfold hookFits at hfit
    dsimp only at hfit
    cases hl : lookupName name c.msgSlots with
    | none => rw [hl] at hfit; cases hfit
    | some sd =>
      rw [hl] at hfit
      simp only [Bool.and_eq_true, beq_iff_eq, Bool.not_eq_true', bne_iff_ne, ne_eq] at hfit
      obtain ⟨⟨⟨rfl, f1⟩, f2⟩, f3⟩ := hfit
      have hp := msgSlot_payload (msgSlots_lookup.mpr hl)
      unfold Hook.run at h
      dsimp only at h
      split at h
      · rename_i ht
        injection h with h
        subst h
        exact inv_set hi hc hp (slot_given hl ha (truthy_some ht))
      split at h
      · injection h with h; subst h; exact hi
      split at h
      · cases h
      split at h
      · split at h
        · cases h
        rename_i x hx
        injection h with h
        subst h
        exact inv_set hi hc hp (made_value hmk hcls hk ha hl f2 f3 hx)
      · injection h with h; subst h; exact hi
  | operation s =>
    unfold hookFits at hfit
    simp only [Bool.and_eq_true, beq_iff_eq, List.contains_iff_mem] at hfit
    obtain ⟨rfl, hs⟩ := hfit
    unfold Hook.run at h
    dsimp only at h
    split at h
    · injection h with h
      subst h
      refine inv_set hi hc (by decide) ⟨?_, rfl⟩
      have hl : lookupName p!"operation" Cls.FileTransferToken.msgSlots = none := rfl
      have he : lookupName p!"operation" Cls.FileTransferToken.enumSlots = some .ftOperation := rfl
      unfold ValueOk FieldOk
      rw [hl]
      simp only [he]
      simp [Cls.nodeSlots]
      exact hs
    · injection h with h; subst h; exact hi
  | acceptedList =>
    unfold hookFits at hfit
    simp only [Bool.and_eq_true, beq_iff_eq] at hfit
    obtain ⟨rfl, rfl⟩ := hfit
    have hl : ∃ sd, lookupName p!"subtask_results_accepted_list" Cls.ForcePayment.msgSlots = some sd ∧
        sd.cls = .SubtaskResultsAccepted ∧ sd.isList = true := ⟨_, rfl, rfl, rfl⟩
    obtain ⟨sd, hl, hsc, hsl⟩ := hl
    have hs := msgSlots_lookup.mpr hl
    unfold Hook.run at h
    dsimp only at h
    split at h
    · rename_i ht
      injection h with h
      subst h
      exact inv_set hi hc (by decide) (slot_given hl ha (truthy_some ht))
    split at h
    · split at h
      · cases h
      split at h
      · cases h
      rename_i l hmany
      split at h
      · injection h with h; subst h; exact hi
      rename_i hne
      injection h with h
      subst h
      refine inv_set hi hc (by decide) (data_good hs ?_)
      have hall := many_made hmk hcls (filter_args (sub_nodup hk))
        (hsc ▸ args_mono (args_sub ha hs) fun k v hm => (List.mem_filter.mp hm).1) hmany
      unfold ValueOk
      rw [hl]
      refine ⟨?_, fun ty ts enc sig as hm => ?_⟩
      · unfold SlotOk
        rw [hsl]
        refine ⟨l, rfl, hne, fun v hv => ?_⟩
        obtain ⟨x, rfl, hx, _⟩ := hall v hv
        unfold Msg.val isMsg
        simp [hx, hsc]
      · obtain ⟨x, e, hx, hh, hw⟩ := hall _ hm
        unfold Msg.val at e
        injection e with e1 e2 e3 e4 e5 e6
        subst e2 e3 e4 e5 e6
        refine ⟨hh, ?_⟩
        unfold WellTypedMsg at hw
        rw [hx, if_neg (by decide)] at hw
        rw [hsc]
        exact hw
    · injection h with h; subst h; exact hi
  | sharedReport =>
    unfold hookFits at hfit
    simp only [Bool.and_eq_true, beq_iff_eq] at hfit
    obtain ⟨rfl, rfl⟩ := hfit
    have hsub : subArgs p!"arct_report_computed_task" kw = [] := by
      unfold subArgs
      rw [List.filterMap_eq_nil_iff]
      rintro ⟨k, v⟩ hm
      rw [if_neg]
      have := ha.shared rfl k v hm
      show ¬ (p!"arct_report_computed_task__").isPrefixOf k = true
      rw [this]
      decide
    unfold Hook.run at h
    dsimp only at h
    rw [hsub] at h
    have hforce := (hi.good p!"force_report_computed_task" (by decide)).resolve_right (fun e => by cases e.1)
    have hack := (hi.good p!"ack_report_computed_task" (by decide)).resolve_right (fun e => by cases e.1)
    rcases slot_cases (sd := ⟨.ForceReportComputedTask, false, false⟩) rfl rfl hforce.1 with
      ⟨_, e⟩ | ⟨force, ef, ec, eh, ew⟩
    · cases e
    have hrep := (fields_wellTyped ew).2 p!"report_computed_task" (by decide)
    rcases slot_cases (sd := ⟨.ReportComputedTask, false, false⟩) rfl rfl hrep.1 with
      ⟨_, e⟩ | ⟨rct, er, rc, rh, rw'⟩
    · cases e
    rcases slot_cases (sd := ⟨.AckReportComputedTask, false, false⟩) rfl rfl hack.1 with
      ⟨_, e⟩ | ⟨ack, ea, ac, ah, aw⟩
    · cases e
    have hrw : WellTypedMsg E rct := whole (by rw [rc]; exact rw') (by rw [rc]; decide)
    rw [verdict_same_report E G (d.now path) m force rct ack.cls ack.ty ack.ts ack.enc ack.sig ack.attrs ef er ea
      hrw (by rw [rc]; decide)] at h
    injection h with h
    subst h
    refine inv_set hi hc (n := p!"ack_report_computed_task") (by decide) ?_
    refine data_good (sd := ⟨.AckReportComputedTask, false, false⟩) (by decide) ?_
    refine message_value (c := .VerdictReportComputedTask) (n := p!"ack_report_computed_task")
      (sd := ⟨.AckReportComputedTask, false, false⟩)
      (x := ⟨ack.cls, ack.ty, ack.ts, ack.enc, ack.sig,
        setName p!"report_computed_task" (getAttr force.attrs p!"report_computed_task") ack.attrs⟩) rfl rfl ac ah (whole ?_ ?_)
    · show WellTyped E ack.cls _
      rw [ac]
      exact wellTyped_set aw (by decide) (data_good (sd := ⟨.ReportComputedTask, false, false⟩) (by decide) hrep.1)
    · show ack.cls ≠ _
      rw [ac]
      decide

private theorem hooks_good {E : Env} {G : Getter} {d : Draws} {mk : Maker} {path : List PStr} {c : Cls}
    {kw : Attrs} (hmk : MakesOk E mk)
    (hcls : ∀ path c files kw m, mk path c files kw = .ok m → m.cls = c)
    (hk : (kw.map Prod.fst).Nodup) (ha : ArgsOk E c kw) (hc : c ≠ .Hello) :
    ∀ {hooks : List (PStr × Hook)} {m m' : Msg}, (∀ nh ∈ hooks, hookFits c nh.1 nh.2 = true) → Inv E c m →
      runHooks E G d mk path kw hooks m = .ok m' → Inv E c m'
  | [], m, m', _, hi, h => by
    unfold runHooks at h
    injection h with h
    subst h
    exact hi
  | (name, hook) :: rest, m, m', hf, hi, h => by
    unfold runHooks at h
    split at h
    · cases h
    rename_i m1 h1
    exact hooks_good hmk hcls hk ha hc (fun nh hn => hf nh (List.mem_cons_of_mem _ hn))
      (hook_good hmk hcls hk ha hc (hf _ (List.mem_cons_self ..)) hi h1) h

private theorem hook_names : ∀ c ∈ Cls.all, (match c.factory with
    | none => true
    | some f => c.payload.all fun n => (f.decls.map Prod.fst).contains n || !mandatory c n ||
      (c == .ForcePayment && n == p!"subtask_results_accepted_list")) = true := by decide +kernel

/-- What a factory of the tables makes. -/
private theorem table_made {E : Env} {G : Getter} {keccak : Bytes → Bytes} {d : Draws} {k : Nat}
    {path : List PStr} {c : Cls} {files : Option (List Attrs)} {kw : Attrs} {m : Msg}
    (ih : MakesOk E (makeAt E G keccak d k)) (h1 : c ≠ .TaskToCompute) (h2 : c ≠ .WantToComputeTask)
    (hd : MembersDrawn d) (hk : (kw.map Prod.fst).Nodup) (ha : ArgsOk E c kw)
    (ho : onlyCategory (files.getD []) = true) (hcl : Claims m)
    (h : makeAt E G keccak d (k + 1) path c files kw = .ok m) : Inv E c m := by
  obtain ⟨f, fields, m0, m1, hf, hfields, hm0, hm1, hrun⟩ := makeAt_ok h1 h2 h
  have T := factory_table hf
  have hnames := declared_names hfields
  rw [withFiles_names] at hnames
  have hnd : ((fields ++ extraArgs f.roots kw).map Prod.fst).Nodup := by
    refine given_nodup (fun x hx => ?_) (by rw [hnames]; exact T.once) hk
    rw [hnames] at hx
    exact List.mem_append_left _ hx
  have hcls : ∀ path c files kw m, makeAt E G keccak d k path c files kw = .ok m → m.cls = c :=
    fun _ _ _ _ _ h => made_cls h
  have hget := (from_blank hm0 hnd).2.2.2.2.2
  have hshape := sign_shape hm1 (new_shape hm0 (fun e => by
    rw [List.map_append, List.mem_append, hnames]
    rintro (hx | hx)
    · obtain ⟨⟨n, dcl⟩, hm, e'⟩ := List.mem_map.mp hx
      have := T.declared n dcl hm
      dsimp only at e'
      subst e'
      exact payload_no_version c this
    · obtain ⟨kv, hkv, e'⟩ := List.mem_map.mp hx
      exact ha.version e (List.mem_map.mpr ⟨kv, (List.mem_filter.mp hkv).1, e'⟩)))
  have hfits := all_hooks_fit c (every_cls c)
  rw [hf] at hfits
  simp only [Bool.and_eq_true, List.all_eq_true, Bool.or_eq_true, bne_iff_ne, ne_eq, List.isEmpty_iff] at hfits
  have hman := hook_names c (every_cls c)
  rw [hf] at hman
  simp only [List.all_eq_true, Bool.or_eq_true, Bool.not_eq_true', Bool.and_eq_true, beq_iff_eq,
    List.contains_iff_mem] at hman
  -- the fields the constructor gets
  have hinit : Inv E c m1 := by
    refine ⟨hshape, fun n hn => ?_⟩
    rw [(signHook_same hm1).2.2.2.2, hget n hn]
    by_cases hdecl : n ∈ f.decls.map Prod.fst
    · left
      have : n ∈ (withFiles files f.decls).map Prod.fst := by rw [withFiles_names]; exact hdecl
      obtain ⟨⟨n', dcl⟩, hm, rfl⟩ := List.mem_map.mp this
      obtain ⟨v, hv1, hv2⟩ := declared_get hfields (by rw [withFiles_names]; exact T.once) hm
      dsimp only at *
      have hval : getAttr (fields ++ extraArgs f.roots kw) n' = v :=
        getAttr_found (by rw [lookupName_append, hv1])
      rw [hval]
      refine value_defaulted ?_
      unfold given at hv2
      cases hgv : lookupName n' kw with
      | some w =>
        rw [hgv] at hv2
        injection hv2 with hv2
        subst hv2
        exact args_value ha hn hgv
      | none =>
        rw [hgv] at hv2
        dsimp only at hv2
        refine decl_value ih hcls hd hk ha (decl_fits hf ho hm) ?_ hv2
        intro sd hsd x hx hxc
        -- only refusals of payments carry payments
        have hsl := msgSlots_lookup.mpr hsd
        have hkeep : c = .ForcePaymentRejected → getAttr m.attrs n' = v := by
          rintro rfl
          injection hf with hf
          subst hf
          unfold runHooks at hrun
          injection hrun with hrun
          subst hrun
          rw [(signHook_same hm1).2.2.2.2, hget n' hn, hval, defaulted_slot hsl]
        have hfit := decl_fits hf ho hm
        unfold fits at hfit
        rw [hsd] at hfit
        cases dcl with
        | message c' args other =>
          simp only [Bool.and_eq_true, beq_iff_eq] at hfit
          have hcs := hfit.2.2.1.1.1
          subst hcs
          unfold Decl.value at hv2
          dsimp only at hv2
          cases hy : makeAt E G keccak d k (path ++ [n']) sd.cls other (mergeArgs args (subArgs n' kw)) with
          | error e => rw [hy] at hv2; cases hv2
          | ok y =>
            rw [hy] at hv2
            injection hv2 with hv2
            have hyc := made_cls hy
            rw [hx] at hv2
            have hxy : x.cls = y.cls := by
              unfold Msg.val at hv2
              injection hv2 with e
              exact e.symm
            have hc := (slot_classes c (every_cls c) _ hsl).2.2.2 (by rw [← hxc, hxy, hyc])
            have hn' : n' = p!"force_payment" := by
              subst hc
              have : ∀ fs ∈ Cls.ForcePaymentRejected.msgSlots, fs.1 = p!"force_payment" := by decide
              exact this _ hsl
            refine hcl.2 (((hooks_keep hrun).1.trans hshape.cls).trans hc) x ?_
            rw [← hn', hkeep hc, hx]
        | _ => simp at hfit
    · have : lookupName n fields = none := by rw [lookupName_none, hnames]; exact hdecl
      have hval : getAttr (fields ++ extraArgs f.roots kw) n = getAttr (extraArgs f.roots kw) n := by
        unfold getAttr
        rw [lookupName_append, this]
      rw [hval]
      have hnone : ∀ v, getAttr (extraArgs f.roots kw) n = v → lookupName n (extraArgs f.roots kw) = none →
          v = .none := by
        intro v hv hl
        rw [← hv]
        unfold getAttr
        rw [hl]
      cases hx : lookupName n (extraArgs f.roots kw) with
      | some v =>
        left
        rw [getAttr_found hx]
        exact value_defaulted (args_value ha hn (lookupName_of_mem hk
          (List.mem_filter.mp (mem_of_lookupName hx)).1))
      | none =>
        rw [hnone _ rfl hx]
        rcases hman n hn with (e | e) | e
        · exact absurd e hdecl
        · exact Or.inl (value_none e)
        · right
          obtain ⟨rfl, rfl⟩ := e
          exact ⟨rfl, rfl, rfl⟩
  by_cases hh : c = .Hello
  · rcases hfits.1 with e | e
    · rw [e] at hrun
      unfold runHooks at hrun
      injection hrun with hrun
      subst hrun
      exact hinit
    · exact absurd hh e
  · exact hooks_good ih hcls hk ha hh (fun nh hn => hfits.2 nh hn) hinit hrun

/-! ### Offers and tasks -/

private def plainField (c : Cls) (n : PStr) : Bool :=
  (lookupName n c.msgSlots).isNone && !c.nodeSlots.contains n && (lookupName n c.enumSlots).isNone &&
  c != .Peers && c != .Tasks && c != .StartSessionResponse &&
  !(c == .WantToComputeTask && [p!"task_header", p!"cpu_usage", p!"num_subtasks"].contains n) &&
  !(c == .TaskToCompute && [p!"compute_task_def", p!"price", p!"size"].contains n) &&
  !(c == .ReportComputedTask && n == p!"stats") && !(c == .FileTransferToken && n == p!"files")

private theorem plain_data {E : Env} {c : Cls} {n : PStr} {v : Val} (h : plainField c n = true) :
    ValueOk E c n v ↔ Data v := by
  unfold plainField at h
  simp only [Bool.and_eq_true, Option.isNone_iff_eq_none, Bool.not_eq_true', bne_iff_ne, ne_eq,
    Bool.and_eq_false_iff, beq_eq_false_iff_ne, List.contains_eq_mem, List.mem_cons, List.not_mem_nil, or_false,
    decide_eq_false_iff_not, not_or] at h
  obtain ⟨⟨⟨⟨⟨⟨⟨⟨⟨h1, h2⟩, h3⟩, h4⟩, h5⟩, h6⟩, h7⟩, h8⟩, h9⟩, h10⟩ := h
  unfold ValueOk FieldOk
  rw [h1]
  dsimp only
  rw [if_neg h2, if_neg (fun e => h4 e.1), if_neg (fun e => h5 e.1),
    if_neg (fun e => h7.elim (· e.1) (·.1 e.2)), if_neg (fun e => h7.elim (· e.1) (·.2.1 e.2)),
    if_neg (fun e => h7.elim (· e.1) (·.2.2 e.2)), if_neg (fun e => h8.elim (· e.1) (·.1 e.2)),
    if_neg (fun e => h8.elim (· e.1) (fun g => e.2.elim g.2.1 g.2.2)),
    if_neg (fun e => h9.elim (· e.1) (· e.2)), if_neg (fun e => h10.elim (· e.1) (· e.2)),
    if_neg (fun e => h6 e.1), h3]

private theorem value_given {E : Env} {c : Cls} {kw : Attrs} {n : PStr} {r : Res Val} {v : Val}
    (ha : ArgsOk E c kw) (hn : n ∈ c.payload) (hr : ∀ x, r = .ok x → ValueOk E c n x)
    (h : given kw n r = .ok v) : ValueOk E c n v := by
  unfold given at h
  split at h
  · rename_i x hx
    injection h with h
    subst h
    exact args_value ha hn hx
  · exact hr v h

private theorem drawn_text {f : PStr → PStr} {r : Res PStr} {x : Val} (h : r.map (fun s => Val.str (f s)) = .ok x) :
    Data x := by
  cases r with
  | error e => cases h
  | ok s => cases h; rfl

/-- A message that is built from fields of the right kind. -/
private theorem built_good {E : Env} {G : Getter} {now : Int} {c : Cls} {L kw : Attrs} {r : List PStr} {m : Msg}
    (ha : ArgsOk E c kw) (hk : (kw.map Prod.fst).Nodup) (hL : ∀ k ∈ L.map Prod.fst, k ∈ r)
    (hnd : (L.map Prod.fst).Nodup) (hh : c ≠ .Hello) (hv : ∀ n v, (n, v) ∈ L → ValueOk E c n v)
    {names : List PStr} (hnames : L.map Prod.fst = names)
    (hman : ∀ n ∈ c.payload, n ∈ names ∨ mandatory c n = false)
    (h : newMessage E G now c none .none .none false (L ++ extraArgs r kw) = .ok m) :
    Shape E c m ∧ ∀ n ∈ c.payload, FieldGood E c n (getAttr m.attrs n) := by
  refine ⟨new_shape h (fun e => absurd e hh), fun n hn => ?_⟩
  rw [(from_blank h (given_nodup hL hnd hk)).2.2.2.2.2 n hn]
  unfold getAttr
  rw [lookupName_append]
  cases hl : lookupName n L with
  | some v => exact value_defaulted (hv n v (mem_of_lookupName hl))
  | none =>
    dsimp only
    cases hx : lookupName n (extraArgs r kw) with
    | some v =>
      exact value_defaulted (args_value ha hn (lookupName_of_mem hk
        (List.mem_filter.mp (mem_of_lookupName hx)).1))
    | none =>
      rcases hman n hn with e | e
      · exact absurd (hnames ▸ e) ((lookupName_none n L).mp hl)
      · exact value_none e

/-- An offer before it is signed. -/
def offerBody (E : Env) (G : Getter) (keccak : Bytes → Bytes) (d : OfferDraw) (kw : Attrs) : Res Msg := do
  let key ← given kw p!"provider_public_key" ((encodeHex (.bytes d.key)).map .str)
  let address ← given kw p!"provider_ethereum_address" ((pubkeyToAddress keccak key).map .str)
  let header ← given kw p!"task_header" (headerFactory E d.header (subArgs p!"task_header" kw))
  let price ← given kw p!"price" (.ok (.float 0x4376345785D8A000))
  newMessage E G d.now .WantToComputeTask none .none .none false
    ([(p!"provider_public_key", key), (p!"provider_ethereum_address", address),
      (p!"task_header", header), (p!"price", price)] ++ extraArgs offerRoots kw)

theorem offer_body (E : Env) (G : Getter) (keccak : Bytes → Bytes) (d : OfferDraw) (kw : Attrs) :
    offerFactory E G keccak d kw = (offerBody E G keccak d kw >>= signHook E kw) := by
  unfold offerFactory offerBody
  simp only [bind, Except.bind]
  repeat' split
  all_goals first | rfl | simp_all

private theorem offer_body_made {E : Env} {G : Getter} {keccak : Bytes → Bytes} {d : OfferDraw} {kw : Attrs} {m : Msg}
    (hk : (kw.map Prod.fst).Nodup) (ha : ArgsOk E .WantToComputeTask kw)
    (h : offerBody E G keccak d kw = .ok m) :
    Shape E .WantToComputeTask m ∧
      ∀ n ∈ Cls.WantToComputeTask.payload, FieldGood E .WantToComputeTask n (getAttr m.attrs n) := by
  unfold offerBody at h
  simp only [bind, Except.bind] at h
  split at h
  · cases h
  rename_i x1 hx1
  split at h
  · cases h
  rename_i x2 hx2
  split at h
  · cases h
  rename_i x3 hx3
  split at h
  · cases h
  rename_i x4 hx4
  have v1 := value_given ha (by decide) (fun x e => (plain_data (by decide)).mpr (drawn_text (f := id) e)) hx1
  have v2 := value_given ha (by decide) (fun x e => (plain_data (by decide)).mpr (drawn_text (f := id) e)) hx2
  have v3 := value_given ha (by decide) (fun x e => by
    have := header_made (args_data ha (by decide) (by rfl) (by decide)) e
    unfold ValueOk FieldOk
    simp [Cls.msgSlots, lookupName, Cls.nodeSlots]
    exact Or.inr this) hx3
  have v4 := value_given ha (by decide) (fun x e => (plain_data (by decide)).mpr (by cases e; rfl)) hx4
  obtain ⟨g1, g2⟩ := built_good ha hk (by simp [offerRoots]) (by simp) (by decide) (fun n v hm => by
    simp only [List.mem_cons, List.not_mem_nil, or_false, Prod.mk.injEq] at hm
    rcases hm with ⟨rfl, rfl⟩ | ⟨rfl, rfl⟩ | ⟨rfl, rfl⟩ | ⟨rfl, rfl⟩ <;> assumption)
    (names := [p!"provider_public_key", p!"provider_ethereum_address", p!"task_header", p!"price"]) rfl (by decide) h
  exact ⟨g1, g2⟩

private theorem offer_made {E : Env} {G : Getter} {keccak : Bytes → Bytes} {d : OfferDraw} {kw : Attrs} {m : Msg}
    (hk : (kw.map Prod.fst).Nodup) (ha : ArgsOk E .WantToComputeTask kw)
    (h : offerFactory E G keccak d kw = .ok m) :
    Shape E .WantToComputeTask m ∧
      ∀ n ∈ Cls.WantToComputeTask.payload, FieldGood E .WantToComputeTask n (getAttr m.attrs n) := by
  rw [offer_body] at h
  simp only [bind, Except.bind] at h
  split at h
  · cases h
  rename_i m0 hm0
  obtain ⟨g1, g2⟩ := offer_body_made hk ha hm0
  refine ⟨sign_shape h g1, fun n hn => ?_⟩
  rw [(signHook_same h).2.2.2.2]
  exact g2 n hn

private structure TaskOk (E : Env) (m : Msg) : Prop where
  shape : Shape E .TaskToCompute m
  good : ∀ n ∈ Cls.TaskToCompute.payload, FieldGood E .TaskToCompute n (getAttr m.attrs n)

private theorem task_set {E : Env} {m : Msg} {n : PStr} {v : Val} (h : TaskOk E m)
    (hn : n ∈ Cls.TaskToCompute.payload) (hv : FieldGood E .TaskToCompute n v) :
    TaskOk E { m with attrs := setName n v m.attrs } := by
  refine ⟨set_shape h.shape hn (by decide), fun k hk => ?_⟩
  by_cases e : k = n
  · subst e
    have := set_same (m := m) (n := k) (v := v)
    unfold Msg.set at this
    rw [this]
    exact hv
  · have := set_other (m := m) (n := n) (k := k) (v := v) e
    unfold Msg.set at this
    rw [this]
    exact h.good k hk

private theorem def_value {E : Env} {v : Val} :
    ValueOk E .TaskToCompute p!"compute_task_def" v ↔ DictOk E .computeTaskDef v := by
  unfold ValueOk FieldOk
  simp [Cls.msgSlots, lookupName, Cls.nodeSlots]

private theorem setDef_good {E : Env} {m m' : Msg} {key : PStr} {v : Val} (h : TaskOk E m) (hv : Data v)
    (hs : setDef E m key v = .ok m') : TaskOk E m' := by
  have hd := def_value.mp (h.good p!"compute_task_def" (by decide)).1
  unfold setDef at hs
  split at hs
  · rename_i c items he
    rw [he] at hd
    have hc : c = .computeTaskDef := by
      obtain ⟨items', e, _⟩ := hd
      injection e
    subst hc
    split at hs
    · cases hs
    rename_i items' hset
    injection hs with hs
    subst hs
    exact task_set h (by decide) ⟨def_value.mpr (def_set hd hv hset), rfl⟩
  · rename_i he
    rw [he] at hd
    obtain ⟨items', e, _⟩ := hd
    cases e
  · cases hs

private theorem offer_id {E : Env} {m : Msg} {k v : Val} (h : TaskOk E m) (ho : offeredTask m = some (k, v)) :
    Data v := by
  unfold offeredTask at ho
  split at ho
  · rename_i c ty ts enc sig as he
    split at ho
    · rename_i fs hfs
      split at ho
      · injection ho with ho
        injection ho with _ ho
        subst ho
        have hw := (h.good p!"want_to_compute_task" (by decide)).1
        rw [he] at hw
        rcases slot_cases (sd := ⟨.WantToComputeTask, false, false⟩) rfl rfl hw with ⟨_, e⟩ | ⟨x, e, _, _, hx⟩
        · cases e
        unfold Msg.val at e
        injection e with _ _ _ _ _ e
        subst e
        have hh := ((fields_wellTyped hx).2 p!"task_header" (by decide)).1
        rw [hfs] at hh
        have hok : HeaderOk E (.cont .taskHeader fs) := by
          unfold ValueOk FieldOk at hh
          simp [Cls.msgSlots, lookupName, Cls.nodeSlots] at hh
          exact hh
        obtain ⟨fs', e, hn, hf⟩ := hok
        injection e with _ e
        subst e
        have hmem : p!"task_id" ∈ fs.map Prod.fst := by rw [hn]; decide
        rcases hf _ _ (mem_getAttr hmem) with ⟨e, _⟩ | e
        · rw [e]; rfl
        · rw [if_neg (by decide), if_neg (by decide), if_neg (by decide)] at e
          exact e.1
      · cases ho
    · cases ho
  · cases ho

private theorem taskId_good {E : Env} {u : Nat} {kw : Attrs} {m m' : Msg} (ha : ArgsOk E .TaskToCompute kw)
    (h : TaskOk E m) (hs : taskIdHook E u kw m = .ok m') : TaskOk E m' := by
  unfold taskIdHook at hs
  simp only [bind, Except.bind] at hs
  have hx : Data (getAttr kw p!"task_id") := args_other ha (by decide) (by decide)
  repeat' split at hs
  all_goals first
    | (cases hs; done)
    | (injection hs with hs; subst hs; exact h)
    | exact setDef_good h hx hs
    | exact setDef_good (v := .none) h rfl hs
    | exact setDef_good h (offer_id h (by assumption)) hs
    | exact setDef_good h (drawn_text (f := id) (by assumption)) hs

private theorem subtaskId_good {E : Env} {u : Nat} {kw : Attrs} {m m' : Msg} (ha : ArgsOk E .TaskToCompute kw)
    (h : TaskOk E m) (hs : subtaskIdHook E u kw m = .ok m') : TaskOk E m' := by
  unfold subtaskIdHook at hs
  simp only [bind, Except.bind] at hs
  have hx : Data (getAttr kw p!"subtask_id") := args_other ha (by decide) (by decide)
  repeat' split at hs
  all_goals first
    | (cases hs; done)
    | (injection hs with hs; subst hs; exact h)
    | exact setDef_good h hx hs
    | exact setDef_good h (drawn_text (f := id) (by assumption)) hs

private theorem generate_good {E : Env} {priv : Bytes} {m m' : Msg} (h : TaskOk E m)
    (hs : generateEthsig E m priv = .ok m') : TaskOk E m' := by
  unfold generateEthsig at hs
  repeat (split at hs; · cases hs)
  injection hs with hs
  subst hs
  exact task_set h (by decide) ⟨(plain_data (by decide)).mpr rfl, rfl⟩

private theorem ethsig_good {E : Env} {eth : Bytes × Bytes} {kw : Attrs} {m m' : Msg} (h : TaskOk E m)
    (hs : ethsigHook E eth kw m = .ok m') : TaskOk E m' := by
  unfold ethsigHook at hs
  simp only [bind, Except.bind] at hs
  have hset : ∀ s : PStr, TaskOk E { m with attrs := setName p!"requestor_ethereum_public_key" (.str s) m.attrs } :=
    fun s => task_set h (by decide) ⟨(plain_data (by decide)).mpr rfl, rfl⟩
  repeat' split at hs
  all_goals first
    | (cases hs; done)
    | exact generate_good (hset _) hs
    | exact generate_good h hs
    | (cases hs; exact h)
    | (cases hs; exact hset _)

private theorem int_value {E : Env} {n : PStr} (hn : n = p!"price" ∨ n = p!"size") (i : Int) :
    ValueOk E .TaskToCompute n (.int i) := by
  rcases hn with rfl | rfl <;> (unfold ValueOk FieldOk; simp [Cls.msgSlots, lookupName, Cls.nodeSlots])

/-- A task before it is signed. -/
def taskBody (E : Env) (G : Getter) (keccak : Bytes → Bytes) (d : TaskDraw) (kw : Attrs) : Res Msg := do
  let requestorKey ← given kw p!"requestor_public_key" ((encodeHex (.bytes d.key)).map .str)
  let requestorId ← given kw p!"requestor_id" (.ok requestorKey)
  let offer ← given kw p!"want_to_compute_task"
    ((offerFactory E G keccak d.offer (subArgs p!"want_to_compute_task" kw)).map Msg.val)
  let providerId ← given kw p!"provider_id" (attrOf offer p!"provider_public_key")
  let definition ← given kw p!"compute_task_def"
    (defFactory E d.definition (subArgs p!"compute_task_def" kw))
  let package ← given kw p!"package_hash" (.ok (.str (p!"sha1:" ++ d.package)))
  let size ← given kw p!"size" (.ok (.int d.size))
  let price ← given kw p!"price" (.ok (.int d.price))
  let options ← given kw p!"resources_options" (.ok .none)
  let m ← newMessage E G d.now .TaskToCompute none .none .none false
    ([(p!"requestor_id", requestorId), (p!"provider_id", providerId),
      (p!"compute_task_def", definition), (p!"requestor_public_key", requestorKey),
      (p!"want_to_compute_task", offer), (p!"package_hash", package), (p!"size", size),
      (p!"price", price), (p!"resources_options", options)] ++ extraArgs taskRoots kw)
  let m ← taskIdHook E d.uuid1 kw m
  let m ← subtaskIdHook E d.uuid2 kw m
  ethsigHook E d.eth kw m

theorem task_body (E : Env) (G : Getter) (keccak : Bytes → Bytes) (d : TaskDraw) (kw : Attrs) :
    taskMade E G keccak d kw = (taskBody E G keccak d kw >>= signHook E kw) := by
  unfold taskMade taskBody
  simp only [bind, Except.bind]
  repeat' split
  all_goals first | rfl | simp_all

private theorem task_body_made {E : Env} {G : Getter} {keccak : Bytes → Bytes} {d : TaskDraw} {kw : Attrs} {m : Msg}
    (hk : (kw.map Prod.fst).Nodup) (ha : ArgsOk E .TaskToCompute kw)
    (h : taskBody E G keccak d kw = .ok m) : TaskOk E m := by
  unfold taskBody at h
  simp only [bind, Except.bind] at h
  split at h
  · cases h
  rename_i x1 hx1
  split at h
  · cases h
  rename_i x2 hx2
  split at h
  · cases h
  rename_i x3 hx3
  split at h
  · cases h
  rename_i x4 hx4
  split at h
  · cases h
  rename_i x5 hx5
  split at h
  · cases h
  rename_i x6 hx6
  split at h
  · cases h
  rename_i x7 hx7
  split at h
  · cases h
  rename_i x8 hx8
  split at h
  · cases h
  rename_i x9 hx9
  split at h
  · cases h
  rename_i m0 hm0
  split at h
  · cases h
  rename_i m1 hm1
  split at h
  · cases h
  rename_i m2 hm2
  have hslot : lookupName p!"want_to_compute_task" Cls.TaskToCompute.msgSlots =
    some ⟨.WantToComputeTask, false, false⟩ := rfl
  have v1 := value_given ha (by decide) (fun x e => (plain_data (by decide)).mpr (drawn_text (f := id) e)) hx1
  have v2 := value_given ha (n := p!"requestor_id") (by decide) (fun x e => by
    cases e
    exact (plain_data (by decide)).mpr ((plain_data (by decide)).mp v1)) hx2
  have v3 := value_given ha (n := p!"want_to_compute_task") (by decide) (fun x e => by
    cases ho : offerFactory E G keccak d.offer (subArgs p!"want_to_compute_task" kw) with
    | error _ => rw [ho] at e; cases e
    | ok o =>
      rw [ho] at e
      cases e
      obtain ⟨g1, g2⟩ := offer_made (sub_nodup hk) (args_sub ha (msgSlots_lookup.mpr hslot)) ho
      exact message_value hslot rfl g1.cls g1.heads (wellTyped_of g1 g2)) hx3
  have v4 := value_given ha (n := p!"provider_id") (by decide) (fun x e => by
    rcases slot_cases hslot rfl v3 with ⟨_, e'⟩ | ⟨o, rfl, _, _, hw⟩
    · cases e'
    unfold attrOf Msg.val at e
    cases e
    exact (plain_data (by decide)).mpr ((plain_data (by decide)).mp
      ((fields_wellTyped hw).2 p!"provider_public_key" (by decide)).1)) hx4
  have v5 := value_given ha (n := p!"compute_task_def") (by decide) (fun x e => def_value.mpr
    (def_made (args_data ha (by decide) (by rfl) (by decide)) e)) hx5
  have v6 := value_given ha (n := p!"package_hash") (by decide) (fun x e => (plain_data (by decide)).mpr (by cases e; rfl)) hx6
  have v7 := value_given ha (n := p!"size") (by decide) (fun x e => by cases e; exact int_value (Or.inr rfl) _) hx7
  have v8 := value_given ha (n := p!"price") (by decide) (fun x e => by cases e; exact int_value (Or.inl rfl) _) hx8
  have v9 := value_given ha (n := p!"resources_options") (by decide) (fun x e => (plain_data (by decide)).mpr (by cases e; rfl)) hx9
  obtain ⟨g1, g2⟩ := built_good ha hk (by simp [taskRoots]) (by simp) (by decide) (fun n v hm => by
    simp only [List.mem_cons, List.not_mem_nil, or_false, Prod.mk.injEq] at hm
    rcases hm with ⟨rfl, rfl⟩ | ⟨rfl, rfl⟩ | ⟨rfl, rfl⟩ | ⟨rfl, rfl⟩ | ⟨rfl, rfl⟩ | ⟨rfl, rfl⟩ | ⟨rfl, rfl⟩ |
      ⟨rfl, rfl⟩ | ⟨rfl, rfl⟩ <;> assumption)
    (names := [p!"requestor_id", p!"provider_id", p!"compute_task_def", p!"requestor_public_key",
      p!"want_to_compute_task", p!"package_hash", p!"size", p!"price", p!"resources_options"]) rfl (by decide) hm0
  exact ethsig_good (subtaskId_good ha (taskId_good ha ⟨g1, g2⟩ hm1) hm2) h

private theorem task_made {E : Env} {G : Getter} {keccak : Bytes → Bytes} {d : TaskDraw} {kw : Attrs} {m : Msg}
    (hk : (kw.map Prod.fst).Nodup) (ha : ArgsOk E .TaskToCompute kw)
    (h : taskFactory E G keccak d kw = .ok m) : TaskOk E m := by
  obtain ⟨keys, _, h⟩ := taskFactory_made h
  rw [task_body] at h
  simp only [bind, Except.bind] at h
  split at h
  · cases h
  rename_i m0 hm0
  have t := task_body_made hk ha hm0
  refine ⟨sign_shape h t.shape, fun n hn => ?_⟩
  rw [(signHook_same h).2.2.2.2]
  exact t.good n hn

theorem offer_body_wellTyped {E : Env} {G : Getter} {keccak : Bytes → Bytes} {d : OfferDraw} {kw : Attrs} {m : Msg}
    (hk : (kw.map Prod.fst).Nodup) (ha : ArgsOk E .WantToComputeTask kw)
    (h : offerBody E G keccak d kw = .ok m) : WellTypedMsg E m := by
  obtain ⟨g1, g2⟩ := offer_body_made hk ha h
  exact wellTyped_of g1 g2

theorem task_body_wellTyped {E : Env} {G : Getter} {keccak : Bytes → Bytes} {d : TaskDraw} {kw : Attrs} {m : Msg}
    (hk : (kw.map Prod.fst).Nodup) (ha : ArgsOk E .TaskToCompute kw)
    (h : taskBody E G keccak d kw = .ok m) : WellTypedMsg E m := by
  have t := task_body_made hk ha h
  exact wellTyped_of t.shape t.good

/-! ### C93 -/

private theorem inv_claims {E : Env} {c : Cls} {m : Msg} (h : Inv E c m) (hcl : Claims m) :
    m.cls = c ∧ (Data m.ty ∧ Data m.ts ∧ Data m.enc ∧ Data m.sig) ∧ WellTypedMsg E m ∧ Shape E c m := by
  refine ⟨h.shape.cls, h.shape.heads, wellTyped_of h.shape fun n hn => ?_, h.shape⟩
  rcases h.good n hn with e | ⟨e1, e2, e3⟩
  · exact e
  · subst e2
    exact absurd e3 (hcl.1 (h.shape.cls.trans e1))

private theorem makes_ok {E : Env} {G : Getter} {keccak : Bytes → Bytes} {d : Draws} (hd : MembersDrawn d) :
    ∀ k, MakesOk E (makeAt E G keccak d k)
  | 0 => fun _ _ _ _ _ h => by cases h
  | k + 1 => by
    intro path c files kw m h hk ha ho hcl
    by_cases h1 : c = .TaskToCompute
    · subst h1
      have h : taskFactory E G keccak (d.task path) kw = .ok m := h
      have t := task_made hk ha h
      exact ⟨t.shape.cls, t.shape.heads, wellTyped_of t.shape t.good, t.shape⟩
    by_cases h2 : c = .WantToComputeTask
    · subst h2
      have h : offerFactory E G keccak (d.task path).offer kw = .ok m := h
      obtain ⟨g1, g2⟩ := offer_made hk ha h
      exact ⟨g1.cls, g1.heads, wellTyped_of g1 g2, g1⟩
    exact inv_claims (table_made (makes_ok hd k) h1 h2 hd hk ha ho hcl h) hcl

/-- A message made on the way to another. -/
theorem made_at {E : Env} {G : Getter} {keccak : Bytes → Bytes} {d : Draws} {depth : Nat} {path : List PStr}
    {c : Cls} {kw : Attrs} {m : Msg} (hd : MembersDrawn d) (hk : (kw.map Prod.fst).Nodup) (ha : ArgsOk E c kw)
    (h : makeAt E G keccak d depth path c none kw = .ok m) (hcl : Claims m) : WellTypedMsg E m :=
  (makes_ok hd depth _ _ _ _ _ h hk ha rfl hcl).2.2.1

/-- C93: whatever is drawn, and whatever arguments of the right kind are given, a message made by a
factory holds what its class declares, with all the messages in it - if a payment claim claims
something. -/
theorem made_wellTyped (E : Env) (G : Getter) (keccak : Bytes → Bytes) (d : Draws) (c : Cls) (kw : Attrs)
    (m : Msg) (hd : MembersDrawn d) (hk : (kw.map Prod.fst).Nodup) (ha : ArgsOk E c kw)
    (h : make E G keccak d c kw = .ok m) (hcl : Claims m) : WellTypedMsg E m :=
  (makes_ok hd maxDepth _ _ _ _ _ h hk ha rfl hcl).2.2.1

/-- The version in a made `Hello`. -/
theorem made_version {E : Env} {G : Getter} {keccak : Bytes → Bytes} {d : Draws} {c : Cls} {kw : Attrs}
    {m : Msg} (hd : MembersDrawn d) (hk : (kw.map Prod.fst).Nodup) (ha : ArgsOk E c kw)
    (h : make E G keccak d c kw = .ok m) (hcl : Claims m) (v : PStr) (hv : getAttr m.attrs p!"_version" = .str v)
    (hh : m.cls = .Hello) : v = E.version := by
  obtain ⟨hc, _, hw, hs⟩ := makes_ok hd maxDepth _ _ _ _ _ h hk ha rfl hcl
  rcases hs.names with ⟨e, _⟩ | ⟨_, as, e, hn⟩
  · exact absurd (hc.symm.trans hh) e
  · rw [e] at hv
    unfold getAttr at hv
    rw [lookupName_append, (lookupName_none _ _).mpr (by rw [hn]; exact payload_no_version c)] at hv
    injection hv with hv
    exact hv.symm

/-- C93: so, dumped with or without keys, it comes back from `load` as it was left by `dump`, unless
the validation of its class refuses it. -/
theorem made_arrives (E : Env) (G : Getter) (keccak : Bytes → Bytes) (d : Draws) (c : Cls) (kw : Attrs)
    (m m' : Msg) (encrypt dec : Bytes → Bytes → Res Bytes) (priv rpub rpriv : Option Bytes) (b : Bytes)
    (t : Nat) (now : Int) (own : Ver)
    (hd : MembersDrawn d) (hk : (kw.map Prod.fst).Nodup) (ha : ArgsOk E c kw)
    (h : make E G keccak d c kw = .ok m) (hcl : Claims m)
    (hdump : dump E encrypt m priv rpub = (.ok b, m')) (hts : m.ts = .int t)
    (hrange : minTimestamp < t ∧ t < maxTimestamp)
    (hlate : now ≤ (t + 600) * 1000000) (hearly : (t - 300) * 1000000 ≤ now)
    (hown : E.version = own.text) (hwf : own.Wf) (hlen : own.text.length ≤ 31)
    (hrel : ¬ (own.patch = 0 ∧ own.pre ≠ []))
    (hsg : ∀ s, m'.sig = .bytes s → s.length = 65)
    (hdec : ∀ k p c, rpub = some k → encrypt k p = .ok c →
      c ≠ [] ∧ loadDecrypt dec rpriv c = .ok p) :
    (m'.cls = c ∧ m'.ts = .int t ∧ m'.attrs = m.attrs ∧ (m.sig ≠ .none → m'.sig = m.sig)) ∧
    (load E dec (some b) rpriv none true now).2 = taskChecks E m' := by
  obtain ⟨hc, _, hw, hs⟩ := makes_ok hd maxDepth _ _ _ _ _ h hk ha rfl hcl
  have htime : verifyTime now t = .ok () := by
    unfold verifyTime
    unfold minTimestamp maxTimestamp at hrange
    rw [if_neg (by simp; omega), if_neg (by simp only [msgTtl]; omega),
      if_neg (by simp only [futureTolerance]; omega)]
  have := dump_load_roundtrip_partial E encrypt dec m m' priv rpub rpriv b t true now hdump hw
    (by rw [hs.ty, hc]) hts hrange (fun _ => htime) hsg (by
      intro v hv hh
      have hv' : v = E.version := made_version hd hk ha h hcl v hv hh
      rw [hv', hown]
      exact ⟨hlen, verText_ascii own hwf, ((verify_version_decision own hwf own.text).1).mpr ⟨hrel, own, hwf,
        Or.inl (text_said own), rfl, rfl, hrel⟩⟩) hdec
  exact ⟨⟨this.1.1.trans hc, this.1.2.2.1.trans hts, this.1.2.2.2.1, this.1.2.2.2.2⟩, this.2⟩

/-! ### Cases -/

/-- Every factory, without arguments: what it makes holds what it declares, payment claims apart. -/
example (c : Cls) (m : Msg) (h : toyMake c [] = .ok m) (h1 : c ≠ .ForcePayment) (h2 : c ≠ .ForcePaymentRejected) :
    WellTypedMsg toyEnv m := by
  have hc : m.cls = c := made_cls h
  refine made_wellTyped toyEnv _ _ toyDraws c [] m toyDraws_members List.nodup_nil ?_ h
    ⟨fun e => absurd (hc.symm.trans e) h1, fun e => absurd (hc.symm.trans e) h2⟩
  exact ⟨fun _ _ _ _ h => (nomatch h), fun _ _ h => (nomatch h), fun _ _ h => (nomatch h),
    fun _ _ _ h => (nomatch h), fun _ h => (nomatch h)⟩

example : ∀ c ∈ Cls.all, c.factory.isSome ∨ c = .TaskToCompute ∨ c = .WantToComputeTask →
    (toyMake c []).isOk = true := by decide +kernel

private def someArgs : Attrs :=
  [(p!"report_computed_task__size", .int 9), (p!"report_computed_task__sign__privkey", .bytes (toySk 5))]

private theorem someArgs_ok (E : Env) : ArgsOk E .ForceGetTaskResult someArgs := by
  have hp : p!"report_computed_task" ∈ Cls.ForceGetTaskResult.payload := by decide
  have hslot : ∀ sd, (p!"report_computed_task", sd) ∈ Cls.ForceGetTaskResult.msgSlots → sd.cls = .ReportComputedTask := by
    intro sd h
    simp only [Cls.msgSlots, List.mem_singleton, Prod.mk.injEq] at h
    rw [h.2]
  refine ⟨fun k v c' n hm hmean => ?_, fun k v hm hmean => ?_, fun k v hm _ _ _ => ?_, fun e => (nomatch e), fun e => (nomatch e)⟩
  · simp only [someArgs, List.mem_cons, List.not_mem_nil, or_false, Prod.mk.injEq] at hm
    rcases hm with ⟨rfl, rfl⟩ | ⟨rfl, rfl⟩
    · obtain ⟨sd, hs, hr⟩ := means_under (f := p!"report_computed_task") (k := p!"size") hp rfl hmean
      rw [hslot sd hs] at hr
      obtain ⟨rfl, rfl⟩ := means_leaf (by decide) hr
      exact (plain_data (by decide)).mpr rfl
    · obtain ⟨sd, hs, hr⟩ := means_under (f := p!"report_computed_task") (k := p!"sign__privkey") hp rfl hmean
      rw [hslot sd hs] at hr
      generalize he : p!"sign__privkey" = key at hr
      cases hr with
      | field h => rw [← he] at h; exact absurd h (by decide)
      | @deeper _ _ f key n sd slot rest =>
        have : ∀ fs ∈ Cls.ReportComputedTask.msgSlots, fs.1 = p!"task_to_compute" := by decide
        rw [show f = p!"task_to_compute" from this _ slot] at he
        cases he
  · simp only [someArgs, List.mem_cons, List.not_mem_nil, or_false, Prod.mk.injEq] at hm
    rcases hm with ⟨rfl, rfl⟩ | ⟨rfl, rfl⟩
    · rcases file_under (f := p!"report_computed_task") (k := p!"size") hp rfl hmean with ⟨sd, hs, hr⟩ | ⟨e, _⟩
      · rw [hslot sd hs] at hr
        generalize he : p!"size" = key at hr
        cases hr with
        | @deeper _ f key part sd slot rest =>
          have : ∀ fs ∈ Cls.ReportComputedTask.msgSlots, fs.1 = p!"task_to_compute" := by decide
          rw [show f = p!"task_to_compute" from this _ slot] at he
          cases he
      · cases e
    · rcases file_under (f := p!"report_computed_task") (k := p!"sign__privkey") hp rfl hmean with ⟨sd, hs, hr⟩ | ⟨e, _⟩
      · rw [hslot sd hs] at hr
        generalize he : p!"sign__privkey" = key at hr
        cases hr with
        | @deeper _ f key part sd slot rest =>
          have : ∀ fs ∈ Cls.ReportComputedTask.msgSlots, fs.1 = p!"task_to_compute" := by decide
          rw [show f = p!"task_to_compute" from this _ slot] at he
          cases he
      · cases e
  · simp only [someArgs, List.mem_cons, List.not_mem_nil, or_false, Prod.mk.injEq] at hm
    rcases hm with ⟨rfl, rfl⟩ | ⟨rfl, rfl⟩ <;> rfl

/-- With arguments for a nested message. -/
example : ∃ m, toyMake .ForceGetTaskResult someArgs = .ok m ∧ WellTypedMsg toyEnv m := by
  cases h : toyMake .ForceGetTaskResult someArgs with
  | error e =>
    have : (toyMake .ForceGetTaskResult someArgs).isOk = true := by decide +kernel
    rw [h] at this
    cases this
  | ok m =>
    have hc : m.cls = .ForceGetTaskResult := made_cls h
    exact ⟨m, rfl, made_wellTyped toyEnv _ _ toyDraws _ _ m toyDraws_members (by decide) (someArgs_ok _) h
      ⟨fun e => absurd (hc.symm.trans e) (by decide), fun e => absurd (hc.symm.trans e) (by decide)⟩⟩

/-- It arrives. -/
example : (match toyMake .ForceGetTaskResult someArgs with
    | .ok m => (match dump toyEnv (fun _ d => .ok d) m (some (toySk 7)) none with
      | (.ok b, m') => decide (m.ts = .int 1500000000) && decide (m'.attrs = m.attrs) &&
        decide ((load toyEnv (fun _ d => .ok d) (some b) none none true 1500000100000000).2 = .ok m')
      | _ => false)
    | .error _ => false) = true := by decide +kernel

private theorem claim_bad {E : Env} {as : Attrs} (hw : WellTyped E .ForcePayment as)
    (hn : getAttr as p!"subtask_results_accepted_list" = .none) : False := by
  have := (fields_wellTyped hw).2 p!"subtask_results_accepted_list" (by decide)
  rw [hn] at this
  obtain ⟨⟨⟨l, e, _⟩, _⟩, _⟩ := this
  cases e

/-- The claim that a message is, or refuses. -/
private def claimOf (m : Msg) : Option Attrs :=
  if m.cls = .ForcePayment then some m.attrs
  else match getAttr m.attrs p!"force_payment" with
    | .msg .ForcePayment _ _ _ _ as => some as
    | _ => none

private def claimsNothing : Res Msg → Bool
  | .ok m => match claimOf m with
    | some as => (match getAttr as p!"subtask_results_accepted_list" with
      | .none => true
      | _ => false)
    | none => false
  | .error _ => false

private def undumpable : Res Msg → Bool
  | .ok m => !(dump toyEnv (fun _ d => .ok d) m (some (toySk 7)) none).1.isOk
  | .error _ => false

/-- C93 fails for a payment claim made without arguments, alone or in a refusal: it claims nothing, and
cannot be dumped. -/
theorem made_claim_refuted :
    ∃ (E : Env) (G : Getter) (keccak : Bytes → Bytes) (d : Draws) (key : Bytes), MembersDrawn d ∧
      ∀ c ∈ [Cls.ForcePayment, .ForcePaymentRejected], ArgsOk E c [] ∧
        ∃ m, make E G keccak d c [] = .ok m ∧ ¬ WellTypedMsg E m ∧
          ∃ e, (dump E (fun _ d => .ok d) m (some key) none).1 = .error e := by
  refine ⟨toyEnv, fun _ _ _ => .ok .none, fun b => (b ++ List.replicate 32 0).take 32, toyDraws, toySk 7,
    toyDraws_members, fun c hc => ⟨⟨fun _ _ _ _ h => (nomatch h), fun _ _ h => (nomatch h), fun _ _ h => (nomatch h),
      fun _ _ _ h => (nomatch h), fun _ h => (nomatch h)⟩, ?_⟩⟩
  have h1 : claimsNothing (toyMake c []) = true ∧ undumpable (toyMake c []) = true := by
    simp only [List.mem_cons, List.not_mem_nil, or_false] at hc
    rcases hc with rfl | rfl <;> decide +kernel
  cases h : toyMake c [] with
  | error e => rw [h] at h1; cases h1.1
  | ok m =>
    rw [h] at h1
    have hm : m.cls = c := made_cls h
    refine ⟨m, h, fun hw => ?_, ?_⟩
    · have h1 := h1.1
      have hw : WellTyped toyEnv m.cls m.attrs := by
        unfold WellTypedMsg at hw
        rw [if_neg (by
          simp only [List.mem_cons, List.not_mem_nil, or_false] at hc
          rcases hc with rfl | rfl <;> rw [hm] <;> decide)] at hw
        exact hw
      unfold claimsNothing claimOf at h1
      dsimp only at h1
      by_cases e : m.cls = .ForcePayment
      · rw [if_pos e] at h1
        dsimp only at h1
        rw [e] at hw
        split at h1
        · rename_i hn; exact claim_bad hw hn
        · cases h1
      · rw [if_neg e] at h1
        have e : m.cls = .ForcePaymentRejected := by
          simp only [List.mem_cons, List.not_mem_nil, or_false] at hc
          rcases hc with rfl | rfl
          · exact absurd hm e
          · exact hm
        rw [e] at hw
        have hf := (fields_wellTyped hw).2 p!"force_payment" (by decide)
        split at h1
        · rename_i as hm
          split at hm
          · rename_i ty ts enc sig as' hg
            injection hm with hm
            subst hm
            rw [hg] at hf
            split at h1
            · rename_i hn
              exact claim_bad (hf.1.2 ty ts enc sig as' (List.mem_singleton.mpr rfl)).2 hn
            · cases h1
          · cases hm
        · cases h1
    · have h2 := h1.2
      unfold undumpable at h2
      dsimp only at h2
      cases hd : (dump toyEnv (fun _ d => .ok d) m (some (toySk 7)) none).1 with
      | error e => exact ⟨e, rfl⟩
      | ok b => rw [hd] at h2; cases h2

end Verif.Props
