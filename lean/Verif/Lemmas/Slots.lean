import Verif.Lemmas.Load
import Verif.Spec.Slots
import Verif.Lemmas.Truth
/-! # Lemmas about loading and writing slots -/

set_option linter.unusedSimpArgs false

namespace Verif

open Spec

/-! ### Tables -/

theorem payload_nodup (c : Cls) : c.payload.Nodup := by cases c <;> decide

theorem msgSlots_lookup {c : Cls} {name : PStr} {sd : SlotDef} :
    (name, sd) ∈ c.msgSlots ↔ lookupName name c.msgSlots = some sd := by
  refine ⟨fun h => lookupName_of_mem ?_ h, mem_of_lookupName⟩
  cases c <;> decide

theorem enumSlots_lookup {c : Cls} {name : PStr} {e : EnumId} :
    (name, e) ∈ c.enumSlots ↔ lookupName name c.enumSlots = some e := by
  refine ⟨fun h => lookupName_of_mem ?_ h, mem_of_lookupName⟩
  cases c <;> decide

theorem list_not_none {c : Cls} {name : PStr} {sd : SlotDef} (h : (name, sd) ∈ c.msgSlots) :
    sd.isList = true → sd.allowNone = false := by
  have : ∀ p ∈ c.msgSlots, p.2.isList = true → p.2.allowNone = false := by cases c <;> decide
  exact this _ h

theorem msgSlot_payload {c : Cls} {name : PStr} {sd : SlotDef} (h : (name, sd) ∈ c.msgSlots) :
    name ∈ c.payload := by
  have : ∀ p ∈ c.msgSlots, p.1 ∈ c.payload := by cases c <;> decide
  exact this _ h

theorem enumSlot_payload {c : Cls} {name : PStr} {e : EnumId} (h : (name, e) ∈ c.enumSlots) :
    name ∈ c.payload := by
  have : ∀ p ∈ c.enumSlots, p.1 ∈ c.payload := by cases c <;> decide
  exact this _ h

/-- Names a class treats specially when a slot is read or written. -/
def Cls.hooked : Cls → List PStr
  | .Peers => [p!"peers"]
  | .Tasks => [p!"tasks"]
  | .WantToComputeTask => [p!"task_header", p!"cpu_usage", p!"num_subtasks"]
  | .TaskToCompute => [p!"compute_task_def", p!"price", p!"size"]
  | .ReportComputedTask => [p!"stats"]
  | .FileTransferToken => [p!"files"]
  | c => c.nodeSlots

theorem hooked_node {c : Cls} {name : PStr} (h : name ∉ c.hooked) : c.nodeSlots.contains name = false := by
  have : ∀ n ∈ c.nodeSlots, n ∈ c.hooked := by cases c <;> decide
  cases hc : c.nodeSlots.contains name with
  | false => rfl
  | true => exact absurd (this _ (List.contains_iff_mem.mp hc)) h

theorem deserSlot_unhooked (E : Env) (rec : Loader) (c : Cls) (name : PStr) (v : Val)
    (h : name ∉ c.hooked) : deserSlot E rec c name v = deserBase rec c name v := by
  unfold deserSlot
  rw [hooked_node h]
  have hh : ∀ {c' : Cls} {n : PStr}, n ∈ c'.hooked → ¬ (c = c' ∧ name = n) := by
    rintro c' n hm ⟨rfl, rfl⟩; exact h hm
  have h1 := hh (c' := .Peers) (n := p!"peers") (by decide)
  have h2 := hh (c' := .Tasks) (n := p!"tasks") (by decide)
  have h3 := hh (c' := .WantToComputeTask) (n := p!"task_header") (by decide)
  have h4 := hh (c' := .WantToComputeTask) (n := p!"cpu_usage") (by decide)
  have h5 := hh (c' := .WantToComputeTask) (n := p!"num_subtasks") (by decide)
  have h6 := hh (c' := .TaskToCompute) (n := p!"compute_task_def") (by decide)
  have h7 := hh (c' := .TaskToCompute) (n := p!"price") (by decide)
  have h8 := hh (c' := .TaskToCompute) (n := p!"size") (by decide)
  have h9 := hh (c' := .ReportComputedTask) (n := p!"stats") (by decide)
  have h10 := hh (c' := .FileTransferToken) (n := p!"files") (by decide)
  rw [if_neg (by simp), if_neg h1, if_neg h2, if_neg (fun e => h3 ⟨e.1, e.2.1⟩),
    if_neg (fun e => h4 ⟨e.1, e.2.1⟩), if_neg h5, if_neg h6, if_neg (by
      rintro ⟨e, e' | e'⟩
      · exact h7 ⟨e, e'⟩
      · exact h8 ⟨e, e'⟩), if_neg (fun e => h9 ⟨e.1, e.2.1⟩), if_neg h10]

theorem serHook_unhooked (c : Cls) (name : PStr) (v : Val) (h : name ∉ c.hooked) :
    serHook c name v = none := by
  unfold serHook
  rw [hooked_node h]
  have hh : ∀ {c' : Cls} {n : PStr}, n ∈ c'.hooked → ¬ (c = c' ∧ name = n) := by
    rintro c' n hm ⟨rfl, rfl⟩; exact h hm
  have h1 := hh (c' := .Peers) (n := p!"peers") (by decide)
  have h2 := hh (c' := .Tasks) (n := p!"tasks") (by decide)
  have h3 := hh (c' := .WantToComputeTask) (n := p!"task_header") (by decide)
  have h9 := hh (c' := .ReportComputedTask) (n := p!"stats") (by decide)
  rw [if_neg (by simp), if_neg h1, if_neg h2, if_neg h3, if_neg h9]

theorem msgSlot_unhooked {c : Cls} {name : PStr} {sd : SlotDef} (h : (name, sd) ∈ c.msgSlots) :
    name ∉ c.hooked := by
  have : ∀ p ∈ c.msgSlots, p.1 ∉ c.hooked := by cases c <;> decide
  exact this _ h

theorem enumSlot_unhooked {c : Cls} {name : PStr} {e : EnumId} (h : (name, e) ∈ c.enumSlots) :
    name ∉ c.hooked := by
  have : ∀ p ∈ c.enumSlots, p.1 ∉ c.hooked := by cases c <;> decide
  exact this _ h

theorem msgSlot_not_enum {c : Cls} {name : PStr} {sd : SlotDef} (h : (name, sd) ∈ c.msgSlots) :
    lookupName name c.enumSlots = none := by
  have : ∀ p ∈ c.msgSlots, lookupName p.1 c.enumSlots = none := by cases c <;> decide
  exact this _ h

theorem enumSlot_not_msg {c : Cls} {name : PStr} {e : EnumId} (h : (name, e) ∈ c.enumSlots) :
    lookupName name c.msgSlots = none := by
  have : ∀ p ∈ c.enumSlots, lookupName p.1 c.msgSlots = none := by cases c <;> decide
  exact this _ h

/-! ### Attributes after loading -/

theorem getAttr_modifyName (n m : PStr) (f : Val → Val) (as : Attrs) (h : n ∈ as.map Prod.fst) :
    getAttr (modifyName n f as) m = if m = n then f (getAttr as m) else getAttr as m := by
  induction as with
  | nil => cases h
  | cons kv rest ih =>
    obtain ⟨k, v⟩ := kv
    unfold modifyName
    by_cases hk : k = n
    · rw [if_pos hk]
      subst hk
      by_cases hm : m = k
      · subst hm; simp [getAttr, lookupName]
      · have : ¬ k = m := fun e => hm e.symm
        simp [getAttr, lookupName, hm, this]
    · rw [if_neg hk]
      have hr : n ∈ rest.map Prod.fst := by
        rcases List.mem_cons.mp h with h | h
        · exact absurd h.symm hk
        · exact h
      have := ih hr
      by_cases hm : k = m
      · subst hm
        simp [getAttr, lookupName, hk]
      · unfold getAttr at this ⊢
        simp only [lookupName, hm, if_false]
        exact this

theorem getAttr_postInit {c : Cls} {as : Attrs} (h : as.map Prod.fst = c.payload) (m : PStr) :
    getAttr (postInit c as) m = defaulted c m (getAttr as m) := by
  have hd : ∀ c' : Cls, c' ≠ .Peers → c' ≠ .Tasks → c' ≠ .ResourcePeers → c' ≠ .Gossip →
      c' ≠ .WantToComputeTask → c' ≠ .TaskToCompute → c' ≠ .TaskFailure →
      ∀ v, defaulted c' m v = v := by
    intro c' h1 h2 h3 h4 h5 h6 h7 v
    simp [defaulted, h1, h2, h3, h4, h5, h6, h7]
  unfold postInit
  split
  · rw [getAttr_modifyName _ _ _ _ (by rw [h]; decide)]
    simp [defaulted, orEmpty]
  · rw [getAttr_modifyName _ _ _ _ (by rw [h]; decide)]
    simp [defaulted, orEmpty]
  · rw [getAttr_modifyName _ _ _ _ (by rw [h]; decide)]
    simp [defaulted, orEmpty]
  · rw [getAttr_modifyName _ _ _ _ (by rw [h]; decide)]
    simp [defaulted, orEmpty]
  · rw [getAttr_modifyName _ _ _ _ (by rw [modifyName_names, h]; decide),
      getAttr_modifyName _ _ _ _ (by rw [h]; decide)]
    simp only [defaulted, orDefault]
    by_cases h1 : m = p!"num_subtasks"
    · subst h1; simp
    · by_cases h2 : m = p!"concent_enabled"
      · subst h2; simp
      · simp [h1, h2]
  · rw [getAttr_modifyName _ _ _ _ (by rw [h]; decide)]
    simp [defaulted]
  · rw [getAttr_modifyName _ _ _ _ (by rw [h]; decide)]
    simp [defaulted, orDefault]
  · rw [hd] <;> (intro e; subst e; simp_all)

/-- The value `load_slots` gives a declared name, before class defaults. -/
theorem loadSlots_get {E : Env} {rec : Loader} {c : Cls} {d : List (Val × Val)} :
    ∀ {names : List PStr} {as : Attrs}, loadSlots E rec c d names = .ok as → names.Nodup →
      ∀ name ∈ names,
        (c = .StartSessionResponse ∧ name = p!"conn_id" → getAttr as name = .none) ∧
        (¬ (c = .StartSessionResponse ∧ name = p!"conn_id") →
          (dictGet (.str name) d = none → getAttr as name = .none) ∧
          ∀ w, dictGet (.str name) d = some w → deserSlot E rec c name w = .ok (getAttr as name))
  | [], as, h, _, name, hn => by cases hn
  | n :: rest, as, h, hnd, name, hn => by
    unfold loadSlots at h
    rw [List.nodup_cons] at hnd
    split at h
    · cases h
    rename_i v hv
    split at h
    · cases h
    rename_i r hr
    injection h with h
    subst h
    by_cases hnn : name = n
    · subst hnn
      have hg : getAttr ((name, v) :: r) name = v := by simp [getAttr, lookupName]
      rw [hg]
      by_cases hs : c = .StartSessionResponse ∧ name = p!"conn_id"
      · rw [if_pos hs] at hv
        injection hv with hv
        exact ⟨fun _ => hv.symm, fun h => absurd hs h⟩
      · rw [if_neg hs] at hv
        refine ⟨fun h => absurd h hs, fun _ => ⟨?_, ?_⟩⟩
        · intro hg
          rw [hg] at hv
          injection hv with hv
          exact hv.symm
        · intro w hw
          rw [hw] at hv
          exact hv
    · have hn' : name ∈ rest := by
        rcases List.mem_cons.mp hn with h | h
        · exact absurd h hnn
        · exact h
      have hg : getAttr ((n, v) :: r) name = getAttr r name := by
        have : ¬ n = name := fun e => hnn e.symm
        simp [getAttr, lookupName, this]
      rw [hg]
      exact loadSlots_get hr hnd.2 name hn'

/-- The value a constructor gives a declared name. -/
theorem loadAttrs_get {E : Env} {rec : Loader} {c : Cls} {slots : Val} {as : Attrs}
    (h : loadAttrs E rec c slots = .ok as) (name : PStr) (hn : name ∈ c.payload) :
    ∃ v, getAttr as name = defaulted c name v ∧
      (c = .StartSessionResponse ∧ name = p!"conn_id" → v = .none) ∧
      (¬ (c = .StartSessionResponse ∧ name = p!"conn_id") →
        (dictGet (.str name) (dictOf slots) = none → v = .none) ∧
        ∀ w, dictGet (.str name) (dictOf slots) = some w → deserSlot E rec c name w = .ok v) := by
  unfold loadAttrs at h
  split at h
  · cases h
  rename_i as' ha
  injection h with h
  subst h
  have ha := wrapLoad_ok ha
  refine ⟨getAttr as' name, getAttr_postInit (loadSlots_names ha) name, ?_⟩
  exact loadSlots_get ha (payload_nodup c) name hn

/-! ### Message slots -/

theorem mapRes_ok {α β : Type _} {f : α → Res β} : ∀ {l : List α} {r : List β}, mapRes f l = .ok r →
    ∀ y ∈ r, ∃ x ∈ l, f x = .ok y
  | [], r, h, y, hy => by
    unfold mapRes at h; injection h with h; subst h; cases hy
  | x :: xs, r, h, y, hy => by
    unfold mapRes at h
    split at h
    · cases h
    rename_i z hz
    split at h
    · cases h
    rename_i r' hr
    injection h with h
    subst h
    rcases List.mem_cons.mp hy with h | h
    · subst h; exact ⟨x, by simp, hz⟩
    · obtain ⟨x', hx', e⟩ := mapRes_ok hr y h
      exact ⟨x', by simp [hx'], e⟩

theorem deserSingle_ok {rec : Loader} {sd : SlotDef} {key : PStr} {v w : Val}
    (h : deserSingle rec sd key v = .ok w) :
    (v = .none ∧ w = .none ∧ sd.allowNone = true) ∨
    ∃ ty ts enc sig slots, rec sd.cls ty ts enc sig slots = .ok w := by
  unfold deserSingle at h
  split at h
  · rename_i hv
    split at h
    · rename_i ha
      injection h with h
      exact Or.inl ⟨hv, h.symm, ha⟩
    · cases h
  · split at h
    · split at h
      · split at h
        · rename_i m hm
          injection h with h
          subst h
          exact Or.inr ⟨_, _, _, _, _, hm⟩
        · cases h
        · cases h
      · cases h
    · cases h

theorem deserMessage_ok {rec : Loader} {sd : SlotDef} {key : PStr} {v w : Val} {P : Val → Prop}
    (hsd : sd.isList = true → sd.allowNone = false)
    (hrec : ∀ ty ts enc sig slots x, rec sd.cls ty ts enc sig slots = .ok x →
      isMsg sd.cls x = true ∧ P x)
    (h : deserMessage rec sd key v = .ok w) :
    ((w = .none ∧ sd.allowNone = true) ∨ shapeOk sd w) ∧ ∀ x ∈ members w, P x := by
  have single : ∀ v, v.truthy = true ∨ v.truthy = false → deserSingle rec sd key v = .ok w →
      (v.truthy = true → sd.isList = false) →
      ((w = .none ∧ sd.allowNone = true) ∨ shapeOk sd w) ∧ ∀ x ∈ members w, P x := by
    intro v _ hv hl
    have hv0 := hv
    rcases deserSingle_ok hv with ⟨_, h1, h2⟩ | ⟨ty, ts, enc, sig, slots, hr⟩
    · exact ⟨Or.inl ⟨h1, h2⟩, by subst h1; intro x hx; cases hx⟩
    · obtain ⟨h1, h2⟩ := hrec _ _ _ _ _ _ hr
      have hlist : sd.isList = false := by
        cases hv' : v.truthy with
        | true => exact hl hv'
        | false =>
          exfalso
          unfold deserSingle at hv0
          split at hv0
          · rename_i hn
            split at hv0
            · injection hv0 with hv0; subst hv0; cases h1
            · cases hv0
          · split at hv0
            · rename_i a b c hi
              have : v.iter = some [a, b, c] := hi
              cases v <;> simp_all [Val.iter, Val.truthy, isMsg]
            · cases hv0
      refine ⟨Or.inr (Or.inl ⟨hlist, h1⟩), ?_⟩
      intro x hx
      cases w with
      | msg c ty ts enc sig attrs =>
        simp only [members, List.mem_singleton] at hx
        subst hx; exact h2
      | _ => simp [isMsg] at h1
  unfold deserMessage at h
  split at h
  · rename_i il value hi
    by_cases h1 : (value.truthy && !(eqBool il sd.isList)) = true
    · rw [if_pos h1] at h; cases h
    · rw [if_neg h1] at h
      by_cases h2 : (value.truthy && il.truthy) = true
      · rw [if_pos h2] at h
        simp only [Bool.and_eq_true, Bool.not_eq_true', not_and, Bool.not_eq_false] at h1 h2
        have he := h1 h2.1
        have hl : sd.isList = true := by
          cases hb : sd.isList with
          | true => rfl
          | false =>
            rw [hb] at he
            unfold eqBool at he
            split at he <;> simp_all [Val.truthy]
        split at h
        · rename_i l
          split at h
          · cases h
          rename_i r hr
          injection h with h
          subst h
          have hm : ∀ x ∈ r, isMsg sd.cls x = true ∧ P x := by
            intro x hx
            obtain ⟨y, _, hy⟩ := mapRes_ok hr x hx
            rcases deserSingle_ok hy with ⟨_, _, h3⟩ | ⟨_, _, _, _, _, hr'⟩
            · rw [hsd hl] at h3; cases h3
            · exact hrec _ _ _ _ _ _ hr'
          exact ⟨Or.inr (Or.inr ⟨hl, r, rfl, fun x hx => (hm x hx).1⟩), fun x hx => (hm x hx).2⟩
        · cases h
      · rw [if_neg h2] at h
        apply single value (by cases value.truthy <;> simp) h
        intro ht
        simp only [ht, Bool.true_and, Bool.not_eq_true', Bool.not_eq_false, Bool.not_eq_true] at h1 h2
        cases hb : sd.isList with
        | false => rfl
        | true =>
          rw [hb] at h1
          unfold eqBool at h1
          split at h1 <;> simp_all [Val.truthy, floatIsZero]
  · cases h

theorem enum_lookup_ok {e : EnumId} {w v : Val} (h : e.lookup w = some v) :
    ∃ s ∈ e.values, v = .enum e s := by
  unfold EnumId.lookup at h
  split at h
  · split at h
    · rename_i s hs
      injection h with h
      exact ⟨s, List.contains_iff_mem.mp hs, h.symm⟩
    · cases h
  · split at h
    · rename_i hs
      injection h with h
      simp only [Bool.and_eq_true] at hs
      exact ⟨_, List.contains_iff_mem.mp hs.2, h.symm⟩
    · cases h
  · cases h

/-- Loading keeps to the declared message and enum slots. -/
theorem loadAttrs_typed {E : Env} {rec : Loader} {P : Val → Prop} {c : Cls} {slots : Val} {as : Attrs}
    (hrec : ∀ c' ty ts enc sig slots x, rec c' ty ts enc sig slots = .ok x →
      isMsg c' x = true ∧ P x)
    (h : loadAttrs E rec c slots = .ok as) :
    (∀ name sd, (name, sd) ∈ c.msgSlots →
      (getAttr as name = .none ∧
        (sd.allowNone = true ∨ dictGet (.str name) (dictOf slots) = none)) ∨
      shapeOk sd (getAttr as name)) ∧
    (∀ name e, (name, e) ∈ c.enumSlots →
      getAttr as name = .none ∨ ∃ s ∈ e.values, getAttr as name = .enum e s) ∧
    (∀ name sd x, (name, sd) ∈ c.msgSlots → x ∈ members (getAttr as name) → P x) := by
  have hmsg : ∀ name sd, (name, sd) ∈ c.msgSlots →
      ((getAttr as name = .none ∧
        (sd.allowNone = true ∨ dictGet (.str name) (dictOf slots) = none)) ∨
      shapeOk sd (getAttr as name)) ∧ ∀ x ∈ members (getAttr as name), P x := by
    intro name sd hs
    obtain ⟨v, hv, _, h2⟩ := loadAttrs_get h name (msgSlot_payload hs)
    have hdef : defaulted c name v = v := by
      have h' : ∀ p ∈ c.msgSlots, defaulted c p.1 v = v := by
        cases c <;> simp [Cls.msgSlots, defaulted]
      exact h' _ hs
    rw [hdef] at hv
    rw [hv]
    have hc : ¬ (c = .StartSessionResponse ∧ name = p!"conn_id") := by
      rintro ⟨rfl, rfl⟩; revert hs; simp [Cls.msgSlots]
    obtain ⟨h2, h3⟩ := h2 hc
    cases hg : dictGet (.str name) (dictOf slots) with
    | none => rw [h2 hg]; exact ⟨Or.inl ⟨rfl, Or.inr rfl⟩, by intro x hx; cases hx⟩
    | some w =>
      have := h3 w hg
      rw [deserSlot_unhooked _ _ _ _ _ (msgSlot_unhooked hs)] at this
      unfold deserBase at this
      rw [msgSlot_not_enum hs, msgSlots_lookup.mp hs] at this
      have he : (if w = .none then (none : Option EnumId) else none) = none := by split <;> rfl
      rw [he] at this
      simp only at this
      obtain ⟨a, b⟩ := deserMessage_ok (P := P) (list_not_none hs) (fun ty ts enc sig sl x hx => hrec _ _ _ _ _ _ _ hx) this
      refine ⟨?_, b⟩
      rcases a with ⟨a1, a2⟩ | a
      · exact Or.inl ⟨a1, Or.inl a2⟩
      · exact Or.inr a
  refine ⟨fun name sd hs => (hmsg name sd hs).1, ?_, fun name sd x hs hx => (hmsg name sd hs).2 x hx⟩
  intro name e hs
  obtain ⟨v, hv, _, h2⟩ := loadAttrs_get h name (enumSlot_payload hs)
  have hc : ¬ (c = .StartSessionResponse ∧ name = p!"conn_id") := by
    rintro ⟨rfl, rfl⟩; revert hs; simp [Cls.enumSlots]
  obtain ⟨h2, h3⟩ := h2 hc
  have hval : v = .none ∨ ∃ s ∈ e.values, v = .enum e s := by
    cases hg : dictGet (.str name) (dictOf slots) with
    | none => exact Or.inl (h2 hg)
    | some w =>
      have := h3 w hg
      rw [deserSlot_unhooked _ _ _ _ _ (enumSlot_unhooked hs)] at this
      unfold deserBase at this
      rw [enumSlots_lookup.mp hs, enumSlot_not_msg hs] at this
      by_cases hw : w = .none
      · subst hw; simp only [if_true] at this; injection this with this; exact Or.inl this.symm
      · rw [if_neg hw] at this
        simp only at this
        split at this
        · rename_i m hm
          injection this with this
          subst this
          right
          exact enum_lookup_ok hm
        · cases this
  rw [hv]
  have hdef : (∀ v, defaulted c name v = v) ∨ (c = .TaskFailure ∧ name = p!"reason") := by
    have h' : ∀ p ∈ c.enumSlots, (∀ v, defaulted c p.1 v = v) ∨ (c = .TaskFailure ∧ p.1 = p!"reason") := by
      cases c <;> simp [Cls.enumSlots, defaulted]
    exact h' _ hs
  rcases hdef with hd | ⟨rfl, rfl⟩
  · rw [hd]; exact hval
  · have : e = .taskFailureReason := by simpa [Cls.enumSlots] using hs
    subst this
    rcases hval with rfl | ⟨s, hs, rfl⟩
    · right; exact ⟨_, by decide, rfl⟩
    · right; exact ⟨s, hs, by simp [defaulted]⟩

theorem loadMsg_isMsg {E : Env} {n : Nat} {c : Cls} {ty ts enc sig slots x : Val}
    (h : loadMsg E n c ty ts enc sig slots = .ok x) :
    ∃ n' as, n = n' + 1 ∧ loadAttrs E (loadMsg E n') c slots = .ok as ∧
      x = .msg c ty ts enc sig as := by
  cases n with
  | zero => unfold loadMsg at h; cases h
  | succ n =>
    unfold loadMsg at h
    split at h
    · cases h
    rename_i as ha
    injection h with h
    exact ⟨n, as, rfl, ha, h.symm⟩

/-- What every constructor call establishes holds everywhere in a loaded tree. -/
theorem loadMsg_everywhere {E : Env} {Q : Cls → Attrs → Prop}
    (hQ : ∀ n c slots as, loadAttrs E (loadMsg E n) c slots = .ok as → Q c as) :
    ∀ (n : Nat) (c : Cls) (ty ts enc sig slots x : Val),
      loadMsg E n c ty ts enc sig slots = .ok x → Everywhere Q x := by
  intro n
  induction n with
  | zero => intro c ty ts enc sig slots x h; unfold loadMsg at h; cases h
  | succ n ih =>
    intro c ty ts enc sig slots x h
    obtain ⟨n', as, e, ha, rfl⟩ := loadMsg_isMsg h
    injection e with e
    subst e
    refine .mk _ _ _ _ _ _ (hQ _ _ _ _ ha) ?_
    refine (loadAttrs_typed (P := Everywhere Q) ?_ ha).2.2
    intro c' ty ts enc sig slots x hx
    refine ⟨?_, ih _ _ _ _ _ _ _ hx⟩
    obtain ⟨_, _, _, _, rfl⟩ := loadMsg_isMsg hx
    simp [isMsg]

theorem getAttr_version (as : Attrs) (o : Option PStr) (name : PStr) (h : name ≠ p!"_version") :
    getAttr (as ++ versionAttr o) name = getAttr as name := by
  unfold getAttr
  rw [lookupName_append]
  cases lookupName name as with
  | some v => rfl
  | none =>
    cases o with
    | none => rfl
    | some v =>
      have : ¬ p!"_version" = name := fun e => h e.symm
      simp [versionAttr, lookupName, this]

theorem payload_ne_version {c : Cls} {name : PStr} (h : name ∈ c.payload) : name ≠ p!"_version" := by
  intro e; subst e; exact payload_no_version c h

/-- What `load` constructs the message from. -/
theorem load_construct {E : Env} {dec : Bytes → Bytes → Res Bytes} {data : Bytes}
    {priv pub : Option Bytes} {ct : Bool} {now : Int} {m : Msg}
    (h : (load E dec (some data) priv pub ct now).2 = .ok m) :
    ∃ payload slots as, Payload (loadDecrypt dec priv) data payload ∧ loads payload = .ok slots ∧
      loadAttrs E (loadMsg E maxDepth) m.cls slots = .ok as ∧
      m.attrs = as ++ versionAttr (if m.cls = .Hello then
        some (asciiDecodeReplace (fieldVersion (versionField data))) else none) := by
  obtain ⟨_, _, _, c, hct, _, p, version, hp, hver, hv, hparse, _⟩ := load_ok h
  obtain ⟨slots, hl, hcon, _⟩ := parsePayload_ok hparse
  obtain ⟨as, ha, hm⟩ := construct_ok hcon
  subst hm
  subst hver
  exact ⟨p, slots, as, hp, hl, ha, rfl⟩

/-- What every constructor call establishes holds everywhere in a loaded message. -/
theorem load_everywhere {E : Env} {Q : Cls → Attrs → Prop}
    (hQ : ∀ n c slots as, loadAttrs E (loadMsg E n) c slots = .ok as → Q c as)
    (hH : ∀ as o, Q .Hello as → Q .Hello (as ++ versionAttr o))
    {dec : Bytes → Bytes → Res Bytes} {data : Bytes}
    {priv pub : Option Bytes} {ct : Bool} {now : Int} {m : Msg}
    (h : (load E dec (some data) priv pub ct now).2 = .ok m) : Everywhere Q m.val := by
  obtain ⟨p, slots, as, _, _, ha, hm⟩ := load_construct h
  unfold Msg.val
  refine .mk _ _ _ _ _ _ ?_ ?_
  · rw [hm]
    by_cases hc : m.cls = .Hello
    · have := hQ _ _ _ _ ha
      rw [hc] at this ⊢
      exact hH _ _ this
    · rw [if_neg hc]; simp only [versionAttr, List.append_nil]; exact hQ _ _ _ _ ha
  · intro name sd x hs hx
    rw [hm, getAttr_version _ _ _ (payload_ne_version (msgSlot_payload hs))] at hx
    refine (loadAttrs_typed (P := Everywhere Q) ?_ ha).2.2 name sd x hs hx
    intro c' ty ts enc sig slots x hx
    refine ⟨?_, loadMsg_everywhere hQ _ _ _ _ _ _ _ _ hx⟩
    obtain ⟨_, _, _, _, rfl⟩ := loadMsg_isMsg hx
    simp [isMsg]

/-! ### The payload as a dictionary -/

theorem keyEq_str (k : Val) (n : PStr) : k.keyEq (.str n) = true ↔ k = .str n := by
  unfold Val.keyEq
  cases k <;> simp [Val.keyNorm]
  split <;> nofun

theorem dictGet_dictSet_str (k v : Val) (n : PStr) (d : List (Val × Val)) :
    dictGet (.str n) (dictSet k v d) = if k = .str n then some v else dictGet (.str n) d := by
  induction d with
  | nil =>
    unfold dictSet dictGet
    by_cases hk : k = .str n
    · subst hk; simp [(keyEq_str (.str n) n).mpr rfl]
    · have : k.keyEq (.str n) = false := by
        cases h : k.keyEq (.str n) with
        | false => rfl
        | true => exact absurd ((keyEq_str k n).mp h) hk
      simp [this, hk, dictGet]
  | cons kv rest ih =>
    obtain ⟨k', w⟩ := kv
    unfold dictSet
    by_cases hk : k'.keyEq k = true
    · rw [if_pos hk]
      have hiff : k' = .str n ↔ k = .str n := by
        unfold Val.keyEq at hk
        simp only [beq_iff_eq] at hk
        constructor
        · intro e; subst e
          have := (keyEq_str k n).mp (by unfold Val.keyEq; rw [← hk]; simp)
          exact this
        · intro e; subst e
          have := (keyEq_str k' n).mp (by unfold Val.keyEq; rw [hk]; simp)
          exact this
      unfold dictGet
      by_cases h : k = .str n
      · rw [if_pos ((keyEq_str k' n).mpr (hiff.mpr h)), if_pos h]
      · have h' : ¬ k' = .str n := fun e => h (hiff.mp e)
        have : ¬ k'.keyEq (.str n) = true := fun e => h' ((keyEq_str k' n).mp e)
        rw [if_neg this, if_neg h, if_neg this]
    · rw [if_neg hk]
      have e1 : dictGet (.str n) ((k', w) :: dictSet k v rest) =
          if k'.keyEq (.str n) = true then some w else dictGet (.str n) (dictSet k v rest) := rfl
      have e2 : dictGet (.str n) ((k', w) :: rest) =
          if k'.keyEq (.str n) = true then some w else dictGet (.str n) rest := rfl
      rw [e1, e2, ih]
      by_cases h : k'.keyEq (.str n) = true
      · have hk' := (keyEq_str k' n).mp h
        have : ¬ k = .str n := by
          intro e; subst e; subst hk'; exact hk ((keyEq_str (.str n) n).mpr rfl)
        rw [if_pos h, if_pos h, if_neg this]
      · rw [if_neg h, if_neg h]

theorem pairsOf_wire (ps : List (Val × Val)) :
    pairsOf (ps.map fun p => .list [p.1, p.2]) = .ok ps := by
  induction ps with
  | nil => rfl
  | cons p rest ih =>
    simp only [List.map_cons]
    unfold pairsOf
    simp only [Val.iter]
    rw [ih]

theorem dictOfPairs_get (n : PStr) : ∀ (ps acc : List (Val × Val)),
    (∀ p ∈ ps, p.1.hashable = true) →
    ∃ d, dictOfPairs acc ps = some d ∧
      dictGet (.str n) d = match lastValue n ps with
        | some v => some v
        | none => dictGet (.str n) acc
  | [], acc, _ => ⟨acc, rfl, rfl⟩
  | (k, v) :: rest, acc, h => by
    obtain ⟨d, hd, hg⟩ := dictOfPairs_get n rest (dictSet k v acc) (fun p hp => h p (by simp [hp]))
    refine ⟨d, ?_, ?_⟩
    · unfold dictOfPairs
      have : k.hashable = true := h (k, v) (by simp)
      rw [if_pos this]; exact hd
    · rw [hg]
      unfold lastValue
      rw [List.reverse_cons, List.find?_append]
      cases hf : rest.reverse.find? (fun p => p.1 = .str n) with
      | some p => simp
      | none =>
        simp only [Option.map_none, Option.none_or]
        rw [dictGet_dictSet_str]
        by_cases hk : k = .str n
        · simp [hk]
        · simp [hk]

theorem dictOf_wire (ps : List (Val × Val)) (h : ∀ p ∈ ps, p.1.hashable = true) (n : PStr) :
    dictGet (.str n) (dictOf (wirePairs ps)) = lastValue n ps := by
  obtain ⟨d, hd, hg⟩ := dictOfPairs_get n ps [] h
  have : dictOf (wirePairs ps) = d := by
    unfold dictOf wirePairs
    simp only [Val.asDict, Val.iter]
    rw [pairsOf_wire]
    simp only
    rw [hd]
  rw [this, hg]
  cases lastValue n ps <;> rfl

theorem loadSlots_congr {E : Env} {rec : Loader} {c : Cls} {d d' : List (Val × Val)} :
    ∀ names : List PStr, (∀ n ∈ names, dictGet (.str n) d = dictGet (.str n) d') →
      loadSlots E rec c d names = loadSlots E rec c d' names
  | [], _ => rfl
  | n :: rest, h => by
    unfold loadSlots
    rw [h n (by simp), loadSlots_congr rest (fun m hm => h m (by simp [hm]))]

end Verif
