import Verif.Spec.Accept
import Verif.Lemmas.Schema
import Verif.Lemmas.Decoded
import Verif.Lemmas.FloatKey
import Verif.Lemmas.Depth
/-! # Lemmas about what can be read -/

set_option linter.unusedSimpArgs false

namespace Verif

open Spec

/-! ### Elements, pairs and entries -/

theorem elements_iff {v : Val} {l : List Val} (h : Data v) : v.iter = some l ↔ Elements v l := by
  constructor
  · intro hl
    cases v <;> simp only [Val.iter] at hl <;> cases hl
    all_goals first | exact .list _ | exact .text _ | exact .bytes _ | exact .dict _ | simp [Data, data] at h
  · rintro (_ | _ | _ | _) <;> rfl

theorem pairUp_iff : ∀ {l : List Val} {ps : List (Val × Val)}, (∀ x ∈ l, Data x) →
    (pairsOf l = .ok ps ↔ PairUp l ps)
  | [], ps, _ => by
    unfold pairsOf
    exact ⟨fun h => by cases h; exact .nil, fun h => by cases h; rfl⟩
  | x :: xs, ps, h => by
    unfold pairsOf
    have ih := fun ps => pairUp_iff (l := xs) (ps := ps) fun y hy => h y (by simp [hy])
    have hx := h x (by simp)
    constructor
    · intro e
      split at e
      · rename_i k v hi
        split at e
        · rename_i r hr
          cases e
          exact .cons ((elements_iff hx).mp hi) ((ih r).mp hr)
        · cases e
      · cases e
      · cases e
    · intro e
      cases e with
      | cons he hp =>
        rw [(elements_iff hx).mpr he]
        dsimp only
        rw [(ih _).mpr hp]

theorem data_dict_or {v : Val} (h : Data v) : (∃ d, v = .dict d) ∨ (v.asDict = none ∧ ∀ d, v ≠ .dict d) := by
  cases v <;> simp [Data, data] at h <;> simp [Val.asDict]

/-- What a frozen dictionary is made from. -/
theorem fdArg_iff {v : Val} {ps : List (Val × Val)} (h : Data v) : fdArg v = .ok ps ↔ Entries v ps := by
  unfold fdArg
  rcases data_dict_or h with ⟨d, rfl⟩ | ⟨hd, hn⟩
  · simp only [Val.asDict]
    constructor
    · intro e; cases e; exact .dict _
    · intro e
      cases e with
      | dict => rfl
      | pairs hn => exact absurd rfl (hn _)
  · rw [hd]
    dsimp only
    constructor
    · intro e
      split at e
      · cases e
      · rename_i l hl
        exact .pairs hn ((elements_iff h).mp hl) ((pairUp_iff (iter_data h hl)).mp e)
    · intro e
      cases e with
      | dict => exact absurd rfl (hn _)
      | pairs _ he hp =>
        have hl := (elements_iff h).mpr he
        rw [hl]
        exact (pairUp_iff (iter_data h hl)).mpr hp

theorem entries_data {v : Val} {ps : List (Val × Val)} (h : Data v) (he : Entries v ps) :
    ∀ k x, (k, x) ∈ ps → Data k ∧ Data x := by
  cases he with
  | dict d =>
    intro k x hm
    have := data_dict h k x hm
    exact ⟨data_scalar this.1, this.2⟩
  | pairs _ he hp =>
    have hl := (elements_iff h).mpr he
    exact pairsOf_data (iter_data h hl) ((pairUp_iff (iter_data h hl)).mpr hp)

theorem entries_unique {v : Val} {ps qs : List (Val × Val)} (h : Data v) (hp : Entries v ps)
    (hq : Entries v qs) : ps = qs := by
  have := ((fdArg_iff h).mpr hp).symm.trans ((fdArg_iff h).mpr hq)
  injection this

theorem hashable_iff_scalar {k : Val} (h : Data k) : k.hashable = true ↔ scalar k = true := by
  cases k <;> simp [Data, data] at h <;> simp [Val.hashable, scalar]

theorem lastValue_mem {n : PStr} {ps : List (Val × Val)} {w : Val} (h : lastValue n ps = some w) :
    (.str n, w) ∈ ps := by
  unfold lastValue at h
  cases hf : ps.reverse.find? (fun p => p.1 = .str n) with
  | none => rw [hf] at h; cases h
  | some p =>
    rw [hf] at h
    injection h with h
    have h1 := List.find?_some hf
    have h2 := List.mem_of_find?_eq_some hf
    simp only [decide_eq_true_eq] at h1
    rw [List.mem_reverse] at h2
    rw [← h1, ← h]
    exact h2

theorem lastValue_some {n : PStr} {ps : List (Val × Val)} {w : Val} (h : (.str n, w) ∈ ps) :
    ∃ x, lastValue n ps = some x := by
  unfold lastValue
  cases hf : ps.reverse.find? (fun p => p.1 = .str n) with
  | none =>
    rw [List.find?_eq_none] at hf
    have := hf _ (List.mem_reverse.mpr h)
    simp at this
  | some p => exact ⟨_, rfl⟩

theorem dictOfPairs_some : ∀ {ps acc d : List (Val × Val)}, dictOfPairs acc ps = some d →
    ∀ p ∈ ps, p.1.hashable = true
  | [], _, _, _, p, hp => by cases hp
  | (k, v) :: rest, acc, d, h, p, hp => by
    unfold dictOfPairs at h
    split at h
    · rename_i hk
      rcases List.mem_cons.mp hp with e | e
      · rw [e]; exact hk
      · exact dictOfPairs_some h p e
    · cases h

/-- What a payload gives a field, in the model. -/
theorem given_iff {v : Val} (h : Data v) (n : PStr) (w : Val) :
    dictGet (.str n) (dictOf v) = some w ↔ Given v n w := by
  unfold Given
  rcases data_dict_or h with ⟨d, rfl⟩ | ⟨hd, hn⟩
  · have hdk : distinctKeys (d.map Prod.fst) = true := by
      unfold Data at h
      simp only [data, Bool.and_eq_true] at h
      exact h.2
    have key : ∀ x, (.str n, x) ∈ d → dictGet (.str n) d = some x := fun x hx => dictGet_of_mem' hdk hx rfl
    show dictGet (.str n) d = some w ↔ _
    constructor
    · intro hg
      refine ⟨d, .dict d, fun p hp => (data_dict h p.1 p.2 hp).1, ?_⟩
      obtain ⟨x, hx⟩ := lastValue_some (dictGet_mem hg)
      rw [key x (lastValue_mem hx)] at hg
      rw [hx, hg]
    · rintro ⟨ps, he, _, hl⟩
      have : ps = d := entries_unique h he (.dict d)
      subst this
      exact key w (lastValue_mem hl)
  · unfold dictOf
    rw [hd]
    dsimp only
    constructor
    · intro hg
      split at hg
      · cases hg
      rename_i l hl
      split at hg
      · cases hg
      rename_i ps hps
      split at hg
      · rename_i d hdd
        have hh := dictOfPairs_some hdd
        refine ⟨ps, .pairs hn ((elements_iff h).mp hl) ((pairUp_iff (iter_data h hl)).mp hps), ?_, ?_⟩
        · intro p hp
          rw [← hashable_iff_scalar (pairsOf_data (iter_data h hl) hps p.1 p.2 hp).1]
          exact hh p hp
        · obtain ⟨d', h1, h2⟩ := dictOfPairs_get n ps [] hh
          rw [hdd] at h1
          injection h1 with h1
          subst h1
          rw [hg] at h2
          cases hl : lastValue n ps with
          | none => rw [hl] at h2; cases h2
          | some x => rw [hl] at h2; exact h2.symm
      · cases hg
    · rintro ⟨ps, he, hk, hl⟩
      cases he with
      | dict => exact absurd rfl (hn _)
      | pairs _ he hp =>
        have hi := (elements_iff h).mpr he
        have hps := (pairUp_iff (iter_data h hi)).mpr hp
        rw [hi]
        dsimp only
        rw [hps]
        dsimp only
        obtain ⟨d', h1, h2⟩ := dictOfPairs_get n ps [] fun p hp =>
          (hashable_iff_scalar (pairsOf_data (iter_data h hi) hps p.1 p.2 hp).1).mpr (hk p hp)
        rw [h1]
        dsimp only
        rw [h2, hl]

theorem given_data {v : Val} (h : Data v) {n : PStr} {w : Val} (hg : Given v n w) : Data w := by
  obtain ⟨ps, he, _, hl⟩ := hg
  exact (entries_data h he _ _ (lastValue_mem hl)).2

/-! ### Flags -/

theorem eqBool_sameKey (x : Val) (b : Bool) : eqBool x b = sameKey x (.bool b) := by
  have hp : (0 : Int) < 2 ^ 1074 := by decide +kernel
  cases x with
  | bool c =>
    simp only [eqBool, sameKey, numValue]
    cases b <;> cases c <;> decide +kernel
  | int i =>
    simp only [eqBool, sameKey, numValue]
    rw [Bool.eq_iff_iff]
    simp only [beq_iff_eq]
    constructor
    · intro h; rw [h]
    · intro h; exact Int.eq_of_mul_eq_mul_right (by omega) h
  | float f =>
    simp only [eqBool, sameKey, numValue]
    cases b with
    | true =>
      simp only [if_true]
      rw [Bool.eq_iff_iff]
      have one : IsDouble 0x3FF0000000000000 (1 * 2 ^ 1074) := ⟨0, 1023, 0, by decide +kernel⟩
      constructor
      · intro h
        rw [beq_iff_eq] at h
        subst h
        rw [doubleOf_double one]
        simp
      · intro h
        rcases double_cases f with ⟨y, hy⟩ | ⟨hn, _⟩
        · rw [doubleOf_double hy] at h
          simp only [beq_iff_eq] at h
          subst h
          rw [double_inj hy one (by omega)]
          rfl
        · rw [hn] at h; cases h
    | false =>
      simp only [Bool.false_eq_true, if_false, floatIsZero]
      rw [Bool.eq_iff_iff]
      constructor
      · intro h
        simp only [Bool.or_eq_true, beq_iff_eq] at h
        rcases h with rfl | rfl <;> decide +kernel
      · intro h
        rcases double_cases f with ⟨y, s, e, g, hs, he, hg, hb, hv⟩ | ⟨hn, _⟩
        · rw [doubleOf_double ⟨s, e, g, hs, he, hg, hb, hv⟩] at h
          simp only [beq_iff_eq, Int.zero_mul] at h
          subst h
          have hz : (if e = 0 then (g : Int) else (2 ^ 52 + g) * 2 ^ (e - 1)) = 0 := by
            generalize (if e = 0 then (g : Int) else (2 ^ 52 + g) * 2 ^ (e - 1)) = m at *
            rcases (by omega : s = 0 ∨ s = 1) with rfl | rfl
            · simpa using hv.symm
            · simpa using hv.symm
          have : e = 0 ∧ g = 0 := by
            by_cases h0 : e = 0
            · rw [if_pos h0] at hz; omega
            · rw [if_neg h0] at hz
              have : (0 : Int) < (2 ^ 52 + g) * 2 ^ (e - 1) :=
                Int.mul_pos (by omega) (Int.pow_pos (by omega))
              omega
          obtain ⟨rfl, rfl⟩ := this
          have hf : f = 0 ∨ f = 0x8000000000000000 := by
            rcases (by omega : s = 0 ∨ s = 1) with rfl | rfl
            · left; apply UInt64.toNat.inj; rw [hb]; rfl
            · right; apply UInt64.toNat.inj; rw [hb]; rfl
          rcases hf with rfl | rfl <;> rfl
        · rw [hn] at h; cases h
  | _ => simp only [eqBool, sameKey, numValue]

/-! ### Frozen dictionaries -/

/-- The item can be assigned. -/
def Assignable (E : Env) (conv : PStr → Val → Res Val) (c : FDictId) (key v : Val) : Prop :=
  ∃ k y, key = .str k ∧ conv k v = .ok y ∧ k ∈ c.items.map Prod.fst ∧ fdValidate E c k y = .ok ()

theorem fdSetV_some {E : Env} {conv : PStr → Val → Res Val} {c : FDictId} {key v : Val}
    (h : Assignable E conv c key v) : ∃ k y, key = .str k ∧
      ∀ items, fdSetV E conv c items key v = .ok (setName k y items) := by
  obtain ⟨k, y, rfl, hc, hk, hv⟩ := h
  refine ⟨k, y, rfl, fun items => ?_⟩
  unfold fdSetV
  dsimp only
  rw [hc]
  dsimp only
  unfold fdSet
  rw [hv]
  dsimp only
  rw [if_pos ((lookupName_isSome _ _).mpr hk)]

theorem fdSetAll_assignable {E : Env} {conv : PStr → Val → Res Val} {c : FDictId} :
    ∀ {pairs : List (Val × Val)} {items : Attrs},
    (∀ items', fdSetAll E conv c items pairs = .ok items' →
      (∀ key v, (key, v) ∈ pairs → Assignable E conv c key v) ∧
      ∀ n, (lookupName n items').isSome = true ↔ (lookupName n items).isSome = true ∨ ∃ v, (.str n, v) ∈ pairs) ∧
    ((∀ key v, (key, v) ∈ pairs → Assignable E conv c key v) → ∃ items', fdSetAll E conv c items pairs = .ok items')
  | [], items => by
    refine ⟨fun items' h => ?_, fun _ => ⟨items, rfl⟩⟩
    unfold fdSetAll at h
    cases h
    simp
  | (key, v) :: rest, items => by
    constructor
    · intro items' h
      unfold fdSetAll at h
      split at h
      · cases h
      rename_i i1 h1
      obtain ⟨k, y, rfl, hc, hk, hv, rfl⟩ := fdSetV_ok h1
      obtain ⟨a1, a2⟩ := (fdSetAll_assignable (pairs := rest)).1 items' h
      refine ⟨fun key' v' hm => ?_, fun n => ?_⟩
      · rcases List.mem_cons.mp hm with e | e
        · injection e with e1 e2
          subst e1 e2
          exact ⟨k, y, rfl, hc, hk, hv⟩
        · exact a1 _ _ e
      · rw [a2 n, lookupName_setName]
        by_cases e : n = k
        · subst e
          rw [if_pos rfl]
          exact ⟨fun _ => .inr ⟨v, by simp⟩, fun _ => .inl rfl⟩
        · rw [if_neg e]
          constructor
          · rintro (a | ⟨w, a⟩)
            · exact .inl a
            · exact .inr ⟨w, by simp [a]⟩
          · rintro (a | ⟨w, a⟩)
            · exact .inl a
            · rcases List.mem_cons.mp a with b | b
              · injection b with b _
                injection b with b
                exact absurd b e
              · exact .inr ⟨w, b⟩
    · intro h
      obtain ⟨k, y, rfl, hs⟩ := fdSetV_some (h key v (by simp))
      unfold fdSetAll
      rw [hs]
      exact (fdSetAll_assignable (pairs := rest)).2 fun key' v' hm => h key' v' (by simp [hm])

theorem fdDefaults_assignable {E : Env} {conv : PStr → Val → Res Val} {c : FDictId} :
    ∀ {l items : Attrs}, (l.map Prod.fst).Nodup →
    ((∃ items', fdDefaults E conv c items l = .ok items') ↔
      ∀ k dv, (k, dv) ∈ l → (lookupName k items).isSome = true ∨ Assignable E conv c (.str k) dv)
  | [], items, _ => by simp [fdDefaults]
  | (k, dv) :: rest, items, hn => by
    rw [List.map_cons, List.nodup_cons] at hn
    unfold fdDefaults
    by_cases hp : (lookupName k items).isSome = true
    · rw [if_pos hp, fdDefaults_assignable hn.2]
      constructor
      · intro h k' dv' hm
        rcases List.mem_cons.mp hm with e | e
        · injection e with e1 e2
          subst e1
          exact .inl hp
        · exact h _ _ e
      · intro h k' dv' hm
        exact h _ _ (by simp [hm])
    · rw [if_neg hp]
      by_cases ha : Assignable E conv c (.str k) dv
      · obtain ⟨k', y, e, hs⟩ := fdSetV_some ha
        injection e with e
        subst e
        rw [hs]
        dsimp only
        rw [fdDefaults_assignable hn.2]
        have key : ∀ k' dv', (k', dv') ∈ rest →
            (lookupName k' (setName k y items)).isSome = (lookupName k' items).isSome := by
          intro k' dv' hm
          rw [lookupName_setName, if_neg]
          rintro rfl
          exact hn.1 (List.mem_map.mpr ⟨_, hm, rfl⟩)
        constructor
        · intro h k' dv' hm
          rcases List.mem_cons.mp hm with e | e
          · injection e with e1 e2
            subst e1 e2
            exact .inr ha
          · rw [← key _ _ e]; exact h _ _ e
        · intro h k' dv' hm
          rw [key _ _ hm]
          exact h _ _ (by simp [hm])
      · constructor
        · rintro ⟨i, h⟩
          split at h
          · cases h
          rename_i i' h'
          obtain ⟨k1, y, e, hc, hk, hv, _⟩ := fdSetV_ok h'
          exact absurd ⟨k1, y, e, hc, hk, hv⟩ ha
        · intro h
          rcases h k dv (by simp) with a | a
          · exact absurd a hp
          · exact absurd a ha

/-- When a frozen dictionary can be made from pairs. -/
theorem mkFDict_pairs {E : Env} {c : FDictId} {v : Val} {ps : List (Val × Val)} (hps : fdArg v = .ok ps) :
    (∃ w, mkFDict E c v = .ok w) ↔
      (∀ key w, (key, w) ∈ ps → Assignable E (fdConv E c) c key w) ∧
      ∀ k dv, (k, dv) ∈ dictEntries c → (∃ w, (.str k, w) ∈ ps) ∨ Assignable E (fdConv E c) c (.str k) dv := by
  have hnd : (c.items.map Prod.fst).Nodup := by cases c <;> decide
  unfold mkFDict
  rw [hps]
  dsimp only
  unfold fdBuild
  constructor
  · rintro ⟨w, hw⟩
    split at hw
    · cases hw
    rename_i items hi
    split at hw
    · cases hw
    rename_i items' hi'
    obtain ⟨a1, a2⟩ := fdSetAll_assignable.1 _ hi
    refine ⟨a1, fun k dv hm => ?_⟩
    rw [← items_listed] at hm
    rcases (fdDefaults_assignable hnd).mp ⟨_, hi'⟩ k dv hm with a | a
    · rcases (a2 k).mp a with b | b
      · cases b
      · exact .inl b
    · exact .inr a
  · rintro ⟨h1, h2⟩
    obtain ⟨items, hi⟩ := (fdSetAll_assignable (items := [])).2 h1
    obtain ⟨_, a2⟩ := fdSetAll_assignable.1 _ hi
    rw [hi]
    dsimp only
    have : ∃ items', fdDefaults E (fdConv E c) c items c.items = .ok items' := by
      rw [fdDefaults_assignable hnd]
      intro k dv hm
      rw [items_listed] at hm
      rcases h2 k dv hm with a | a
      · exact .inl ((a2 k).mpr (.inr a))
      · exact .inr a
    obtain ⟨items', hi'⟩ := this
    rw [hi']
    exact ⟨_, rfl⟩

/-- When a frozen dictionary can be made from data. -/
theorem mkFDict_iff {E : Env} {c : FDictId} {v : Val} (h : Data v) :
    (∃ w, mkFDict E c v = .ok w) ↔ ∃ ps, Entries v ps ∧
      (∀ key w, (key, w) ∈ ps → Assignable E (fdConv E c) c key w) ∧
      ∀ k dv, (k, dv) ∈ dictEntries c → (∃ w, (.str k, w) ∈ ps) ∨ Assignable E (fdConv E c) c (.str k) dv := by
  constructor
  · intro hw
    cases hps : fdArg v with
    | error e =>
      obtain ⟨w, hw⟩ := hw
      unfold mkFDict at hw
      rw [hps] at hw
      cases hw
    | ok ps => exact ⟨ps, (fdArg_iff h).mp hps, (mkFDict_pairs hps).mp hw⟩
  · rintro ⟨ps, he, hh⟩
    exact (mkFDict_pairs ((fdArg_iff h).mpr he)).mpr hh

theorem taskDef_iff {E : Env} {v : Val} (h : Data v) :
    (∃ w, mkFDict E .computeTaskDef v = .ok w) ↔ TaskDefData v := by
  rw [mkFDict_iff h]
  unfold TaskDefData
  have text : ∀ w, Data w → ((∃ s, w.asStr = some s ∧ s.length ≤ 128) ↔ TextUpTo 128 w) := by
    intro w hw
    unfold TextUpTo
    cases w <;> simp [Data, data] at hw <;> simp [Val.asStr]
  have as : ∀ key w, Data w → (Assignable E (fdConv E .computeTaskDef) .computeTaskDef key w ↔
      ∃ n ∈ dictKeys .computeTaskDef, key = .str n ∧ (n = p!"task_id" ∨ n = p!"subtask_id" → TextUpTo 128 w)) := by
    intro key w hw
    constructor
    · rintro ⟨k, y, rfl, hc, hk, hv⟩
      cases hc
      rw [itemOk_iff] at hv
      exact ⟨k, keys_listed _ ▸ hk, rfl, fun hn => (text w hw).mp (hv hn)⟩
    · rintro ⟨n, hn, rfl, ht⟩
      refine ⟨n, w, rfl, rfl, (keys_listed _).symm ▸ hn, ?_⟩
      rw [itemOk_iff]
      exact fun hn => (text w hw).mpr (ht hn)
  constructor
  · rintro ⟨ps, he, h1, _⟩
    exact ⟨ps, he, fun k w hm => (as k w (entries_data h he _ _ hm).2).mp (h1 k w hm)⟩
  · rintro ⟨ps, he, h1⟩
    refine ⟨ps, he, fun k w hm => (as k w (entries_data h he _ _ hm).2).mpr (h1 k w hm), fun k dv hm => .inr ?_⟩
    have hm' := hm
    simp only [dictEntries, List.mem_cons, Prod.mk.injEq, List.mem_nil_iff, or_false] at hm'
    rcases hm' with ⟨rfl, rfl⟩ | ⟨rfl, rfl⟩ | ⟨rfl, rfl⟩ | ⟨rfl, rfl⟩ | ⟨rfl, rfl⟩ | ⟨rfl, rfl⟩ | ⟨rfl, rfl⟩ <;>
      exact ⟨_, _, rfl, rfl, by decide, by rfl⟩

theorem record_iff (E : Env) (c : ContId) {v : Val} (h : Data v) :
    (∃ w, mkCont E c v = .ok w) ↔ Record (fieldsOf E c) v := by
  constructor
  · rintro ⟨w, hw⟩
    obtain ⟨kw, _, hd, _⟩ := contCall_ok hw
    have e : v = .dict (asPairs kw) := by
      cases v <;> simp [Data, data] at h <;> simp [Val.asDict] at hd
      rw [hd]; rfl
    subst e
    exact ⟨kw, rfl, (agree_iff (agree_all E c) h).mp ⟨w, hw⟩⟩
  · rintro ⟨kw, rfl, hc⟩
    exact (agree_iff (agree_all E c) h).mpr hc

theorem peer_iff {E : Env} {v : Val} (h : Data v) : (∃ w, mkFDict E .peer v = .ok w) ↔ PeerData E v := by
  rw [mkFDict_iff h]
  unfold PeerData
  have as : ∀ key w, Data w → (Assignable E (fdConv E .peer) .peer key w ↔
      (key = .str p!"address" ∧ E.ipOk w = true) ∨ (key = .str p!"port" ∧ PortNumber w) ∨
      (key = .str p!"node" ∧ Record (nodeFields E) w)) := by
    intro key w hw
    have conv : ∀ k, k ≠ p!"node" → fdConv E .peer k w = .ok w := by
      intro k hk
      show peerConv E k w = _
      unfold peerConv
      rw [if_neg (fun e => hk e.1)]
    constructor
    · rintro ⟨k, y, rfl, hc, hk, hv⟩
      rw [itemOk_iff] at hv
      obtain ⟨v1, v2, v3⟩ := hv
      simp only [FDictId.items, List.map, List.mem_cons, List.mem_nil_iff, or_false] at hk
      rcases hk with rfl | rfl | rfl
      · rw [conv _ (by decide)] at hc
        cases hc
        exact .inl ⟨rfl, v1 rfl⟩
      · rw [conv _ (by decide)] at hc
        cases hc
        obtain ⟨i, e, a, b⟩ := v2 rfl
        exact .inr (.inl ⟨rfl, i, e, by omega, by omega⟩)
      · refine .inr (.inr ⟨rfl, ?_⟩)
        have hc : peerConv E p!"node" w = .ok y := hc
        unfold peerConv at hc
        split at hc
        · exact (record_iff E .node hw).mp ⟨y, hc⟩
        · cases hc
          obtain ⟨fs, e⟩ := v3 rfl
          subst e
          simp [Data, data] at hw
    · have ne1 : ∀ a b : PStr, a ≠ b → a = b → False := fun a b h e => h e
      rintro (⟨rfl, a⟩ | ⟨rfl, i, rfl, a, b⟩ | ⟨rfl, a⟩)
      · refine ⟨_, w, rfl, conv _ (by decide), by decide, (itemOk_iff _ _ _ _).mpr ⟨fun _ => a, ?_, ?_⟩⟩
        · intro e; exact absurd e (by decide)
        · intro e; exact absurd e (by decide)
      · refine ⟨_, _, rfl, conv _ (by decide), by decide, (itemOk_iff _ _ _ _).mpr ⟨?_, fun _ => ?_, ?_⟩⟩
        · intro e; exact absurd e (by decide)
        · exact ⟨i, rfl, by omega, by omega⟩
        · intro e; exact absurd e (by decide)
      · obtain ⟨y, hy⟩ := (record_iff E .node hw).mpr a
        obtain ⟨kw, e, _⟩ := a
        subst e
        refine ⟨_, y, rfl, ?_, by decide, (itemOk_iff _ _ _ _).mpr ⟨?_, ?_, fun _ => ?_⟩⟩
        · show peerConv E _ _ = _
          unfold peerConv
          rw [if_pos ⟨rfl, rfl⟩]
          exact hy
        · intro e; exact absurd e (by decide)
        · intro e; exact absurd e (by decide)
        · obtain ⟨_, fs, _, _, e, _⟩ := contCall_ok hy
          exact ⟨fs, e⟩
  have none : ∀ n, Assignable E (fdConv E .peer) .peer (.str n) .none ↔ n = p!"address" ∧ E.ipOk .none = true := by
    intro n
    rw [as _ .none (by rfl)]
    constructor
    · rintro (⟨e, a⟩ | ⟨_, i, e, _⟩ | ⟨_, kw, e, _⟩)
      · injection e with e
        exact ⟨e, a⟩
      · cases e
      · cases e
    · rintro ⟨rfl, a⟩
      exact .inl ⟨rfl, a⟩
  constructor
  · rintro ⟨ps, he, h1, h2⟩
    refine ⟨ps, he, fun k w hm => (as k w (entries_data h he _ _ hm).2).mp (h1 k w hm), fun n hn => ?_⟩
    rw [← none]
    refine h2 n .none ?_
    simp only [List.mem_cons, List.mem_nil_iff, or_false] at hn
    rcases hn with rfl | rfl | rfl <;> decide
  · rintro ⟨ps, he, h1, h2⟩
    refine ⟨ps, he, fun k w hm => (as k w (entries_data h he _ _ hm).2).mpr (h1 k w hm), fun n dv hm => ?_⟩
    simp only [dictEntries, List.mem_cons, Prod.mk.injEq, List.mem_nil_iff, or_false] at hm
    have hd : dv = .none := by rcases hm with ⟨_, e⟩ | ⟨_, e⟩ | ⟨_, e⟩ <;> exact e
    subst hd
    rw [none]
    refine h2 n ?_
    rcases hm with ⟨rfl, _⟩ | ⟨rfl, _⟩ | ⟨rfl, _⟩ <;> decide

/-! ### Files -/

theorem textual : ∀ {d : List (Val × Val)}, (∀ k w, (k, w) ∈ d → ∃ n, k = .str n) → ∃ kw, d = asPairs kw
  | [], _ => ⟨[], rfl⟩
  | (k, w) :: rest, h => by
    obtain ⟨n, rfl⟩ := h k w (by simp)
    obtain ⟨kw, rfl⟩ := textual (d := rest) fun k w hm => h k w (by simp [hm])
    exact ⟨(n, w) :: kw, rfl⟩

theorem dictSet_other {n : PStr} {m k w : Val} (hk : k ≠ .str n) : ∀ {d : List (Val × Val)},
    (k, w) ∈ d → (k, w) ∈ dictSet (.str n) m d
  | [], h => by cases h
  | (k', w') :: rest, h => by
    unfold dictSet
    by_cases e : k'.keyEq (.str n) = true
    · rw [if_pos e]
      rcases List.mem_cons.mp h with a | a
      · injection a with a1 a2
        subst a1
        exact absurd ((keyEq_str _ _).mp e) hk
      · exact List.mem_cons_of_mem _ a
    · rw [if_neg e]
      rcases List.mem_cons.mp h with a | a
      · rw [a]; exact List.mem_cons_self
      · exact List.mem_cons_of_mem _ (dictSet_other hk a)

theorem dictSet_entries {n : PStr} {m k w : Val} : ∀ {d : List (Val × Val)}, (d.map Prod.fst).Nodup →
    (k, w) ∈ dictSet (.str n) m d → (k = .str n ∧ w = m) ∨ (k ≠ .str n ∧ (k, w) ∈ d)
  | [], _, h => by
    unfold dictSet at h
    simp only [List.mem_cons, Prod.mk.injEq, List.mem_nil_iff, or_false] at h
    exact .inl h
  | (k', w') :: rest, hn, h => by
    rw [List.map_cons, List.nodup_cons] at hn
    unfold dictSet at h
    by_cases e : k'.keyEq (.str n) = true
    · rw [if_pos e] at h
      have e' := (keyEq_str _ _).mp e
      subst e'
      rcases List.mem_cons.mp h with a | a
      · injection a with a1 a2
        exact .inl ⟨a1, a2⟩
      · refine .inr ⟨?_, List.mem_cons_of_mem _ a⟩
        rintro rfl
        exact hn.1 (List.mem_map.mpr ⟨_, a, rfl⟩)
    · rw [if_neg e] at h
      rcases List.mem_cons.mp h with a | a
      · injection a with a1 a2
        subst a1 a2
        exact .inr ⟨fun e' => e ((keyEq_str _ _).mpr e'), List.mem_cons_self⟩
      · rcases dictSet_entries hn.2 a with b | ⟨b1, b2⟩
        · exact .inl b
        · exact .inr ⟨b1, List.mem_cons_of_mem _ b2⟩

theorem file_assignable {E : Env} {key v : Val} : Assignable E (fdConv E .fileInfo) .fileInfo key v ↔
    ∃ k ∈ dictKeys .fileInfo, key = .str k ∧
      (k = p!"category" → ∃ s ∈ [p!"results", p!"resources"], v = .enum .ftCategory s) := by
  constructor
  · rintro ⟨k, y, rfl, hc, hk, hv⟩
    cases hc
    rw [itemOk_iff] at hv
    exact ⟨k, keys_listed _ ▸ hk, rfl, hv⟩
  · rintro ⟨k, hk, rfl, hv⟩
    exact ⟨k, v, rfl, rfl, (keys_listed _).symm ▸ hk, (itemOk_iff _ _ _ _).mpr hv⟩

theorem file_defaults {E : Env} {ps : List (Val × Val)} : ∀ k dv, (k, dv) ∈ dictEntries .fileInfo →
    (∃ w, (.str k, w) ∈ ps) ∨ Assignable E (fdConv E .fileInfo) .fileInfo (.str k) dv := by
  intro k dv hm
  refine .inr (file_assignable.mpr ⟨k, List.mem_map.mpr ⟨_, hm, rfl⟩, rfl, ?_⟩)
  rintro rfl
  simp only [dictEntries, List.mem_cons, Prod.mk.injEq, List.mem_nil_iff, or_false] at hm
  rcases hm with ⟨e, _⟩ | ⟨e, _⟩ | ⟨e, _⟩ | ⟨_, e⟩
  · exact absurd e (by decide)
  · exact absurd e (by decide)
  · exact absurd e (by decide)
  · exact ⟨_, by simp, e⟩

theorem file_iff {E : Env} {v : Val} (h : Data v) : (∃ w, deserFileInfo E v = .ok w) ↔ FileData v := by
  rcases data_dict_or h with ⟨d, rfl⟩ | ⟨_, hn⟩
  · have hdk : distinctKeys (d.map Prod.fst) = true := by
      unfold Data at h
      simp only [data, Bool.and_eq_true] at h
      exact h.2
    have hnd : (d.map Prod.fst).Nodup := by
      have := distinct_iff.mp hdk
      exact List.Pairwise.of_map _ (fun a b hab e => hab (by rw [e])) this
    have hdat := fun k w hm => (data_dict h k w hm).2
    unfold deserFileInfo
    dsimp only
    have none_case : ∀ cat, EnumId.ftCategory.lookup cat = none →
        (∀ x, dictGet (.str p!"category") d = some x → x = cat) →
        ((∃ w, mkFDict E .fileInfo (.dict d) = .ok w) ↔ FileData (.dict d)) := by
      intro cat hl hg
      rw [mkFDict_pairs (ps := d) rfl]
      constructor
      · rintro ⟨h1, _⟩
        have h1 := fun k w hm => file_assignable.mp (h1 k w hm)
        obtain ⟨kw, rfl⟩ := textual fun k w hm => by obtain ⟨n, _, e, _⟩ := h1 k w hm; exact ⟨n, e⟩
        refine ⟨kw, rfl, fun k w hm => ?_⟩
        have hm' : (Val.str k, w) ∈ asPairs kw := List.mem_map.mpr ⟨_, hm, rfl⟩
        obtain ⟨n, hn, e, hc⟩ := h1 _ _ hm'
        injection e with e
        subst e
        refine ⟨hn, fun e => ?_⟩
        obtain ⟨s, _, e⟩ := hc e
        have := hdat _ _ hm'
        subst e
        simp [Data, data] at this
      · rintro ⟨kw, e, h1⟩
        injection e with e
        subst e
        refine ⟨fun k w hm => ?_, file_defaults⟩
        obtain ⟨⟨k', w'⟩, hm', e⟩ := List.mem_map.mp hm
        injection e with e1 e2
        subst e1 e2
        obtain ⟨a, b⟩ := h1 k' w' hm'
        refine file_assignable.mpr ⟨k', a, rfl, ?_⟩
        rintro rfl
        obtain ⟨s, hs, rfl⟩ := b rfl
        have := hg _ (dictGet_of_mem hnd hm)
        subst this
        unfold EnumId.lookup at hl
        dsimp only at hl
        rw [if_pos] at hl
        · cases hl
        · exact List.contains_iff_mem.mpr hs
    cases hg : dictGet (.str p!"category") d with
    | none =>
      dsimp only
      show (∃ w, mkFDict E .fileInfo (.dict d) = .ok w) ↔ _
      exact none_case .none rfl (fun x hx => by rw [hg] at hx; cases hx)
    | some x =>
      dsimp only
      cases hl : EnumId.ftCategory.lookup x with
      | none => exact none_case x hl (fun y hy => by rw [hg] at hy; injection hy with hy; exact hy.symm)
      | some m =>
        dsimp only
        have hx := hdat _ _ (dictGet_mem hg)
        obtain ⟨s, hs, hx', rfl⟩ : ∃ s ∈ [p!"results", p!"resources"], x = .str s ∧ m = .enum .ftCategory s := by
          cases x <;> simp [Data, data] at hx <;> unfold EnumId.lookup at hl <;> simp only at hl <;> try cases hl
          rename_i s
          split at hl
          · rename_i hc
            injection hl with hl
            exact ⟨s, List.contains_iff_mem.mp hc, rfl, hl.symm⟩
          · cases hl
        subst hx'
        rw [mkFDict_pairs (ps := dictSet (.str p!"category") (.enum .ftCategory s) d) rfl]
        constructor
        · rintro ⟨h1, _⟩
          have h1 : ∀ k w, (k, w) ∈ d → ∃ n ∈ dictKeys .fileInfo, k = .str n := by
            intro k w hm
            by_cases e : k = .str p!"category"
            · exact ⟨_, by decide, e⟩
            · obtain ⟨n, a, b, _⟩ := file_assignable.mp (h1 k w (dictSet_other e hm))
              exact ⟨n, a, b⟩
          obtain ⟨kw, rfl⟩ := textual fun k w hm => by obtain ⟨n, _, e⟩ := h1 k w hm; exact ⟨n, e⟩
          refine ⟨kw, rfl, fun k w hm => ?_⟩
          have hm' : (Val.str k, w) ∈ asPairs kw := List.mem_map.mpr ⟨_, hm, rfl⟩
          obtain ⟨n, hn, e⟩ := h1 _ _ hm'
          injection e with e
          subst e
          refine ⟨hn, ?_⟩
          rintro rfl
          have := dictGet_of_mem hnd hm'
          rw [hg] at this
          injection this with this
          exact ⟨s, hs, this.symm⟩
        · rintro ⟨kw, e, h1⟩
          injection e with e
          subst e
          refine ⟨fun k w hm => ?_, file_defaults⟩
          rw [file_assignable]
          rcases dictSet_entries hnd hm with ⟨rfl, rfl⟩ | ⟨a, b⟩
          · exact ⟨_, by decide, rfl, fun _ => ⟨s, hs, rfl⟩⟩
          · obtain ⟨⟨k', w'⟩, hm', e⟩ := List.mem_map.mp b
            injection e with e1 e2
            subst e1 e2
            exact ⟨k', (h1 k' w' hm').1, rfl, fun e => absurd (by rw [e]) a⟩
  · constructor
    · rintro ⟨w, hw⟩
      cases v <;> simp [Data, data] at h <;> simp [deserFileInfo] at hw
      exact absurd rfl (hn _)
    · rintro ⟨kw, e, _⟩
      exact absurd e (hn _)

/-! ### Lists -/

theorem mapRes_iff {α β : Type _} {f : α → Res β} : ∀ {l : List α},
    (∃ r, mapRes f l = .ok r) ↔ ∀ x ∈ l, ∃ y, f x = .ok y
  | [] => by simp [mapRes]
  | x :: xs => by
    unfold mapRes
    constructor
    · rintro ⟨r, h⟩ z hz
      split at h
      · cases h
      rename_i y hy
      split at h
      · cases h
      rename_i r' hr
      rcases List.mem_cons.mp hz with e | e
      · rw [e]; exact ⟨y, hy⟩
      · exact mapRes_iff.mp ⟨r', hr⟩ z e
    · intro h
      obtain ⟨y, hy⟩ := h x (by simp)
      obtain ⟨r, hr⟩ := mapRes_iff.mpr fun z hz => h z (List.mem_cons_of_mem _ hz)
      rw [hy]
      dsimp only
      rw [hr]
      exact ⟨_, rfl⟩

end Verif
