import Verif.Lemmas.Carried
import Verif.Lemmas.FDict
import Verif.Spec.Ownership
/-! # Ownership chains and accessors -/

set_option linter.unusedSimpArgs false

namespace Verif

open Spec

/-! ### Accessors -/

theorem dictGet_find (a : PStr) (d : List (Val × Val)) :
    dictGet (.str a) d = (d.find? fun kv => kv.1 = .str a).map Prod.snd := by
  induction d with
  | nil => rfl
  | cons kv rest ih =>
    obtain ⟨k, v⟩ := kv
    rw [dictGet_cons, ih, List.find?_cons]
    by_cases hk : k = .str a
    · simp [hk]
    · simp [hk]

theorem firstTruthy_find (l : List Val) : firstTruthy l = (l.find? Val.truthy).getD .none := by
  induction l with
  | nil => rfl
  | cons v rest ih =>
    unfold firstTruthy
    rw [List.find?_cons, ih]
    cases v.truthy <;> rfl

theorem getAttr_taskGetAll (a n : PStr) (as : Attrs) :
    getAttr (taskGetAll a as) n = taskGet a (getAttr as n) := by
  induction as with
  | nil => simp [taskGetAll, getAttr, lookupName, taskGet]
  | cons kv rest ih =>
    obtain ⟨k, v⟩ := kv
    rw [taskGetAll]
    unfold getAttr at ih ⊢
    rw [lookupName_cons, lookupName_cons]
    by_cases hk : k = n
    · simp [hk]
    · simp only [hk, if_false]; exact ih

theorem taskGet_ttc (a : PStr) (ty ts enc sig : Val) (attrs : Attrs) :
    taskGet a (.msg .TaskToCompute ty ts enc sig attrs) =
      ttcField a (.msg .TaskToCompute ty ts enc sig attrs) := by
  unfold taskGet ttcField
  rw [if_pos rfl]
  dsimp only
  by_cases h1 : a = p!"task_to_compute"
  · rw [if_pos h1, if_pos h1]
  rw [if_neg h1, if_neg h1]
  by_cases h2 : a = p!"task_id" ∨ a = p!"subtask_id"
  · rw [if_pos h2, if_pos h2]
    unfold dictAttr
    cases hd : (getAttr attrs p!"compute_task_def").asDict with
    | none => rfl
    | some d =>
      simp only
      rw [dictGet_find]
      cases d.find? fun kv => kv.1 = .str a <;> rfl
  · rw [if_neg h2, if_neg h2]

/-- The first truthy value of a list, `None` if there is none. -/
def pick (l : List Val) : Val := (l.find? Val.truthy).getD .none

theorem pick_append (l l' : List Val) :
    pick (l ++ l') = if (pick l).truthy then pick l else pick l' := by
  unfold pick
  rw [List.find?_append]
  cases h : l.find? Val.truthy with
  | none => simp [Val.truthy]
  | some v => simp [List.find?_some h]

theorem task_accessor_table (c : Cls) (a : PStr) (ha : a ∈ accessors) (ht : c.isTask = true)
    (hne : c ≠ .TaskToCompute) (hp : c.payload.contains a = true) :
    a = p!"task_to_compute" ∧ c.taskIdProviders = [p!"task_to_compute"] ∧
      (p!"task_to_compute", { cls := .TaskToCompute, allowNone := c = .ServiceRefused : SlotDef }) ∈ c.msgSlots := by
  revert ht hne
  have : ∀ a ∈ accessors, c.payload.contains a = true → c.isTask = true → c ≠ .TaskToCompute →
      a = p!"task_to_compute" ∧ c.taskIdProviders = [p!"task_to_compute"] ∧
      (p!"task_to_compute", { cls := .TaskToCompute, allowNone := c = .ServiceRefused : SlotDef }) ∈ c.msgSlots := by
    cases c <;> decide
  exact this a ha hp

theorem provider_slot_table (c : Cls) (ht : c.isTask = true) (hne : c ≠ .TaskToCompute) :
    ∀ n ∈ c.taskIdProviders, ∃ sd, (n, sd) ∈ c.msgSlots ∧ sd.isList = false ∧ sd.cls.isTask = true := by
  have : c.isTask = true → c ≠ .TaskToCompute → ∀ n ∈ c.taskIdProviders, ∃ p ∈ c.msgSlots,
      p.1 = n ∧ p.2.isList = false ∧ p.2.cls.isTask = true := by
    cases c <;> decide
  intro n hn
  obtain ⟨⟨n', sd⟩, h1, h2, h3⟩ := this ht hne n hn
  simp only at h2
  subst h2
  exact ⟨sd, h1, h3⟩

theorem typed_of_everywhere {c : Cls} {ty ts enc sig : Val} {attrs : Attrs}
    (h : Everywhere SlotsTyped (.msg c ty ts enc sig attrs)) : SlotsTyped c attrs := by
  cases h with | mk _ _ _ _ _ _ here _ => exact here

theorem everywhere_slot {Q : Cls → Attrs → Prop} {c : Cls} {ty ts enc sig : Val} {attrs : Attrs}
    (h : Everywhere Q (.msg c ty ts enc sig attrs)) {name : PStr} {sd : SlotDef}
    (hs : (name, sd) ∈ c.msgSlots) {c' : Cls} {ty' ts' enc' sig' : Val} {as' : Attrs}
    (hv : getAttr attrs name = .msg c' ty' ts' enc' sig' as') :
    Everywhere Q (.msg c' ty' ts' enc' sig' as') := by
  cases h with
  | mk _ _ _ _ _ _ _ nested =>
    exact nested name sd _ hs (by rw [hv]; simp [members])

mutual
/-- The accessors along a chain. -/
theorem chain_accessor (a : PStr) (ha : a ∈ accessors) : ∀ {v : Val} {l : List Val}, Chain v l →
    (v = .none ∨ Everywhere SlotsTyped v) →
    pick [taskGet a v] = pick (l.map (ttcField a)) ∧
      (∀ c ty ts enc sig as, v = .msg c ty ts enc sig as → c ≠ .TaskToCompute →
        taskGet a v = pick (l.map (ttcField a)))
  | _, _, .ttc ty ts enc sig attrs, _ => by
    rw [taskGet_ttc]
    exact ⟨rfl, fun c _ _ _ _ _ e hne => by cases e; exact absurd rfl hne⟩
  | _, _, .none, _ => ⟨by simp [pick, taskGet, Val.truthy], fun _ _ _ _ _ _ e => by cases e⟩
  | .msg c ty ts enc sig attrs, l, .task _ _ _ _ ht hne hs, hty => by
    have hev : Everywhere SlotsTyped (.msg c ty ts enc sig attrs) := by
      rcases hty with h | h
      · cases h
      · exact h
    have main : taskGet a (.msg c ty ts enc sig attrs) = pick (l.map (ttcField a)) := by
      unfold taskGet
      rw [if_neg hne]
      have hw : ¬ (c = .WantToComputeTask ∧ a = p!"task_id") := by
        rintro ⟨rfl, _⟩; cases ht
      rw [if_neg hw]
      by_cases hp : c.payload.contains a = true
      · rw [if_pos hp]
        obtain ⟨rfl, hpr, hsl⟩ := task_accessor_table c a ha ht hne hp
        rw [hpr] at hs
        cases hs with
        | cons h1 h2 =>
          cases h2
          rcases typed_single (typed_of_everywhere hev) hsl rfl with e | ⟨ty', ts', en', sg', as', e⟩
          · rw [e] at h1 ⊢
            cases h1
            rfl
          · rw [e] at h1 ⊢
            cases h1 with
            | ttc => simp [pick, ttcField, Val.truthy]
            | task _ _ _ _ _ hne' => exact absurd rfl hne'
      · rw [if_neg hp, if_pos ht, firstTruthy_find]
        have := chain_slots a ha hs (fun n hn => by
          obtain ⟨sd, hsd, hl, _⟩ := provider_slot_table c ht hne n hn
          rcases typed_single (typed_of_everywhere hev) hsd hl with e | ⟨ty', ts', en', sg', as', e⟩
          · exact Or.inl e
          · rw [e]; exact Or.inr (everywhere_slot hev hsd e))
        have e2 : c.taskIdProviders.map (getAttr (taskGetAll a attrs)) =
            c.taskIdProviders.map fun n => taskGet a (getAttr attrs n) := by
          apply List.map_congr_left
          intro n _
          exact getAttr_taskGetAll a n attrs
        rw [e2]
        exact this
    refine ⟨?_, fun _ _ _ _ _ _ _ _ => main⟩
    rw [main]
    unfold pick
    cases h : (l.map (ttcField a)).find? Val.truthy with
    | none => simp [Val.truthy]
    | some v => simp [List.find?_some h]
theorem chain_slots (a : PStr) (ha : a ∈ accessors) : ∀ {attrs : Attrs} {names : List PStr}
    {l : List Val}, ChainSlots attrs names l →
    (∀ n ∈ names, getAttr attrs n = .none ∨ Everywhere SlotsTyped (getAttr attrs n)) →
    pick (names.map fun n => taskGet a (getAttr attrs n)) = pick (l.map (ttcField a))
  | _, _, _, .nil _, _ => rfl
  | attrs, name :: names, _, .cons (l := l1) (l' := l2) h1 h2, hty => by
    have i1 := (chain_accessor a ha h1 (hty name (by simp))).1
    have i2 := chain_slots a ha h2 (fun n hn => hty n (by simp [hn]))
    rw [List.map_append, pick_append, ← i1, ← i2]
    rw [show (name :: names).map (fun n => taskGet a (getAttr attrs n)) =
      [taskGet a (getAttr attrs name)] ++ names.map (fun n => taskGet a (getAttr attrs n)) from rfl,
      pick_append]
end

/-- Typed task messages have a chain. -/
theorem chain_exists {v : Val} (h : Everywhere SlotsTyped v) :
    ∀ c ty ts enc sig as, v = .msg c ty ts enc sig as → c.isTask = true → ∃ l, Chain v l := by
  induction h with
  | mk c ty ts enc sig attrs here nested ih =>
    intro c' _ _ _ _ _ e ht
    cases e
    by_cases hne : c = .TaskToCompute
    · subst hne; exact ⟨_, .ttc _ _ _ _ _⟩
    · have : ∀ names : List PStr, (∀ n ∈ names, n ∈ c.taskIdProviders) →
          ∃ l, ChainSlots attrs names l := by
        intro names
        induction names with
        | nil => intro _; exact ⟨_, .nil _⟩
        | cons n ns ihn =>
          intro hin
          obtain ⟨l2, h2⟩ := ihn (fun m hm => hin m (by simp [hm]))
          obtain ⟨sd, hsd, hl, hst⟩ := provider_slot_table c ht hne n (hin n (by simp))
          rcases typed_single here hsd hl with e | ⟨ty', ts', en', sg', as', e⟩
          · exact ⟨[] ++ l2, .cons (by rw [e]; exact .none) h2⟩
          · obtain ⟨l1, h1⟩ := ih n sd (.msg sd.cls ty' ts' en' sg' as') hsd
              (by rw [e]; simp [members]) _ _ _ _ _ _ rfl hst
            exact ⟨l1 ++ l2, .cons (by rw [e]; exact h1) h2⟩
      obtain ⟨l, hl⟩ := this c.taskIdProviders (fun n hn => hn)
      exact ⟨l, .task _ _ _ _ ht hne hl⟩

/-! ### Chains of ownership -/

theorem ecdsaVerify_ok {E : Env} {k h : Bytes} {s : Val} :
    E.ecdsaVerify k s h = .ok () ↔ k.length = 64 ∧ E.recover s (E.sha3 h) = some (4 :: k) := by
  unfold Env.ecdsaVerify
  by_cases hl : k.length = 64
  · simp only [hl, ne_eq, not_true_eq_false, if_false, true_and]
    cases hr : E.recover s (E.sha3 h) with
    | none => simp
    | some pk => by_cases he : pk = 4 :: k <;> simp [he]
  · simp [hl]

theorem ecdsaVerify_else {E : Env} {k h : Bytes} {s : Val} (hl : k.length = 64)
    (hn : ¬ E.recover s (E.sha3 h) = some (4 :: k)) :
    E.ecdsaVerify k s h = .error .invalidSignature := by
  unfold Env.ecdsaVerify
  simp only [hl, ne_eq, not_true_eq_false, if_false]
  cases hr : E.recover s (E.sha3 h) with
  | none => rfl
  | some pk =>
    have : pk ≠ 4 :: k := by rintro rfl; exact hn hr
    simp [this]

mutual
theorem chainV_ok (E : Env) (concent : Option Bytes) : ∀ {v : Val}, chainV E concent v = .ok () →
    ∀ w : Msg, Inside v w.val → validateOwnership E w concent = .ok ()
  | .msg c ty ts enc sig attrs, h, w, hi => by
    rw [chainV] at h
    generalize hw : w.val = u at hi
    cases hi with
    | refl _ _ _ _ _ ht =>
      rw [if_pos ht] at h
      split at h
      · cases h
      rename_i hv
      have : w = ⟨c, ty, ts, enc, sig, attrs⟩ := by
        cases w; simp only [Msg.val, Val.msg.injEq] at hw; simp [hw]
      rw [this]
      exact hv
    | step ht hm hr =>
      rw [if_pos ht] at h
      split at h
      · cases h
      subst hw
      exact chainA_ok E concent h _ _ hm w hr
  | .none, _, _, hi => by cases hi
  | .bool _, _, _, hi => by cases hi
  | .int _, _, _, hi => by cases hi
  | .float _, _, _, hi => by cases hi
  | .str _, _, _, hi => by cases hi
  | .bytes _, _, _, hi => by cases hi
  | .list _, _, _, hi => by cases hi
  | .tuple _, _, _, hi => by cases hi
  | .dict _, _, _, hi => by cases hi
  | .tag _ _, _, _, hi => by cases hi
  | .enum _ _, _, _, hi => by cases hi
  | .cont _ _, _, _, hi => by cases hi
  | .fdict _ _, _, _, hi => by cases hi
  | .mask _, _, _, hi => by cases hi
theorem chainA_ok (E : Env) (concent : Option Bytes) : ∀ {as : List (PStr × Val)},
    chainA E concent as = .ok () → ∀ n x, (n, x) ∈ as →
    ∀ w : Msg, Inside x w.val → validateOwnership E w concent = .ok ()
  | [], _, _, _, hm, _, _ => by cases hm
  | (k, v) :: rest, h, n, x, hm, w, hi => by
    rw [chainA] at h
    split at h
    · cases h
    rename_i hv
    rcases List.mem_cons.mp hm with e | hm
    · injection e with _ e
      exact chainV_ok E concent hv w (by rw [← e]; exact hi)
    · exact chainA_ok E concent h n x hm w hi
end

mutual
theorem chainV_total (E : Env) (concent : Option Bytes) : ∀ {v : Val} {e : Exc},
    chainV E concent v = .error e →
    ∃ w : Msg, Inside v w.val ∧ validateOwnership E w concent = .error e
  | .msg c ty ts enc sig attrs, e, h => by
    rw [chainV] at h
    split at h
    · rename_i ht
      split at h
      · rename_i e' hv
        injection h with h
        subst h
        exact ⟨⟨c, ty, ts, enc, sig, attrs⟩, .refl _ _ _ _ _ ht, hv⟩
      · obtain ⟨n, x, hm, w, hw, he⟩ := chainA_total E concent h
        exact ⟨w, .step ht hm hw, he⟩
    · cases h
  | .none, _, h => by rw [chainV] at h; cases h; simp
  | .bool _, _, h => by rw [chainV] at h; cases h; simp
  | .int _, _, h => by rw [chainV] at h; cases h; simp
  | .float _, _, h => by rw [chainV] at h; cases h; simp
  | .str _, _, h => by rw [chainV] at h; cases h; simp
  | .bytes _, _, h => by rw [chainV] at h; cases h; simp
  | .list _, _, h => by rw [chainV] at h; cases h; simp
  | .tuple _, _, h => by rw [chainV] at h; cases h; simp
  | .dict _, _, h => by rw [chainV] at h; cases h; simp
  | .tag _ _, _, h => by rw [chainV] at h; cases h; simp
  | .enum _ _, _, h => by rw [chainV] at h; cases h; simp
  | .cont _ _, _, h => by rw [chainV] at h; cases h; simp
  | .fdict _ _, _, h => by rw [chainV] at h; cases h; simp
  | .mask _, _, h => by rw [chainV] at h; cases h; simp
theorem chainA_total (E : Env) (concent : Option Bytes) : ∀ {as : List (PStr × Val)} {e : Exc},
    chainA E concent as = .error e →
    ∃ n x, (n, x) ∈ as ∧ ∃ w : Msg, Inside x w.val ∧ validateOwnership E w concent = .error e
  | [], _, h => by rw [chainA] at h; cases h
  | (k, v) :: rest, e, h => by
    rw [chainA] at h
    split at h
    · rename_i e' hv
      injection h with h
      subst h
      obtain ⟨w, hw, he⟩ := chainV_total E concent hv
      exact ⟨k, v, by simp, w, hw, he⟩
    · obtain ⟨n, x, hm, w, hw, he⟩ := chainA_total E concent h
      exact ⟨n, x, by simp [hm], w, hw, he⟩
end

/-- A message value comes from a message. -/
theorem attrOf_ok {v r : Val} {n : PStr} (h : attrOf v n = .ok r) :
    ∃ t : Msg, v = t.val ∧ getAttr t.attrs n = r := by
  unfold attrOf at h
  split at h
  · rename_i c ty ts enc sig attrs
    injection h with h
    exact ⟨⟨c, ty, ts, enc, sig, attrs⟩, rfl, h⟩
  · cases h

theorem attrOf_val (t : Msg) (n : PStr) : attrOf t.val n = .ok (getAttr t.attrs n) := rfl

theorem msg_val_inj {a b : Msg} (h : a.val = b.val) : a = b := by
  cases a; cases b; simp only [Msg.val, Val.msg.injEq] at h; simp [h]

theorem ownerKeys_iff (concent : Option Bytes) (m : Msg) (p r : Bytes) :
    ownerKeys m = .ok (p, r) ↔ PartyKey concent m .provider p ∧ PartyKey concent m .requestor r := by
  unfold ownerKeys ttcProviderKey
  constructor
  · intro h
    split at h
    · cases h
    rename_i pk hpk
    split at hpk
    · cases hpk
    rename_i w hw
    split at h
    · cases h
    rename_i p' hp
    split at h
    · cases h
    rename_i rk hrk
    split at h
    · cases h
    rename_i r' hr
    injection h with h
    injection h with h1 h2
    subst h1; subst h2
    obtain ⟨t, ht, hat⟩ := attrOf_ok hw
    obtain ⟨o, ho, hao⟩ := attrOf_ok hpk
    obtain ⟨t', ht', hat'⟩ := attrOf_ok hrk
    exact ⟨.provider ht (hat.trans ho) (by rw [hao]; exact hp), .requestor ht' (by rw [hat']; exact hr)⟩
  · rintro ⟨h1, h2⟩
    cases h1 with | provider e1 e2 e3 =>
    cases h2 with | requestor f1 f2 =>
    rename_i t w t'
    have : t' = t := msg_val_inj (f1.symm.trans e1)
    subst this
    simp only [e1, attrOf_val, e2, e3, f2]

theorem partyKey_iff {concent : Option Bytes} {m : Msg} {p r : Bytes} (h : ownerKeys m = .ok (p, r))
    (o : Owner) (k : Bytes) : PartyKey concent m o k ↔ ownerKey (p, r) concent o = some k := by
  obtain ⟨h1, h2⟩ := (ownerKeys_iff concent m p r).mp h
  cases o with
  | provider =>
    simp only [ownerKey, Option.some.injEq]
    constructor
    · intro h'
      have := (ownerKeys_iff concent m k r).mpr ⟨h', h2⟩
      rw [h] at this
      injection this with this
      injection this
    · rintro rfl; exact h1
  | requestor =>
    simp only [ownerKey, Option.some.injEq]
    constructor
    · intro h'
      have := (ownerKeys_iff concent m p k).mpr ⟨h1, h'⟩
      rw [h] at this
      injection this with this
      injection this
    · rintro rfl; exact h2
  | concent =>
    simp only [ownerKey]
    constructor
    · intro h'; cases h' with | concent h' => exact h'
    · exact .concent

theorem tryOwners_ok {E : Env} {m : Msg} {keys : Bytes × Bytes} {concent : Option Bytes} :
    ∀ {l : List Owner}, tryOwners E m keys concent l = .ok () →
    ∃ o ∈ l, ∃ k, ownerKey keys concent o = some k ∧ SignedBy E m m.sig k
  | [], h => by cases h
  | o :: rest, h => by
    rw [tryOwners] at h
    split at h
    · cases h
    rename_i hh hhash
    split at h
    · cases h
    rename_i k hk
    split at h
    · rename_i hv
      obtain ⟨h1, h2⟩ := ecdsaVerify_ok.mp hv
      exact ⟨o, by simp, k, hk, h1, hh, hhash, h2⟩
    · obtain ⟨o', ho, r⟩ := tryOwners_ok h
      exact ⟨o', by simp [ho], r⟩
    · cases h

theorem tryOwners_decision {E : Env} {m : Msg} {keys : Bytes × Bytes} {concent : Option Bytes}
    {h : Bytes} (hh : shortHash E m = .ok h) : ∀ {l : List Owner},
    (∀ o ∈ l, ∃ k, ownerKey keys concent o = some k ∧ k.length = 64) →
    ((∃ o ∈ l, ∃ k, ownerKey keys concent o = some k ∧ SignedBy E m m.sig k) →
      tryOwners E m keys concent l = .ok ()) ∧
    ((¬ ∃ o ∈ l, ∃ k, ownerKey keys concent o = some k ∧ SignedBy E m m.sig k) →
      tryOwners E m keys concent l = .error .invalidSignature)
  | [], _ => ⟨fun ⟨_, h, _⟩ => (by cases h), fun _ => rfl⟩
  | o :: rest, hk => by
    obtain ⟨i1, i2⟩ := tryOwners_decision (keys := keys) (concent := concent) hh (l := rest)
      (fun o ho => hk o (by simp [ho]))
    obtain ⟨k, hok, hl⟩ := hk o (by simp)
    rw [tryOwners, hh]
    simp only [hok]
    by_cases hr : E.recover m.sig (E.sha3 h) = some (4 :: k)
    · rw [ecdsaVerify_ok.mpr ⟨hl, hr⟩]
      exact ⟨fun _ => rfl, fun hn => absurd ⟨o, by simp, k, hok, hl, h, hh, hr⟩ hn⟩
    · rw [ecdsaVerify_else hl hr]
      simp only
      have split : (∃ o' ∈ o :: rest, ∃ k, ownerKey keys concent o' = some k ∧ SignedBy E m m.sig k) ↔
          ∃ o' ∈ rest, ∃ k, ownerKey keys concent o' = some k ∧ SignedBy E m m.sig k := by
        constructor
        · rintro ⟨o', ho, k', hk', hs⟩
          rcases List.mem_cons.mp ho with rfl | ho
          · rw [hok] at hk'; injection hk' with hk'; subst hk'
            obtain ⟨_, h', hh', hr'⟩ := hs
            rw [hh] at hh'; injection hh' with hh'; subst hh'
            exact absurd hr' hr
          · exact ⟨o', ho, k', hk', hs⟩
        · rintro ⟨o', ho, r⟩; exact ⟨o', by simp [ho], r⟩
      rw [split]
      exact ⟨i1, i2⟩

theorem owned_iff {E : Env} {concent : Option Bytes} {m : Msg} {p r : Bytes}
    (h : ownerKeys m = .ok (p, r)) : Owned E concent m ↔
      ∃ o ∈ m.cls.expectedOwners, ∃ k, ownerKey (p, r) concent o = some k ∧ SignedBy E m m.sig k := by
  unfold Owned
  constructor
  · rintro ⟨o, ho, k, hk, hs⟩; exact ⟨o, ho, k, (partyKey_iff h o k).mp hk, hs⟩
  · rintro ⟨o, ho, k, hk, hs⟩; exact ⟨o, ho, k, (partyKey_iff h o k).mpr hk, hs⟩

theorem baseOwnership_ok {E : Env} {m : Msg} {concent : Option Bytes}
    (h : baseOwnership E m concent = .ok ()) : Owned E concent m := by
  unfold baseOwnership at h
  split at h
  · cases h
  rename_i keys hk
  obtain ⟨p, r⟩ := keys
  exact (owned_iff hk).mpr (tryOwners_ok h)

theorem validateOwnership_ok {E : Env} {m : Msg} {concent : Option Bytes}
    (h : validateOwnership E m concent = .ok ()) : Proper E concent m := by
  unfold validateOwnership at h
  by_cases hc : m.cls = .TaskToCompute
  · rw [if_pos hc] at h
    split at h
    · cases h
    rename_i th hth
    split at h
    · rename_i fs
      split at h
      · cases h
      rename_i rk hrk
      split at h
      · cases h
      rename_i hv
      refine ⟨baseOwnership_ok h, fun _ => ?_⟩
      obtain ⟨w, hw, haw⟩ := attrOf_ok hth
      unfold headerVerifyF at hv
      split at hv
      · cases hv
      rename_i hs
      split at hv
      · cases hv
      rename_i hh hhash
      obtain ⟨hl, hr⟩ := ecdsaVerify_ok.mp hv
      exact ⟨w, hw, fs, haw, rk, hrk, hl, hs, hh, hhash, hr⟩
    · cases h
  · rw [if_neg hc] at h
    exact ⟨baseOwnership_ok h, fun e => absurd e hc⟩

theorem validateOwnership_decision {E : Env} {m : Msg} {concent : Option Bytes}
    (hk : Checkable E concent m) :
    (Proper E concent m → validateOwnership E m concent = .ok ()) ∧
    (¬ Proper E concent m → validateOwnership E m concent = .error .invalidSignature) := by
  obtain ⟨⟨p, hp⟩, ⟨r, hr⟩, hex, ⟨h, hh⟩, htt⟩ := hk
  have hkeys := (ownerKeys_iff concent m p r).mpr ⟨hp, hr⟩
  obtain ⟨d1, d2⟩ := tryOwners_decision (keys := (p, r)) (concent := concent) hh (l := m.cls.expectedOwners)
    (fun o ho => by obtain ⟨k, hk, hl⟩ := hex o ho; exact ⟨k, (partyKey_iff hkeys o k).mp hk, hl⟩)
  rw [← owned_iff hkeys] at d1 d2
  have hb : baseOwnership E m concent = tryOwners E m (p, r) concent m.cls.expectedOwners := by
    unfold baseOwnership; rw [hkeys]
  unfold validateOwnership
  by_cases hc : m.cls = .TaskToCompute
  · rw [if_pos hc]
    obtain ⟨o, ho, fs, hfs, ⟨rk, hrk, hl⟩, hd, hhd⟩ := htt hc
    rw [ho, attrOf_val, hfs]
    simp only [hrk]
    unfold headerVerifyF
    have hho : HeaderOwned E m ↔ getAttr fs p!"signature" ≠ .none ∧
        E.recover (getAttr fs p!"signature") (E.sha3 hd) = some (4 :: rk) := by
      constructor
      · rintro ⟨o', ho', fs', hfs', rk', hrk', _, hs', h', hh', hr'⟩
        have : o' = o := msg_val_inj (ho'.symm.trans ho)
        subst this
        rw [hfs] at hfs'; injection hfs' with _ hfs'; subst hfs'
        rw [hrk] at hrk'; injection hrk' with hrk'; subst hrk'
        rw [hhd] at hh'; injection hh' with hh'; subst hh'
        exact ⟨hs', hr'⟩
      · rintro ⟨h1, h2⟩
        exact ⟨o, ho, fs, hfs, rk, hrk, hl, h1, hd, hhd, h2⟩
    unfold Proper
    by_cases hs : getAttr fs p!"signature" = .none
    · rw [if_pos hs]
      exact ⟨fun ⟨_, h'⟩ => absurd hs (hho.mp (h' hc)).1, fun _ => rfl⟩
    · rw [if_neg hs, hhd]
      simp only
      by_cases hv : E.recover (getAttr fs p!"signature") (E.sha3 hd) = some (4 :: rk)
      · rw [ecdsaVerify_ok.mpr ⟨hl, hv⟩]
        simp only [hb]
        refine ⟨fun h' => d1 h'.1, fun h' => d2 (fun ho => h' ⟨ho, fun _ => hho.mpr ⟨hs, hv⟩⟩)⟩
      · rw [ecdsaVerify_else hl hv]
        exact ⟨fun ⟨_, h'⟩ => absurd (hho.mp (h' hc)).2 hv, fun _ => rfl⟩
  · rw [if_neg hc, hb]
    unfold Proper
    exact ⟨fun h' => d1 h'.1, fun h' => d2 (fun ho => h' ⟨ho, fun e => absurd e hc⟩)⟩

/-! ### Declared slots -/

theorem nontask_slots (c : Cls) (ht : c.isTask = true) : ∀ n sd, (n, sd) ∈ c.msgSlots →
    sd.isList = false ∧ (sd.cls.isTask = true ∨ sd.cls.msgSlots = []) := by
  have : c.isTask = true → ∀ p ∈ c.msgSlots, p.2.isList = false ∧
      (p.2.cls.isTask = true ∨ p.2.cls.msgSlots = []) := by cases c <;> decide
  intro n sd hs
  exact this ht _ hs

/-- In a typed tree of a task message every task message is visited. -/
theorem inside_of_within {v w : Val} (h : Within v w) : Everywhere SlotsTyped v →
    ∀ c ty ts enc sig as, v = .msg c ty ts enc sig as → c.isTask = true →
    ∀ c' ty' ts' enc' sig' as', w = .msg c' ty' ts' enc' sig' as' → c'.isTask = true →
    Inside v w := by
  induction h with
  | refl v => rintro _ c ty ts enc sig as rfl ht _ _ _ _ _ _ _ _; exact .refl _ _ _ _ _ ht
  | step hs hx hw ih =>
    rename_i c0 ty0 ts0 enc0 sig0 attrs name sd x w
    rintro hev c ty ts enc sig as e ht c' ty' ts' enc' sig' as' hwe ht'
    cases e
    obtain ⟨hl, hk⟩ := nontask_slots _ ht _ _ hs
    rcases typed_single (typed_of_everywhere hev) hs hl with e | ⟨ty1, ts1, en1, sg1, as1, e⟩
    · rw [e] at hx; simp [members] at hx
    · have hx' : x = .msg sd.cls ty1 ts1 en1 sg1 as1 := by rw [e] at hx; simpa [members] using hx
      subst hx'
      have hm : (name, Val.msg sd.cls ty1 ts1 en1 sg1 as1) ∈ attrs := by
        rw [← e]
        apply mem_getAttr
        rw [← lookupName_isSome]
        unfold getAttr at e
        cases hln : lookupName name attrs with
        | none => rw [hln] at e; cases e
        | some v => rfl
      rcases hk with hk | hk
      · exact .step ht hm (ih (everywhere_slot hev hs e) _ _ _ _ _ _ rfl hk _ _ _ _ _ _ hwe ht')
      · cases hw with
        | refl => cases hwe; exact .step ht hm (.refl _ _ _ _ _ ht')
        | step hs' => rw [hk] at hs'; cases hs'

end Verif
