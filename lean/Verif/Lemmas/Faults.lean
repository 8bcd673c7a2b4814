import Verif.Lemmas.AcceptSlots
import Verif.Spec.Faults
/-! # Lemmas about the first fault of a record -/

set_option linter.unusedSimpArgs false
set_option linter.unusedVariables false

namespace Verif

open Spec

/-- The exception that leaves the constructor. -/
def wrapped : Exc → Exc
  | .fieldError f => .fieldError f
  | _ => .messageError

/-- The outcome is an exception that leaves the constructor as `e`. -/
def Raises {α : Type _} (r : Res α) (e : Exc) : Prop := ∃ x, r = .error x ∧ wrapped x = e

theorem raises_error {α : Type _} {x e : Exc} : Raises (.error x : Res α) e ↔ wrapped x = e := by
  constructor
  · rintro ⟨y, h, hw⟩
    injection h with h
    rw [h]; exact hw
  · exact fun h => ⟨x, rfl, h⟩

theorem raises_ok {α : Type _} {a : α} {e : Exc} : Raises (.ok a : Res α) e ↔ False := by
  constructor
  · rintro ⟨_, h, _⟩; cases h
  · exact False.elim

theorem raises_field {α : Type _} {f : PStr} {e : Exc} : Raises (.error (.fieldError f) : Res α) e ↔ e = .fieldError f := by
  rw [raises_error]; exact eq_comm

theorem raises_wrap {α : Type _} {r : Res α} {e : Exc} : Raises (wrapLoad r) e ↔ Raises r e := by
  unfold wrapLoad
  cases r with
  | ok a => exact Iff.rfl
  | error x => cases x <;> (dsimp only; simp only [raises_error, wrapped])

theorem raises_some {α : Type _} {r : Res α} : (∃ e, Raises r e) ↔ ¬ ∃ a, r = .ok a := by
  cases r with
  | ok a => exact ⟨fun ⟨e, h⟩ => (raises_ok.mp h).elim, fun h => absurd ⟨a, rfl⟩ h⟩
  | error x => exact ⟨fun _ ⟨_, h⟩ => (by cases h), fun _ => ⟨_, x, rfl, rfl⟩⟩

theorem error_or {α : Type _} (r : Res α) : (∃ a, r = .ok a) ∨ ∃ e, r = .error e := by
  cases r with
  | ok a => exact .inl ⟨a, rfl⟩
  | error e => exact .inr ⟨e, rfl⟩

theorem no_ok {α : Type _} {r : Res α} : (¬ ∃ a, r = .ok a) ↔ ∃ e, r = .error e := by
  cases r with
  | ok a => exact ⟨fun h => absurd ⟨a, rfl⟩ h, fun ⟨_, h⟩ => (by cases h)⟩
  | error e => exact ⟨fun _ => ⟨e, rfl⟩, fun _ ⟨_, h⟩ => (by cases h)⟩

theorem mapRes_first {α β : Type _} {f : α → Res β} : ∀ {l : List α} {e : Exc}, mapRes f l = .error e ↔
    ∃ before x after, l = before ++ x :: after ∧ (∀ y ∈ before, ∃ z, f y = .ok z) ∧ f x = .error e
  | [], e => by
    constructor
    · intro h; cases h
    · rintro ⟨b, x, a, h, _⟩
      cases b <;> cases h
  | x :: xs, e => by
    unfold mapRes
    cases hx : f x with
    | error e' =>
      constructor
      · intro h
        injection h with h
        subst h
        exact ⟨[], x, xs, rfl, by simp, hx⟩
      · rintro ⟨b, y, a, h, hb, hy⟩
        cases b with
        | nil =>
          injection h with h1 h2
          subst h1
          rw [hx] at hy
          injection hy with hy
          subst hy
          rfl
        | cons z zs =>
          injection h with h1 h2
          subst h1
          obtain ⟨z', hz⟩ := hb x (by simp)
          rw [hx] at hz
          cases hz
    | ok y =>
      dsimp only
      have ih := mapRes_first (f := f) (l := xs) (e := e)
      constructor
      · intro h
        cases hm : mapRes f xs with
        | error e' =>
          rw [hm] at h
          injection h with h
          subst h
          obtain ⟨b, z, a, h1, h2, h3⟩ := mapRes_first.mp hm
          refine ⟨x :: b, z, a, by rw [h1]; rfl, ?_, h3⟩
          intro w hw
          rcases List.mem_cons.mp hw with rfl | hw
          · exact ⟨y, hx⟩
          · exact h2 w hw
        | ok r =>
          rw [hm] at h
          cases h
      · rintro ⟨b, z, a, h, hb, hz⟩
        cases b with
        | nil =>
          injection h with h1 h2
          subst h1
          rw [hx] at hz
          cases hz
        | cons z' zs =>
          injection h with h1 h2
          have := ih.mpr ⟨zs, z, a, h2, fun w hw => hb w (List.mem_cons_of_mem _ hw), hz⟩
          rw [this]

theorem runAll_error {E : Env} {name : PStr} {w : Val} : ∀ {vs : List Validator} {e : Exc},
    runAll E vs name w = .error e → e = .fieldError name
  | [], _, h => by cases h
  | v :: vs, e, h => by
    rw [runAll, Validator.run] at h
    split at h
    · rename_i h'
      split at h'
      · cases h'
      · injection h' with h'; injection h with h; rw [← h, ← h']
    · exact runAll_error h

/-! ### The first element that is different -/

/-- All elements up to the first `Q` are `P`. -/
def First {α : Type _} (P Q : α → Prop) (l : List α) : Prop :=
  ∃ before x after, l = before ++ x :: after ∧ (∀ y ∈ before, P y) ∧ Q x

theorem first_nil {α : Type _} {P Q : α → Prop} : First P Q [] ↔ False := by
  constructor
  · rintro ⟨b, x, a, h, _⟩
    cases b <;> cases h
  · exact False.elim

theorem first_cons {α : Type _} {P Q : α → Prop} {x : α} {l : List α} :
    First P Q (x :: l) ↔ Q x ∨ (P x ∧ First P Q l) := by
  constructor
  · rintro ⟨b, y, a, h, hb, hy⟩
    cases b with
    | nil =>
      injection h with h1 h2
      subst h1
      exact .inl hy
    | cons z zs =>
      injection h with h1 h2
      subst h1
      exact .inr ⟨hb _ (by simp), zs, y, a, h2, fun u hu => hb u (by simp [hu]), hy⟩
  · rintro (h | ⟨hp, b, y, a, rfl, hb, hy⟩)
    · exact ⟨[], x, l, rfl, by simp, h⟩
    · refine ⟨x :: b, y, a, rfl, ?_, hy⟩
      intro u hu
      rcases List.mem_cons.mp hu with rfl | hu
      · exact hp
      · exact hb u hu

/-! ### Containers -/

/-- The value of a field after its validators and its hook. -/
def checked (E : Env) (hook : PStr → Val → Res Val) (n : PStr) (vs : List Validator) (w : Val) : Res Val :=
  match runAll E vs n w with
  | .error e => .error e
  | .ok _ => hook n w

theorem checked_ok {E : Env} {hook : PStr → Val → Res Val} {n : PStr} {vs : List Validator} {w : Val} :
    (∃ y, checked E hook n vs w = .ok y) ↔ (∀ x ∈ vs, x.accepts E w = true) ∧ ∃ y, hook n w = .ok y := by
  unfold checked
  cases h : runAll E vs n w with
  | ok u =>
    dsimp only
    exact ⟨fun hy => ⟨runAll_ok.mp h, hy⟩, fun hy => hy.2⟩
  | error x =>
    dsimp only
    constructor
    · rintro ⟨_, hy⟩; cases hy
    · rintro ⟨hv, _⟩
      have h2 : runAll E vs n w = .ok () := runAll_ok.mpr hv
      rw [h2] at h
      cases h

theorem contFields_cons {E : Env} {hook : PStr → Val → Res Val} {c : ContId} {kw : Attrs} {n : PStr}
    {vs : List Validator} {rest : List (PStr × List Validator)} : contFields E hook c kw ((n, vs) :: rest) =
      match contField E hook c kw n vs with
      | .error e => .error e
      | .ok v => match contFields E hook c kw rest with
        | .error e => .error e
        | .ok r => .ok ((n, v) :: r) := rfl

/-- Fields and slots are about the same, including what is wrong with a value. -/
inductive Aligned (E : Env) (hook : PStr → Val → Res Val) (c : ContId) :
    List Field → List (PStr × List Validator) → Prop
  | nil : Aligned E hook c [] []
  | cons {f : Field} {vs : List Validator} {fl : List Field} {sl : List (PStr × List Validator)} :
      f.required = decide (f.name ∈ c.required) →
      (∀ w, Data w → ((∃ y, checked E hook f.name vs w = .ok y) ↔ f.ok w)) →
      (∀ w e, Data w → (Raises (checked E hook f.name vs w) e ↔ BadValue E f w e)) →
      Aligned E hook c fl sl → Aligned E hook c (f :: fl) ((f.name, vs) :: sl)

theorem aligned_names {E : Env} {hook : PStr → Val → Res Val} {c : ContId} {fl : List Field}
    {sl : List (PStr × List Validator)} (h : Aligned E hook c fl sl) : sl.map Prod.fst = fl.map Field.name := by
  induction h with
  | nil => rfl
  | cons _ _ _ _ ih => rw [List.map_cons, List.map_cons, ih]

/-- What is wrong with the keywords as far as the field is concerned. -/
def BadAt (E : Env) (kw : Attrs) (e : Exc) (f : Field) : Prop :=
  (f.required = true ∧ f.name ∉ kw.map Prod.fst ∧ e = .fieldError f.name) ∨
    ∃ w, (f.name, w) ∈ kw ∧ ¬ Skipped f w ∧ BadValue E f w e

theorem aligned_first {E : Env} {hook : PStr → Val → Res Val} {c : ContId} {fl : List Field}
    {sl : List (PStr × List Validator)} (h : Aligned E hook c fl sl) {kw : Attrs} (hnd : (kw.map Prod.fst).Nodup)
    (hd : ∀ k v, (k, v) ∈ kw → Data v) {e : Exc} :
    (Raises (contFields E hook c kw sl) e ↔ First (fun f => InOrder f kw) (BadAt E kw e) fl) ∧
    ((∃ r, contFields E hook c kw sl = .ok r) ↔ ∀ f ∈ fl, InOrder f kw) := by
  induction h with
  | nil =>
    unfold contFields
    rw [raises_ok, first_nil]
    exact ⟨Iff.rfl, fun _ f h => (by cases h), fun _ => ⟨_, rfl⟩⟩
  | @cons f vs fl sl hr hok hbad _ ih =>
    have one : (Raises (contField E hook c kw f.name vs) e ↔ BadAt E kw e f) ∧
        ((∃ y, contField E hook c kw f.name vs = .ok y) ↔ InOrder f kw) := by
      unfold BadAt InOrder contField
      cases hl : lookupName f.name kw with
      | none =>
        have hn := (lookupName_none _ _).mp hl
        have hne : ∀ w, (f.name, w) ∉ kw := fun w hm => hn (List.mem_map.mpr ⟨_, hm, rfl⟩)
        dsimp only
        by_cases hq : f.name ∈ c.required
        · rw [if_pos hq, raises_field]
          have hr' : f.required = true := by rw [hr]; exact decide_eq_true hq
          constructor
          · constructor
            · exact fun h => .inl ⟨hr', hn, h⟩
            · rintro (⟨_, _, h⟩ | ⟨w, hm, _⟩)
              · exact h
              · exact absurd hm (hne w)
          · constructor
            · rintro ⟨_, h⟩; cases h
            · exact fun h => absurd (h.1 hr') hn
        · rw [if_neg hq, raises_ok]
          have hr' : f.required = false := by rw [hr]; exact decide_eq_false hq
          constructor
          · constructor
            · exact False.elim
            · rintro (⟨h, _⟩ | ⟨w, hm, _⟩)
              · rw [hr'] at h; cases h
              · exact absurd hm (hne w)
          · refine ⟨fun _ => ⟨fun h => ?_, fun w hm => absurd hm (hne w)⟩, fun _ => ⟨_, rfl⟩⟩
            rw [hr'] at h; cases h
      | some w =>
        have hm := mem_of_lookupName hl
        have uniq : ∀ w', (f.name, w') ∈ kw → w' = w := by
          intro w' hm'
          have := lookupName_of_mem hnd hm'
          rw [hl] at this
          injection this with this
          exact this.symm
        have hin : f.name ∈ kw.map Prod.fst := List.mem_map.mpr ⟨_, hm, rfl⟩
        have hw := hd _ _ hm
        dsimp only
        unfold contDeser
        have sk : (w = .none ∧ f.name ∉ c.required) ↔ Skipped f w := by
          unfold Skipped
          rw [hr, decide_eq_false_iff_not]
        by_cases hs : w = .none ∧ f.name ∉ c.required
        · rw [if_pos hs, raises_ok]
          constructor
          · constructor
            · exact False.elim
            · rintro (⟨_, h, _⟩ | ⟨w', hm', h, _⟩)
              · exact h hin
              · rw [uniq w' hm'] at h; exact h (sk.mp hs)
          · exact ⟨fun _ => ⟨fun _ => hin, fun w' hm' => by rw [uniq w' hm']; exact .inl (sk.mp hs)⟩, fun _ => ⟨_, rfl⟩⟩
        · rw [if_neg hs]
          show (Raises (checked E hook f.name vs w) e ↔ _) ∧ ((∃ y, checked E hook f.name vs w = .ok y) ↔ _)
          rw [hbad w e hw, hok w hw]
          constructor
          · constructor
            · exact fun h => .inr ⟨w, hm, fun h' => hs (sk.mpr h'), h⟩
            · rintro (⟨_, h, _⟩ | ⟨w', hm', _, h⟩)
              · exact absurd hin h
              · rw [uniq w' hm'] at h; exact h
          · constructor
            · exact fun h => ⟨fun _ => hin, fun w' hm' => by rw [uniq w' hm']; exact .inr h⟩
            · intro h
              rcases h.2 w hm with h | h
              · exact absurd (sk.mpr h) hs
              · exact h
    rw [first_cons, ← one.1, ← one.2, ← ih.1, contFields_cons]
    constructor
    · cases h1 : contField E hook c kw f.name vs with
      | error x =>
        dsimp only
        rw [raises_error, raises_error]
        exact ⟨.inl, fun h => h.elim id fun ⟨⟨_, h⟩, _⟩ => by cases h⟩
      | ok y =>
        dsimp only
        rw [raises_ok]
        cases h2 : contFields E hook c kw sl with
        | error x =>
          dsimp only
          exact ⟨fun h => .inr ⟨⟨_, rfl⟩, h⟩, fun h => h.elim False.elim fun h => h.2⟩
        | ok r =>
          dsimp only
          rw [raises_ok, raises_ok]
          exact ⟨False.elim, fun h => h.elim False.elim fun h => h.2⟩
    · have : (∀ g ∈ f :: fl, InOrder g kw) ↔ (∃ y, contField E hook c kw f.name vs = .ok y) ∧
          ∃ r, contFields E hook c kw sl = .ok r := by
        rw [ih.2, one.2]
        simp
      rw [this]
      cases h1 : contField E hook c kw f.name vs with
      | error x =>
        dsimp only
        exact ⟨fun ⟨_, h⟩ => (by cases h), fun ⟨⟨_, h⟩, _⟩ => (by cases h)⟩
      | ok y =>
        dsimp only
        cases h2 : contFields E hook c kw sl with
        | error x =>
          dsimp only
          exact ⟨fun ⟨_, h⟩ => (by cases h), fun ⟨_, ⟨_, h⟩⟩ => (by cases h)⟩
        | ok r => exact ⟨fun _ => ⟨⟨_, rfl⟩, ⟨_, rfl⟩⟩, fun _ => ⟨_, rfl⟩⟩

theorem unknown_first {slots : List (PStr × List Validator)} {k : PStr} : ∀ {kw : Attrs}, firstUnknown slots kw = some k ↔
    First (fun p => p.1 ∈ slots.map Prod.fst) (fun p => p.1 = k ∧ k ∉ slots.map Prod.fst) kw
  | [] => by rw [first_nil]; exact ⟨fun h => (by cases h), False.elim⟩
  | (k', w) :: rest => by
    rw [first_cons, ← unknown_first (kw := rest), show firstUnknown slots ((k', w) :: rest) =
      if (lookupName k' slots).isSome then firstUnknown slots rest else some k' from rfl]
    by_cases h : (lookupName k' slots).isSome = true
    · have h' := (lookupName_isSome _ _).mp h
      rw [if_pos h]
      constructor
      · exact fun hk => .inr ⟨h', hk⟩
      · rintro (⟨rfl, hk⟩ | hk)
        · exact absurd h' hk
        · exact hk.2
    · have h' : k' ∉ slots.map Prod.fst := fun hh => h ((lookupName_isSome _ _).mpr hh)
      rw [if_neg h]
      constructor
      · intro hk
        injection hk with hk
        subst hk
        exact .inl ⟨rfl, h'⟩
      · rintro (⟨rfl, _⟩ | ⟨hk, _⟩)
        · rfl
        · exact absurd hk h'

theorem asPairs_inj {a b : Attrs} (h : asPairs a = asPairs b) : a = b := by
  have h1 := textKeys_map a
  have h2 := textKeys_map b
  unfold asPairs at h
  rw [h, h2] at h1
  exact (Option.some.inj h1).symm

theorem kwargs_iff {v : Val} (h : Data v) : (∀ kw, kwargsOf v = .ok kw ↔ Keywords v kw) ∧
    ∀ e, kwargsOf v = .error e → wrapped e = .messageError := by
  unfold kwargsOf Keywords
  rcases data_dict_or h with ⟨d, rfl⟩ | ⟨hn, hd⟩
  · simp only [Val.asDict]
    cases hk : textKeys d with
    | none =>
      dsimp only
      refine ⟨fun kw => ⟨fun h => (by cases h), fun ⟨h, _⟩ => ?_⟩, fun e he => ?_⟩
      · injection h with h
        subst h
        unfold asPairs at hk
        rw [textKeys_map] at hk
        cases hk
      · injection he with he; subst he; rfl
    | some kw0 =>
      have e0 := textKeys_ok hk
      dsimp only
      by_cases hs : (lookupName p!"self" kw0).isSome = true
      · rw [if_pos hs]
        refine ⟨fun kw => ⟨fun h => (by cases h), fun ⟨h, h'⟩ => ?_⟩, fun e he => ?_⟩
        · injection h with h
          have : kw0 = kw := asPairs_inj (e0.symm.trans h)
          subst this
          exact absurd ((lookupName_isSome _ _).mp hs) h'
        · injection he with he; subst he; rfl
      · rw [if_neg hs]
        refine ⟨fun kw => ⟨fun h => ?_, fun ⟨h, h'⟩ => ?_⟩, fun e he => (by cases he)⟩
        · injection h with h
          subst h
          exact ⟨by rw [e0]; rfl, fun h => hs ((lookupName_isSome _ _).mpr h)⟩
        · injection h with h
          rw [asPairs_inj (e0.symm.trans h)]
  · rw [hn]
    dsimp only
    refine ⟨fun kw => ⟨fun h => (by cases h), fun ⟨h, _⟩ => absurd h (hd _)⟩, fun e he => ?_⟩
    injection he with he; subst he; rfl

theorem badRecord_inv {E : Env} {fs : List Field} {v : Val} {e : Exc} : BadRecord E fs v e ↔
    ((∀ kw, ¬ Keywords v kw) ∧ e = .messageError) ∨ ∃ kw, Keywords v kw ∧
      (First (fun f => InOrder f kw) (BadAt E kw e) fs ∨ ((∀ f ∈ fs, InOrder f kw) ∧ ∃ k, e = .fieldError k ∧
        First (fun p => p.1 ∈ fs.map Field.name) (fun p => p.1 = k ∧ k ∉ fs.map Field.name) kw)) := by
  constructor
  · intro h
    cases h with
    | shape h => exact .inl ⟨h, rfl⟩
    | missing hk hb hr hn => exact .inr ⟨_, hk, .inl ⟨_, _, _, rfl, hb, .inl ⟨hr, hn, rfl⟩⟩⟩
    | value hk hb hm hs hv => exact .inr ⟨_, hk, .inl ⟨_, _, _, rfl, hb, .inr ⟨_, hm, hs, hv⟩⟩⟩
    | unknown hk hb hkw hkn hu =>
      refine .inr ⟨_, hk, .inr ⟨hb, _, rfl, _, _, _, hkw, ?_, rfl, ?_⟩⟩
      · rintro ⟨k', w'⟩ hm
        obtain ⟨f, hf, e⟩ := hkn k' w' hm
        exact List.mem_map.mpr ⟨f, hf, e⟩
      · intro hm
        obtain ⟨f, hf, e⟩ := List.mem_map.mp hm
        exact hu f hf e
  · rintro (⟨h, rfl⟩ | ⟨kw, hk, h | ⟨hb, k, rfl, b, ⟨k', w⟩, a, hkw, hkn, e, hu⟩⟩)
    · exact .shape h
    · obtain ⟨b, f, a, rfl, hb, ⟨hr, hn, rfl⟩ | ⟨w, hm, hs, hv⟩⟩ := h
      · exact .missing hk hb hr hn
      · exact .value hk hb hm hs hv
    · simp only at e
      subst e
      refine .unknown hk hb hkw ?_ ?_
      · intro k2 w2 hm
        obtain ⟨f, hf, e⟩ := List.mem_map.mp (hkn _ hm)
        exact ⟨f, hf, e⟩
      · intro f hf e
        exact hu (List.mem_map.mpr ⟨f, hf, e⟩)

theorem aligned_call {E : Env} {hook : PStr → Val → Res Val} {c : ContId} {fl : List Field}
    (h : Aligned E hook c fl c.slots) {v : Val} (hv : Data v) {e : Exc} :
    Raises (contCall E hook c v) e ↔ BadRecord E fl v e := by
  rw [badRecord_inv]
  unfold contCall
  obtain ⟨k1, k2⟩ := kwargs_iff hv
  cases hk : kwargsOf v with
  | error x =>
    dsimp only
    have hno : ∀ kw, ¬ Keywords v kw := by
      intro kw hkw
      rw [(k1 kw).mpr hkw] at hk
      cases hk
    rw [raises_error, k2 x hk]
    constructor
    · exact fun h => .inl ⟨hno, h.symm⟩
    · rintro (⟨_, h⟩ | ⟨kw, hkw, _⟩)
      · exact h.symm
      · exact absurd hkw (hno kw)
  | ok kw =>
    have hkw := (k1 kw).mp hk
    have uniq : ∀ kw', Keywords v kw' → kw' = kw := by
      intro kw' h'
      exact asPairs_inj (Val.dict.inj (h'.1.symm.trans hkw.1))
    dsimp only
    unfold contBuild
    rw [raises_wrap]
    obtain ⟨hnd, hd⟩ := data_pairs (kw := kw) (hkw.1 ▸ hv)
    obtain ⟨f1, f2⟩ := aligned_first h hnd hd (e := e)
    have rhs : (((∀ kw, ¬ Keywords v kw) ∧ e = .messageError) ∨ ∃ kw, Keywords v kw ∧
      (First (fun f => InOrder f kw) (BadAt E kw e) fl ∨ ((∀ f ∈ fl, InOrder f kw) ∧ ∃ k, e = .fieldError k ∧
        First (fun p => p.1 ∈ fl.map Field.name) (fun p => p.1 = k ∧ k ∉ fl.map Field.name) kw))) ↔
      (First (fun f => InOrder f kw) (BadAt E kw e) fl ∨ ((∀ f ∈ fl, InOrder f kw) ∧ ∃ k, e = .fieldError k ∧
        First (fun p => p.1 ∈ fl.map Field.name) (fun p => p.1 = k ∧ k ∉ fl.map Field.name) kw)) := by
      constructor
      · rintro (⟨h, _⟩ | ⟨kw', h', h⟩)
        · exact absurd hkw (h kw)
        · rw [uniq kw' h'] at h; exact h
      · exact fun h => .inr ⟨kw, hkw, h⟩
    rw [rhs, ← f1, ← f2, ← aligned_names h]
    cases hf : contFields E hook c kw c.slots with
    | error x =>
      dsimp only
      rw [raises_error, raises_error]
      exact ⟨.inl, fun h => h.elim id fun ⟨⟨_, h⟩, _⟩ => (by cases h)⟩
    | ok fs =>
      dsimp only
      rw [raises_ok (a := fs)]
      cases hu : firstUnknown c.slots kw with
      | none =>
        dsimp only
        rw [raises_ok]
        refine ⟨False.elim, fun h => h.elim id ?_⟩
        rintro ⟨_, k, _, hk⟩
        rw [unknown_first.mpr hk] at hu
        cases hu
      | some k =>
        dsimp only
        rw [raises_field]
        constructor
        · rintro rfl
          exact .inr ⟨⟨_, rfl⟩, k, rfl, unknown_first.mp hu⟩
        · rintro (h | ⟨_, k', rfl, hk'⟩)
          · exact h.elim
          · rw [unknown_first.mpr hk'] at hu
            injection hu with hu
            rw [hu]

/-! ### The records -/

theorem badValue_inv {E : Env} {f : Field} {w : Val} {e : Exc} : BadValue E f w e ↔ ¬ f.ok w ∧
    ((((∀ d, w ≠ .dict d) ∨ ((∀ fs, (f.name, fs) ∉ partFields E) ∧ f.name ∉ counterFields)) ∧ e = .fieldError f.name) ∨
     ((∃ d, w = .dict d) ∧ f.name ∈ counterFields ∧ e = .messageError) ∨
     ∃ d fs, w = .dict d ∧ (f.name, fs) ∈ partFields E ∧ BadRecord E fs w e) := by
  constructor
  · intro h
    cases h with
    | plain a b => exact ⟨a, .inl ⟨b, rfl⟩⟩
    | counters a b => exact ⟨a, .inr (.inl ⟨⟨_, rfl⟩, b, rfl⟩)⟩
    | part a b c => exact ⟨a, .inr (.inr ⟨_, _, rfl, b, c⟩)⟩
  · rintro ⟨a, ⟨b, rfl⟩ | ⟨⟨d, rfl⟩, b, rfl⟩ | ⟨d, fs, rfl, b, c⟩⟩
    · exact .plain a b
    · exact .counters a b
    · exact .part a b c

/-- The names of the fields that are records or dictionaries with known keys. -/
def partNames : List PStr :=
  [p!"task_owner", p!"blkio_stats", p!"cpu_stats", p!"memory_stats", p!"pids_stats", p!"cpu_usage", p!"throttling_data"]

theorem part_named {E : Env} {n : PStr} {fs : List Field} (h : (n, fs) ∈ partFields E) :
    n ∈ partNames ∧ n ∉ counterFields := by
  simp only [partFields, List.mem_cons, List.mem_nil_iff, or_false, Prod.mk.injEq] at h
  rcases h with ⟨rfl, _⟩ | ⟨rfl, _⟩ | ⟨rfl, _⟩ | ⟨rfl, _⟩ | ⟨rfl, _⟩ <;> decide

theorem part_only {E : Env} {n : PStr} {fs fs' : List Field} (h : (n, fs) ∈ partFields E)
    (h' : (n, fs') ∈ partFields E) : fs = fs' := by
  simp only [partFields, List.mem_cons, List.mem_nil_iff, or_false, Prod.mk.injEq] at h h'
  rcases h with ⟨rfl, rfl⟩ | ⟨rfl, rfl⟩ | ⟨rfl, rfl⟩ | ⟨rfl, rfl⟩ | ⟨rfl, rfl⟩ <;> exact Eq.symm (by simpa using h')

theorem plain_bad {E : Env} {hook : PStr → Val → Res Val} {f : Field} {vs : List Validator}
    (hn : f.name ∉ partNames) (hh : ∀ w x, hook f.name w = .error x → x = .fieldError f.name)
    (hok : ∀ w, Data w → ((∃ y, checked E hook f.name vs w = .ok y) ↔ f.ok w)) (w : Val) (e : Exc) (hw : Data w) :
    Raises (checked E hook f.name vs w) e ↔ BadValue E f w e := by
  rw [badValue_inv, ← hok w hw]
  have h1 : ∀ fs, (f.name, fs) ∉ partFields E := fun fs h => hn (part_named h).1
  have h2 : f.name ∉ counterFields := by
    intro h
    apply hn
    simp only [counterFields, List.mem_cons, List.mem_nil_iff, or_false] at h
    rcases h with h | h <;> rw [h] <;> decide
  have key : ∀ x, checked E hook f.name vs w = .error x → x = .fieldError f.name := by
    intro x hx
    unfold checked at hx
    cases hr : runAll E vs f.name w with
    | error y => rw [hr] at hx; injection hx with hx; rw [← hx]; exact runAll_error hr
    | ok u => rw [hr] at hx; exact hh _ _ hx
  constructor
  · rintro ⟨x, hx, hwr⟩
    have := key x hx
    subst this
    refine ⟨?_, .inl ⟨.inr ⟨h1, h2⟩, hwr.symm⟩⟩
    rintro ⟨y, hy⟩
    rw [hx] at hy; cases hy
  · rintro ⟨hno, h⟩
    obtain ⟨x, hx⟩ := no_ok.mp hno
    rw [hx, key x hx, raises_field]
    rcases h with ⟨_, h⟩ | ⟨_, h, _⟩ | ⟨_, fs, _, h, _⟩
    · exact h
    · exact absurd h h2
    · exact absurd h (h1 fs)

theorem aligned_of {E : Env} {hook : PStr → Val → Res Val} {c : ContId} {fl : List Field}
    {sl : List (PStr × List Validator)} (h : Agree E hook c fl sl)
    (hh : ∀ f ∈ fl, f.name ∉ partNames → ∀ w x, hook f.name w = .error x → x = .fieldError f.name)
    (hp : ∀ f ∈ fl, f.name ∈ partNames → ∀ vs, (f.name, vs) ∈ sl → ∀ w e, Data w →
      (Raises (checked E hook f.name vs w) e ↔ BadValue E f w e)) : Aligned E hook c fl sl := by
  induction h with
  | nil => exact .nil
  | @cons n r ok vs fl sl h1 h2 _ ih =>
    have hok : ∀ w, Data w → ((∃ y, checked E hook n vs w = .ok y) ↔ ok w) := by
      intro w hw
      rw [checked_ok, h2 w hw]
    refine .cons (f := ⟨n, r, ok⟩) h1 hok ?_ (ih (fun f hf => hh f (List.mem_cons_of_mem _ hf))
      fun f hf hn vs hv => hp f (List.mem_cons_of_mem _ hf) hn vs (List.mem_cons_of_mem _ hv))
    intro w e hw
    by_cases hn : n ∈ partNames
    · exact hp ⟨n, r, ok⟩ (by simp) hn vs (by simp) w e hw
    · exact plain_bad (f := ⟨n, r, ok⟩) hn (hh ⟨n, r, ok⟩ (by simp) hn) hok w e hw

/-- A field that is a record. -/
theorem part_bad {E : Env} {hook : PStr → Val → Res Val} {f : Field} {vs : List Validator} {fs : List Field}
    {r : Val → Res Val} (hf : (f.name, fs) ∈ partFields E)
    (hok : ∀ w, Data w → ((∃ y, checked E hook f.name vs w = .ok y) ↔ f.ok w))
    (hnd : ∀ w, Data w → (∀ d, w ≠ .dict d) → ¬ ∀ x ∈ vs, x.accepts E w = true)
    (hd : ∀ d, Data (.dict d) → (∀ x ∈ vs, x.accepts E (.dict d) = true) ∧
      (f.ok (.dict d) ∨ hook f.name (.dict d) = r (.dict d)))
    (hr : ∀ d e, Data (.dict d) → (Raises (r (.dict d)) e ↔ BadRecord E fs (.dict d) e)) (w : Val) (e : Exc)
    (hw : Data w) : Raises (checked E hook f.name vs w) e ↔ BadValue E f w e := by
  rw [badValue_inv, ← hok w hw]
  rcases data_dict_or hw with ⟨d, rfl⟩ | ⟨_, hne⟩
  · obtain ⟨ha, h | h⟩ := hd d hw
    · obtain ⟨y, hy⟩ := (hok _ hw).mpr h
      rw [hy, raises_ok]
      exact ⟨False.elim, fun h => h.1 ⟨_, rfl⟩⟩
    · have eq : checked E hook f.name vs (.dict d) = r (.dict d) := by
        unfold checked
        have : runAll E vs f.name (.dict d) = .ok () := runAll_ok.mpr ha
        rw [this]
        exact h
      rw [eq, hr d e hw]
      constructor
      · intro hb
        refine ⟨?_, .inr (.inr ⟨d, fs, rfl, hf, hb⟩)⟩
        rintro ⟨y, hy⟩
        have := (hr d e hw).mpr hb
        rw [hy] at this
        exact raises_ok.mp this
      · rintro ⟨_, ⟨h | h, _⟩ | ⟨_, h, _⟩ | ⟨_, fs', _, h, hb⟩⟩
        · exact absurd rfl (h d)
        · exact absurd hf (h.1 fs)
        · exact absurd h (part_named hf).2
        · rw [part_only hf h]; exact hb
  · have : ∃ x, checked E hook f.name vs w = .error x ∧ x = .fieldError f.name := by
      unfold checked
      cases h : runAll E vs f.name w with
      | ok u => exact absurd (runAll_ok.mp h) (hnd w hw hne)
      | error x => exact ⟨x, rfl, runAll_error h⟩
    obtain ⟨x, hx, rfl⟩ := this
    rw [hx, raises_field]
    constructor
    · exact fun h => ⟨fun ⟨_, h⟩ => (by cases h), .inl ⟨.inl hne, h⟩⟩
    · rintro ⟨_, ⟨_, h⟩ | ⟨⟨d, h⟩, _⟩ | ⟨d, _, h, _⟩⟩
      · exact h
      · exact absurd h (hne d)
      · exact absurd h (hne d)

/-! ### Frozen dictionaries -/

/-- What is wrong with an assignment does not depend on the items. -/
theorem fdict_kept {E : Env} {conv : PStr → Val → Res Val} {c : FDictId} {items items' : Attrs} {key v : Val} {x : Exc}
    (h : fdSetV E conv c items key v = .error x) : fdSetV E conv c items' key v = .error x := by
  by_cases hk : ∃ k, key = .str k
  · obtain ⟨k, rfl⟩ := hk
    unfold fdSetV at h ⊢
    dsimp only at h ⊢
    cases hc : conv k v with
    | error y => rw [hc] at h; injection h with h; rw [h]
    | ok y =>
      rw [hc] at h
      dsimp only at h ⊢
      unfold fdSet at h ⊢
      cases hv : fdValidate E c k y with
      | error z => rw [hv] at h; dsimp only at h ⊢; injection h with h; rw [h]
      | ok u =>
        rw [hv] at h
        dsimp only at h ⊢
        split at h
        · cases h
        · rename_i hn
          rw [if_neg hn]; injection h with h; rw [h]
  · cases key <;> first | exact absurd ⟨_, rfl⟩ hk | exact h

/-- What is wrong with an assignment. -/
def Unset (E : Env) (conv : PStr → Val → Res Val) (c : FDictId) (e : Exc) (p : Val × Val) : Prop :=
  Raises (fdSetV E conv c [] p.1 p.2) e

/-- The assignment is possible. -/
def Settable (E : Env) (conv : PStr → Val → Res Val) (c : FDictId) (p : Val × Val) : Prop :=
  Assignable E conv c p.1 p.2

theorem settable_iff {E : Env} {conv : PStr → Val → Res Val} {c : FDictId} {p : Val × Val} :
    Settable E conv c p ↔ ∀ e, ¬ Unset E conv c e p := by
  constructor
  · intro h e hu
    obtain ⟨k, y, _, hs⟩ := fdSetV_some h
    unfold Unset at hu
    rw [hs] at hu
    exact raises_ok.mp hu
  · intro h
    unfold Unset at h
    cases hx : fdSetV E conv c [] p.1 p.2 with
    | error x => exact absurd ⟨x, hx, rfl⟩ (h _)
    | ok i =>
      obtain ⟨k1, y, e, hc, hk, hv, _⟩ := fdSetV_ok hx
      exact ⟨k1, y, e, hc, hk, hv⟩

theorem unset_or {E : Env} {conv : PStr → Val → Res Val} {c : FDictId} (items : Attrs) (key v : Val) :
    (∃ k y, key = .str k ∧ fdSetV E conv c items key v = .ok (setName k y items) ∧ Settable E conv c (key, v)) ∨
    ∃ x, fdSetV E conv c items key v = .error x ∧ (∀ e, Unset E conv c e (key, v) ↔ wrapped x = e) ∧
      ¬ Settable E conv c (key, v) := by
  cases hx : fdSetV E conv c items key v with
  | ok i =>
    obtain ⟨k1, y, e, hc, hk, hv, _⟩ := fdSetV_ok hx
    have ha : Settable E conv c (key, v) := ⟨k1, y, e, hc, hk, hv⟩
    obtain ⟨k, y, e, hs⟩ := fdSetV_some ha
    refine .inl ⟨k, y, e, ?_, ha⟩
    rw [← hx]; exact hs _
  | error x =>
    have hx' : fdSetV E conv c [] key v = .error x := fdict_kept hx
    have hi : ∀ e, Unset E conv c e (key, v) ↔ wrapped x = e := by
      intro e
      unfold Unset
      rw [hx', raises_error]
    exact .inr ⟨x, rfl, hi, fun h => settable_iff.mp h _ ((hi _).mpr rfl)⟩

theorem setAll_first {E : Env} {conv : PStr → Val → Res Val} {c : FDictId} {e : Exc} : ∀ {ps : List (Val × Val)}
    {items : Attrs}, (Raises (fdSetAll E conv c items ps) e ↔ First (Settable E conv c) (Unset E conv c e) ps)
  | [], items => by
    unfold fdSetAll
    rw [raises_ok, first_nil]
  | (k, v) :: rest, items => by
    rw [first_cons]
    unfold fdSetAll
    rcases unset_or (E := E) (conv := conv) (c := c) items k v with ⟨k', y, _, h, hs⟩ | ⟨x, h, hu, hs⟩
    · rw [h]
      dsimp only
      rw [setAll_first (ps := rest)]
      constructor
      · exact fun h => .inr ⟨hs, h⟩
      · rintro (h | h)
        · exact absurd h (settable_iff.mp hs _)
        · exact h.2
    · rw [h]
      dsimp only
      rw [raises_error, hu]
      constructor
      · exact .inl
      · rintro (h | h)
        · exact h
        · exact absurd h.1 hs

theorem defaults_first {E : Env} {conv : PStr → Val → Res Val} {c : FDictId} {e : Exc} : ∀ {l items : Attrs},
    (l.map Prod.fst).Nodup → (Raises (fdDefaults E conv c items l) e ↔
      First (fun p => (lookupName p.1 items).isSome = true ∨ Settable E conv c (.str p.1, p.2))
        (fun p => ¬ (lookupName p.1 items).isSome = true ∧ Unset E conv c e (.str p.1, p.2)) l)
  | [], items, _ => by
    unfold fdDefaults
    rw [raises_ok, first_nil]
  | (k, dv) :: rest, items, hn => by
    rw [List.map_cons, List.nodup_cons] at hn
    rw [first_cons]
    unfold fdDefaults
    by_cases hp : (lookupName k items).isSome = true
    · rw [if_pos hp, defaults_first hn.2]
      constructor
      · exact fun h => .inr ⟨.inl hp, h⟩
      · rintro (h | h)
        · exact absurd hp h.1
        · exact h.2
    · rw [if_neg hp]
      rcases unset_or (E := E) (conv := conv) (c := c) items (.str k) dv with ⟨k', y, e', h, hs⟩ | ⟨x, h, hu, hs⟩
      · injection e' with e'
        subst e'
        rw [h]
        dsimp only
        rw [defaults_first hn.2]
        have key : ∀ p ∈ rest, (lookupName p.1 (setName k y items)).isSome = (lookupName p.1 items).isSome := by
          intro p hm
          rw [lookupName_setName, if_neg]
          rintro rfl
          exact hn.1 (List.mem_map.mpr ⟨_, hm, rfl⟩)
        have same : First (fun p => (lookupName p.1 (setName k y items)).isSome = true ∨ Settable E conv c (.str p.1, p.2))
            (fun p => ¬ (lookupName p.1 (setName k y items)).isSome = true ∧ Unset E conv c e (.str p.1, p.2)) rest ↔
          First (fun p => (lookupName p.1 items).isSome = true ∨ Settable E conv c (.str p.1, p.2))
            (fun p => ¬ (lookupName p.1 items).isSome = true ∧ Unset E conv c e (.str p.1, p.2)) rest := by
          constructor
          · rintro ⟨b, z, a, rfl, hb, hz⟩
            refine ⟨b, z, a, rfl, fun u hu => ?_, ?_⟩
            · show _ ∨ _
              rw [← key u (by simp [hu])]; exact hb u hu
            · show _ ∧ _
              rw [← key z (by simp)]; exact hz
          · rintro ⟨b, z, a, rfl, hb, hz⟩
            refine ⟨b, z, a, rfl, fun u hu => ?_, ?_⟩
            · show _ ∨ _
              rw [key u (by simp [hu])]; exact hb u hu
            · show _ ∧ _
              rw [key z (by simp)]; exact hz
        rw [same]
        constructor
        · exact fun h => .inr ⟨.inr hs, h⟩
        · rintro (h | h)
          · exact absurd h.2 (settable_iff.mp hs _)
          · exact h.2
      · rw [h]
        dsimp only
        rw [raises_error, hu]
        constructor
        · exact fun h => .inl ⟨hp, h⟩
        · rintro (h | h)
          · exact h.2
          · rcases h.1 with h | h
            · exact absurd h hp
            · exact absurd h hs

/-- The entry is given, or its default can be assigned. -/
def Filled (E : Env) (conv : PStr → Val → Res Val) (c : FDictId) (ps : List (Val × Val)) (p : PStr × Val) : Prop :=
  (∃ w, (.str p.1, w) ∈ ps) ∨ Settable E conv c (.str p.1, p.2)

/-- What is wrong with the pairs. -/
def BadPairs (E : Env) (conv : PStr → Val → Res Val) (c : FDictId) (e : Exc) (ps : List (Val × Val)) : Prop :=
  First (Settable E conv c) (Unset E conv c e) ps ∨ ((∀ p ∈ ps, Settable E conv c p) ∧
    First (Filled E conv c ps) (fun p => (¬ ∃ w, (.str p.1, w) ∈ ps) ∧ Unset E conv c e (.str p.1, p.2)) (dictEntries c))

theorem build_raises {E : Env} {conv : PStr → Val → Res Val} {c : FDictId} {ps : List (Val × Val)} {e : Exc} :
    Raises (fdBuild E conv c ps) e ↔ BadPairs E conv c e ps := by
  have hnd : (c.items.map Prod.fst).Nodup := by cases c <;> decide
  unfold fdBuild BadPairs
  rw [← setAll_first (items := [])]
  cases hi : fdSetAll E conv c [] ps with
  | error x =>
    dsimp only
    rw [raises_error, raises_error]
    constructor
    · exact .inl
    · rintro (h | h)
      · exact h
      · obtain ⟨i, h'⟩ := (fdSetAll_assignable (items := [])).2 fun key v hm => h.1 _ hm
        rw [hi] at h'
        cases h'
  | ok items =>
    dsimp only
    rw [raises_ok]
    obtain ⟨a1, a2⟩ := fdSetAll_assignable.1 _ hi
    have giv : ∀ n, (lookupName n items).isSome = true ↔ ∃ w, (.str n, w) ∈ ps := by
      intro n
      rw [a2]
      exact ⟨fun h => h.elim (fun h => (by cases h)) id, .inr⟩
    have := defaults_first (E := E) (conv := conv) (c := c) (e := e) (items := items) hnd
    simp only [giv] at this
    rw [← items_listed]
    refine Iff.trans (b := Raises (fdDefaults E conv c items c.items) e) ?_ ⟨fun h => .inr ⟨fun p hp => a1 _ _ hp,
      this.mp h⟩, fun h => h.elim False.elim fun h => this.mpr h.2⟩
    cases fdDefaults E conv c items c.items with
    | error x => dsimp only; rw [raises_error, raises_error]
    | ok i => dsimp only; rw [raises_ok, raises_ok]

theorem pairs_prefix : ∀ {l : List Val} {ps : List (Val × Val)}, (∀ x ∈ l, Data x) →
    ((∃ more, pairsBefore l = ps ++ more) ↔ ∃ l1 rest, l = l1 ++ rest ∧ PairUp l1 ps)
  | l, [], _ => ⟨fun _ => ⟨[], l, rfl, .nil⟩, fun _ => ⟨_, rfl⟩⟩
  | [], p :: ps, _ => by
    constructor
    · rintro ⟨more, h⟩; cases h
    · rintro ⟨l1, rest, h, hp⟩
      cases hp
      cases h
  | x :: xs, (k, w) :: ps, h => by
    have ih := pairs_prefix (l := xs) (ps := ps) fun y hy => h y (by simp [hy])
    unfold pairsBefore
    constructor
    · rintro ⟨more, hm⟩
      split at hm
      · rename_i k' w' hi
        rw [List.cons_append] at hm
        injection hm with h1 h2
        injection h1 with e1 e2
        subst e1 e2
        obtain ⟨l1, rest, rfl, hp⟩ := ih.mp ⟨more, h2⟩
        exact ⟨x :: l1, rest, rfl, .cons ((elements_iff (h x (by simp))).mp hi) hp⟩
      · cases hm
    · rintro ⟨l1, rest, hl, hp⟩
      cases hp with
      | cons he hp =>
        rw [List.cons_append] at hl
        injection hl with h1 h2
        subst h1
        obtain ⟨more, hm⟩ := ih.mpr ⟨_, rest, h2, hp⟩
        rw [(elements_iff (h x (by simp))).mpr he]
        exact ⟨more, by dsimp only; rw [hm]; rfl⟩

theorem pairs_all {l : List Val} {ps : List (Val × Val)} (h : pairsOf l = .ok ps) : pairsBefore l = ps := by
  induction l generalizing ps with
  | nil => cases h; rfl
  | cons x xs ih =>
    unfold pairsOf at h
    unfold pairsBefore
    split at h
    · rename_i k v hi
      rw [hi]
      split at h
      · rename_i r hr
        injection h with h
        subst h
        dsimp only
        rw [ih hr]
      · cases h
    · cases h
    · cases h

theorem pairs_stop {l : List Val} (hd : ∀ x ∈ l, Data x) {x : Exc} (h : pairsOf l = .error x) :
    wrapped x = .messageError ∧
      ∃ l1 y rest, l = l1 ++ y :: rest ∧ PairUp l1 (pairsBefore l) ∧ ∀ k w, ¬ Elements y [k, w] := by
  induction l with
  | nil => cases h
  | cons y ys ih =>
    unfold pairsOf at h
    unfold pairsBefore
    have hy := hd y (by simp)
    split at h
    · rename_i k v hi
      rw [hi]
      dsimp only
      split at h
      · cases h
      · rename_i z hz
        injection h with h
        subst h
        obtain ⟨e, l1, u, rest, hl, hp, hu⟩ := ih (fun z hz => hd z (by simp [hz])) hz
        exact ⟨e, y :: l1, u, rest, by rw [hl]; rfl, .cons ((elements_iff hy).mp hi) hp, hu⟩
    · rename_i li hne hi
      injection h with h
      subst h
      have no : ∀ k w, ¬ Elements y [k, w] := by
        intro k w he
        exact hne k w (Option.some.inj (hi.symm.trans ((elements_iff hy).mpr he)))
      refine ⟨rfl, [], y, ys, rfl, ?_, no⟩
      split
      · rename_i k w hi'; exact absurd ((elements_iff hy).mp hi') (no k w)
      · exact .nil
    · rename_i hi
      injection h with h
      subst h
      have no : ∀ k w, ¬ Elements y [k, w] := by
        intro k w he
        rw [(elements_iff hy).mpr he] at hi
        cases hi
      refine ⟨rfl, [], y, ys, rfl, ?_, no⟩
      split
      · rename_i k w hi'; exact absurd ((elements_iff hy).mp hi') (no k w)
      · exact .nil

/-- The pairs up to the first element that is none. -/
theorem pairs_until {l l1 rest : List Val} {y : Val} {ps : List (Val × Val)} (hd : ∀ x ∈ l, Data x)
    (hl : l = l1 ++ y :: rest) (hp : PairUp l1 ps) (hy : ∀ k w, ¬ Elements y [k, w]) :
    pairsBefore l = ps ∧ ∃ x, pairsOf l = .error x := by
  subst hl
  induction hp with
  | nil =>
    have hdy := hd y (by simp)
    rw [List.nil_append]
    unfold pairsBefore pairsOf
    constructor
    · split
      · rename_i k w hi; exact absurd ((elements_iff hdy).mp hi) (hy k w)
      · rfl
    · split
      · rename_i k w hi; exact absurd ((elements_iff hdy).mp hi) (hy k w)
      · exact ⟨_, rfl⟩
      · exact ⟨_, rfl⟩
  | @cons x k w xs ps he _ ih =>
    obtain ⟨i1, z, i2⟩ := ih fun z hz => hd z (by simp only [List.cons_append, List.mem_cons]; exact .inr hz)
    have hi := (elements_iff (hd x (by simp))).mpr he
    rw [List.cons_append]
    unfold pairsBefore pairsOf
    rw [hi]
    dsimp only
    rw [i1, i2]
    exact ⟨rfl, z, rfl⟩

end Verif
