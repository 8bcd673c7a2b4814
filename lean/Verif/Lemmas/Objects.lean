import Verif.Spec.Objects
/-!
# Lemmas about objects and references
-/

namespace Verif

open Spec

/-! ### Reading -/

theorem allSome_congr {α β : Type} {f g : α → Option β} {l : List α} (h : ∀ x ∈ l, f x = g x) :
    allSome f l = allSome g l := by
  induction l with
  | nil => rfl
  | cons x xs ih =>
    unfold allSome
    rw [h x List.mem_cons_self, ih fun y hy => h y (List.mem_cons_of_mem _ hy)]

theorem allSome_mono {α β : Type} {f g : α → Option β} {l : List α} {ys : List β}
    (h : ∀ x ∈ l, ∀ y, f x = some y → g x = some y) (hs : allSome f l = some ys) : allSome g l = some ys := by
  induction l generalizing ys with
  | nil => exact hs
  | cons x xs ih =>
    unfold allSome at hs ⊢
    cases hx : f x with
    | none => rw [hx] at hs; cases hs
    | some y =>
      cases hr : allSome f xs with
      | none => rw [hx, hr] at hs; cases hs
      | some zs =>
        rw [hx, hr] at hs
        rw [h x List.mem_cons_self y hx, ih (fun a ha => h a (List.mem_cons_of_mem _ ha)) hr]
        exact hs

theorem allSome_mem {α β : Type} {f : α → Option β} {l : List α} {ys : List β} (hs : allSome f l = some ys)
    {x : α} (hx : x ∈ l) : ∃ y, f x = some y := by
  induction l generalizing ys with
  | nil => cases hx
  | cons z zs ih =>
    unfold allSome at hs
    cases hz : f z with
    | none => rw [hz] at hs; cases hs
    | some y =>
      cases hr : allSome f zs with
      | none => rw [hz, hr] at hs; cases hs
      | some ws =>
        rcases List.mem_cons.mp hx with rfl | hx
        · exact ⟨y, hz⟩
        · exact ih hr hx

theorem allSome_length {α β : Type} {f : α → Option β} {l : List α} {ys : List β} (hs : allSome f l = some ys) :
    ys.length = l.length := by
  induction l generalizing ys with
  | nil => cases hs; rfl
  | cons z zs ih =>
    unfold allSome at hs
    cases hz : f z with
    | none => rw [hz] at hs; cases hs
    | some y =>
      cases hr : allSome f zs with
      | none => rw [hz, hr] at hs; cases hs
      | some ws =>
        rw [hz, hr] at hs
        cases hs
        simp [ih hr]

theorem read_atom (h : Objects) (n : Nat) (v : Val) : h.read n (.atom v) = some v := by
  cases n <;> rfl

theorem read_obj {h : Objects} {n a : Nat} {s : Shape} {rs : List Ref} (e : h[a]? = some (s, rs)) :
    h.read (n + 1) (.obj a) = (allSome (h.read n) rs).map s.value := by
  show (match h[a]? with
    | none => none
    | some (s, rs) => match allSome (h.read n) rs with
      | none => none
      | some vs => some (s.value vs)) = _
  rw [e]
  dsimp only
  cases allSome (h.read n) rs <;> rfl

theorem read_obj_some {h : Objects} {n a : Nat} {v : Val} (hr : h.read n (.obj a) = some v) :
    ∃ m s rs vs, n = m + 1 ∧ h[a]? = some (s, rs) ∧ allSome (h.read m) rs = some vs ∧ v = s.value vs := by
  cases n with
  | zero => cases hr
  | succ m =>
    cases e : h[a]? with
    | none =>
      have : h.read (m + 1) (.obj a) = none := by
        show (match h[a]? with
          | none => none
          | some (s, rs) => match allSome (h.read m) rs with
            | none => none
            | some vs => some (s.value vs)) = _
        rw [e]
      rw [this] at hr
      cases hr
    | some o =>
      obtain ⟨s, rs⟩ := o
      rw [read_obj e] at hr
      cases hx : allSome (h.read m) rs with
      | none => rw [hx] at hr; cases hr
      | some vs =>
        rw [hx] at hr
        cases hr
        exact ⟨m, s, rs, vs, rfl, rfl, hx, rfl⟩

/-- What can be read with some depth can be read with more. -/
theorem read_more {h : Objects} {n m : Nat} {r : Ref} {v : Val} (hr : h.read n r = some v) (hnm : n ≤ m) :
    h.read m r = some v := by
  induction n generalizing m r v with
  | zero =>
    cases r with
    | atom w => rw [read_atom] at hr ⊢; exact hr
    | obj a => cases hr
  | succ n ih =>
    cases r with
    | atom w => rw [read_atom] at hr ⊢; exact hr
    | obj a =>
      obtain ⟨k, s, rs, vs, e1, e2, e3, rfl⟩ := read_obj_some hr
      injection e1 with e1
      subst e1
      cases m with
      | zero => omega
      | succ m =>
        rw [read_obj e2, allSome_mono (fun x _ y hx => ih hx (by omega)) e3]
        rfl

/-- Only the objects within reach matter. -/
theorem read_agree {h h' : Objects} {n : Nat} {r : Ref} (e : ∀ a, Reach h r a → h'[a]? = h[a]?) :
    h'.read n r = h.read n r := by
  induction n generalizing r with
  | zero => cases r <;> rfl
  | succ n ih =>
    cases r with
    | atom w => rfl
    | obj a =>
      have ha := e a .here
      cases hx : h[a]? with
      | none =>
        rw [hx] at ha
        show (match h'[a]? with
          | none => none
          | some (s, rs) => match allSome (h'.read n) rs with
            | none => none
            | some vs => some (s.value vs)) = (match h[a]? with
          | none => none
          | some (s, rs) => match allSome (h.read n) rs with
            | none => none
            | some vs => some (s.value vs))
        rw [ha, hx]
      | some o =>
        obtain ⟨s, rs⟩ := o
        rw [hx] at ha
        rw [read_obj ha, read_obj hx, allSome_congr fun r hr => ih fun b hb => e b (.there hx hr hb)]

/-- New objects change no value. -/
theorem read_append {h l : Objects} {n : Nat} {r : Ref} {v : Val} (hr : h.read n r = some v) :
    Objects.read (h ++ l) n r = some v := by
  induction n generalizing r v with
  | zero =>
    cases r with
    | atom w => exact hr
    | obj a => cases hr
  | succ n ih =>
    cases r with
    | atom w => exact hr
    | obj a =>
      obtain ⟨k, s, rs, vs, e1, e2, e3, rfl⟩ := read_obj_some hr
      injection e1 with e1
      subst e1
      have : (h ++ l)[a]? = some (s, rs) := by
        rw [List.getElem?_append_left]
        · exact e2
        · exact (List.getElem?_eq_some_iff.mp e2).1
      rw [read_obj this, allSome_mono (fun x _ y hx => ih hx) e3]
      rfl

theorem value_append {h l : Objects} {r : Ref} {v : Val} (hr : h.value r = some v) :
    Objects.value (h ++ l) r = some v := by
  unfold Objects.value at *
  exact read_more (read_append hr) (by simp only [List.length_append]; omega)

/-! ### Reach -/

theorem reach_trans {h : Objects} {r : Ref} {a b : Nat} (h1 : Reach h r a) (h2 : Reach h (.obj a) b) :
    Reach h r b := by
  induction h1 with
  | here => exact h2
  | there e m _ ih => exact .there e m (ih h2)

theorem reach_atom {h : Objects} {v : Val} {a : Nat} : ¬ Reach h (.atom v) a := by
  intro h; cases h

/-- Reach in objects that differ only out of reach. -/
theorem reach_agree {h h' : Objects} {r : Ref} {b : Nat} (e : ∀ a, Reach h r a → h'[a]? = h[a]?)
    (hb : Reach h' r b) : Reach h r b := by
  induction hb with
  | here => exact .here
  | there e1 m _ ih =>
    have e2 := e _ .here
    rw [e1] at e2
    exact .there e2.symm m (ih fun a ha => e a (.there e2.symm m ha))

/-- A set of references closed under looking into objects holds everything within reach. -/
theorem reach_in {h : Objects} {P : Ref → Prop} {r : Ref} {b : Nat}
    (hP : ∀ a s rs, P (.obj a) → h[a]? = some (s, rs) → ∀ q ∈ rs, P q) (hr : P r) (hb : Reach h r b) : P (.obj b) := by
  induction hb with
  | here => exact hr
  | there e m _ ih => exact ih (hP _ _ _ hr e _ m)

theorem known_in {h : Objects} {K : List Ref} {r : Ref} {b : Nat} (hr : Known h K r) (hb : Reach h r b) :
    ReachAny h K b := by
  cases r with
  | atom v => exact absurd hb reach_atom
  | obj a =>
    obtain ⟨k, hk, hka⟩ := hr
    exact ⟨k, hk, reach_trans hka hb⟩

theorem known_step {h : Objects} {K : List Ref} {a : Nat} {s : Shape} {rs : List Ref} (ha : ReachAny h K a)
    (e : h[a]? = some (s, rs)) : ∀ q ∈ rs, Known h K q := by
  intro q hq
  cases q with
  | atom v => exact trivial
  | obj b =>
    obtain ⟨k, hk, hka⟩ := ha
    exact ⟨k, hk, reach_trans hka (.there e hq .here)⟩

theorem known_mem {h : Objects} {K : List Ref} {r : Ref} (hr : r ∈ K) : Known h K r := by
  cases r with
  | atom v => exact trivial
  | obj a => exact ⟨_, hr, .here⟩

/-- Everything within reach exists, if nothing dangles. -/
theorem reach_lt {h : Objects} {r : Ref} {b : Nat} (hc : Closed h) (hr : ∀ a, r = .obj a → a < h.length)
    (hb : Reach h r b) : b < h.length :=
  reach_in (P := fun r => ∀ a, r = .obj a → a < h.length)
    (fun a s rs _ e _ hq c hqc => hc a s rs e c (hqc ▸ hq)) hr hb b rfl

/-! ### Copies -/

/-- A reference to one of the objects made since, or to an immutable value. -/
def New (h h' : Objects) : Ref → Prop
  | .atom _ => True
  | .obj a => h.length ≤ a ∧ a < h'.length

/-- Objects were added that refer only to each other or as `P` says. -/
def Added (P : Ref → Prop) (h h' : Objects) : Prop :=
  ∃ l, h' = h ++ l ∧ ∀ s rs, (s, rs) ∈ l → ∀ q ∈ rs, New h h' q ∨ P q

theorem New.weaken {h h1 h2 : Objects} {l : Objects} {r : Ref} (hr : New h h1 r) (e : h2 = h1 ++ l) : New h h2 r := by
  cases r with
  | atom v => exact trivial
  | obj a =>
    refine ⟨hr.1, ?_⟩
    rw [e, List.length_append]
    have := hr.2
    omega

theorem New.earlier {h h0 h1 : Objects} {l : Objects} {r : Ref} (hr : New h1 h0 r) (e : h1 = h ++ l) : New h h0 r := by
  cases r with
  | atom v => exact trivial
  | obj a =>
    refine ⟨?_, hr.2⟩
    have := hr.1
    rw [e, List.length_append] at this
    omega

theorem Added.refl (P : Ref → Prop) (h : Objects) : Added P h h :=
  ⟨[], by simp, fun _ _ hm => by cases hm⟩

theorem Added.trans {P : Ref → Prop} {h h1 h2 : Objects} (a : Added P h h1) (b : Added P h1 h2) : Added P h h2 := by
  obtain ⟨l, rfl, hl⟩ := a
  obtain ⟨k, rfl, hk⟩ := b
  refine ⟨l ++ k, by rw [List.append_assoc], fun s rs hm q hq => ?_⟩
  rcases List.mem_append.mp hm with hm | hm
  · exact (hl s rs hm q hq).imp (fun h => h.weaken rfl) id
  · exact (hk s rs hm q hq).imp (fun h => h.earlier rfl) id

theorem Added.mono {P Q : Ref → Prop} {h h' : Objects} (a : Added P h h') (hpq : ∀ r, P r → Q r) : Added Q h h' := by
  obtain ⟨l, e, hl⟩ := a
  exact ⟨l, e, fun s rs hm q hq => (hl s rs hm q hq).imp id (hpq q)⟩

theorem Added.push {P : Ref → Prop} {h h' : Objects} {s : Shape} {rs : List Ref} (a : Added P h h')
    (hr : ∀ q ∈ rs, New h h' q ∨ P q) : Added P h (h' ++ [(s, rs)]) ∧ New h (h' ++ [(s, rs)]) (.obj h'.length) := by
  obtain ⟨l, rfl, hl⟩ := a
  refine ⟨⟨l ++ [(s, rs)], by rw [List.append_assoc], fun s' rs' hm q hq => ?_⟩, ?_⟩
  · rcases List.mem_append.mp hm with hm | hm
    · exact (hl s' rs' hm q hq).imp (fun h => h.weaken rfl) id
    · simp only [List.mem_singleton, Prod.mk.injEq] at hm
      obtain ⟨rfl, rfl⟩ := hm
      exact (hr q hq).imp (fun h => h.weaken rfl) id
  · exact ⟨by simp, by simp⟩

theorem copyAll_spec {copy : Objects → Ref → Option (Objects × Ref)} {n : Nat}
    (hc : ∀ h r h' r', copy h r = some (h', r') → Added (fun _ => False) h h' ∧ New h h' r' ∧
      ∀ v, h.read n r = some v → h'.read n r' = some v)
    {rs : List Ref} {h h' : Objects} {rs' : List Ref} (hx : copyAll copy h rs = some (h', rs')) :
    Added (fun _ => False) h h' ∧ (∀ q ∈ rs', New h h' q) ∧
      ∀ vs, allSome (h.read n) rs = some vs → allSome (h'.read n) rs' = some vs := by
  induction rs generalizing h rs' with
  | nil =>
    unfold copyAll at hx
    cases hx
    exact ⟨.refl _ _, (fun q hq => by cases hq), fun vs hv => hv⟩
  | cons r rs ih =>
    unfold copyAll at hx
    cases h1 : copy h r with
    | none => rw [h1] at hx; cases hx
    | some p =>
      obtain ⟨h2, r'⟩ := p
      rw [h1] at hx
      dsimp only at hx
      cases h3 : copyAll copy h2 rs with
      | none => rw [h3] at hx; cases hx
      | some p =>
        obtain ⟨h4, rs''⟩ := p
        rw [h3] at hx
        cases hx
        obtain ⟨a1, a2, a3⟩ := hc _ _ _ _ h1
        obtain ⟨b1, b2, b3⟩ := ih h3
        obtain ⟨l2, e2, f2⟩ := a1
        obtain ⟨l4, e4, f4⟩ := b1
        refine ⟨Added.trans ⟨l2, e2, f2⟩ ⟨l4, e4, f4⟩, ?_, ?_⟩
        · intro q hq
          rcases List.mem_cons.mp hq with rfl | hq
          · exact a2.weaken e4
          · exact (b2 q hq).earlier e2
        · intro vs hv
          unfold allSome at hv
          cases hr : h.read n r with
          | none => rw [hr] at hv; cases hv
          | some w =>
            cases hs : allSome (h.read n) rs with
            | none => rw [hr, hs] at hv; cases hv
            | some ws =>
              rw [hr, hs] at hv
              cases hv
              have c1 := b3 ws (by rw [e2]; exact allSome_mono (fun x _ y hx => read_append hx) hs)
              have c2 := a3 w hr
              unfold allSome
              rw [show Objects.read h' n r' = some w by rw [e4]; exact read_append c2, c1]

/-- A deep copy is made of new objects only, and has the value of what was copied. -/
theorem deepcopy_spec (n : Nat) : ∀ (h : Objects) (r : Ref) (h' : Objects) (r' : Ref),
    deepcopy n h r = some (h', r') → Added (fun _ => False) h h' ∧ New h h' r' ∧
      ∀ v, h.read n r = some v → h'.read n r' = some v := by
  induction n with
  | zero =>
    intro h r h' r' hx
    cases r with
    | atom v => cases hx; exact ⟨.refl _ _, trivial, fun v hv => hv⟩
    | obj a => cases hx
  | succ n ih =>
    intro h r h' r' hx
    cases r with
    | atom v => cases hx; exact ⟨.refl _ _, trivial, fun v hv => hv⟩
    | obj a =>
      unfold deepcopy at hx
      cases e : h[a]? with
      | none => rw [e] at hx; cases hx
      | some o =>
        obtain ⟨s, rs⟩ := o
        rw [e] at hx
        dsimp only at hx
        cases hc : copyAll (deepcopy n) h rs with
        | none => rw [hc] at hx; cases hx
        | some p =>
          obtain ⟨h1, rs'⟩ := p
          rw [hc] at hx
          cases hx
          obtain ⟨a1, a2, a3⟩ := copyAll_spec ih hc
          obtain ⟨c1, c2⟩ := a1.push (s := s) (rs := rs') fun q hq => .inl (a2 q hq)
          refine ⟨c1, c2, fun v hv => ?_⟩
          obtain ⟨m, s', rs0, vs, e1, e2, e3, rfl⟩ := read_obj_some hv
          injection e1 with e1
          subst e1
          rw [e] at e2
          cases e2
          have : (h1 ++ [(s, rs')])[h1.length]? = some (s, rs') := by simp
          rw [read_obj this, allSome_mono (fun x _ y hx => read_append hx) (a3 vs e3)]
          rfl

/-- A deep copy of what has a value succeeds. -/
theorem deepcopy_total (n : Nat) : ∀ (h : Objects) (r : Ref) (v : Val), h.read n r = some v →
    ∃ h' r', deepcopy n h r = some (h', r') := by
  induction n with
  | zero =>
    intro h r v hr
    cases r with
    | atom v => exact ⟨_, _, rfl⟩
    | obj a => cases hr
  | succ n ih =>
    intro h r v hr
    cases r with
    | atom v => exact ⟨_, _, rfl⟩
    | obj a =>
      obtain ⟨m, s, rs, vs, e1, e2, e3, rfl⟩ := read_obj_some hr
      injection e1 with e1
      subst e1
      have key : ∀ (rs : List Ref) (h : Objects) (vs : List Val), allSome (h.read n) rs = some vs →
          ∃ h' rs', copyAll (deepcopy n) h rs = some (h', rs') := by
        intro rs
        induction rs with
        | nil => exact fun h vs _ => ⟨h, [], rfl⟩
        | cons q qs ihq =>
          intro h vs hv
          unfold allSome at hv
          cases hr : h.read n q with
          | none => rw [hr] at hv; cases hv
          | some w =>
            cases hs : allSome (h.read n) qs with
            | none => rw [hr, hs] at hv; cases hv
            | some ws =>
              obtain ⟨h1, q', e⟩ := ih h q w hr
              obtain ⟨⟨l, e1, _⟩, _⟩ := deepcopy_spec n _ _ _ _ e
              obtain ⟨h2, qs', e2⟩ := ihq h1 ws (by rw [e1]; exact allSome_mono (fun x _ y hx => read_append hx) hs)
              exact ⟨h2, q' :: qs', by unfold copyAll; rw [e]; dsimp only; rw [e2]⟩
      obtain ⟨h1, rs', e⟩ := key rs h vs e3
      exact ⟨_, _, by unfold deepcopy; rw [e2]; dsimp only; rw [e]⟩

/-! ### Frozen dictionaries -/

theorem mem_setName {α : Type} {k n : PStr} {v w : α} {l : List (PStr × α)} (h : (n, w) ∈ setName k v l) :
    (n = k ∧ w = v) ∨ (n, w) ∈ l := by
  induction l with
  | nil =>
    simp only [setName, List.mem_singleton, Prod.mk.injEq] at h
    exact .inl h
  | cons p ps ih =>
    obtain ⟨a, b⟩ := p
    unfold setName at h
    split at h
    · rename_i e
      rcases List.mem_cons.mp h with h | h
      · cases h; exact .inl ⟨e, rfl⟩
      · exact .inr (List.mem_cons_of_mem _ h)
    · rcases List.mem_cons.mp h with h | h
      · cases h; exact .inr List.mem_cons_self
      · exact (ih h).imp id (List.mem_cons_of_mem _)

theorem itemSet_mem {E : Env} {h : Objects} {c : FDictId} {items items' : Items} {k : PStr} {r : Ref}
    (hx : itemSet E h c items k r = .ok items') : items' = setName k r items := by
  unfold itemSet at hx
  split at hx
  · cases hx
  split at hx
  · cases hx
  split at hx
  · cases hx; rfl
  · cases hx

theorem itemsSet_mem {E : Env} {h : Objects} {c : FDictId} {given items items' : Items}
    (hx : itemsSet E h c items given = .ok items') :
    ∀ kv ∈ items', kv ∈ items ∨ kv ∈ given := by
  induction given generalizing items with
  | nil => cases hx; exact fun kv hm => .inl hm
  | cons p ps ih =>
    obtain ⟨k, r⟩ := p
    unfold itemsSet at hx
    split at hx
    · cases hx
    rename_i items1 h1
    intro kv hm
    rcases ih hx kv hm with hm | hm
    · rw [itemSet_mem h1] at hm
      obtain ⟨n, w⟩ := kv
      rcases mem_setName hm with ⟨rfl, rfl⟩ | hm
      · exact .inr List.mem_cons_self
      · exact .inl hm
    · exact .inr (List.mem_cons_of_mem _ hm)

theorem itemsDefault_spec {E : Env} {c : FDictId} {P : Ref → Prop} {rest : Items} {h0 h h' : Objects}
    {items items' : Items} (h0h : Added P h0 h) (hi : ∀ kv ∈ items, New h0 h kv.2 ∨ P kv.2)
    (hx : itemsDefault E c h items rest = .ok (h', items')) :
    Added P h0 h' ∧ ∀ kv ∈ items', New h0 h' kv.2 ∨ P kv.2 := by
  induction rest generalizing h items with
  | nil => cases hx; exact ⟨h0h, hi⟩
  | cons p ps ih =>
    obtain ⟨k, r⟩ := p
    unfold itemsDefault at hx
    split at hx
    · exact ih h0h hi hx
    cases hd : deepcopy (h.length + 1) h r with
    | none => rw [hd] at hx; cases hx
    | some q =>
      obtain ⟨h1, r'⟩ := q
      rw [hd] at hx
      dsimp only at hx
      split at hx
      · cases hx
      rename_i items1 hs
      obtain ⟨a1, a2, _⟩ := deepcopy_spec _ _ _ _ _ hd
      have a0 := a1
      obtain ⟨l, e, _⟩ := a0
      refine ih (h0h.trans (a1.mono fun _ f => f.elim)) ?_ hx
      rw [itemSet_mem hs]
      rintro ⟨n, w⟩ hm
      rcases mem_setName hm with ⟨rfl, rfl⟩ | hm
      · obtain ⟨l0, e0, _⟩ := h0h
        exact .inl (a2.earlier e0)
      · exact (hi _ hm).imp (fun h => h.weaken e) id

/-- A new dictionary refers to new objects and to what it was given. -/
theorem newDict_spec {E : Env} {c : FDictId} {ITEMS given : Items} {h h' : Objects} {r : Ref}
    (hx : newDict E c ITEMS h given = .ok (h', r)) :
    Added (fun q => q ∈ given.map Prod.snd) h h' ∧ New h h' r ∧ ∃ a, r = .obj a := by
  unfold newDict at hx
  split at hx
  · cases hx
  rename_i items hi
  split at hx
  · cases hx
  rename_i h1 items' hd
  cases hx
  obtain ⟨a1, a2⟩ := itemsDefault_spec (P := fun q => q ∈ given.map Prod.snd) (.refl _ h)
    (fun kv hm => .inr (by
      rcases itemsSet_mem hi kv hm with hm | hm
      · cases hm
      · exact List.mem_map_of_mem hm)) hd
  obtain ⟨b1, b2⟩ := a1.push (s := .fdict c (items'.map Prod.fst)) (rs := items'.map Prod.snd) (by
    intro q hq
    obtain ⟨kv, hm, rfl⟩ := List.mem_map.mp hq
    exact a2 kv hm)
  exact ⟨b1, b2, _, rfl⟩

/-! ### Values of new dictionaries -/

theorem readsAs_mono {h h' : Objects} {items : Items} {attrs : Attrs}
    (hm : ∀ k r v, (k, r) ∈ items → h.value r = some v → h'.value r = some v)
    (hr : ReadsAs h items attrs) : ReadsAs h' items attrs := by
  induction items generalizing attrs with
  | nil => cases attrs with
    | nil => trivial
    | cons q qs => exact hr.elim
  | cons p ps ih =>
    obtain ⟨k, r⟩ := p
    cases attrs with
    | nil => exact hr.elim
    | cons q qs =>
      obtain ⟨n, v⟩ := q
      exact ⟨hr.1, hm k r v List.mem_cons_self hr.2.1,
        ih (fun k r v h => hm k r v (List.mem_cons_of_mem _ h)) hr.2.2⟩

theorem readsAs_append {h l : Objects} {items : Items} {attrs : Attrs} (hr : ReadsAs h items attrs) :
    ReadsAs (h ++ l) items attrs :=
  readsAs_mono (fun _ _ _ _ hv => value_append hv) hr

theorem readsAs_set {h : Objects} {items : Items} {attrs : Attrs} {k : PStr} {r : Ref} {v : Val}
    (hr : ReadsAs h items attrs) (hv : h.value r = some v) :
    ReadsAs h (setName k r items) (setName k v attrs) := by
  induction items generalizing attrs with
  | nil => cases attrs with
    | nil => exact ⟨rfl, hv, trivial⟩
    | cons q qs => exact hr.elim
  | cons p ps ih =>
    obtain ⟨n, q⟩ := p
    cases attrs with
    | nil => exact hr.elim
    | cons q' qs =>
      obtain ⟨n', w⟩ := q'
      obtain ⟨rfl, h1, h2⟩ := hr
      unfold setName
      split
      · exact ⟨rfl, hv, h2⟩
      · exact ⟨rfl, h1, ih h2⟩

theorem readsAs_lookup {h : Objects} {items : Items} {attrs : Attrs} (hr : ReadsAs h items attrs) (k : PStr) :
    (lookupName k items).isSome = (lookupName k attrs).isSome := by
  induction items generalizing attrs with
  | nil => cases attrs with
    | nil => rfl
    | cons q qs => exact hr.elim
  | cons p ps ih =>
    obtain ⟨n, q⟩ := p
    cases attrs with
    | nil => exact hr.elim
    | cons q' qs =>
      obtain ⟨n', w⟩ := q'
      obtain ⟨rfl, h1, h2⟩ := hr
      unfold lookupName
      split
      · rfl
      · exact ih h2

theorem readsAs_zip {h : Objects} {items : Items} {attrs : Attrs} (hr : ReadsAs h items attrs) :
    ∃ vs, allSome h.value (items.map Prod.snd) = some vs ∧ (items.map Prod.fst).zip vs = attrs := by
  induction items generalizing attrs with
  | nil => cases attrs with
    | nil => exact ⟨[], rfl, rfl⟩
    | cons q qs => exact hr.elim
  | cons p ps ih =>
    obtain ⟨n, q⟩ := p
    cases attrs with
    | nil => exact hr.elim
    | cons q' qs =>
      obtain ⟨n', w⟩ := q'
      obtain ⟨rfl, h1, h2⟩ := hr
      obtain ⟨vs, e1, e2⟩ := ih h2
      refine ⟨w :: vs, ?_, ?_⟩
      · simp only [List.map_cons]
        unfold allSome
        rw [h1, e1]
      · simp [e2]

/-- Both fail alike, or what the first gives is as `R` says what the second gives. -/
def Alike {α β : Type} (R : α → β → Prop) : Res α → Res β → Prop
  | .ok a, .ok b => R a b
  | .error e, .error f => e = f
  | _, _ => False

theorem fdConv_none {E : Env} {c : FDictId} (hc : c ≠ .peer) : fdConv E c = noConv := by
  cases c <;> first | rfl | exact absurd rfl hc

theorem itemSet_alike {E : Env} {h : Objects} {c : FDictId} {items : Items} {attrs : Attrs} {k : PStr} {r : Ref}
    {v : Val} (hr : ReadsAs h items attrs) (hv : h.value r = some v) :
    Alike (ReadsAs h) (itemSet E h c items k r) (fdSetV E noConv c attrs (.str k) v) := by
  unfold itemSet fdSetV noConv fdSet
  rw [hv]
  dsimp only
  cases fdValidate E c k v with
  | error e => exact rfl
  | ok u =>
    dsimp only
    split
    · exact readsAs_set hr hv
    · exact rfl

theorem itemsSet_alike {E : Env} {h : Objects} {c : FDictId} {items given : Items} {attrs args : Attrs}
    (hr : ReadsAs h items attrs) (hg : ReadsAs h given args) :
    Alike (ReadsAs h) (itemsSet E h c items given)
      (fdSetAll E noConv c attrs (args.map fun p => (.str p.1, p.2))) := by
  induction given generalizing items attrs args with
  | nil => cases args with
    | nil => exact hr
    | cons q qs => exact hg.elim
  | cons p ps ih =>
    obtain ⟨n, q⟩ := p
    cases args with
    | nil => exact hg.elim
    | cons q' qs =>
      obtain ⟨n', w⟩ := q'
      obtain ⟨rfl, h1, h2⟩ := hg
      have := itemSet_alike (E := E) (c := c) (k := n) hr h1
      simp only [List.map_cons]
      unfold itemsSet fdSetAll
      cases e1 : itemSet E h c items n q <;> cases e2 : fdSetV E noConv c attrs (.str n) w <;>
        rw [e1, e2] at this
      · exact this
      · exact this.elim
      · exact this.elim
      · exact ih this h2

theorem itemsDefault_alike {E : Env} {h : Objects} {c : FDictId} {items rest : Items} {attrs args : Attrs}
    (hr : ReadsAs h items attrs) (hg : ReadsAs h rest args) :
    Alike (fun p attrs' => ReadsAs p.1 p.2 attrs') (itemsDefault E c h items rest)
      (fdDefaults E noConv c attrs args) := by
  induction rest generalizing h items attrs args with
  | nil => cases args with
    | nil => exact hr
    | cons q qs => exact hg.elim
  | cons p ps ih =>
    obtain ⟨n, q⟩ := p
    cases args with
    | nil => exact hg.elim
    | cons q' qs =>
      obtain ⟨n', w⟩ := q'
      obtain ⟨rfl, h1, h2⟩ := hg
      unfold itemsDefault fdDefaults
      rw [readsAs_lookup hr n]
      split
      · exact ih hr h2
      obtain ⟨h', r', e⟩ := deepcopy_total (h.length + 1) h q w h1
      rw [e]
      dsimp only
      obtain ⟨⟨l, e', _⟩, _, hv⟩ := deepcopy_spec _ _ _ _ _ e
      have hv := hv w h1
      have hv' : h'.value r' = some w := read_more hv (by rw [e', List.length_append]; omega)
      have hr' : ReadsAs h' items attrs := e' ▸ readsAs_append hr
      have := itemSet_alike (E := E) (c := c) (k := n) hr' hv'
      cases e1 : itemSet E h' c items n r' <;> cases e2 : fdSetV E noConv c attrs (.str n) w <;>
        rw [e1, e2] at this
      · exact this
      · exact this.elim
      · exact this.elim
      · exact ih this (e' ▸ readsAs_append h2)

theorem newDict_alike {E : Env} {h : Objects} {c : FDictId} {ITEMS given : Items} {args : Attrs} (hc : c ≠ .peer)
    (hi : ReadsAs h ITEMS c.items) (hg : ReadsAs h given args) :
    Alike (fun p v => p.1.value p.2 = some v) (newDict E c ITEMS h given)
      (mkFDict E c (.dict (args.map fun p => (.str p.1, p.2)))) := by
  unfold newDict mkFDict fdArg fdBuild
  rw [fdConv_none hc]
  dsimp only [Val.asDict]
  have h1 := itemsSet_alike (E := E) (c := c) (items := []) (attrs := []) trivial hg
  cases e1 : itemsSet E h c [] given <;>
    cases e2 : fdSetAll E noConv c [] (args.map fun p => (.str p.1, p.2)) <;> rw [e1, e2] at h1
  · exact h1
  · exact h1.elim
  · exact h1.elim
  rename_i items attrs
  dsimp only
  have h2 := itemsDefault_alike (E := E) (c := c) h1 hi
  cases e1 : itemsDefault E c h items ITEMS <;> cases e2 : fdDefaults E noConv c attrs c.items <;> rw [e1, e2] at h2
  · exact h2
  · exact h2.elim
  · exact h2.elim
  rename_i p attrs'
  obtain ⟨h', items'⟩ := p
  obtain ⟨vs, e3, e4⟩ := readsAs_zip h2
  have h4 : (h' ++ [(Shape.fdict c (items'.map Prod.fst), items'.map Prod.snd)])[h'.length]? =
      some (Shape.fdict c (items'.map Prod.fst), items'.map Prod.snd) := by simp
  show Objects.value (h' ++ [(Shape.fdict c (items'.map Prod.fst), items'.map Prod.snd)]) (.obj h'.length) = _
  unfold Objects.value
  rw [read_obj h4]
  rw [allSome_mono (fun x _ y hx => read_more (read_append hx) (by rw [List.length_append]; simp)) e3]
  rw [← e4]; rfl

/-! ### Nodes -/

theorem nodeDefault_spec {h : Objects} {key : PStr} (P : Ref → Prop) :
    Added P h (nodeDefault h key).1 ∧ New h (nodeDefault h key).1 (nodeDefault h key).2 ∧
      (nodeDefault h key).1.value (nodeDefault h key).2 = some (ContId.node.default key) := by
  have h1 : ∀ s : Shape, Objects.value (h ++ [(s, [])]) (.obj h.length) = some (s.value []) := by
    intro s
    have : (h ++ [(s, ([] : List Ref))])[h.length]? = some (s, []) := by simp
    unfold Objects.value
    rw [read_obj this]
    rfl
  have h2 : ∀ s : Shape, Added P h (h ++ [(s, [])]) ∧ New h (h ++ [(s, [])]) (.obj h.length) :=
    fun s => (Added.refl P h).push (s := s) (rs := []) fun q hq => by cases hq
  unfold nodeDefault ContId.default
  dsimp only
  split
  · exact ⟨(h2 _).1, (h2 _).2, h1 _⟩
  split
  · exact ⟨(h2 _).1, (h2 _).2, h1 _⟩
  split
  · exact ⟨(h2 _).1, (h2 _).2, h1 _⟩
  · exact ⟨.refl _ _, trivial, rfl⟩

theorem lookupName_mem {α : Type} {k : PStr} {v : α} {l : List (PStr × α)} (h : lookupName k l = some v) :
    (k, v) ∈ l := by
  induction l with
  | nil => cases h
  | cons p ps ih =>
    obtain ⟨n, w⟩ := p
    unfold lookupName at h
    split at h
    · rename_i e
      cases h
      subst e
      exact List.mem_cons_self
    · exact List.mem_cons_of_mem _ (ih h)

theorem nodeSlots_spec {E : Env} {given : Items} {slots : List (PStr × List Validator)} {h h' : Objects} {items : Items}
    (hx : nodeSlots E given h slots = .ok (h', items)) :
    Added (fun q => q ∈ given.map Prod.snd) h h' ∧ ∀ kv ∈ items, New h h' kv.2 ∨ kv.2 ∈ given.map Prod.snd := by
  induction slots generalizing h items with
  | nil => cases hx; exact ⟨.refl _ _, fun kv hm => by cases hm⟩
  | cons p ps ih =>
    obtain ⟨key, vs⟩ := p
    unfold nodeSlots at hx
    cases hl : lookupName key given with
    | none =>
      rw [hl] at hx
      dsimp only at hx
      split at hx
      · cases hx
      rename_i h1 items1 hr
      cases hx
      obtain ⟨a1, a2⟩ := ih hr
      obtain ⟨b1, b2, _⟩ := nodeDefault_spec (h := h) (key := key) (fun q => q ∈ given.map Prod.snd)
      refine ⟨b1.trans a1, fun kv hm => ?_⟩
      obtain ⟨l1, e1, _⟩ := a1
      obtain ⟨l2, e2, _⟩ := b1
      rcases List.mem_cons.mp hm with rfl | hm
      · exact .inl (b2.weaken e1)
      · exact (a2 kv hm).imp (fun h => h.earlier e2) id
    | some r =>
      rw [hl] at hx
      dsimp only at hx
      split at hx
      · cases hx
      split at hx
      · cases hx
      split at hx
      · cases hx
      rename_i h1 items1 hr
      cases hx
      obtain ⟨a1, a2⟩ := ih hr
      refine ⟨a1, fun kv hm => ?_⟩
      rcases List.mem_cons.mp hm with rfl | hm
      · exact .inr (List.mem_map_of_mem (f := Prod.snd) (lookupName_mem hl))
      · exact a2 kv hm

/-- A new node refers to new objects and to what it was given. -/
theorem newNode_spec {E : Env} {given : Items} {h h' : Objects} {r : Ref} (hx : newNode E h given = .ok (h', r)) :
    Added (fun q => q ∈ given.map Prod.snd) h h' ∧ New h h' r := by
  unfold newNode wrapLoad at hx
  split at hx
  · rename_i x hx'
    cases hx
    split at hx'
    · cases hx'
    rename_i h1 items hs
    split at hx'
    · cases hx'
    cases hx'
    obtain ⟨a1, a2⟩ := nodeSlots_spec hs
    exact a1.push fun q hq => by
      obtain ⟨kv, hm, rfl⟩ := List.mem_map.mp hq
      exact a2 kv hm
  · cases hx
  · cases hx

theorem readsAs_some {h : Objects} {items : Items} {attrs : Attrs} (hr : ReadsAs h items attrs) (k : PStr) :
    (∀ r, lookupName k items = some r → ∃ v, lookupName k attrs = some v ∧ h.value r = some v) ∧
    (lookupName k items = none → lookupName k attrs = none) := by
  induction items generalizing attrs with
  | nil => cases attrs with
    | nil => exact ⟨(fun r e => by cases e), fun _ => rfl⟩
    | cons q qs => exact hr.elim
  | cons p ps ih =>
    obtain ⟨n, q⟩ := p
    cases attrs with
    | nil => exact hr.elim
    | cons q' qs =>
      obtain ⟨n', w⟩ := q'
      obtain ⟨rfl, h1, h2⟩ := hr
      unfold lookupName
      split
      · exact ⟨(fun r e => by cases e; exact ⟨w, rfl, h1⟩), fun e => by cases e⟩
      · exact ih h2

theorem nodeSlots_alike {E : Env} {given : Items} {args : Attrs} {slots : List (PStr × List Validator)} {h : Objects}
    (hg : ReadsAs h given args) :
    Alike (fun p attrs => ReadsAs p.1 p.2 attrs) (nodeSlots E given h slots)
      (contFields E (fun _ v => .ok v) .node args slots) := by
  induction slots generalizing h with
  | nil => exact trivial
  | cons p ps ih =>
    obtain ⟨key, vs⟩ := p
    unfold nodeSlots contFields contField
    obtain ⟨l1, l2⟩ := readsAs_some hg key
    cases hl : lookupName key given with
    | none =>
      rw [l2 hl]
      dsimp only
      rw [if_neg (c := key ∈ ContId.node.required) (by simp [ContId.required])]
      dsimp only
      obtain ⟨⟨l, e, _⟩, _, hv⟩ := nodeDefault_spec (h := h) (key := key) (fun _ => True)
      have := ih (h := (nodeDefault h key).1) (e ▸ readsAs_append hg)
      cases e1 : nodeSlots E given (nodeDefault h key).1 ps <;>
        cases e2 : contFields E (fun _ v => .ok v) .node args ps <;> rw [e1, e2] at this
      · exact this
      · exact this.elim
      · exact this.elim
      rename_i p _
      obtain ⟨h', items⟩ := p
      refine ⟨rfl, ?_, this⟩
      obtain ⟨⟨l', e', _⟩, _⟩ := nodeSlots_spec e1
      rw [e']
      exact value_append hv
    | some r =>
      obtain ⟨v, hv, hr⟩ := l1 r hl
      rw [hv]
      dsimp only
      rw [hr]
      dsimp only
      cases hd : contDeser E (fun _ v => .ok v) .node key vs v with
      | error e => exact rfl
      | ok w =>
        dsimp only
        have hw : w = v := by
          unfold contDeser at hd
          split at hd
          · cases hd; rfl
          split at hd
          · cases hd
          · cases hd; rfl
        subst hw
        have := ih hg
        cases e1 : nodeSlots E given h ps <;>
          cases e2 : contFields E (fun _ v => .ok v) .node args ps <;> rw [e1, e2] at this
        · exact this
        · exact this.elim
        · exact this.elim
        rename_i p _
        obtain ⟨h', items⟩ := p
        obtain ⟨⟨l', e', _⟩, _⟩ := nodeSlots_spec e1
        refine ⟨rfl, ?_, this⟩
        rw [e']
        exact value_append hr

theorem readsAs_unknown {h : Objects} {given : Items} {args : Attrs} (slots : List (PStr × List Validator))
    (hg : ReadsAs h given args) :
    firstUnknown slots (given.map fun p => (p.1, Val.none)) = firstUnknown slots args := by
  induction given generalizing args with
  | nil => cases args with
    | nil => rfl
    | cons q qs => exact hg.elim
  | cons p ps ih =>
    obtain ⟨n, q⟩ := p
    cases args with
    | nil => exact hg.elim
    | cons q' qs =>
      obtain ⟨n', w⟩ := q'
      obtain ⟨rfl, h1, h2⟩ := hg
      simp only [List.map_cons]
      unfold firstUnknown
      split
      · exact ih h2
      · rfl

theorem readsAs_push {h : Objects} {items : Items} {attrs : Attrs} {s : Shape} (hr : ReadsAs h items attrs) :
    ∃ vs, Objects.value (h ++ [(s, items.map Prod.snd)]) (.obj h.length) = some (s.value vs) ∧
      (items.map Prod.fst).zip vs = attrs := by
  obtain ⟨vs, e3, e4⟩ := readsAs_zip hr
  refine ⟨vs, ?_, e4⟩
  have h4 : (h ++ [(s, items.map Prod.snd)])[h.length]? = some (s, items.map Prod.snd) := by simp
  unfold Objects.value
  rw [read_obj h4, allSome_mono (fun x _ y hx => read_more (read_append hx) (by rw [List.length_append]; simp)) e3]
  rfl

theorem newNode_alike {E : Env} {h : Objects} {given : Items} {args : Attrs} (hg : ReadsAs h given args) :
    Alike (fun p v => p.1.value p.2 = some v) (newNode E h given) (contBuild E (leafHook E .node) .node args) := by
  unfold newNode contBuild
  have h1 := nodeSlots_alike (E := E) (slots := ContId.node.slots) hg
  rw [readsAs_unknown _ hg, show leafHook E .node = (fun _ v => .ok v) from rfl]
  cases e1 : nodeSlots E given h ContId.node.slots <;>
    cases e2 : contFields E (fun _ v => .ok v) .node args ContId.node.slots <;> rw [e1, e2] at h1
  · cases h1
    rename_i e
    cases e <;> exact rfl
  · exact h1.elim
  · exact h1.elim
  rename_i p attrs
  obtain ⟨h', items⟩ := p
  dsimp only
  cases firstUnknown ContId.node.slots args with
  | some k => exact rfl
  | none =>
    obtain ⟨vs, e3, e4⟩ := readsAs_push (s := .cont .node (items.map Prod.fst)) h1
    rw [← e4]
    exact e3

/-! ### Steps -/

/-- No object is within reach both of `K` and of `x`. -/
structure Apart (h : Objects) (K : List Ref) (x : Ref) : Prop where
  closed : Closed h
  known : ∀ a, Ref.obj a ∈ K → a < h.length
  there : ∀ a, x = .obj a → a < h.length
  apart : ∀ a, Reach h x a → ¬ ReachAny h K a

/-- After new objects were made. -/
theorem apart_added {h h' : Objects} {K : List Ref} {x r : Ref} (hA : Apart h K x)
    (ha : Added (fun q => Known h K q) h h') (hr : New h h' r) :
    Apart h' (r :: K) x ∧ ∀ n, h'.read n x = h.read n x := by
  obtain ⟨l, e, hl⟩ := ha
  have hlen : h.length ≤ h'.length := by rw [e, List.length_append]; omega
  have hold : ∀ a, a < h.length → h'[a]? = h[a]? := by
    intro a ha
    rw [e, List.getElem?_append_left ha]
  have hnew : ∀ a s rs, h.length ≤ a → h'[a]? = some (s, rs) → ∀ q ∈ rs, New h h' q ∨ Known h K q := by
    intro a s rs ha he q hq
    rw [e, List.getElem?_append_right ha] at he
    exact hl s rs (List.mem_of_getElem? he) q hq
  have hx : ∀ a, Reach h x a → h'[a]? = h[a]? := fun a ha => hold a (reach_lt hA.closed hA.there ha)
  have hreachlt : ∀ b, ReachAny h K b → b < h.length := by
    rintro b ⟨k, hk, hb⟩
    exact reach_lt hA.closed (fun a e => hA.known a (e ▸ hk)) hb
  refine ⟨⟨?_, ?_, ?_, ?_⟩, fun n => read_agree hx⟩
  · intro a s rs he b hb
    by_cases ha : a < h.length
    · rw [hold a ha] at he
      have := hA.closed a s rs he b hb
      omega
    · rcases hnew a s rs (by omega) he _ hb with h1 | h1
      · exact h1.2
      · have := hreachlt b h1
        omega
  · intro a hm
    rcases List.mem_cons.mp hm with e1 | hm
    · subst e1; exact hr.2
    · have := hA.known a hm
      omega
  · intro a e1
    have := hA.there a e1
    omega
  · rintro a hxa ⟨k, hk, hka⟩
    have hxa' := reach_agree hx hxa
    have hlt := reach_lt hA.closed hA.there hxa'
    have hP : New h h' (.obj a) ∨ Known h K (.obj a) := by
      refine reach_in (P := fun q => New h h' q ∨ Known h K q) ?_ ?_ hka
      · intro b s rs hb he q hq
        by_cases hlb : b < h.length
        · rcases hb with hb | hb
          · exact absurd hb.1 (by omega)
          · rw [hold b hlb] at he
            exact .inr (known_step hb he q hq)
        · exact hnew b s rs (by omega) he q hq
      · rcases List.mem_cons.mp hk with rfl | hk
        · exact .inl hr
        · exact .inr (known_mem hk)
    rcases hP with hP | hP
    · exact absurd hP.1 (by omega)
    · exact hA.apart a hxa' hP

/-- After an object within reach was changed. -/
theorem apart_changed {h : Objects} {K : List Ref} {x : Ref} {a : Nat} {s : Shape} {rs : List Ref}
    (hA : Apart h K x) (ha : ReachAny h K a) (hrs : ∀ r ∈ rs, Known h K r) :
    Apart (h.set a (s, rs)) K x ∧ ∀ n, Objects.read (h.set a (s, rs)) n x = h.read n x := by
  have hreachlt : ∀ b, ReachAny h K b → b < h.length := by
    rintro b ⟨k, hk, hb⟩
    exact reach_lt hA.closed (fun a e => hA.known a (e ▸ hk)) hb
  have hx : ∀ b, Reach h x b → (h.set a (s, rs))[b]? = h[b]? := by
    intro b hb
    rw [List.getElem?_set_ne]
    rintro rfl
    exact hA.apart _ hb ha
  have hget : ∀ b s' rs', (h.set a (s, rs))[b]? = some (s', rs') →
      (b = a ∧ rs' = rs) ∨ h[b]? = some (s', rs') := by
    intro b s' rs' he
    by_cases e : a = b
    · subst e
      rw [List.getElem?_set_self (hreachlt a ha)] at he
      cases he
      exact .inl ⟨rfl, rfl⟩
    · rw [List.getElem?_set_ne e] at he
      exact .inr he
  refine ⟨⟨?_, ?_, ?_, ?_⟩, fun n => read_agree hx⟩
  · intro b s' rs' he c hc
    rw [List.length_set]
    rcases hget b s' rs' he with ⟨_, rfl⟩ | he
    · exact hreachlt c (hrs _ hc)
    · exact hA.closed b s' rs' he c hc
  · intro b hb; rw [List.length_set]; exact hA.known b hb
  · intro b hb; rw [List.length_set]; exact hA.there b hb
  · rintro b hxb ⟨k, hk, hkb⟩
    refine hA.apart b (reach_agree hx hxb) ?_
    refine reach_in (P := fun q => Known h K q) ?_ (known_mem hk) hkb
    intro c s' rs' hc he q hq
    rcases hget c s' rs' he with ⟨_, rfl⟩ | he
    · exact hrs q hq
    · exact known_step hc he q hq

theorem apart_step {E : Env} {x : Ref} {y z : Objects × List Ref}
    (hA : Apart y.1 y.2 x) (hs : Step E y z) :
    Apart z.1 z.2 x ∧ (∀ n, z.1.read n x = y.1.read n x) ∧ y.1.length ≤ z.1.length := by
  cases hs with
  | change ha hrs =>
    obtain ⟨a, b⟩ := apart_changed hA ha hrs
    exact ⟨a, b, by simp⟩
  | make hrs =>
    rename_i h K s rs
    obtain ⟨a, b⟩ := (Added.refl (fun q => Known h K q) h).push (s := s) (rs := rs) fun q hq => .inr (hrs q hq)
    obtain ⟨c, d⟩ := apart_added hA a b
    exact ⟨c, d, by simp⟩
  | dict hc hg hn =>
    rename_i h h' K c given r
    obtain ⟨a, b, _⟩ := newDict_spec hn
    have a' : Added (fun q => Known h K q) h h' := a.mono fun q hq => by
      obtain ⟨kv, hm, rfl⟩ := List.mem_map.mp hq
      exact hg kv hm
    obtain ⟨c, d⟩ := apart_added hA a' b
    obtain ⟨l, e, _⟩ := a
    exact ⟨c, d, by simp only; rw [e, List.length_append]; omega⟩
  | node hg hn =>
    rename_i h h' K given r
    obtain ⟨a, b⟩ := newNode_spec hn
    have a' : Added (fun q => Known h K q) h h' := a.mono fun q hq => by
      obtain ⟨kv, hm, rfl⟩ := List.mem_map.mp hq
      exact hg kv hm
    obtain ⟨c, d⟩ := apart_added hA a' b
    obtain ⟨l, e, _⟩ := a
    exact ⟨c, d, by simp only; rw [e, List.length_append]; omega⟩

theorem apart_steps {E : Env} {x : Ref} {y z : Objects × List Ref}
    (hA : Apart y.1 y.2 x) (hs : Steps E y z) :
    Apart z.1 z.2 x ∧ (∀ n, z.1.read n x = y.1.read n x) ∧ y.1.length ≤ z.1.length := by
  induction hs with
  | none => exact ⟨hA, fun _ => rfl, Nat.le_refl _⟩
  | more _ h1 ih =>
    obtain ⟨a, b, c⟩ := ih
    obtain ⟨d, e, f⟩ := apart_step a h1
    exact ⟨d, fun n => (e n).trans (b n), Nat.le_trans c f⟩

/-! ### From the start -/

theorem value_same {h h' : Objects} {r : Ref} {v : Val} (hr : ∀ n, h'.read n r = h.read n r)
    (hl : h.length ≤ h'.length) (hv : h.value r = some v) : h'.value r = some v := by
  unfold Objects.value at *
  rw [hr]
  exact read_more hv (by omega)

theorem class_apart {c : FDictId} {k : PStr} {x : Ref} (hx : (k, x) ∈ classItems c) :
    Apart classObjects [] x := by
  refine ⟨?_, (by intro a hm; cases hm), ?_, ?_⟩
  · intro a s rs e b hb
    have : rs = [] := by
      match a, e with
      | 0, e => cases e; rfl
      | 1, e => cases e; rfl
      | 2, e => cases e; rfl
      | n + 3, e => cases e
    subst this
    cases hb
  · rintro a rfl
    revert hx
    cases c <;> simp [classItems, classObjects] <;> (intros; omega)
  · rintro a _ ⟨k, hk, _⟩
    cases hk

theorem class_reads (c : FDictId) : ReadsAs classObjects (classItems c) c.items := by
  cases c <;> simp [ReadsAs, classItems, FDictId.items, Objects.value, Objects.read, classObjects, allSome, Shape.value]

/-- What holds whenever a program runs that started with the modules loaded. -/
theorem started {E : Env} {h : Objects} {K : List Ref} (hs : Steps E (classObjects, []) (h, K)) :
    Closed h ∧ (∀ a, Ref.obj a ∈ K → a < h.length) ∧ ∀ c, ReadsAs h (classItems c) c.items := by
  have h0 := apart_steps (class_apart (c := .computeTaskDef) (k := p!"extra_data") (x := .obj 0) (by simp [classItems])) hs
  refine ⟨h0.1.closed, h0.1.known, fun c => readsAs_mono ?_ (class_reads c)⟩
  intro k r v hm hv
  obtain ⟨_, h1, h2⟩ := apart_steps (class_apart hm) hs
  exact value_same h1 h2 hv

/-- What is within reach of new objects is new, or was within reach of what they were given. -/
theorem reach_added {h h' : Objects} {G : List Ref} {q : Ref} {b : Nat} (ha : Added (fun q => Known h G q) h h')
    (hq : New h h' q ∨ Known h G q) (hb : Reach h' q b) : h.length ≤ b ∨ ReachAny h G b := by
  obtain ⟨l, e, hl⟩ := ha
  have hold : ∀ a, a < h.length → h'[a]? = h[a]? := by
    intro a ha
    rw [e, List.getElem?_append_left ha]
  have hP : New h h' (.obj b) ∨ Known h G (.obj b) := by
    refine reach_in (P := fun q => New h h' q ∨ Known h G q) ?_ hq hb
    intro b s rs hb he q hq
    by_cases hlb : b < h.length
    · rcases hb with hb | hb
      · exact absurd hb.1 (by omega)
      · rw [hold b hlb] at he
        exact .inr (known_step hb he q hq)
    · rw [e, List.getElem?_append_right (by omega)] at he
      exact hl s rs (List.mem_of_getElem? he) q hq
  exact hP.imp (fun h => h.1) id

theorem reachAny_lt {h : Objects} {K : List Ref} {b : Nat} (hc : Closed h)
    (hK : ∀ a, Ref.obj a ∈ K → a < h.length) (hb : ReachAny h K b) : b < h.length := by
  obtain ⟨k, hk, hb⟩ := hb
  exact reach_lt hc (fun a e => hK a (e ▸ hk)) hb

theorem closed_added {h h' : Objects} {G : List Ref} (hc : Closed h)
    (hG : ∀ a, Ref.obj a ∈ G → a < h.length) (ha : Added (fun q => Known h G q) h h') : Closed h' := by
  obtain ⟨l, e, hl⟩ := ha
  intro a s rs he b hb
  by_cases hlt : a < h.length
  · rw [e, List.getElem?_append_left hlt] at he
    have := hc a s rs he b hb
    rw [e, List.length_append]
    omega
  · rw [e, List.getElem?_append_right (by omega)] at he
    rcases hl s rs (List.mem_of_getElem? he) _ hb with h1 | h1
    · exact h1.2
    · have := reachAny_lt hc hG h1
      rw [e, List.length_append]
      omega

/-- A new object shares nothing with what shares nothing with what it was given. -/
theorem made_apart {given : Items} {h h' : Objects} {r : Ref} {L : List Ref}
    (hc : Closed h) (hG : ∀ a, Ref.obj a ∈ given.map Prod.snd → a < h.length)
    (hL : ∀ a, Ref.obj a ∈ L → a < h.length)
    (hd : ∀ a, ReachAny h (given.map Prod.snd) a → ¬ ReachAny h L a)
    (a1 : Added (fun q => q ∈ given.map Prod.snd) h h') (a2 : New h h' r) :
    Apart h' L r ∧ ∀ q ∈ L, Apart h' [r] q := by
  have a3 : Added (fun q => Known h (given.map Prod.snd) q) h h' := a1.mono fun q hq => known_mem hq
  have hc' := closed_added hc hG a3
  obtain ⟨l, e, _⟩ := a1
  have hlen : h.length ≤ h'.length := by rw [e, List.length_append]; omega
  have key : ∀ a q, q ∈ L → Reach h' q a → ¬ Reach h' r a := by
    intro a q hq ha hr
    have hq' : Reach h q a := by
      refine reach_agree (fun b hb => ?_) ha
      rw [e, List.getElem?_append_left (reach_lt hc (fun c e => hL c (e ▸ hq)) hb)]
    have hlt := reach_lt hc (fun c e => hL c (e ▸ hq)) hq'
    rcases reach_added a3 (.inl a2) hr with h1 | h1
    · omega
    · exact hd a h1 ⟨q, hq, hq'⟩
  refine ⟨⟨hc', fun a ha => ?_, ?_, ?_⟩, fun q hq => ⟨hc', ?_, ?_, ?_⟩⟩
  · have := hL a ha; omega
  · rintro a rfl; exact a2.2
  · rintro a ha ⟨q, hq, hqa⟩
    exact key a q hq hqa ha
  · intro a ha
    rcases List.mem_singleton.mp ha with rfl
    exact a2.2
  · rintro a rfl
    have := hL a hq
    omega
  · rintro a ha ⟨q', hq', hqa⟩
    rcases List.mem_singleton.mp hq' with rfl
    exact key a q hq ha hqa

/-! ### Objects that have a value do not contain themselves -/

theorem read_reach {h : Objects} {n a : Nat} {q : Ref} {v : Val} (hr : h.read n q = some v) (ha : Reach h q a) :
    ∃ w, h.read n (.obj a) = some w := by
  induction ha generalizing n v with
  | here => exact ⟨v, hr⟩
  | there e hm _ ih =>
    obtain ⟨m, s, rs, vs, rfl, e2, e3, rfl⟩ := read_obj_some hr
    rw [e] at e2
    cases e2
    obtain ⟨w, hw⟩ := allSome_mem e3 hm
    obtain ⟨w', hw'⟩ := ih hw
    exact ⟨w', read_more hw' (by omega)⟩

theorem no_loop {h : Objects} {a n : Nat} {s : Shape} {rs : List Ref} {v : Val} (e : h[a]? = some (s, rs))
    (hr : h.read n (.obj a) = some v) : ∀ q ∈ rs, ¬ Reach h q a := by
  intro q hq ha
  induction n generalizing v with
  | zero => cases hr
  | succ n ih =>
    obtain ⟨m, s', rs', vs, e1, e2, e3, rfl⟩ := read_obj_some hr
    cases e1
    rw [e] at e2
    cases e2
    obtain ⟨w, hw⟩ := allSome_mem e3 hq
    obtain ⟨w', hw'⟩ := read_reach hw ha
    exact ih hw'

end Verif
