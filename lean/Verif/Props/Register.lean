import Verif.Model.Register
/-!
# C23: the message register (`register.py:6-38`)

The specification looks only at the history of registrations.
-/

namespace Verif.Props

open Verif

variable {C : Type}

/-- Specification: the first class registered under a number in a history. -/
def firstFor (h : List (Nat × C)) (t : Nat) : Option C := (h.find? fun p => p.1 == t).map (·.2)

/-- Lookup in a register that already has bindings. -/
private theorem run_lookup (h : List (Nat × C)) (r : Register C) (t : Nat) :
    (r.run h).types.lookup t = (r.types.lookup t).or (firstFor h t) := by
  induction h generalizing r with
  | nil => simp [Register.run, firstFor]
  | cons p rest ih =>
    obtain ⟨u, c⟩ := p
    rw [Register.run, ih]
    unfold Register.register Register.contains
    by_cases hu : (r.types.lookup u).isSome
    · rw [if_pos hu]
      by_cases e : u = t
      · subst e
        obtain ⟨x, hx⟩ := Option.isSome_iff_exists.mp hu
        simp [hx]
      · simp [firstFor, List.find?, beq_false_of_ne e]
    · rw [if_neg hu]
      have hu : r.types.lookup u = none := by
        cases hx : r.types.lookup u with
        | none => rfl
        | some x => rw [hx] at hu; exact absurd rfl hu
      by_cases e : u = t
      · subst e
        simp [firstFor, List.find?, List.lookup, hu]
      · have e' : (t == u) = false := beq_false_of_ne (Ne.symm e)
        simp [firstFor, List.find?, List.lookup, beq_false_of_ne e, e']

/-- A number resolves to the first class registered under it in the whole history and
is `in` the register exactly if it was ever registered. -/
theorem register_first (h : List (Nat × C)) (t : Nat) :
    (Register.empty.run h).get t =
      (match firstFor h t with
       | some c => .ok c
       | none => .error .keyError) ∧
    ((Register.empty.run h).contains t = true ↔ ∃ c, (t, c) ∈ h) := by
  have hl := run_lookup h (Register.empty : Register C) t
  have he : (Register.empty : Register C).types.lookup t = none := rfl
  rw [he, Option.none_or] at hl
  constructor
  · unfold Register.get; rw [hl]
    cases firstFor h t <;> rfl
  · unfold Register.contains
    rw [hl, firstFor, Option.isSome_map, List.find?_isSome]
    constructor
    · rintro ⟨⟨u, c⟩, hm, hu⟩
      have : u = t := eq_of_beq hu
      subst this; exact ⟨c, hm⟩
    · rintro ⟨c, hm⟩; exact ⟨(t, c), hm, by simp⟩

/-- After any history, registering a number fails with `RuntimeError` exactly if it is
taken, in which case nothing changes; otherwise it succeeds, the number resolves to the
new class, every other number resolves as before, and the class reports the number. -/
theorem register_taken [BEq C] [LawfulBEq C] (h : List (Nat × C)) (t : Nat) (c : C) :
    let r := (Register.empty : Register C).run h
    ((∃ c', (t, c') ∈ h) → r.register t c = (.error .runtimeError, r)) ∧
    ((¬ ∃ c', (t, c') ∈ h) →
      (r.register t c).1 = .ok () ∧ (r.register t c).2.get t = .ok c ∧
      (∀ u, u ≠ t → (r.register t c).2.get u = r.get u) ∧
      (r.register t c).2.getType c = .ok t ∧
      (∀ d, d ≠ c → (r.register t c).2.getType d = r.getType d)) := by
  intro r
  have hc := (register_first h t).2
  constructor
  · intro he
    have : r.contains t = true := hc.mpr he
    unfold Register.register; rw [if_pos this]
  · intro he
    have hn : ¬ r.contains t = true := fun x => he (hc.mp x)
    have hreg : r.register t c = (.ok (), ⟨(t, c) :: r.types, (c, t) :: r.rev⟩) := by
      unfold Register.register; rw [if_neg hn]
    rw [hreg]
    refine ⟨rfl, by simp [Register.get, List.lookup], ?_, by simp [Register.getType, List.lookup], ?_⟩
    · intro u hu
      simp only [Register.get, List.lookup, beq_false_of_ne hu]
    · intro d hd
      simp only [Register.getType, List.lookup, beq_false_of_ne hd]

/-- The reverse table after a history in which no number and no class occurs twice. -/
private theorem run_rev [BEq C] [LawfulBEq C] (h : List (Nat × C)) (r : Register C)
    (hn : (h.map (·.1)).Nodup) (hr : ∀ p ∈ h, r.types.lookup p.1 = none) :
    (r.run h).rev = (h.map fun p => (p.2, p.1)).reverse ++ r.rev := by
  induction h generalizing r with
  | nil => simp [Register.run]
  | cons p rest ih =>
    obtain ⟨u, c⟩ := p
    rw [Register.run]
    have hu := hr (u, c) (by simp)
    simp only at hu
    have hreg : (r.register u c).2 = ⟨(u, c) :: r.types, (c, u) :: r.rev⟩ := by
      unfold Register.register Register.contains; rw [hu]; rfl
    rw [hreg, ih]
    · simp
    · exact (List.nodup_cons.mp hn).2
    · intro q hq
      have hne : q.1 ≠ u := by
        intro e
        exact (List.nodup_cons.mp hn).1 (by rw [← e]; exact List.mem_map_of_mem (f := (·.1)) hq)
      simp only [List.lookup, beq_false_of_ne hne]
      exact hr q (by simp [hq])

private theorem lookup_of_nodup {α β : Type} [BEq α] [LawfulBEq α] (l : List (α × β))
    (hn : (l.map (·.1)).Nodup) {a : α} {b : β} : l.lookup a = some b ↔ (a, b) ∈ l := by
  induction l with
  | nil => simp
  | cons p rest ih =>
    obtain ⟨x, y⟩ := p
    obtain ⟨h1, h2⟩ := List.nodup_cons.mp hn
    by_cases e : a = x
    · subst e
      simp only [List.lookup, beq_self_eq_true, Option.some.injEq, List.mem_cons, Prod.mk.injEq,
        true_and]
      constructor
      · intro h; left; exact h.symm
      · rintro (h | h)
        · exact h.symm
        · exact absurd (List.mem_map_of_mem h) h1
    · simp only [List.lookup, beq_false_of_ne e, List.mem_cons, Prod.mk.injEq, e, false_and,
        false_or]
      exact ih h2

/-- For a history in which every number and every class is registered once, `get_type`
and `[]` are mutually inverse and reflect exactly the registrations. -/
theorem register_inverse [BEq C] [LawfulBEq C] (h : List (Nat × C)) (ht : (h.map (·.1)).Nodup)
    (hc : (h.map (·.2)).Nodup) (t : Nat) (c : C) :
    ((Register.empty.run h).get t = .ok c ↔ (t, c) ∈ h) ∧
    ((Register.empty.run h).getType c = .ok t ↔ (t, c) ∈ h) := by
  constructor
  · unfold Register.get
    rw [run_lookup]
    have he : (Register.empty : Register C).types.lookup t = none := rfl
    rw [he, Option.none_or]
    have hf : ∀ (l : List (Nat × C)), firstFor l t = l.lookup t := by
      intro l
      induction l with
      | nil => rfl
      | cons p rest ih =>
        obtain ⟨u, d⟩ := p
        by_cases e : u = t
        · subst e; simp [firstFor, List.lookup]
        · have e' : (t == u) = false := beq_false_of_ne (Ne.symm e)
          simp only [firstFor, List.find?, beq_false_of_ne e, List.lookup, e']
          exact ih
    rw [hf]
    rw [← lookup_of_nodup h ht]
    cases h.lookup t <;> simp
  · unfold Register.getType
    rw [run_rev h _ ht (fun _ _ => rfl)]
    have : (Register.empty : Register C).rev = [] := rfl
    rw [this, List.append_nil]
    have hn : (((h.map fun p => (p.2, p.1)).reverse).map (·.1)).Nodup := by
      rw [List.map_reverse, (List.reverse_perm _).nodup_iff, List.map_map]; exact hc
    have hl := lookup_of_nodup _ hn (a := c) (b := t)
    rw [List.mem_reverse, List.mem_map] at hl
    have hm : (∃ a ∈ h, (a.2, a.1) = (c, t)) ↔ (t, c) ∈ h := by
      constructor
      · rintro ⟨⟨u, d⟩, hm, e⟩
        simp at e; obtain ⟨rfl, rfl⟩ := e; exact hm
      · intro hm; exact ⟨_, hm, rfl⟩
    rw [hm] at hl
    rw [← hl]
    cases (List.lookup c _) <;> simp

/-- Non-vacuity: a history with a refused registration. -/
example : let h := [(1, 'a'), (2, 'b'), (1, 'c')]
    (Register.empty.run h).get 1 = .ok 'a' ∧ (Register.empty.run h).getType 'b' = .ok 2 ∧
    (Register.empty.run h).getType 'c' = .error .keyError := by decide

end Verif.Props
