import Verif.Model.Validators
import Verif.Props.Version
/-!
# C43: acceptance sets of the validators (`validators.py`)
-/

set_option linter.unusedSimpArgs false

namespace Verif.Props

open Verif Spec

/-- The values a validator documents to accept; `ip` is the set of texts, integers and
byte strings the standard library takes as IP addresses.  `isinstance(x, str)` holds for
text and for members of string enumerations. -/
def Documented (E : Env) : Validator → Val → Prop
  | .varchar (some m), v => ∃ s, (v = .str s ∨ ∃ e, e.isStringEnum = true ∧ v = .enum e s)
      ∧ s.length ≤ m
  | .varchar none, v => ∃ s, v = .str s ∨ ∃ e, e.isStringEnum = true ∧ v = .enum e s
  | .integer, v => ∃ i, v = .int i
  | .positiveInteger, v => ∃ i, v = .int i ∧ 1 ≤ i
  | .port, v => ∃ i, v = .int i ∧ 1 ≤ i ∧ i ≤ 65535
  | .ipaddress, v => E.ipOk v = true
  | .boolean, v => ∃ b, v = .bool b
  | .version, v => ∃ t : Ver, t.Wf ∧ ∃ s, (t.Said s ∨ ∃ r, s = r ++ ['\n'] ∧ t.Said r) ∧
      (v = .str s ∨ ∃ e, e.isStringEnum = true ∧ v = .enum e s)
  | .dict, v => (∃ d, v = .dict d) ∨ ∃ c d, v = .fdict c d
  | .isBytes, v => ∃ b, v = .bytes b
  | .isDictOr c, v => (∃ d, v = .dict d) ∨ (∃ c d, v = .fdict c d) ∨ ∃ fs, v = .cont c fs
  | .nonNegative, v => ∃ i, v = .int i ∧ 0 ≤ i
  | .positive, v => ∃ i, v = .int i ∧ 0 < i

private theorem asStr_some {v : Val} {s : PStr} :
    v.asStr = some s ↔ v = .str s ∨ ∃ e, e.isStringEnum = true ∧ v = .enum e s := by
  cases v <;> simp [Val.asStr]
  constructor
  · rintro ⟨a, b⟩; exact ⟨_, a, rfl, b⟩
  · rintro ⟨_, a, rfl, b⟩; exact ⟨a, b⟩

private theorem asInt_some {v : Val} {i : Int} : v.asInt = some i ↔ v = .int i := by
  cases v <;> simp [Val.asInt]

private theorem asDict_some {v : Val} :
    v.asDict.isSome = true ↔ (∃ d, v = .dict d) ∨ ∃ c d, v = .fdict c d := by
  cases v <;> simp [Val.asDict]

/-- Every validator but the one for ports accepts exactly its documented set and
raises `FieldError` naming the field for every other value. -/
theorem validator_decision (E : Env) (x : Validator) (hx : x ≠ .port) (field : PStr) (v : Val) :
    (Documented E x v → x.run E field v = .ok ()) ∧
    (¬ Documented E x v → x.run E field v = .error (.fieldError field)) := by
  have key : x.accepts E v = true ↔ Documented E x v := by
    cases x with
    | varchar m =>
      simp only [Validator.accepts]
      cases m with
      | none =>
        simp only [Documented]
        constructor
        · intro h
          split at h
          · rename_i s hs; exact ⟨s, asStr_some.mp hs⟩
          · cases h
        · rintro ⟨s, hs⟩; rw [asStr_some.mpr hs]
      | some m =>
        simp only [Documented]
        constructor
        · intro h
          split at h
          · rename_i s hs; exact ⟨s, asStr_some.mp hs, by simpa using h⟩
          · cases h
        · rintro ⟨s, hs, hl⟩; rw [asStr_some.mpr hs]; simpa using hl
    | integer =>
      cases v <;> simp [Validator.accepts, Documented, Val.asInt]
    | positiveInteger =>
      simp only [Validator.accepts, Documented]
      constructor
      · intro h
        split at h
        · rename_i i hi; exact ⟨i, asInt_some.mp hi, by simp at h; omega⟩
        · cases h
      · rintro ⟨i, rfl, hp⟩; simp [Val.asInt]; omega
    | port => exact absurd rfl hx
    | ipaddress => rfl
    | boolean => cases v <;> simp [Validator.accepts, Documented]
    | version =>
      simp only [Validator.accepts, Documented]
      constructor
      · intro h
        split at h
        · rename_i s hs
          obtain ⟨t, ht⟩ := Option.isSome_iff_exists.mp h
          obtain ⟨w, hw⟩ := (version_grammar s t.ver).mp ht
          exact ⟨t.ver, w, s, hw, asStr_some.mp hs⟩
        · cases h
      · rintro ⟨t, w, s, hs, hv⟩
        rw [asStr_some.mpr hv]
        simp only
        rw [(version_grammar s t).mpr ⟨w, hs⟩]
        rfl
    | dict => exact asDict_some
    | isBytes => cases v <;> simp [Validator.accepts, Documented]
    | isDictOr c => cases v <;> simp [Validator.accepts, Documented, Val.asDict]
    | nonNegative => cases v <;> simp [Validator.accepts, Documented]
    | positive => cases v <;> simp [Validator.accepts, Documented]
  unfold Validator.run
  constructor
  · intro h; rw [if_pos (key.mpr h)]
  · intro h; rw [if_neg (fun k => h (key.mp k))]

/-- What is true of the port validator: it accepts exactly the integers from 1 to 65534.
Missing for the full claim: the documented port 65535. -/
theorem validate_port_partial (E : Env) (field : PStr) (v : Val) :
    ((∃ i, v = .int i ∧ 1 ≤ i ∧ i ≤ 65534) → Validator.port.run E field v = .ok ()) ∧
    ((¬ ∃ i, v = .int i ∧ 1 ≤ i ∧ i ≤ 65534) →
      Validator.port.run E field v = .error (.fieldError field)) := by
  have key : Validator.port.accepts E v = true ↔ ∃ i, v = .int i ∧ 1 ≤ i ∧ i ≤ 65534 := by
    simp only [Validator.accepts]
    constructor
    · intro h
      split at h
      · rename_i i hi; exact ⟨i, asInt_some.mp hi, by simp at h; omega⟩
      · cases h
    · rintro ⟨i, rfl, hp⟩; simp [Val.asInt]; omega
  unfold Validator.run
  constructor
  · intro h; rw [if_pos (key.mpr h)]
  · intro h; rw [if_neg (fun k => h (key.mp k))]

/-- The documented set of the port validator is not the accepted one: port 65535 is
documented as valid and refused. -/
theorem validate_port_refuted (E : Env) (field : PStr) :
    Documented E .port (.int 65535) ∧
      Validator.port.run E field (.int 65535) = .error (.fieldError field) :=
  ⟨⟨_, rfl, by decide, by decide⟩, rfl⟩

/-- Several validators on one field: accepted exactly if each accepts, otherwise a
`FieldError` naming the field. -/
theorem validators_all (E : Env) (vs : List Validator) (field : PStr) (v : Val) :
    ((∀ x ∈ vs, x.run E field v = .ok ()) → runAll E vs field v = .ok ()) ∧
    ((∃ x ∈ vs, x.run E field v ≠ .ok ()) → runAll E vs field v = .error (.fieldError field)) := by
  induction vs with
  | nil => exact ⟨fun _ => rfl, fun ⟨x, hx, _⟩ => by cases hx⟩
  | cons x xs ih =>
    cases hr : x.run E field v with
    | ok u =>
      have e : runAll E (x :: xs) field v = runAll E xs field v := by
        rw [runAll, hr]
      rw [e]
      constructor
      · intro h; exact ih.1 fun y hy => h y (List.mem_cons_of_mem _ hy)
      · rintro ⟨y, hy, hn⟩
        rcases List.mem_cons.mp hy with rfl | hy
        · exact absurd hr hn
        · exact ih.2 ⟨y, hy, hn⟩
    | error er =>
      have e : runAll E (x :: xs) field v = .error (.fieldError field) := by
        have hf : x.run E field v = .error (.fieldError field) := by
          unfold Validator.run at hr ⊢
          split
          · rename_i ha; rw [if_pos ha] at hr; cases hr
          · rfl
        rw [runAll, hf]
      refine ⟨fun h => ?_, fun _ => e⟩
      have := h x (by simp)
      rw [hr] at this; cases this

/-- Non-vacuity: `True` is not an integer, `129` characters are too long for
`validate_varchar128`, a version is accepted. -/
example (E : Env) : Validator.integer.run E p!"f" (.bool true) = .error (.fieldError p!"f") ∧
    (Validator.varchar (some 128)).run E p!"f" (.str (List.replicate 129 'x'))
      = .error (.fieldError p!"f") ∧
    Validator.version.run E p!"f" (.str p!"1.2.3") = .ok () := by
  refine ⟨rfl, ?_, rfl⟩
  simp [Validator.run, Validator.accepts, Val.asStr]

end Verif.Props
