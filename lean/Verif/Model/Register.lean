import Verif.Model.Exc
/-! # The message register (`register.py:6-38`) -/

namespace Verif

/-- State of `MessageRegister` (`register.py:10-12`): `_types` and `_reversed`, as
association lists with the newest binding first. -/
structure Register (C : Type) where
  types : List (Nat × C)
  rev : List (C × Nat)
  deriving Repr

/-- `MessageRegister()` (`register.py:10-12`). -/
def Register.empty {C : Type} : Register C := ⟨[], []⟩

/-- `type_ in library` (`register.py:30-31`). -/
def Register.contains {C : Type} (r : Register C) (t : Nat) : Bool := (r.types.lookup t).isSome

/-- `library[type_]` (`register.py:27-28`). -/
def Register.get {C : Type} (r : Register C) (t : Nat) : Res C :=
  match r.types.lookup t with
  | some c => .ok c
  | none => .error .keyError

/-- `library.get_type(cls)` (`register.py:33-34`). -/
def Register.getType {C : Type} [BEq C] (r : Register C) (c : C) : Res Nat :=
  match r.rev.lookup c with
  | some t => .ok t
  | none => .error .keyError

/-- `library.register(type_)(cls)` (`register.py:14-25`): outcome and next state. -/
def Register.register {C : Type} (r : Register C) (t : Nat) (c : C) : Res Unit × Register C :=
  if r.contains t then (.error .runtimeError, r)
  else (.ok (), ⟨(t, c) :: r.types, (c, t) :: r.rev⟩)

/-- A history of registrations (failed ones included). -/
def Register.run {C : Type} (r : Register C) : List (Nat × C) → Register C
  | [] => r
  | (t, c) :: rest => (r.register t c).2.run rest

end Verif
