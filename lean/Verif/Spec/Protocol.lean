import Verif.Spec.Catalogue
import Verif.Spec.Schema
import Verif.Spec.Slots
/-! # Specification: messages that follow the catalogue -/

namespace Verif.Spec

open Verif

/-- The value of a field is of the kind the catalogue gives; every field may be absent. -/
def Fits (E : Env) : Kind → Val → Prop
  | .plain, _ => True
  | .message c _ false, v => v = .none ∨ isMsg c v = true
  | .message c _ true, v => v = .none ∨ ∃ l, v = .list l ∧ ∀ x ∈ l, isMsg c x = true
  | .choice values, v => v = .none ∨ ∃ e s, v = .enum e s ∧ s ∈ values
  | .node, v => holds v = false ∨ NodeHeld E v

/-- A message that has exactly the fields listed for its class (a `Hello` may also have its
version), each of the listed kind, and whose parts do so, too. -/
inductive Listed (E : Env) : Val → Prop
  | mk (e : Entry) (ty ts enc sig : Val) (attrs : Attrs) (known : e ∈ catalogue)
    (names : attrs.map Prod.fst = e.fields.map Prod.fst ∨
      e.number = 0 ∧ attrs.map Prod.fst = e.fields.map Prod.fst ++ [p!"_version"])
    (fits : ∀ f k, (f, k) ∈ e.fields → Fits E k (getAttr attrs f))
    (parts : ∀ f c o l, (f, .message c o l) ∈ e.fields → ∀ x ∈ members (getAttr attrs f),
      Listed E x) :
    Listed E (.msg e.cls ty ts enc sig attrs)

mutual
/-- The `TaskToCompute` messages reached through the links of the catalogue, depth first, in the
order of the links. -/
inductive Linked : Val → List Val → Prop
  | ttc (ty ts enc sig : Val) (attrs : Attrs) :
      Linked (.msg .TaskToCompute ty ts enc sig attrs) [.msg .TaskToCompute ty ts enc sig attrs]
  | task {e : Entry} (ty ts enc sig : Val) {attrs : Attrs} {l : List Val} :
      e ∈ catalogue → e.links ≠ [] → LinkedFields attrs e.links l →
      Linked (.msg e.cls ty ts enc sig attrs) l
  | none : Linked .none []
/-- The same for a list of fields. -/
inductive LinkedFields : Attrs → List PStr → List Val → Prop
  | nil (attrs : Attrs) : LinkedFields attrs [] []
  | cons {attrs : Attrs} {name : PStr} {names : List PStr} {l l' : List Val} :
      Linked (getAttr attrs name) l → LinkedFields attrs names l' →
      LinkedFields attrs (name :: names) (l ++ l')
end

end Verif.Spec
