import Verif.Model.Objects
/-!
# Sharing
-/

namespace Verif.Spec

/-- The objects that can be reached from a reference. -/
inductive Reach (h : Objects) : Ref → Nat → Prop where
  | here {a : Nat} : Reach h (.obj a) a
  | there {a b : Nat} {s : Shape} {rs : List Ref} {r : Ref} :
      h[a]? = some (s, rs) → r ∈ rs → Reach h r b → Reach h (.obj a) b

/-- The objects that can be reached from some of these references. -/
def ReachAny (h : Objects) (K : List Ref) (a : Nat) : Prop := ∃ r ∈ K, Reach h r a

/-- No reference in an object dangles. -/
def Closed (h : Objects) : Prop :=
  ∀ (a : Nat) (s : Shape) (rs : List Ref), h[a]? = some (s, rs) → ∀ b, Ref.obj b ∈ rs → b < h.length

/-- A reference that someone who has `K` can get hold of: an immutable value or an object within
reach. -/
def Known (h : Objects) (K : List Ref) : Ref → Prop
  | .atom _ => True
  | .obj a => ReachAny h K a

/-- One step of a program that has the references `K`: it changes an object within reach (to
any shape, so this is any assignment to attributes or items, any call of `append`, `pop`, ...),
makes a new object, a frozen dictionary or a node.  Whatever it stores it has got hold of. -/
inductive Step (E : Env) : Objects × List Ref → Objects × List Ref → Prop where
  | change {h : Objects} {K : List Ref} {a : Nat} {s : Shape} {rs : List Ref} :
      ReachAny h K a → (∀ r ∈ rs, Known h K r) → Step E (h, K) (h.set a (s, rs), K)
  | make {h : Objects} {K : List Ref} {s : Shape} {rs : List Ref} :
      (∀ r ∈ rs, Known h K r) → Step E (h, K) (h ++ [(s, rs)], .obj h.length :: K)
  | dict {h h' : Objects} {K : List Ref} {c : FDictId} {given : Items} {r : Ref} :
      c ≠ .peer → (∀ kv ∈ given, Known h K kv.2) → newDict E c (classItems c) h given = .ok (h', r) →
      Step E (h, K) (h', r :: K)
  | node {h h' : Objects} {K : List Ref} {given : Items} {r : Ref} :
      (∀ kv ∈ given, Known h K kv.2) → newNode E h given = .ok (h', r) → Step E (h, K) (h', r :: K)

/-- Any number of steps. -/
inductive Steps (E : Env) : Objects × List Ref → Objects × List Ref → Prop where
  | none {x : Objects × List Ref} : Steps E x x
  | more {x y z : Objects × List Ref} : Steps E x y → Step E y z → Steps E x z

/-- These references, by name, have these values. -/
def ReadsAs (h : Objects) : Items → List (PStr × Val) → Prop
  | [], [] => True
  | (k, r) :: rest, (n, v) :: vs => k = n ∧ h.value r = some v ∧ ReadsAs h rest vs
  | _, _ => False

end Verif.Spec
