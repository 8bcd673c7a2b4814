import Verif.Model.Enums
import Verif.Spec.Float
/-! # Specification: plain data -/

namespace Verif.Spec

open Verif

/-- Values a dictionary key may have to survive the payload codec. -/
def scalar : Val → Bool
  | .none | .bool _ | .int _ | .float _ | .str _ | .bytes _ => true
  | _ => false

/-- The value of a finite number, times `2^1074`. -/
def numValue : Val → Option Int
  | .bool b => some ((if b then 1 else 0) * 2 ^ 1074)
  | .int i => some (i * 2 ^ 1074)
  | .float f => doubleOf f
  | _ => none

/-- Two dictionary keys that Python regards as the same: numbers of the same value (`True == 1`,
`1 == 1.0`), and otherwise the same. -/
def sameKey (a b : Val) : Bool :=
  match numValue a, numValue b with
  | some x, some y => x == y
  | none, none => a == b
  | _, _ => false

/-- Pairwise different keys. -/
def distinctKeys : List Val → Bool
  | [] => true
  | k :: rest => rest.all (fun l => !sameKey k l) && distinctKeys rest

mutual
/-- Data built from `None`, booleans, integers, floats, text, bytes, lists, tuples and
dictionaries with distinct scalar keys. -/
def plain (v : Val) : Bool :=
  match v with
  | .none | .bool _ | .int _ | .float _ | .str _ | .bytes _ => true
  | .list l => plainL l
  | .tuple l => plainL l
  | .dict d => plainD d && d.all (fun kv => scalar kv.1) && distinctKeys (d.map Prod.fst)
  | _ => false
termination_by structural v
def plainL (l : List Val) : Bool :=
  match l with
  | [] => true
  | x :: xs => plain x && plainL xs
termination_by structural l
def plainD (d : List (Val × Val)) : Bool :=
  match d with
  | [] => true
  | (_, x) :: xs => plain x && plainD xs
termination_by structural d
end

mutual
/-- Tuples replaced by lists. -/
def toLists (v : Val) : Val :=
  match v with
  | .list l => .list (toListsL l)
  | .tuple l => .list (toListsL l)
  | .dict d => .dict (toListsD d)
  | v => v
termination_by structural v
def toListsL (l : List Val) : List Val :=
  match l with
  | [] => []
  | x :: xs => toLists x :: toListsL xs
termination_by structural l
def toListsD (d : List (Val × Val)) : List (Val × Val) :=
  match d with
  | [] => []
  | (k, x) :: xs => (k, toLists x) :: toListsD xs
termination_by structural d
end

mutual
/-- Data as the payload codec delivers it: like `plain` without tuples, and with the tagged
values of the codec (tags 2 and 3 are big integers, never tagged values, and no tag has more than
64 bits). -/
def data (v : Val) : Bool :=
  match v with
  | .none | .bool _ | .int _ | .float _ | .str _ | .bytes _ => true
  | .list l => dataL l
  | .dict d => dataD d && d.all (fun kv => scalar kv.1) && distinctKeys (d.map Prod.fst)
  | .tag n v => n != 2 && n != 3 && n < 2 ^ 64 && data v
  | _ => false
termination_by structural v
def dataL (l : List Val) : Bool :=
  match l with
  | [] => true
  | x :: xs => data x && dataL xs
termination_by structural l
def dataD (d : List (Val × Val)) : Bool :=
  match d with
  | [] => true
  | (_, x) :: xs => data x && dataD xs
termination_by structural d
end

mutual
/-- All strings, lists and dictionaries have fewer than `2^64` elements, and integers fewer
than `2^64` bytes (always true of objects in memory). -/
def Sized (v : Val) : Prop :=
  match v with
  | .int i => i.natAbs < 256 ^ (2 ^ 64 - 1)
  | .str s => 4 * s.length < 2 ^ 64
  | .bytes b => b.length < 2 ^ 64
  | .list l => l.length < 2 ^ 64 ∧ SizedL l
  | .tuple l => l.length < 2 ^ 64 ∧ SizedL l
  | .dict d => d.length < 2 ^ 64 ∧ SizedD d
  | _ => True
termination_by structural v
def SizedL (l : List Val) : Prop :=
  match l with
  | [] => True
  | x :: xs => Sized x ∧ SizedL xs
termination_by structural l
def SizedD (d : List (Val × Val)) : Prop :=
  match d with
  | [] => True
  | (k, x) :: xs => Sized k ∧ Sized x ∧ SizedD xs
termination_by structural d
end

mutual
/-- Somewhere inside there is an object of the library that is not data: a container, a
mask, a message, or an enumeration member that is not text. -/
def foreign (v : Val) : Bool :=
  match v with
  | .cont _ _ => true
  | .mask _ => true
  | .msg .. => true
  | .enum e _ => !e.isStringEnum
  | .list l => foreignL l
  | .tuple l => foreignL l
  | .dict d => foreignD d
  | .fdict _ items => foreignF items
  | .tag _ v => foreign v
  | _ => false
termination_by structural v
def foreignL (l : List Val) : Bool :=
  match l with
  | [] => false
  | x :: xs => foreign x || foreignL xs
termination_by structural l
def foreignD (d : List (Val × Val)) : Bool :=
  match d with
  | [] => false
  | (k, x) :: xs => foreign k || foreign x || foreignD xs
termination_by structural d
def foreignF (d : List (PStr × Val)) : Bool :=
  match d with
  | [] => false
  | (_, x) :: xs => foreign x || foreignF xs
termination_by structural d
end

end Verif.Spec
