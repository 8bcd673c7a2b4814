import Verif.Spec.Data
/-! # Specification: comparable data -/

namespace Verif.Spec

open Verif

mutual
/-- Every dictionary has pairwise different keys and every object pairwise different attribute
names, as all Python dictionaries and objects do. -/
def Keyed (v : Val) : Prop :=
  match v with
  | .list l => KeyedL l
  | .tuple l => KeyedL l
  | .dict d => distinctKeys (d.map Prod.fst) = true ∧ KeyedD d
  | .tag _ w => Keyed w
  | .cont _ fs => (fs.map Prod.fst).Nodup ∧ KeyedF fs
  | .fdict _ fs => (fs.map Prod.fst).Nodup ∧ KeyedF fs
  | .msg _ ty ts enc sig attrs => Keyed ty ∧ Keyed ts ∧ Keyed enc ∧ Keyed sig ∧ KeyedF attrs
  | _ => True
termination_by structural v
def KeyedL (l : List Val) : Prop :=
  match l with
  | [] => True
  | x :: xs => Keyed x ∧ KeyedL xs
termination_by structural l
def KeyedD (d : List (Val × Val)) : Prop :=
  match d with
  | [] => True
  | (k, x) :: xs => Keyed k ∧ Keyed x ∧ KeyedD xs
termination_by structural d
def KeyedF (d : List (PStr × Val)) : Prop :=
  match d with
  | [] => True
  | (_, x) :: xs => Keyed x ∧ KeyedF xs
termination_by structural d
end

mutual
/-- Data on which Python's equality is identity of content: nothing but `None`, integers, text,
bytes, lists and tuples. -/
def literal (v : Val) : Bool :=
  match v with
  | .none | .int _ | .str _ | .bytes _ => true
  | .list l => literalL l
  | .tuple l => literalL l
  | _ => false
termination_by structural v
def literalL (l : List Val) : Bool :=
  match l with
  | [] => true
  | x :: xs => literal x && literalL xs
termination_by structural l
end

end Verif.Spec
