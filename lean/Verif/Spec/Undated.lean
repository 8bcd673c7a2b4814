import Verif.Model.Val
/-!
# Specification: no points in time

The payload codec reads a value tagged 1 as a point in time, and has no way to write one.
-/

namespace Verif.Spec

open Verif

mutual
/-- No value tagged 1 anywhere inside. -/
def Undated (v : Val) : Prop :=
  match v with
  | .none | .bool _ | .int _ | .float _ | .str _ | .bytes _ | .enum _ _ | .mask _ => True
  | .list l => UndatedL l
  | .tuple l => UndatedL l
  | .dict d => UndatedD d
  | .tag n v => n ≠ 1 ∧ Undated v
  | .fdict _ items => UndatedA items
  | .cont _ fs => UndatedA fs
  | .msg _ ty ts enc sig attrs => Undated ty ∧ Undated ts ∧ Undated enc ∧ Undated sig ∧ UndatedA attrs
termination_by structural v
/-- Of the elements of a list. -/
def UndatedL (l : List Val) : Prop :=
  match l with
  | [] => True
  | x :: xs => Undated x ∧ UndatedL xs
termination_by structural l
/-- Of keys and values. -/
def UndatedD (d : List (Val × Val)) : Prop :=
  match d with
  | [] => True
  | (k, x) :: xs => Undated k ∧ Undated x ∧ UndatedD xs
termination_by structural d
/-- Of the fields of an object. -/
def UndatedA (d : List (PStr × Val)) : Prop :=
  match d with
  | [] => True
  | (_, x) :: xs => Undated x ∧ UndatedA xs
termination_by structural d
end

end Verif.Spec
