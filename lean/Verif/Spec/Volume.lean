import Verif.Model.Val
/-! # Specification: how much a value holds -/

namespace Verif.Spec

open Verif

mutual
/-- How much a value holds: one for every object, and one more for every character or byte of a text
or byte string and for every eight bits of an integer or tag number beyond the first eight.  The names of
the fields of containers and messages are not counted: they belong to the classes. -/
def volume (v : Val) : Nat :=
  match v with
  | .none => 1
  | .bool _ => 1
  | .int i => 1 + i.natAbs.log2 / 8
  | .float _ => 1
  | .str s => 1 + s.length
  | .bytes b => 1 + b.length
  | .list l => 1 + volumeL l
  | .tuple l => 1 + volumeL l
  | .dict d => 1 + volumeD d
  | .tag n w => 1 + n.log2 / 8 + volume w
  | .enum _ _ => 1
  | .cont _ fs => 1 + volumeF fs
  | .fdict _ fs => 1 + volumeF fs
  | .mask b => 1 + b.length
  | .msg _ ty ts enc sig attrs =>
    1 + volume ty + volume ts + volume enc + volume sig + volumeF attrs
termination_by structural v
/-- Of the elements of a list. -/
def volumeL (l : List Val) : Nat :=
  match l with
  | [] => 0
  | x :: xs => volume x + volumeL xs
termination_by structural l
/-- Of keys and values. -/
def volumeD (d : List (Val × Val)) : Nat :=
  match d with
  | [] => 0
  | (k, x) :: xs => volume k + volume x + volumeD xs
termination_by structural d
/-- Of the fields of an object. -/
def volumeF (d : List (PStr × Val)) : Nat :=
  match d with
  | [] => 0
  | (_, x) :: xs => volume x + volumeF xs
termination_by structural d
end

end Verif.Spec
