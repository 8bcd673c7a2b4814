import Verif.Model.Val
/-!
# Specification: what is small enough to be written

The payload codec writes lengths and tag numbers with eight bytes and has no way to write a value
tagged as a point in time.
-/

namespace Verif.Spec

open Verif

mutual
/-- Texts, byte strings, lists and dictionaries have fewer than `2^64` (for texts `2^62`)
elements, integers fewer than `2^64` bytes, tags are below `2^64` and not 1, everywhere inside the
value, in the objects of the library it holds too. -/
def Writable (v : Val) : Prop :=
  match v with
  | .none => True
  | .bool _ => True
  | .int i => i.natAbs < 256 ^ (2 ^ 64 - 1)
  | .float _ => True
  | .str s => 4 * s.length < 2 ^ 64
  | .bytes b => b.length < 2 ^ 64
  | .list l => l.length < 2 ^ 64 ∧ WritableL l
  | .tuple l => l.length < 2 ^ 64 ∧ WritableL l
  | .dict d => d.length < 2 ^ 64 ∧ WritableD d
  | .tag n v => n < 2 ^ 64 ∧ n ≠ 1 ∧ Writable v
  | .enum _ s => 4 * s.length < 2 ^ 64
  | .fdict _ items => items.length < 2 ^ 64 ∧ WritableA items
  | .cont _ fs => fs.length < 2 ^ 64 ∧ WritableA fs
  | .mask b => b.length < 2 ^ 64
  | .msg _ ty ts enc sig attrs =>
    Writable ty ∧ Writable ts ∧ Writable enc ∧ Writable sig ∧ attrs.length < 2 ^ 64 ∧ WritableA attrs
termination_by structural v
def WritableL (l : List Val) : Prop :=
  match l with
  | [] => True
  | x :: xs => Writable x ∧ WritableL xs
termination_by structural l
def WritableD (d : List (Val × Val)) : Prop :=
  match d with
  | [] => True
  | (k, x) :: xs => Writable k ∧ Writable x ∧ WritableD xs
termination_by structural d
def WritableA (d : List (PStr × Val)) : Prop :=
  match d with
  | [] => True
  | (k, x) :: xs => 4 * k.length < 2 ^ 64 ∧ Writable x ∧ WritableA xs
termination_by structural d
end

end Verif.Spec
