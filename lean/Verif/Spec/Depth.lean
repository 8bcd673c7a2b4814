import Verif.Model.Classes
/-! # Specification: nesting of messages -/

namespace Verif.Spec

open Verif

mutual
/-- How deep messages are nested in a value, wherever they are (in message slots, in plain
fields, in headers, inside lists, dictionaries or containers): 0 if there are none. -/
def nest (v : Val) : Nat :=
  match v with
  | .list l => nestL l
  | .tuple l => nestL l
  | .dict d => nestD d
  | .tag _ w => nest w
  | .cont _ fs => nestF fs
  | .fdict _ fs => nestF fs
  | .msg _ ty ts enc sig attrs =>
    1 + max (max (max (nest ty) (nest ts)) (max (nest enc) (nest sig))) (nestF attrs)
  | _ => 0
termination_by structural v
def nestL (l : List Val) : Nat :=
  match l with
  | [] => 0
  | x :: xs => max (nest x) (nestL xs)
termination_by structural l
def nestD (d : List (Val × Val)) : Nat :=
  match d with
  | [] => 0
  | (k, x) :: xs => max (max (nest k) (nest x)) (nestD xs)
termination_by structural d
def nestF (d : List (PStr × Val)) : Nat :=
  match d with
  | [] => 0
  | (_, x) :: xs => max (nest x) (nestF xs)
termination_by structural d
end

/-- Class `b` is declared in a message slot of class `a`. -/
def Declares (a b : Cls) : Prop := ∃ name sd, (name, sd) ∈ a.msgSlots ∧ sd.cls = b

/-- There is a chain of `n` classes starting with the given one, each declared in a message
slot of the one before. -/
inductive DeclaredChain : Cls → Nat → Prop
  | one (c : Cls) : DeclaredChain c 1
  | more {c c' : Cls} {n : Nat} : Declares c c' → DeclaredChain c' n → DeclaredChain c (n + 1)

end Verif.Spec
