import Verif.Spec.Container
/-! # Specification: dictionaries made from sequences of pairs -/

namespace Verif.Spec

open Verif

/-- What a dictionary stores when the value `v` is assigned to the key `k`: that value, but for a
`dict` given to a `Peer` as its node, of which a node is made. -/
def Stored (E : Env) (c : FDictId) (k : PStr) (v w : Val) : Prop :=
  if c = .peer ∧ k = p!"node" ∧ v.asDict.isSome = true then mkCont E .node v = .ok w else w = v

/-- The elements of a value that has some: of text its characters, of bytes numbers, of dictionaries the
keys. -/
def elementsOf : Val → Option (List Val)
  | .list l | .tuple l => some l
  | .str s => some (s.map fun c => .str [c])
  | .bytes b => some (b.map fun x => .int x.toNat)
  | .dict d => some (d.map Prod.fst)
  | .fdict _ items => some (items.map fun kv => .str kv.1)
  | _ => none

/-- The element `x` of a sequence gives the declared key `k` the accepted value `w`. -/
def Gives (E : Env) (c : FDictId) (x : Val) (k : PStr) (w : Val) : Prop :=
  ∃ v, elementsOf x = some [.str k, v] ∧ k ∈ dictKeys c ∧ Stored E c k v w ∧ itemOk E c k w

/-- Why an element of a sequence is refused, and what is raised. -/
inductive Refused (E : Env) (c : FDictId) (x : Val) : Exc → Prop
  | notIterable (h : elementsOf x = none) : Refused E c x .typeError
  | notTwo (l : List Val) (h : elementsOf x = some l) (hl : l.length ≠ 2) : Refused E c x .valueError
  | unhashable (k v : Val) (h : elementsOf x = some [k, v]) (hk : k.hashable = false) : Refused E c x .typeError
  | undeclared (k v : Val) (h : elementsOf x = some [k, v]) (hk : k.hashable = true)
      (hn : ∀ n ∈ dictKeys c, k ≠ .str n) : Refused E c x .keyError
  | invalid (k : PStr) (v w : Val) (h : elementsOf x = some [.str k, v]) (hk : k ∈ dictKeys c) (hs : Stored E c k v w)
      (hv : ¬ itemOk E c k w) : Refused E c x (.fieldError k)
  | noNode (v : Val) (e : Exc) (hc : c = .peer) (h : elementsOf x = some [.str p!"node", v])
      (hd : v.asDict.isSome = true) (hn : mkCont E .node v = .error e) : Refused E c x e

/-- The value that the last of the elements with the key `k` gives it. -/
def lastGiven (k : PStr) : List Val → Option Val
  | [] => none
  | x :: xs =>
    match lastGiven k xs, elementsOf x with
    | some v, _ => some v
    | none, some [.str n, v] => if n = k then some v else none
    | none, _ => none

end Verif.Spec
