import Verif.Model.Message
/-!
# Python equality and message equality (`message/base.py:143-158, 703-706`)
-/

set_option linter.unusedSimpArgs false

namespace Verif

/-- Numeric value of a Python number, exact: integers (and integral floats) as
integers, other floats by their bits.  Simplification: a NaN equals the NaN with the
same bits (as it does inside containers when it is the same object). -/
def Val.numKey : Val → Option (Int ⊕ UInt64)
  | .bool b => some (.inl (if b then 1 else 0))
  | .int i => some (.inl i)
  | .float f =>
    match floatToInt? f with
    | some i => some (.inl i)
    | Option.none => some (.inr f)
  | _ => Option.none

mutual
/-- `a == b`.  Numbers compare by value across types, string enum members like their
text, a list never equals a tuple, dictionaries (plain or frozen) compare without
regard to order.  Simplification: containers, masks and messages inside a value are
compared structurally (containers other than `Node` compare by identity in Python;
they do not occur in the output of `slots()` of a loaded message). -/
def pyEq (a b : Val) : Bool :=
  match a with
  | .bool x => decide ((Val.bool x).numKey = b.numKey)
  | .int x => decide ((Val.int x).numKey = b.numKey)
  | .float x => decide ((Val.float x).numKey = b.numKey)
  | .str s =>
    match b with
    | .str t => s == t
    | .enum e t => e.isStringEnum && s == t
    | _ => false
  | .enum e s =>
    match b with
    | .str t => e.isStringEnum && s == t
    | .enum e' t => (e == e' || (e.isStringEnum && e'.isStringEnum)) && s == t
    | _ => false
  | .list l =>
    match b with
    | .list m => pyEqL l m
    | _ => false
  | .tuple l =>
    match b with
    | .tuple m => pyEqL l m
    | _ => false
  | .dict d =>
    match b.asDict with
    | some d' => d.length == d'.length && pyEqD d d'
    | Option.none => false
  | .fdict _ items =>
    match b.asDict with
    | some d' => items.length == d'.length && pyEqF items d'
    | Option.none => false
  | .tag n v =>
    match b with
    | .tag m w => n == m && pyEq v w
    | _ => false
  | .none => b == .none
  | .bytes x => b == .bytes x
  | .cont c fs => b == .cont c fs
  | .mask x => b == .mask x
  | .msg c ty ts enc sig attrs => b == .msg c ty ts enc sig attrs
termination_by structural a
def pyEqL (a b : List Val) : Bool :=
  match a with
  | [] => b.isEmpty
  | x :: xs =>
    match b with
    | [] => false
    | y :: ys => pyEq x y && pyEqL xs ys
termination_by structural a
/-- Every item of `a` is in `b`. -/
def pyEqD (a b : List (Val × Val)) : Bool :=
  match a with
  | [] => true
  | (k, v) :: rest =>
    (match dictGet k b with
     | some w => pyEq v w
     | Option.none => false) && pyEqD rest b
termination_by structural a
def pyEqF (a : List (PStr × Val)) (b : List (Val × Val)) : Bool :=
  match a with
  | [] => true
  | (k, v) :: rest =>
    (match dictGet (.str k) b with
     | some w => pyEq v w
     | Option.none => false) && pyEqF rest b
termination_by structural a
end

/-- `Message.__eq__` (`message/base.py:143-158`) and `Hello.__eq__`
(`message/base.py:703-706`) for two messages; the conjunction is evaluated left to
right, `slots()` may raise. -/
def Msg.eq (a b : Msg) : Res Bool :=
  if a.cls = .Hello && !(pyEq (getAttr a.attrs p!"_version") (getAttr b.attrs p!"_version")) then
    .ok false
  else if a.cls ≠ b.cls then .ok false
  else if !(pyEq a.ty b.ty) then .ok false
  else if !(pyEq a.ts b.ts) then .ok false
  else if !(pyEq a.sig b.sig) then .ok false
  else
    match a.slots with
    | .error e => .error e
    | .ok sa =>
      match b.slots with
      | .error e => .error e
      | .ok sb => .ok (pyEq sa sb)

end Verif
