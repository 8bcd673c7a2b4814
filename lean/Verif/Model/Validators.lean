import Verif.Model.Env
import Verif.Model.Enums
import Verif.Model.Version
/-! # Field validators (`validators.py`) -/

namespace Verif

/-- The validators of `validators.py`, as used by containers and dictionaries. -/
inductive Validator where
  /-- `validate_varchar` with a bound (`none`: `float('infinity')`), `validators.py:18-32` -/
  | varchar (maxLength : Option Nat)
  /-- `validate_integer`, `validators.py:35-41` -/
  | integer
  /-- `validate_positive_integer`, `validators.py:44-51` -/
  | positiveInteger
  /-- `validate_port`, `validators.py:54-61` -/
  | port
  /-- `validate_ipaddress`, `validators.py:64-72` -/
  | ipaddress
  /-- `validate_boolean`, `validators.py:75-81` -/
  | boolean
  /-- `validate_version`, `validators.py:84-92` -/
  | version
  /-- `validate_dict`, `validators.py:95-103` -/
  | dict
  /-- `fail_unless` (`validators.py:9-15`) with `isinstance(x, bytes)` -/
  | isBytes
  /-- `fail_unless` with `isinstance(x, (dict, C))` for a container class `C` -/
  | isDictOr (c : ContId)
  /-- `fail_unless` with `x >= 0` (only used after `integer`) -/
  | nonNegative
  /-- `fail_unless` with `x > 0` (only used after `integer`) -/
  | positive
  deriving DecidableEq, Repr

/-- The text of a `str` instance (string enum members are `str` instances). -/
def Val.asStr : Val → Option PStr
  | .str s => some s
  | .enum e s => if e.isStringEnum then some s else Option.none
  | _ => Option.none

/-- The integer value of an `int` that is not a `bool`. -/
def Val.asInt : Val → Option Int
  | .int i => some i
  | _ => Option.none

/-- A validator's acceptance test, following the conditions of `validators.py`. -/
def Validator.accepts (E : Env) : Validator → Val → Bool
  | .varchar max, v =>
    match v.asStr with
    | some s =>
      match max with
      | some m => decide (s.length ≤ m)
      | Option.none => true
    | Option.none => false
  | .integer, v => v.asInt.isSome
  | .positiveInteger, v =>
    match v.asInt with
    | some i => !decide (i < 1)
    | Option.none => false
  | .port, v =>
    match v.asInt with
    | some i => decide (0 < i) && decide (i < 2 ^ 16 - 1)
    | Option.none => false
  | .ipaddress, v => E.ipOk v
  | .boolean, v =>
    match v with
    | .bool _ => true
    | _ => false
  | .version, v =>
    match v.asStr with
    | some s => (parseVersion s).isSome
    | Option.none => false
  | .dict, v => v.asDict.isSome
  | .isBytes, v =>
    match v with
    | .bytes _ => true
    | _ => false
  | .isDictOr c, v =>
    match v with
    | .cont c' _ => c' == c
    | _ => v.asDict.isSome
  | .nonNegative, v =>
    match v with
    | .int i => decide (i ≥ 0)
    | _ => false
  | .positive, v =>
    match v with
    | .int i => decide (i > 0)
    | _ => false

/-- Call of a validator with `(field_name, value)`: `FieldError` naming the field
if the value is not acceptable. -/
def Validator.run (E : Env) (x : Validator) (field : PStr) (v : Val) : Res Unit :=
  if x.accepts E v then .ok () else .error (.fieldError field)

/-- Run validators in order. -/
def runAll (E : Env) (vs : List Validator) (field : PStr) (v : Val) : Res Unit :=
  match vs with
  | [] => .ok ()
  | x :: xs =>
    match x.run E field v with
    | .error e => .error e
    | .ok _ => runAll E xs field v

end Verif
