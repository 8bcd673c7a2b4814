import Verif.Model.Val
import Verif.Model.Bytes
/-! # Frame header (`message/base.py:87-89, 247-262, 379-388`) -/

namespace Verif

/-- `Message.HDR_LEN` (`message/base.py:88`: `struct.calcsize('!HQ?')`). -/
def hdrLen : Nat := 11

/-- `Message.SIG_LEN` (`message/base.py:89`). -/
def sigLen : Nat := 65

/-- The integer `struct.pack` sees for a `Q` argument: only `int` (and `bool`)
instances are accepted. -/
def Val.structInt : Val → Option Int
  | .int i => some i
  | .bool b => some (if b then 1 else 0)
  | _ => Option.none

/-- `struct.pack('!HQ?', type_, timestamp, encrypted)` (`message/base.py:257-262`).
`type_` is a registered type number, `encrypted` is packed by truth value. -/
def packHeader (ty : Nat) (ts : Val) (enc : Val) : Res Bytes :=
  match ts.structInt with
  | Option.none => .error .structError
  | some t =>
    if 2 ^ 16 ≤ ty then .error .structError
    else if t < 0 ∨ 2 ^ 64 ≤ t then .error .structError
    else .ok (toBE 2 ty ++ toBE 8 t.toNat ++ [if enc.truthy then 1 else 0])

/-- A decoded header: `(type_, timestamp, encrypted)` (`datastructures/__init__.py:8-11`). -/
structure Header where
  type : Nat
  timestamp : Nat
  encrypted : Bool
  deriving DecidableEq, Repr

/-- `Message.unpack_header` (`message/base.py:379-388`): `struct.error` becomes
`HeaderError`.  The `?` format reads any non-zero byte as `True`. -/
def unpackHeader (data : Bytes) : Res Header :=
  if data.length ≠ hdrLen then .error .headerError
  else
    .ok {
      type := ofBE (data.take 2)
      timestamp := ofBE ((data.drop 2).take 8)
      encrypted := (data.drop 10) != [0] }

end Verif
