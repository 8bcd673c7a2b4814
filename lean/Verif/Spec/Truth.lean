import Verif.Model.Val
/-! # Specification: values that count as true -/

namespace Verif.Spec

open Verif

/-- A condition holds of the value in Python: it is not `None`, `False`, zero or empty.  The sign of a
float is its top bit, so both zeros have only zeros below it. -/
def holds : Val → Bool
  | .none => false
  | .bool b => b
  | .int i => decide (i ≠ 0)
  | .float bits => decide (bits.toNat % 2 ^ 63 ≠ 0)
  | .str s => decide (s ≠ [])
  | .bytes b => decide (b ≠ [])
  | .list l | .tuple l => decide (0 < l.length)
  | .dict d => decide (0 < d.length)
  | .fdict _ items => decide (0 < items.length)
  | _ => true

end Verif.Spec
