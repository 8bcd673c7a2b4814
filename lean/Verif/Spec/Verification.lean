import Verif.Model.Message
import Verif.Spec.Float
/-!
# Specification: numbers and moments of a report
-/

namespace Verif.Spec

/-- The value is a number that is `x / 2^1074`. -/
inductive Num : Val → Int → Prop
  | int (i : Int) : Num (.int i) (i * 2 ^ 1074)
  | bool (b : Bool) : Num (.bool b) ((if b then 1 else 0) * 2 ^ 1074)
  | float (f : UInt64) (x : Int) : IsDouble f x → Num (.float f) x

/-- The value is an infinite float or none at all: NaN. -/
inductive NotFinite : Val → Exc → Prop
  | nan (f : UInt64) : IsNan f → NotFinite (.float f) .valueError
  | inf (f : UInt64) : IsInf f → NotFinite (.float f) .overflowError

/-- The value is no number. -/
def NoNumber : Val → Prop
  | .int _ | .bool _ | .float _ => False
  | _ => True

/-- The seconds `x / 2^1074` are in the years 1 to 9999. -/
def InCalendar (x : Int) : Prop := -62135596800 * 2 ^ 1074 ≤ x ∧ x ≤ 253402300799 * 2 ^ 1074

/-- `us` microseconds are `x / 2^1074` seconds if these are whole microseconds, and less than one
microsecond off if not. -/
def Microseconds (x us : Int) : Prop :=
  us * 2 ^ 1074 - x * 1000000 < 2 ^ 1074 ∧ x * 1000000 - us * 2 ^ 1074 < 2 ^ 1074 ∧
  ∀ k : Int, x * 1000000 = k * 2 ^ 1074 → us = k

/-- `half` is half of `us`; of an odd number it is the even one of the two nearest. -/
def Half (us half : Int) : Prop :=
  2 * half = us ∨ (half % 2 = 0 ∧ (2 * half = us - 1 ∨ 2 * half = us + 1))

/-- A `timedelta` can be that many microseconds: at most 999999999 days and less than one, and not
below minus 999999999 days. -/
def Span (us : Int) : Prop := -(999999999 * 86400 * 1000000) ≤ us ∧ us < 1000000000 * 86400 * 1000000

/-- The report has that size, the task it reports was made at second `start` and has that deadline. -/
structure Reports (m : Msg) (size deadline : Val) (start : Int) : Prop where
  size : getAttr m.attrs p!"size" = size
  task : ∃ t : Msg, getAttr m.attrs p!"task_to_compute" = t.val ∧ t.ts = .int start ∧
    ∃ items, getAttr t.attrs p!"compute_task_def" = .fdict .computeTaskDef items ∧
      lookupName p!"deadline" items = some deadline

end Verif.Spec
