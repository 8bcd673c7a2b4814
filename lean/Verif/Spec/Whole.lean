import Verif.Spec.Float
import Verif.Spec.Tasks
/-!
# Specification: checks on the message as a whole

Four classes look at a message that could be read once more before it is accepted.
-/

namespace Verif.Spec

/-- Of the sum `z` and the whole number `t`, both in units of `2^-1074`: no double below `t` is nearer to
the sum.  In particular this holds if the sum is `t` or more. -/
def RoundsUpTo (z t : Int) : Prop := ∀ g y, IsDouble g y → y < t → t - z ≤ (z - y).natAbs

/-- A payment timestamp goes with a message of second `t`: it is not later, and at most 900 seconds
earlier.  For floats the sum with 900 is rounded first, and NaN goes with every message. -/
def PaymentOk (p : Val) (t : Int) : Prop :=
  (∃ i : Int, (p = .int i ∨ ∃ b, p = .bool b ∧ i = b.toInt) ∧ i ≤ t ∧ t ≤ i + 900) ∨
  ∃ f, p = .float f ∧ (IsNan f ∨ ∃ x, IsDouble f x ∧ x ≤ t * 2 ^ 1074 ∧
    RoundsUpTo (x + 900 * 2 ^ 1074) (t * 2 ^ 1074))

/-- Both reports of the verdict are there and lead to `TaskToCompute` messages that are equal, or neither
has one. -/
def VerdictOk (m : Msg) : Prop :=
  ∃ t1 t2, At m.val [p!"ack_report_computed_task", p!"report_computed_task", p!"task_to_compute"] t1 ∧
    At m.val [p!"force_report_computed_task", p!"report_computed_task", p!"task_to_compute"] t2 ∧
    ((t1 = .none ∧ t2 = .none) ∨
      ∃ a b : Msg, a.cls = .TaskToCompute ∧ b.cls = .TaskToCompute ∧ t1 = a.val ∧ t2 = b.val ∧
        b.eq a = .ok true)

/-- The task has an offer that its `ethsig` signs with the requestor's ethereum key, and its ids come from
the requestor's id. -/
def TaskOk (E : Env) (m : Msg) : Prop :=
  (∃ w : Msg, w.cls = .WantToComputeTask ∧ getAttr m.attrs p!"want_to_compute_task" = w.val ∧
    ∃ pk, decodeHex (getAttr m.attrs p!"requestor_ethereum_public_key") = .ok pk ∧
      SignedBy E w (getAttr m.attrs p!"ethsig") pk) ∧
  ∃ d tid sid seed, (getAttr m.attrs p!"compute_task_def").asDict = some d ∧
    dictGet (.str p!"task_id") d = some (.str tid) ∧
    dictGet (.str p!"subtask_id") d = some (.str sid) ∧
    decodeHex (getAttr m.attrs p!"requestor_id") = .ok seed ∧ SeededBy tid seed ∧ SeededBy sid seed

/-- The message passes the check of its class. -/
def WholeOk (E : Env) (m : Msg) : Prop :=
  match m.cls with
  | .SubtaskResultsAccepted => ∃ t, m.ts = .int t ∧ PaymentOk (getAttr m.attrs p!"payment_ts") t
  | .SubtaskResultsRejected => RejectionOk m
  | .VerdictReportComputedTask => VerdictOk m
  | .TaskToCompute => TaskOk E m
  | _ => True

end Verif.Spec
