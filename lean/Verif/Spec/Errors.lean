import Verif.Spec.Tasks
import Verif.Spec.Hex
/-! # Specification: what the class checks at load can read -/

namespace Verif.Spec

open Verif

/-- A field holding hexadecimal text, as text or as ASCII bytes. -/
def HexField (v : Val) : Prop :=
  ∃ b, (∃ s, v = .str s ∧ HexText s b) ∨
    ∃ bs, v = .bytes bs ∧ HexText (bs.map fun x => Char.ofNat x.toNat) b

/-- Payment timestamps that can be compared and added to a float. -/
def Timestamp (v : Val) : Prop :=
  (∃ b, v = .bool b) ∨ (∃ f, v = .float f) ∨ ∃ i, v = .int i ∧ i.natAbs < 2 ^ 1024 - 2 ^ 970

/-- The fields that the checks of the message's own class work on are present and have the
types these checks presuppose. -/
def Readable (m : Msg) : Prop :=
  (m.cls = .SubtaskResultsAccepted → Timestamp (getAttr m.attrs p!"payment_ts")) ∧
  (m.cls = .VerdictReportComputedTask →
    (∃ t, At m.val [p!"ack_report_computed_task", p!"report_computed_task", p!"task_to_compute"] t) ∧
    ∃ t, At m.val [p!"force_report_computed_task", p!"report_computed_task", p!"task_to_compute"] t) ∧
  (m.cls = .TaskToCompute →
    getAttr m.attrs p!"want_to_compute_task" ≠ .none ∧
    getAttr m.attrs p!"compute_task_def" ≠ .none ∧
    HexField (getAttr m.attrs p!"requestor_ethereum_public_key") ∧
    HexField (getAttr m.attrs p!"requestor_id"))

end Verif.Spec
