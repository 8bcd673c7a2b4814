import Verif.Spec.Refusal
/-!
# Specification: messages that the checks of their class cannot read

The exceptions of Python itself that leave `load`, each with the messages that give it.
-/

namespace Verif.Spec

open Verif

/-- The check of the class of the message fails with an exception that is no `MessageError`. -/
inductive Foreign (E : Env) (m : Msg) : Exc → Prop
  | paymentType : m.cls = .SubtaskResultsAccepted →
      (∀ i, getAttr m.attrs p!"payment_ts" ≠ .int i) → (∀ b, getAttr m.attrs p!"payment_ts" ≠ .bool b) →
      (∀ f, getAttr m.attrs p!"payment_ts" ≠ .float f) → Foreign E m .typeError
  | paymentHuge {i : Int} : m.cls = .SubtaskResultsAccepted →
      getAttr m.attrs p!"payment_ts" = .int i → i ≤ -(2 ^ 1024 - 2 ^ 970) → Foreign E m .overflowError
  | verdictGap : m.cls = .VerdictReportComputedTask →
      (∀ t, ¬ At m.val [p!"ack_report_computed_task", p!"report_computed_task", p!"task_to_compute"] t) ∨
        (∀ t, ¬ At m.val [p!"force_report_computed_task", p!"report_computed_task", p!"task_to_compute"] t) →
      Foreign E m .attributeError
  | noOffer : m.cls = .TaskToCompute → getAttr m.attrs p!"want_to_compute_task" = .none →
      Foreign E m .attributeError
  | key {w : Msg} {e : Exc} : m.cls = .TaskToCompute → OfferOf m w →
      NotHex (getAttr m.attrs p!"requestor_ethereum_public_key") e → Foreign E m e
  | noDefinition : m.cls = .TaskToCompute → Promised E m →
      getAttr m.attrs p!"compute_task_def" = .none → Foreign E m .typeError
  | requestor {e : Exc} : m.cls = .TaskToCompute → Promised E m →
      getAttr m.attrs p!"compute_task_def" ≠ .none → NotHex (getAttr m.attrs p!"requestor_id") e →
      Foreign E m e

/-- A greeting of a node with a version, to a library whose own version is none. -/
def VersionlessGreeting (E : Env) (data : Bytes) (ct : Bool) (now : Int) : Prop :=
  ∃ e ∈ catalogue, Headed data e ∧ Timely data ct now ∧ e.number = 0 ∧ ¬ OwnVersion E.version ∧
    VersionBytes (fieldVersion (versionField data))

end Verif.Spec
