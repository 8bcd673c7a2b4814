import Verif.Conformance.Messages
import Verif.Model.Misc
/-!
# The project's tests of Concent messages, run on the model

Each example repeats a unit test of `/repo/tests/message`, with fixed draws.  These are tests of the
model's fidelity, not claims.
-/

namespace Verif.Conformance

open Verif

/-- `FACTORY.method()`. -/
def variant (v : Variant) : Res Msg :=
  makeVariant toyEnv G0 (fun b => (b ++ List.replicate 32 0).take 32) toyDraws v []

/-! ### `mixins.py` -/

/-- The classes of which a test repeats `SerializationMixin.test_serialization` with the factory, a few at a
time. -/
example : ∀ c ∈ [Cls.ServiceRefused, .FileTransferToken, .SubtaskResultsVerify],
    survives (toyMake c []) = .ok true := by decide +kernel

example : ∀ c ∈ [Cls.AckSubtaskResultsVerify, .SubtaskResultsSettled, .ForceGetTaskResult],
    survives (toyMake c []) = .ok true := by decide +kernel

example : ∀ c ∈ [Cls.AckForceGetTaskResult, .ForceGetTaskResultFailed, .ForceGetTaskResultRejected],
    survives (toyMake c []) = .ok true := by decide +kernel

example : ∀ c ∈ [Cls.ForceGetTaskResultUpload, .ForceGetTaskResultDownload, .ForceSubtaskResults],
    survives (toyMake c []) = .ok true := by decide +kernel

example : ∀ c ∈ [Cls.ForceSubtaskResultsResponse, .ForceSubtaskResultsRejected, .ForceReportComputedTask],
    survives (toyMake c []) = .ok true := by decide +kernel

example : ∀ c ∈ [Cls.ForceReportComputedTaskResponse, .VerdictReportComputedTask, .ClientAuthorization],
    survives (toyMake c []) = .ok true := by decide +kernel

example : ∀ c ∈ [Cls.SubtaskResultsRejected, .SubtaskResultsAccepted, .AckReportComputedTask],
    survives (toyMake c []) = .ok true := by decide +kernel

example : ∀ c ∈ [Cls.ReportComputedTask, .CannotComputeTask],
    survives (toyMake c []) = .ok true := by decide +kernel

/-- `TaskIdMixin`: ids, owners and the task are those of the attribute named. -/
def idsFrom (m : Res Msg) (provider : PStr) : Res Bool := do
  let m ← m
  let inner := getAttr m.attrs provider
  let task := taskGet p!"task_to_compute" m.val
  let isTask := (Msg.ofVal task).map Msg.cls == some .TaskToCompute
  return isTask && task == taskGet p!"task_to_compute" inner
    && [p!"task_id", p!"subtask_id", p!"provider_id", p!"requestor_id"].all (fun a =>
      taskGet a m.val == taskGet a inner && (taskGet a m.val).truthy)

example :
    (∀ x ∈ [(Cls.ServiceRefused, p!"task_to_compute"), (.SubtaskResultsSettled, p!"task_to_compute"),
        (.ForceGetTaskResult, p!"report_computed_task"), (.AckForceGetTaskResult, p!"force_get_task_result"),
        (.ForceGetTaskResultFailed, p!"task_to_compute"),
        (.ForceGetTaskResultRejected, p!"force_get_task_result"),
        (.ForceGetTaskResultUpload, p!"force_get_task_result"),
        (.ForceGetTaskResultDownload, p!"force_get_task_result"),
        (.ForceSubtaskResults, p!"ack_report_computed_task"),
        (.ForceSubtaskResultsRejected, p!"force_subtask_results"),
        (.ForceReportComputedTask, p!"report_computed_task"), (.SubtaskResultsAccepted, p!"report_computed_task"),
        (.SubtaskResultsRejected, p!"report_computed_task"), (.AckReportComputedTask, p!"report_computed_task")],
      idsFrom (toyMake x.1 []) x.2 = .ok true) ∧
    (∀ x ∈ [(Variant.withTaskToCompute, p!"attached_task_to_compute"),
        (.withCannotComputeTask, p!"cannot_compute_task"), (.withTaskFailure, p!"task_failure"),
        (.withAck, p!"ack_report_computed_task"), (.withReject, p!"reject_report_computed_task")],
      idsFrom (variant x.1) x.2 = .ok true) := by decide +kernel

/-! ### `test_concents.py` -/

/-- `FileTransferTokenTest`. -/
example :
    let operation (v : Val) : Res Val := do
      return (dictGet (.str p!"operation") (dictOf (← slotsOf (fromSlots .FileTransferToken [(p!"operation", v)] [])))).getD
        .none
    let resources : Val := .enum .ftCategory p!"resources"
    let file := mkFDict toyEnv .fileInfo (.dict [(.str p!"category", resources)])
    operation (.enum .ftOperation p!"upload") = .ok (.str p!"upload") ∧
    operation (.enum .ftOperation p!"download") = .ok (.str p!"download") ∧
    operation (.str p!"other") = .error (.fieldError p!"operation") ∧
    (mkFDict toyEnv .fileInfo (.dict [])).map (fun f => dictAttr f p!"category" != .none) = .ok true ∧
    (mkFDict toyEnv .fileInfo (.dict [(.str p!"category", .str p!"other")])).map (fun _ => ())
      = .error (.fieldError p!"category") ∧
    file.map (fun f => dictAttr f p!"category") = .ok resources ∧
    file.map (fun f => getFileInfo [f] resources == some f) = .ok true ∧
    file.map (fun f => getFileInfo [f] (.enum .ftCategory p!"results")) = .ok none := by decide +kernel

/-- The tests of `slots()` of messages with one or two nested ones. -/
example :
    (do let srr ← toyMake .SubtaskResultsRejected []
        let m ← toyMake .SubtaskResultsVerify [(p!"subtask_results_rejected", srr.val)]
        return (← m.slots) == slotList [(p!"subtask_results_rejected", ← singleNested srr),
          (p!"concent_promissory_note_sig", .none)]) = .ok true ∧
    (do let srv ← toyMake .SubtaskResultsVerify []
        let ftt ← toyMake .FileTransferToken []
        let m ← toyMake .AckSubtaskResultsVerify [(p!"subtask_results_verify", srv.val),
          (p!"file_transfer_token", ftt.val)]
        return (← m.slots) == slotList [(p!"subtask_results_verify", ← singleNested srv),
          (p!"file_transfer_token", ← singleNested ftt)]) = .ok true ∧
    (do let fgtr ← toyMake .ForceGetTaskResult []
        let m ← toyMake .ForceGetTaskResultRejected [(p!"force_get_task_result", fgtr.val)]
        return (← m.slots) == slotList [(p!"force_get_task_result", ← singleNested fgtr), (p!"reason", .none)])
      = .ok true ∧
    (∀ c ∈ [Cls.ForceGetTaskResultUpload, .ForceGetTaskResultDownload],
      (do let fgtr ← toyMake .ForceGetTaskResult []
          let ftt ← newMsg .FileTransferToken []
          let m ← toyMake c [(p!"force_get_task_result", fgtr.val), (p!"file_transfer_token", ftt.val)]
          return (← m.slots) == slotList [(p!"force_get_task_result", ← singleNested fgtr),
            (p!"file_transfer_token", ← singleNested ftt)]) = .ok true) := by decide +kernel

/-- `SubtaskResultsSettledTest`, the tests of the origin. -/
example : ∀ x ∈ [(Variant.originAcceptanceTimeout, p!"results_accepted_timeout"),
      (.originResultsRejected, p!"results_rejected")],
    (do let ttc ← toyMake .TaskToCompute []
        let m ← makeVariant toyEnv G0 (fun b => (b ++ List.replicate 32 0).take 32) toyDraws x.1
          [(p!"task_to_compute", ttc.val)]
        return (← m.slots) == slotList [(p!"origin", .str x.2), (p!"task_to_compute", ← singleNested ttc)])
      = .ok true := by decide +kernel

/-- `ForceSubtaskResultsResponseTest`. -/
example :
    let accepted := p!"subtask_results_accepted"
    let rejected := p!"subtask_results_rejected"
    let empty : Val := .tuple [.bool false, .none]
    let inner (m : Res Msg) (name : PStr) : Res (Option Cls) := do
      return (Msg.ofVal (getAttr (← m).attrs name)).map Msg.cls
    (do let sra ← toyMake .SubtaskResultsAccepted []
        let m ← toyMake .ForceSubtaskResultsResponse [(accepted, sra.val)]
        return (← m.slots) == slotList [(accepted, ← singleNested sra), (rejected, empty)]) = .ok true ∧
    (do let srr ← toyMake .SubtaskResultsRejected []
        let m ← toyMake .ForceSubtaskResultsResponse [(rejected, srr.val)]
        return (← m.slots) == slotList [(accepted, empty), (rejected, ← singleNested srr)]) = .ok true ∧
    inner (variant .withAccepted) accepted = .ok (some .SubtaskResultsAccepted) ∧
    inner (variant .withRejected) rejected = .ok (some .SubtaskResultsRejected) ∧
    inner (do
        let one ← singleNested (← toyMake .SubtaskResultsAccepted [])
        fromSlots .ForceSubtaskResultsResponse [(accepted, one)] []) accepted = .ok (some .SubtaskResultsAccepted) ∧
    inner (do
        let one ← singleNested (← toyMake .SubtaskResultsRejected [])
        fromSlots .ForceSubtaskResultsResponse [(rejected, one)] []) rejected = .ok (some .SubtaskResultsRejected) ∧
    inner (fromSlots .ForceSubtaskResultsResponse [(accepted, .str p!"loonquawl")] []) accepted
      = .error (.fieldError accepted) ∧
    inner (fromSlots .ForceSubtaskResultsResponse [(rejected, .str p!"phouchg")] []) rejected
      = .error (.fieldError rejected) ∧
    (∀ x ∈ [(Variant.withAccepted, accepted), (.withRejected, rejected)],
      ∀ a ∈ [p!"task_id", p!"subtask_id"],
        (do let m ← variant x.1
            return taskGet a m.val == taskGet a (getAttr m.attrs x.2)) = .ok true) := by decide +kernel

/-- `ForceSubtaskResultsRejectedTest`, `ForcePaymentCommittedTest`. -/
example :
    let attr (v : Variant) (name : PStr) : Res Val := do return getAttr (← variant v).attrs name
    attr .premature p!"reason"
      = .ok (.enum .fsrRejectedReason p!"premature: still within the verification timeout") ∧
    attr .tooLate p!"reason" = .ok (.enum .fsrRejectedReason p!"too late: past the forced communication timeout") ∧
    attr .toProvider p!"recipient_type" = .ok (.enum .forcePaymentActor p!"provider") ∧
    attr .toRequestor p!"recipient_type" = .ok (.enum .forcePaymentActor p!"requestor") := by decide +kernel

/-- `ForcePaymentTest`, `ForcePaymentRejectedTest`. -/
example :
    let list := p!"subtask_results_accepted_list"
    let classes (m : Res Msg) : Res (List (Option Cls)) := do
      match getAttr (← m).attrs list with
      | .list l => return l.map fun v => (Msg.ofVal v).map Msg.cls
      | _ => .error .attributeError
    let outcome (m : Res Msg) : Res Unit := m.map fun _ => ()
    classes (variant .withAcceptedTasks) = .ok [some .SubtaskResultsAccepted] ∧
    classes (do toyMake .ForcePayment [(list, .list [(← toyMake .SubtaskResultsAccepted []).val])])
      = .ok [some .SubtaskResultsAccepted] ∧
    classes (do fromSlots .ForcePayment [(list, ← listNested [← toyMake .SubtaskResultsAccepted []])] [])
      = .ok [some .SubtaskResultsAccepted] ∧
    (do (dump toyEnv noCrypt (← newMsg .ForcePayment []) none none).1) = .error (.fieldError list) ∧
    (do let b ← (dump toyEnv noCrypt (← newMsg .ForcePayment [(list, .list [])]) none none).1
        (load toyEnv noCrypt (some b) none none true (testNow * 1000000)).2.map fun _ => ())
      = .error (.fieldError list) ∧
    (do let payment ← singleNested (← variant .withAcceptedTasks)
        let m ← fromSlots .ForcePaymentRejected [(p!"force_payment", payment)] []
        return (Msg.ofVal (getAttr m.attrs p!"force_payment")).map Msg.cls) = .ok (some .ForcePayment) ∧
    outcome (do
        let payment ← singleNested (← toyMake .ForcePayment [])
        fromSlots .ForcePaymentRejected [(p!"force_payment", payment)] []) = .error (.fieldError list) ∧
    outcome (do fromSlots .ForcePaymentRejected [(p!"force_payment", (← newMsg .RandVal []).val)] [])
      = .error (.fieldError p!"force_payment") := by decide +kernel

/-- `test_task_header_deadline_validator`: the deadline of the task is the second of the message. -/
example :
    survives (do
      let sra ← toyMake .SubtaskResultsAccepted [
        (p!"report_computed_task__task_to_compute__want_to_compute_task__task_header__deadline", .int testNow)]
      toyMake .ForcePayment [(p!"subtask_results_accepted_list", .list [sra.val])]) = .ok true := by
  decide +kernel

/-- `VerdictReportComputeTaskTestCase`; the other task has another price. -/
example :
    let same (a : PStr) (name : PStr) : Res Bool := do
      let m ← toyMake .VerdictReportComputedTask []
      return taskGet a m.val == taskGet a (getAttr m.attrs name)
    (∀ a ∈ [p!"task_id", p!"subtask_id"],
      ∀ n ∈ [p!"ack_report_computed_task", p!"force_report_computed_task"], same a n = .ok true) ∧
    (do isValid (← toyMake .VerdictReportComputedTask [])) = .ok () ∧
    (do let m ← toyMake .VerdictReportComputedTask []
        let ack ← (Msg.ofVal (getAttr m.attrs p!"ack_report_computed_task")).elim (.error .attributeError) .ok
        let rct ← (Msg.ofVal (getAttr ack.attrs p!"report_computed_task")).elim (.error .attributeError) .ok
        let other ← toyMake .TaskToCompute [(p!"price", .int 1234)]
        let ack := ack.set p!"report_computed_task" (rct.set p!"task_to_compute" other.val).val
        isValid (m.set p!"ack_report_computed_task" ack.val)) = .error .validationError := by decide +kernel

end Verif.Conformance
