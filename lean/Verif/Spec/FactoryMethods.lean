import Verif.Spec.Factories
import Verif.Model.MessageFactories
/-! # Specification: what the class methods of factories promise by their names -/

namespace Verif.Spec

open Verif

/-- The class of the messages a method makes. -/
def methodClass : Variant → Cls
  | .withTaskToCompute => .RejectReportComputedTask
  | .withTaskFailure => .RejectReportComputedTask
  | .withCannotComputeTask => .RejectReportComputedTask
  | .originAcceptanceTimeout => .SubtaskResultsSettled
  | .originResultsRejected => .SubtaskResultsSettled
  | .withAccepted => .ForceSubtaskResultsResponse
  | .withRejected => .ForceSubtaskResultsResponse
  | .premature => .ForceSubtaskResultsRejected
  | .tooLate => .ForceSubtaskResultsRejected
  | .withAcceptedTasks => .ForcePayment
  | .toProvider => .ForcePaymentCommitted
  | .toRequestor => .ForcePaymentCommitted
  | .withAck => .ForceReportComputedTaskResponse
  | .withReject => .ForceReportComputedTaskResponse

/-- Fields a method fixes, whatever else is asked for. -/
def fixed : List (Variant × PStr × Val) :=
  [(.originAcceptanceTimeout, p!"origin", .enum .settledOrigin p!"results_accepted_timeout"),
   (.originResultsRejected, p!"origin", .enum .settledOrigin p!"results_rejected"),
   (.premature, p!"reason", .enum .fsrRejectedReason p!"premature: still within the verification timeout"),
   (.tooLate, p!"reason", .enum .fsrRejectedReason p!"too late: past the forced communication timeout"),
   (.toProvider, p!"recipient_type", .enum .forcePaymentActor p!"provider"),
   (.toRequestor, p!"recipient_type", .enum .forcePaymentActor p!"requestor")]

/-- The reasons that go with what a method puts into the message. -/
def reasons : List (Variant × Val) :=
  [(.withTaskToCompute, .enum .rejectReportReason p!"SubtaskTimeLimitExceeded"),
   (.withTaskFailure, .enum .rejectReportReason p!"GotMessageTaskFailure"),
   (.withCannotComputeTask, .enum .rejectReportReason p!"GotMessageCannotComputeTask"),
   (.withAck, .enum .frctResponseReason p!"ack_from_requestor"),
   (.withReject, .enum .frctResponseReason p!"reject_from_requestor")]

/-- The message a method puts into a field. -/
def holding : List (Variant × PStr × Cls) :=
  [(.withTaskToCompute, p!"attached_task_to_compute", .TaskToCompute),
   (.withTaskFailure, p!"task_failure", .TaskFailure),
   (.withCannotComputeTask, p!"cannot_compute_task", .CannotComputeTask),
   (.withAccepted, p!"subtask_results_accepted", .SubtaskResultsAccepted),
   (.withRejected, p!"subtask_results_rejected", .SubtaskResultsRejected),
   (.withAck, p!"ack_report_computed_task", .AckReportComputedTask),
   (.withReject, p!"reject_report_computed_task", .RejectReportComputedTask)]

end Verif.Spec
