import Verif.Spec.Exchange
/-! # Specification: arguments of factories -/

namespace Verif.Spec

open Verif

/-- Arguments of the factory of tasks that have nothing to do with keys, ids and signatures. -/
def freeTaskArgs : List PStr :=
  [p!"provider_id", p!"package_hash", p!"size", p!"price", p!"resources_options", p!"concent_enabled",
   p!"promissory_note_sig", p!"concent_promissory_note_sig", p!"compute_task_def__deadline",
   p!"compute_task_def__extra_data", p!"compute_task_def__resources",
   p!"compute_task_def__performance", p!"compute_task_def__docker_images"]

/-- The argument that means `name` in the message found by going through these fields. -/
def joined : List PStr → PStr → PStr
  | [], name => name
  | f :: path, name => f ++ p!"__" ++ joined path name

/-- `x` is the message found in `m` by going through these fields. -/
def Follow : List PStr → Msg → Msg → Prop
  | [], m, x => x = m
  | f :: path, m, x => ∃ y : Msg, getAttr m.attrs f = y.val ∧ Follow path y x

/-- Fields that factories change after construction, or have no sub-factory for. -/
def special : List (Cls × PStr) :=
  [(.TaskToCompute, p!"compute_task_def"), (.TaskToCompute, p!"ethsig"),
   (.TaskToCompute, p!"requestor_ethereum_public_key"), (.FileTransferToken, p!"operation"),
   (.SubtaskResultsRejected, p!"force_get_task_result_failed"),
   (.ForceSubtaskResultsResponse, p!"subtask_results_accepted"),
   (.ForceSubtaskResultsResponse, p!"subtask_results_rejected"),
   (.ForcePayment, p!"subtask_results_accepted_list"),
   (.VerdictReportComputedTask, p!"ack_report_computed_task")]

/-- A way from messages of one class through message fields to messages of another, avoiding the
special fields. -/
inductive Route : Cls → List PStr → Cls → Prop
  | here (c : Cls) : Route c [] c
  | step {c c' : Cls} {f : PStr} {sd : SlotDef} {path : List PStr} (slot : (f, sd) ∈ c.msgSlots)
    (plain : (c, f) ∉ special) (rest : Route sd.cls path c') : Route c (f :: path) c'

/-- Fields that factories write after they have signed the message. -/
def lateFields : Cls → List PStr
  | .RejectReportComputedTask => [p!"attached_task_to_compute", p!"task_failure", p!"cannot_compute_task"]
  | .FileTransferToken => [p!"operation"]
  | .ForceSubtaskResultsResponse => [p!"subtask_results_accepted", p!"subtask_results_rejected"]
  | .ForcePayment => [p!"subtask_results_accepted_list"]
  | .ForceReportComputedTaskResponse => [p!"ack_report_computed_task", p!"reject_report_computed_task"]
  | .VerdictReportComputedTask => [p!"ack_report_computed_task"]
  | _ => []

/-- What Blender is asked to do if nothing else is said: the first frame, as the first of one subtask. -/
def oneFrame : Val :=
  .dict [(.str p!"path_root", .str p!""), (.str p!"start_task", .int 1), (.str p!"end_task", .int 1),
    (.str p!"total_tasks", .int 1), (.str p!"outfilebasename", .str p!"test task"),
    (.str p!"scene_file", .str p!"/golem/resources/look_to_windward.blend"), (.str p!"script_src", .str p!"pass"),
    (.str p!"frames", .list [.int 1]), (.str p!"output_format", .str p!"PNG")]

end Verif.Spec
