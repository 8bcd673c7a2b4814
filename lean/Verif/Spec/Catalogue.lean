import Verif.Model.Val
import Verif.Model.Classes
/-!
# Specification: the catalogue of messages

What each message is on the wire.  Written by `tools/check_tables.py --catalogue` from the class
bodies in `/repo`, without looking at the tables of the model.
-/

namespace Verif.Spec

open Verif

/-- What a field holds. -/
inductive Kind where
  /-- Nothing is said about the value. -/
  | plain
  /-- A message of the class, or a list of them; `None` may be sent only if optional. -/
  | message (cls : Cls) (optional list : Bool)
  /-- One of the texts. -/
  | choice (values : List PStr)
  /-- Information on a node. -/
  | node
  deriving DecidableEq

/-- One message class: type number, whether it is signed and encrypted, who may sign it (for
task messages), the fields leading to its `TaskToCompute`, and all fields. -/
structure Entry where
  cls : Cls
  number : Nat
  signed : Bool
  encrypted : Bool
  senders : List Owner := []
  links : List PStr := []
  fields : List (PStr × Kind)

/-- All message classes. -/
def catalogue : List Entry :=
  [{ cls := .Hello, number := 0, signed := true, encrypted := false,
     fields := [(p!"rand_val", .plain), (p!"proto_id", .plain), (p!"node_info", .node),
       (p!"port", .plain), (p!"client_ver", .plain), (p!"solve_challenge", .plain),
       (p!"challenge", .plain), (p!"difficulty", .plain), (p!"metadata", .plain)] },
   { cls := .RandVal, number := 1, signed := true, encrypted := true,
     fields := [(p!"rand_val", .plain)] },
   { cls := .Disconnect, number := 2, signed := true, encrypted := false,
     fields := [(p!"reason", .choice [p!"duplicate_peers", p!"too_many_peers", p!"refresh",
       p!"unverified", p!"protocol_version", p!"bad_protocol", p!"timeout",
       p!"no_more_messages", p!"wrong_encryption", p!"resource_handshake",
       p!"key_not_difficult", p!"bootstrap"])] },
   { cls := .ChallengeSolution, number := 3, signed := true, encrypted := true,
     fields := [(p!"solution", .plain)] },
   { cls := .Ping, number := 1001, signed := false, encrypted := true,
     fields := [] },
   { cls := .Pong, number := 1002, signed := false, encrypted := true,
     fields := [] },
   { cls := .GetPeers, number := 1003, signed := false, encrypted := true,
     fields := [] },
   { cls := .Peers, number := 1004, signed := false, encrypted := true,
     fields := [(p!"peers", .plain)] },
   { cls := .GetTasks, number := 1005, signed := false, encrypted := true,
     fields := [] },
   { cls := .Tasks, number := 1006, signed := true, encrypted := true,
     fields := [(p!"tasks", .plain)] },
   { cls := .RemoveTask, number := 1007, signed := true, encrypted := true,
     fields := [(p!"task_id", .plain)] },
   { cls := .GetResourcePeers, number := 1008, signed := false, encrypted := true,
     fields := [] },
   { cls := .ResourcePeers, number := 1009, signed := false, encrypted := true,
     fields := [(p!"resource_peers", .plain)] },
   { cls := .Degree, number := 1010, signed := false, encrypted := true,
     fields := [(p!"degree", .plain)] },
   { cls := .Gossip, number := 1011, signed := false, encrypted := true,
     fields := [(p!"gossip", .plain)] },
   { cls := .StopGossip, number := 1012, signed := false, encrypted := true,
     fields := [] },
   { cls := .LocRank, number := 1013, signed := false, encrypted := true,
     fields := [(p!"node_id", .plain), (p!"loc_rank", .plain)] },
   { cls := .FindNode, number := 1014, signed := false, encrypted := true,
     fields := [(p!"node_key_id", .plain)] },
   { cls := .WantToStartTaskSession, number := 1015, signed := true, encrypted := true,
     fields := [(p!"node_info", .node), (p!"conn_id", .plain), (p!"super_node_info", .node)] },
   { cls := .SetTaskSession, number := 1016, signed := true, encrypted := true,
     fields := [(p!"key_id", .plain), (p!"node_info", .node), (p!"conn_id", .plain),
       (p!"super_node_info", .node)] },
   { cls := .RemoveTaskContainer, number := 1017, signed := true, encrypted := true,
     fields := [(p!"remove_tasks", .message .RemoveTask false true)] },
   { cls := .WantToComputeTask, number := 2001, signed := true, encrypted := true,
     fields := [(p!"perf_index", .plain), (p!"cpu_usage", .plain), (p!"max_resource_size",
       .plain), (p!"max_memory_size", .plain), (p!"price", .plain), (p!"num_subtasks",
       .plain), (p!"concent_enabled", .plain), (p!"extra_data", .plain),
       (p!"provider_public_key", .plain), (p!"provider_ethereum_address", .plain),
       (p!"task_header", .plain)] },
   { cls := .TaskToCompute, number := 2002, signed := true, encrypted := true,
     senders := [.requestor], links := [],
     fields := [(p!"requestor_id", .plain), (p!"requestor_public_key", .plain),
       (p!"requestor_ethereum_public_key", .plain), (p!"provider_id", .plain),
       (p!"compute_task_def", .plain), (p!"want_to_compute_task", .message .WantToComputeTask
       false false), (p!"package_hash", .plain), (p!"size", .plain), (p!"concent_enabled",
       .plain), (p!"price", .plain), (p!"resources_options", .plain), (p!"ethsig", .plain),
       (p!"promissory_note_sig", .plain), (p!"concent_promissory_note_sig", .plain)] },
   { cls := .CannotAssignTask, number := 2003, signed := true, encrypted := true,
     fields := [(p!"task_id", .plain), (p!"reason", .choice [p!"NotMyTask",
       p!"NoMoreSubtasks", p!"TaskFinished", p!"ConcentDisabled"])] },
   { cls := .ReportComputedTask, number := 2004, signed := true, encrypted := true,
     senders := [.provider], links := [p!"task_to_compute"],
     fields := [(p!"address", .plain), (p!"node_info", .plain), (p!"port", .plain),
       (p!"key_id", .plain), (p!"extra_data", .plain), (p!"task_to_compute", .message
       .TaskToCompute false false), (p!"size", .plain), (p!"package_hash", .plain),
       (p!"multihash", .plain), (p!"secret", .plain), (p!"options", .plain), (p!"stats",
       .plain)] },
   { cls := .SubtaskResultsAccepted, number := 2010, signed := true, encrypted := true,
     senders := [.requestor], links := [p!"report_computed_task"],
     fields := [(p!"payment_ts", .plain), (p!"report_computed_task", .message
       .ReportComputedTask false false)] },
   { cls := .SubtaskResultsRejected, number := 2011, signed := true, encrypted := true,
     senders := [.requestor, .concent], links := [p!"report_computed_task"],
     fields := [(p!"report_computed_task", .message .ReportComputedTask false false),
       (p!"force_get_task_result_failed", .message .ForceGetTaskResultFailed true false),
       (p!"reason", .choice [p!"Results verification negative",
       p!"Concent could not retrieve resources to verify",
       p!"Concent results verification negative",
       p!"Concent reported failure to retrieve the resources to verify",
       p!"Could not retrieve resources"])] },
   { cls := .TaskFailure, number := 2015, signed := true, encrypted := true,
     senders := [.provider], links := [p!"task_to_compute"],
     fields := [(p!"task_to_compute", .message .TaskToCompute false false), (p!"err", .plain),
       (p!"reason", .choice [p!"ComputationError", p!"BudgetExceeded", p!"TimeExceeded"])] },
   { cls := .StartSessionResponse, number := 2016, signed := true, encrypted := true,
     fields := [(p!"conn_id", .plain)] },
   { cls := .CannotComputeTask, number := 2026, signed := true, encrypted := true,
     senders := [.provider], links := [p!"task_to_compute"],
     fields := [(p!"task_to_compute", .message .TaskToCompute false false), (p!"reason",
       .choice [p!"CannotTakeWork", p!"WrongCTD", p!"WrongKey", p!"WrongAddress",
       p!"WrongEnvironment", p!"NoSourceCode", p!"WrongDockerImages", p!"ConcentRequired",
       p!"ConcentDisabled", p!"InsufficientBalance", p!"InsufficientDeposit",
       p!"TooShortDeposit", p!"PromissoryNoteMissing", p!"OfferCancelled",
       p!"ResourcesTooBig"])] },
   { cls := .SubtaskPayment, number := 2027, signed := true, encrypted := true,
     fields := [(p!"subtask_id", .plain), (p!"reward", .plain), (p!"transaction_id", .plain),
       (p!"block_number", .plain)] },
   { cls := .SubtaskPaymentRequest, number := 2028, signed := true, encrypted := true,
     fields := [(p!"subtask_id", .plain)] },
   { cls := .AckReportComputedTask, number := 2029, signed := true, encrypted := true,
     senders := [.requestor, .concent], links := [p!"report_computed_task"],
     fields := [(p!"report_computed_task", .message .ReportComputedTask false false)] },
   { cls := .RejectReportComputedTask, number := 2030, signed := true, encrypted := true,
     senders := [.requestor, .concent], links := [p!"attached_task_to_compute",
       p!"task_failure", p!"cannot_compute_task"],
     fields := [(p!"attached_task_to_compute", .message .TaskToCompute true false),
       (p!"task_failure", .message .TaskFailure true false), (p!"cannot_compute_task",
       .message .CannotComputeTask true false), (p!"reason", .choice
       [p!"SubtaskTimeLimitExceeded", p!"GotMessageCannotComputeTask",
       p!"GotMessageTaskFailure"])] },
   { cls := .PushResource, number := 3001, signed := true, encrypted := true,
     fields := [(p!"copies", .plain), (p!"resource", .plain)] },
   { cls := .HasResource, number := 3002, signed := true, encrypted := true,
     fields := [(p!"resource", .plain)] },
   { cls := .WantsResource, number := 3003, signed := true, encrypted := true,
     fields := [(p!"resource", .plain)] },
   { cls := .PullResource, number := 3004, signed := true, encrypted := true,
     fields := [(p!"resource", .plain)] },
   { cls := .PullAnswer, number := 3005, signed := true, encrypted := true,
     fields := [(p!"resource", .plain), (p!"has_resource", .plain)] },
   { cls := .ResourceHandshakeStart, number := 3008, signed := true, encrypted := true,
     fields := [(p!"resource", .plain), (p!"options", .plain)] },
   { cls := .ResourceHandshakeNonce, number := 3009, signed := true, encrypted := true,
     fields := [(p!"nonce", .plain)] },
   { cls := .ResourceHandshakeVerdict, number := 3010, signed := true, encrypted := true,
     fields := [(p!"accepted", .plain), (p!"nonce", .plain)] },
   { cls := .ServiceRefused, number := 4000, signed := true, encrypted := true,
     senders := [.concent], links := [p!"task_to_compute"],
     fields := [(p!"task_to_compute", .message .TaskToCompute true false), (p!"reason",
       .choice [p!"TOO_SMALL_COMMUNICATION_PAYMENT", p!"TOO_SMALL_REQUESTOR_DEPOSIT",
       p!"TOO_SMALL_PROVIDER_DEPOSIT", p!"SYSTEM_OVERLOADED", p!"DUPLICATE_REQUEST",
       p!"REQUEST_FORMAT_OR_CONTENT_INVALID",
       p!"CONCENT_SERVICE_IS_NOT_ENABLED_FOR_THIS_SUBTASK", p!"UNSUPPORTED_PROTOCOL_VERSION",
       p!"PRICE_NOT_POSITIVE"])] },
   { cls := .ForceReportComputedTask, number := 4001, signed := true, encrypted := true,
     senders := [.provider, .concent], links := [p!"report_computed_task"],
     fields := [(p!"report_computed_task", .message .ReportComputedTask false false),
       (p!"result_hash", .plain)] },
   { cls := .VerdictReportComputedTask, number := 4004, signed := true, encrypted := true,
     senders := [.concent], links := [p!"force_report_computed_task",
       p!"ack_report_computed_task"],
     fields := [(p!"force_report_computed_task", .message .ForceReportComputedTask false
       false), (p!"ack_report_computed_task", .message .AckReportComputedTask false false)] },
   { cls := .FileTransferToken, number := 4005, signed := true, encrypted := true,
     fields := [(p!"subtask_id", .plain), (p!"token_expiration_deadline", .plain),
       (p!"storage_cluster_address", .plain), (p!"authorized_client_public_key", .plain),
       (p!"operation", .choice [p!"upload", p!"download"]), (p!"files", .plain)] },
   { cls := .SubtaskResultsVerify, number := 4006, signed := true, encrypted := true,
     senders := [.provider], links := [p!"subtask_results_rejected"],
     fields := [(p!"subtask_results_rejected", .message .SubtaskResultsRejected false false),
       (p!"concent_promissory_note_sig", .plain)] },
   { cls := .AckSubtaskResultsVerify, number := 4007, signed := true, encrypted := true,
     senders := [.concent], links := [p!"subtask_results_verify"],
     fields := [(p!"subtask_results_verify", .message .SubtaskResultsVerify false false),
       (p!"file_transfer_token", .message .FileTransferToken false false)] },
   { cls := .SubtaskResultsSettled, number := 4008, signed := true, encrypted := true,
     senders := [.concent], links := [p!"task_to_compute"],
     fields := [(p!"origin", .choice [p!"results_accepted_timeout", p!"results_rejected"]),
       (p!"task_to_compute", .message .TaskToCompute false false)] },
   { cls := .ForceGetTaskResult, number := 4009, signed := true, encrypted := true,
     senders := [.requestor], links := [p!"report_computed_task"],
     fields := [(p!"report_computed_task", .message .ReportComputedTask false false)] },
   { cls := .AckForceGetTaskResult, number := 4010, signed := true, encrypted := true,
     senders := [.concent], links := [p!"force_get_task_result"],
     fields := [(p!"force_get_task_result", .message .ForceGetTaskResult false false)] },
   { cls := .ForceGetTaskResultFailed, number := 4011, signed := true, encrypted := true,
     senders := [.concent], links := [p!"task_to_compute"],
     fields := [(p!"task_to_compute", .message .TaskToCompute false false)] },
   { cls := .ForceGetTaskResultRejected, number := 4012, signed := true, encrypted := true,
     senders := [.concent], links := [p!"force_get_task_result"],
     fields := [(p!"force_get_task_result", .message .ForceGetTaskResult false false),
       (p!"reason", .choice [p!"acceptance_time_limit_exceeded"])] },
   { cls := .ForceGetTaskResultUpload, number := 4013, signed := true, encrypted := true,
     senders := [.concent], links := [p!"force_get_task_result"],
     fields := [(p!"force_get_task_result", .message .ForceGetTaskResult false false),
       (p!"file_transfer_token", .message .FileTransferToken false false)] },
   { cls := .ForceGetTaskResultDownload, number := 4014, signed := true, encrypted := true,
     senders := [.concent], links := [p!"force_get_task_result"],
     fields := [(p!"force_get_task_result", .message .ForceGetTaskResult false false),
       (p!"file_transfer_token", .message .FileTransferToken false false)] },
   { cls := .ForceSubtaskResults, number := 4015, signed := true, encrypted := true,
     senders := [.provider, .concent], links := [p!"ack_report_computed_task"],
     fields := [(p!"ack_report_computed_task", .message .AckReportComputedTask false false)] },
   { cls := .ForceSubtaskResultsResponse, number := 4016, signed := true, encrypted := true,
     senders := [.concent], links := [p!"subtask_results_accepted",
       p!"subtask_results_rejected"],
     fields := [(p!"subtask_results_accepted", .message .SubtaskResultsAccepted true false),
       (p!"subtask_results_rejected", .message .SubtaskResultsRejected true false)] },
   { cls := .ForceSubtaskResultsRejected, number := 4017, signed := true, encrypted := true,
     senders := [.concent], links := [p!"force_subtask_results"],
     fields := [(p!"force_subtask_results", .message .ForceSubtaskResults false false),
       (p!"reason", .choice [p!"premature: still within the verification timeout",
       p!"too late: past the forced communication timeout"])] },
   { cls := .ForcePayment, number := 4018, signed := true, encrypted := true,
     fields := [(p!"subtask_results_accepted_list", .message .SubtaskResultsAccepted false
       true)] },
   { cls := .ForcePaymentCommitted, number := 4019, signed := true, encrypted := true,
     fields := [(p!"payment_ts", .plain), (p!"task_owner_key", .plain),
       (p!"provider_eth_account", .plain), (p!"amount_paid", .plain), (p!"recipient_type",
       .choice [p!"requestor", p!"provider"]), (p!"amount_pending", .plain)] },
   { cls := .ForcePaymentRejected, number := 4020, signed := true, encrypted := true,
     fields := [(p!"force_payment", .message .ForcePayment false false), (p!"reason", .choice
       [p!"no unsettled tasks found", p!"timestamp error - subtasks are not overdue yet"])] },
   { cls := .ForceReportComputedTaskResponse, number := 4021, signed := true, encrypted := true,
     senders := [.concent], links := [p!"ack_report_computed_task",
       p!"reject_report_computed_task"],
     fields := [(p!"reason", .choice [p!"ack_from_requestor", p!"reject_from_requestor",
       p!"subtask_timeout", p!"concent_ack"]), (p!"ack_report_computed_task", .message
       .AckReportComputedTask true false), (p!"reject_report_computed_task", .message
       .RejectReportComputedTask true false)] },
   { cls := .ClientAuthorization, number := 4022, signed := true, encrypted := true,
     fields := [(p!"client_public_key", .plain)] }]

end Verif.Spec
