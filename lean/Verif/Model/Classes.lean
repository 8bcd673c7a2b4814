import Verif.Model.Enums
/-! # Message class tables (class bodies in `message/*.py`) -/

namespace Verif

/-- `MessageSlotDefinition` (`message/base.py:594-614`). -/
structure SlotDef where
  cls : Cls
  allowNone : Bool := false
  isList : Bool := false
  deriving DecidableEq, Repr

/-- All registered classes, in source order. -/
def Cls.all : List Cls :=
  [.Hello, .RandVal, .Disconnect, .ChallengeSolution, .Ping, .Pong, .GetPeers, .Peers, .GetTasks,
   .Tasks, .RemoveTask, .GetResourcePeers, .ResourcePeers, .Degree, .Gossip, .StopGossip, .LocRank,
   .FindNode, .WantToStartTaskSession, .SetTaskSession, .RemoveTaskContainer, .WantToComputeTask,
   .TaskToCompute, .CannotAssignTask, .ReportComputedTask, .SubtaskResultsAccepted,
   .SubtaskResultsRejected, .TaskFailure, .StartSessionResponse, .CannotComputeTask,
   .SubtaskPayment, .SubtaskPaymentRequest, .AckReportComputedTask, .RejectReportComputedTask,
   .PushResource, .HasResource, .WantsResource, .PullResource, .PullAnswer,
   .ResourceHandshakeStart, .ResourceHandshakeNonce, .ResourceHandshakeVerdict, .ServiceRefused,
   .ForceReportComputedTask, .VerdictReportComputedTask, .FileTransferToken,
   .SubtaskResultsVerify, .AckSubtaskResultsVerify, .SubtaskResultsSettled, .ForceGetTaskResult,
   .AckForceGetTaskResult, .ForceGetTaskResultFailed, .ForceGetTaskResultRejected,
   .ForceGetTaskResultUpload, .ForceGetTaskResultDownload, .ForceSubtaskResults,
   .ForceSubtaskResultsResponse, .ForceSubtaskResultsRejected, .ForcePayment,
   .ForcePaymentCommitted, .ForcePaymentRejected, .ForceReportComputedTaskResponse,
   .ClientAuthorization]

/-- The type number given to `@library.register` above the class. -/
def Cls.typeId : Cls → Nat
  | .Hello => 0                          -- message/base.py:634
  | .RandVal => 1                        -- message/base.py:709
  | .Disconnect => 2                     -- message/base.py:715
  | .ChallengeSolution => 3              -- message/base.py:736
  | .Ping => 1001                        -- message/p2p.py:18
  | .Pong => 1002                        -- message/p2p.py:25
  | .GetPeers => 1003                    -- message/p2p.py:32
  | .Peers => 1004                       -- message/p2p.py:39
  | .GetTasks => 1005                    -- message/p2p.py:77
  | .Tasks => 1006                       -- message/p2p.py:84
  | .RemoveTask => 1007                  -- message/p2p.py:130
  | .GetResourcePeers => 1008            -- message/p2p.py:139
  | .ResourcePeers => 1009               -- message/p2p.py:147
  | .Degree => 1010                      -- message/p2p.py:162
  | .Gossip => 1011                      -- message/p2p.py:169
  | .StopGossip => 1012                  -- message/p2p.py:184
  | .LocRank => 1013                     -- message/p2p.py:192
  | .FindNode => 1014                    -- message/p2p.py:199
  | .WantToStartTaskSession => 1015      -- message/p2p.py:206
  | .SetTaskSession => 1016              -- message/p2p.py:220
  | .RemoveTaskContainer => 1017         -- message/p2p.py:234
  | .WantToComputeTask => 2001           -- message/tasks.py:234
  | .TaskToCompute => 2002               -- message/tasks.py:300
  | .CannotAssignTask => 2003            -- message/tasks.py:507
  | .ReportComputedTask => 2004          -- message/tasks.py:521
  | .SubtaskResultsAccepted => 2010      -- message/tasks.py:564
  | .SubtaskResultsRejected => 2011      -- message/tasks.py:597
  | .TaskFailure => 2015                 -- message/tasks.py:691
  | .StartSessionResponse => 2016        -- message/tasks.py:717
  | .CannotComputeTask => 2026           -- message/tasks.py:730
  | .SubtaskPayment => 2027              -- message/tasks.py:760
  | .SubtaskPaymentRequest => 2028       -- message/tasks.py:782
  | .AckReportComputedTask => 2029       -- message/tasks.py:792
  | .RejectReportComputedTask => 2030    -- message/tasks.py:815
  | .PushResource => 3001                -- message/resources.py:15
  | .HasResource => 3002                 -- message/resources.py:26
  | .WantsResource => 3003               -- message/resources.py:32
  | .PullResource => 3004                -- message/resources.py:38
  | .PullAnswer => 3005                  -- message/resources.py:44
  | .ResourceHandshakeStart => 3008      -- message/resources.py:57
  | .ResourceHandshakeNonce => 3009      -- message/resources.py:65
  | .ResourceHandshakeVerdict => 3010    -- message/resources.py:72
  | .ServiceRefused => 4000              -- message/concents.py:15
  | .ForceReportComputedTask => 4001     -- message/concents.py:50
  | .VerdictReportComputedTask => 4004   -- message/concents.py:74
  | .FileTransferToken => 4005           -- message/concents.py:117
  | .SubtaskResultsVerify => 4006        -- message/concents.py:204
  | .AckSubtaskResultsVerify => 4007     -- message/concents.py:245
  | .SubtaskResultsSettled => 4008       -- message/concents.py:268
  | .ForceGetTaskResult => 4009          -- message/concents.py:304
  | .AckForceGetTaskResult => 4010       -- message/concents.py:324
  | .ForceGetTaskResultFailed => 4011    -- message/concents.py:342
  | .ForceGetTaskResultRejected => 4012  -- message/concents.py:364
  | .ForceGetTaskResultUpload => 4013    -- message/concents.py:385
  | .ForceGetTaskResultDownload => 4014  -- message/concents.py:404
  | .ForceSubtaskResults => 4015         -- message/concents.py:423
  | .ForceSubtaskResultsResponse => 4016 -- message/concents.py:450
  | .ForceSubtaskResultsRejected => 4017 -- message/concents.py:483
  | .ForcePayment => 4018                -- message/concents.py:509
  | .ForcePaymentCommitted => 4019       -- message/concents.py:531
  | .ForcePaymentRejected => 4020        -- message/concents.py:567
  | .ForceReportComputedTaskResponse => 4021 -- message/concents.py:589
  | .ClientAuthorization => 4022         -- message/concents.py:631

/-- `library[type_]` (`register.py:27-28`) on the fully loaded register. -/
def Cls.ofType (n : Nat) : Option Cls := Cls.all.find? fun c => c.typeId == n

/-- The payload slots of a class: `__slots__` without `header`, `sig` and underscore
names, in declaration order (`valid_slot`, `message/base.py:517-520`). -/
def Cls.payload : Cls → List PStr
  | .Hello => [p!"rand_val", p!"proto_id", p!"node_info", p!"port", p!"client_ver",
      p!"solve_challenge", p!"challenge", p!"difficulty", p!"metadata"]  -- message/base.py:643-654
  | .RandVal => [p!"rand_val"]
  | .Disconnect => [p!"reason"]
  | .ChallengeSolution => [p!"solution"]
  | .Ping => []
  | .Pong => []
  | .GetPeers => []
  | .Peers => [p!"peers"]
  | .GetTasks => []
  | .Tasks => [p!"tasks"]
  | .RemoveTask => [p!"task_id"]
  | .GetResourcePeers => []
  | .ResourcePeers => [p!"resource_peers"]
  | .Degree => [p!"degree"]
  | .Gossip => [p!"gossip"]
  | .StopGossip => []
  | .LocRank => [p!"node_id", p!"loc_rank"]
  | .FindNode => [p!"node_key_id"]
  | .WantToStartTaskSession => [p!"node_info", p!"conn_id", p!"super_node_info"]
  | .SetTaskSession => [p!"key_id", p!"node_info", p!"conn_id", p!"super_node_info"]
  | .RemoveTaskContainer => [p!"remove_tasks"]
  | .WantToComputeTask => [p!"perf_index", p!"cpu_usage", p!"max_resource_size",
      p!"max_memory_size", p!"price", p!"num_subtasks", p!"concent_enabled", p!"extra_data",
      p!"provider_public_key", p!"provider_ethereum_address", p!"task_header"] -- tasks.py:243-260
  | .TaskToCompute => [p!"requestor_id", p!"requestor_public_key",
      p!"requestor_ethereum_public_key", p!"provider_id", p!"compute_task_def",
      p!"want_to_compute_task", p!"package_hash", p!"size", p!"concent_enabled", p!"price",
      p!"resources_options", p!"ethsig", p!"promissory_note_sig",
      p!"concent_promissory_note_sig"]  -- message/tasks.py:312-330
  | .CannotAssignTask => [p!"task_id", p!"reason"]
  | .ReportComputedTask => [p!"address", p!"node_info", p!"port", p!"key_id", p!"extra_data",
      p!"task_to_compute", p!"size", p!"package_hash", p!"multihash", p!"secret", p!"options",
      p!"stats"]  -- message/tasks.py:535-549
  | .SubtaskResultsAccepted => [p!"payment_ts", p!"report_computed_task"]
  | .SubtaskResultsRejected => [p!"report_computed_task", p!"force_get_task_result_failed",
      p!"reason"]
  | .TaskFailure => [p!"task_to_compute", p!"err", p!"reason"]
  | .StartSessionResponse => [p!"conn_id"]
  | .CannotComputeTask => [p!"task_to_compute", p!"reason"]
  | .SubtaskPayment => [p!"subtask_id", p!"reward", p!"transaction_id", p!"block_number"]
  | .SubtaskPaymentRequest => [p!"subtask_id"]
  | .AckReportComputedTask => [p!"report_computed_task"]
  | .RejectReportComputedTask => [p!"attached_task_to_compute", p!"task_failure",
      p!"cannot_compute_task", p!"reason"]
  | .PushResource => [p!"copies", p!"resource"]
  | .HasResource => [p!"resource"]
  | .WantsResource => [p!"resource"]
  | .PullResource => [p!"resource"]
  | .PullAnswer => [p!"resource", p!"has_resource"]
  | .ResourceHandshakeStart => [p!"resource", p!"options"]
  | .ResourceHandshakeNonce => [p!"nonce"]
  | .ResourceHandshakeVerdict => [p!"accepted", p!"nonce"]
  | .ServiceRefused => [p!"task_to_compute", p!"reason"]
  | .ForceReportComputedTask => [p!"report_computed_task", p!"result_hash"]
  | .VerdictReportComputedTask => [p!"force_report_computed_task", p!"ack_report_computed_task"]
  | .FileTransferToken => [p!"subtask_id", p!"token_expiration_deadline",
      p!"storage_cluster_address", p!"authorized_client_public_key", p!"operation", p!"files"]
  | .SubtaskResultsVerify => [p!"subtask_results_rejected", p!"concent_promissory_note_sig"]
  | .AckSubtaskResultsVerify => [p!"subtask_results_verify", p!"file_transfer_token"]
  | .SubtaskResultsSettled => [p!"origin", p!"task_to_compute"]
  | .ForceGetTaskResult => [p!"report_computed_task"]
  | .AckForceGetTaskResult => [p!"force_get_task_result"]
  | .ForceGetTaskResultFailed => [p!"task_to_compute"]
  | .ForceGetTaskResultRejected => [p!"force_get_task_result", p!"reason"]
  | .ForceGetTaskResultUpload => [p!"force_get_task_result", p!"file_transfer_token"]
  | .ForceGetTaskResultDownload => [p!"force_get_task_result", p!"file_transfer_token"]
  | .ForceSubtaskResults => [p!"ack_report_computed_task"]
  | .ForceSubtaskResultsResponse => [p!"subtask_results_accepted", p!"subtask_results_rejected"]
  | .ForceSubtaskResultsRejected => [p!"force_subtask_results", p!"reason"]
  | .ForcePayment => [p!"subtask_results_accepted_list"]
  | .ForcePaymentCommitted => [p!"payment_ts", p!"task_owner_key", p!"provider_eth_account",
      p!"amount_paid", p!"recipient_type", p!"amount_pending"]
  | .ForcePaymentRejected => [p!"force_payment", p!"reason"]
  | .ForceReportComputedTaskResponse => [p!"reason", p!"ack_report_computed_task",
      p!"reject_report_computed_task"]
  | .ClientAuthorization => [p!"client_public_key"]

/-- `MSG_SLOTS` of a class. -/
def Cls.msgSlots : Cls → List (PStr × SlotDef)
  | .RemoveTaskContainer => [(p!"remove_tasks", { cls := .RemoveTask, isList := true })]
  | .TaskToCompute => [(p!"want_to_compute_task", { cls := .WantToComputeTask })]
  | .ReportComputedTask => [(p!"task_to_compute", { cls := .TaskToCompute })]
  | .SubtaskResultsAccepted => [(p!"report_computed_task", { cls := .ReportComputedTask })]
  | .SubtaskResultsRejected => [(p!"report_computed_task", { cls := .ReportComputedTask }),
      (p!"force_get_task_result_failed", { cls := .ForceGetTaskResultFailed, allowNone := true })]
  | .TaskFailure => [(p!"task_to_compute", { cls := .TaskToCompute })]
  | .CannotComputeTask => [(p!"task_to_compute", { cls := .TaskToCompute })]
  | .AckReportComputedTask => [(p!"report_computed_task", { cls := .ReportComputedTask })]
  | .RejectReportComputedTask =>
    [(p!"attached_task_to_compute", { cls := .TaskToCompute, allowNone := true }),
     (p!"task_failure", { cls := .TaskFailure, allowNone := true }),
     (p!"cannot_compute_task", { cls := .CannotComputeTask, allowNone := true })]
  | .ServiceRefused => [(p!"task_to_compute", { cls := .TaskToCompute, allowNone := true })]
  | .ForceReportComputedTask => [(p!"report_computed_task", { cls := .ReportComputedTask })]
  | .VerdictReportComputedTask =>
    [(p!"force_report_computed_task", { cls := .ForceReportComputedTask }),
     (p!"ack_report_computed_task", { cls := .AckReportComputedTask })]
  | .SubtaskResultsVerify => [(p!"subtask_results_rejected", { cls := .SubtaskResultsRejected })]
  | .AckSubtaskResultsVerify =>
    [(p!"subtask_results_verify", { cls := .SubtaskResultsVerify }),
     (p!"file_transfer_token", { cls := .FileTransferToken })]
  | .SubtaskResultsSettled => [(p!"task_to_compute", { cls := .TaskToCompute })]
  | .ForceGetTaskResult => [(p!"report_computed_task", { cls := .ReportComputedTask })]
  | .AckForceGetTaskResult => [(p!"force_get_task_result", { cls := .ForceGetTaskResult })]
  | .ForceGetTaskResultFailed => [(p!"task_to_compute", { cls := .TaskToCompute })]
  | .ForceGetTaskResultRejected => [(p!"force_get_task_result", { cls := .ForceGetTaskResult })]
  | .ForceGetTaskResultUpload =>
    [(p!"force_get_task_result", { cls := .ForceGetTaskResult }),
     (p!"file_transfer_token", { cls := .FileTransferToken })]
  | .ForceGetTaskResultDownload =>
    [(p!"force_get_task_result", { cls := .ForceGetTaskResult }),
     (p!"file_transfer_token", { cls := .FileTransferToken })]
  | .ForceSubtaskResults => [(p!"ack_report_computed_task", { cls := .AckReportComputedTask })]
  | .ForceSubtaskResultsResponse =>
    [(p!"subtask_results_accepted", { cls := .SubtaskResultsAccepted, allowNone := true }),
     (p!"subtask_results_rejected", { cls := .SubtaskResultsRejected, allowNone := true })]
  | .ForceSubtaskResultsRejected => [(p!"force_subtask_results", { cls := .ForceSubtaskResults })]
  | .ForcePayment =>
    [(p!"subtask_results_accepted_list", { cls := .SubtaskResultsAccepted, isList := true })]
  | .ForcePaymentRejected => [(p!"force_payment", { cls := .ForcePayment })]
  | .ForceReportComputedTaskResponse =>
    [(p!"ack_report_computed_task", { cls := .AckReportComputedTask, allowNone := true }),
     (p!"reject_report_computed_task", { cls := .RejectReportComputedTask, allowNone := true })]
  | _ => []

/-- `ENUM_SLOTS` of a class (`AbstractReasonMessage.ENUM_SLOTS`, `message/base.py:622-626`,
maps `reason` to the class's `REASON`). -/
def Cls.enumSlots : Cls → List (PStr × EnumId)
  | .Disconnect => [(p!"reason", .disconnectReason)]
  | .CannotAssignTask => [(p!"reason", .cannotAssignReason)]
  | .SubtaskResultsRejected => [(p!"reason", .subtaskResultsRejectedReason)]
  | .TaskFailure => [(p!"reason", .taskFailureReason)]
  | .CannotComputeTask => [(p!"reason", .cannotComputeReason)]
  | .RejectReportComputedTask => [(p!"reason", .rejectReportReason)]
  | .ServiceRefused => [(p!"reason", .serviceRefusedReason)]
  | .FileTransferToken => [(p!"operation", .ftOperation)]
  | .SubtaskResultsSettled => [(p!"origin", .settledOrigin)]
  | .ForceGetTaskResultRejected => [(p!"reason", .fgtrRejectedReason)]
  | .ForceSubtaskResultsRejected => [(p!"reason", .fsrRejectedReason)]
  | .ForcePaymentCommitted => [(p!"recipient_type", .forcePaymentActor)]
  | .ForcePaymentRejected => [(p!"reason", .forcePaymentRejectedReason)]
  | .ForceReportComputedTaskResponse => [(p!"reason", .frctResponseReason)]
  | _ => []

/-- `NODE_SLOTS` of the classes using `NodeSlotMixin` (`message/base.py:639-641`,
`message/p2p.py:208-211, 222-225`). -/
def Cls.nodeSlots : Cls → List PStr
  | .Hello => [p!"node_info"]
  | .WantToStartTaskSession => [p!"node_info", p!"super_node_info"]
  | .SetTaskSession => [p!"node_info", p!"super_node_info"]
  | _ => []

/-- `ENCRYPT` (`message/base.py:91`, overridden in lines 636 and 717). -/
def Cls.encrypt : Cls → Bool
  | .Hello | .Disconnect => false
  | _ => true

/-- `SIGN` (`message/base.py:92`, overridden in `message/p2p.py`). -/
def Cls.sign : Cls → Bool
  | .Ping | .Pong | .GetPeers | .Peers | .GetTasks | .GetResourcePeers | .ResourcePeers
  | .Degree | .Gossip | .StopGossip | .LocRank | .FindNode => false
  | _ => true

/-- `issubclass(c, TaskMessage)`. -/
def Cls.isTask : Cls → Bool
  | .TaskToCompute | .ReportComputedTask | .SubtaskResultsAccepted | .SubtaskResultsRejected
  | .TaskFailure | .CannotComputeTask | .AckReportComputedTask | .RejectReportComputedTask
  | .ServiceRefused | .ForceReportComputedTask | .VerdictReportComputedTask
  | .SubtaskResultsVerify | .AckSubtaskResultsVerify | .SubtaskResultsSettled
  | .ForceGetTaskResult | .AckForceGetTaskResult | .ForceGetTaskResultFailed
  | .ForceGetTaskResultRejected | .ForceGetTaskResultUpload | .ForceGetTaskResultDownload
  | .ForceSubtaskResults | .ForceSubtaskResultsResponse | .ForceSubtaskResultsRejected
  | .ForceReportComputedTaskResponse => true
  | _ => false

/-- `TASK_ID_PROVIDERS`. -/
def Cls.taskIdProviders : Cls → List PStr
  | .ReportComputedTask => [p!"task_to_compute"]
  | .SubtaskResultsAccepted => [p!"report_computed_task"]
  | .SubtaskResultsRejected => [p!"report_computed_task"]
  | .TaskFailure => [p!"task_to_compute"]
  | .CannotComputeTask => [p!"task_to_compute"]
  | .AckReportComputedTask => [p!"report_computed_task"]
  | .RejectReportComputedTask =>
    [p!"attached_task_to_compute", p!"task_failure", p!"cannot_compute_task"]
  | .ServiceRefused => [p!"task_to_compute"]
  | .ForceReportComputedTask => [p!"report_computed_task"]
  | .VerdictReportComputedTask => [p!"force_report_computed_task", p!"ack_report_computed_task"]
  | .SubtaskResultsVerify => [p!"subtask_results_rejected"]
  | .AckSubtaskResultsVerify => [p!"subtask_results_verify"]
  | .SubtaskResultsSettled => [p!"task_to_compute"]
  | .ForceGetTaskResult => [p!"report_computed_task"]
  | .AckForceGetTaskResult => [p!"force_get_task_result"]
  | .ForceGetTaskResultFailed => [p!"task_to_compute"]
  | .ForceGetTaskResultRejected => [p!"force_get_task_result"]
  | .ForceGetTaskResultUpload => [p!"force_get_task_result"]
  | .ForceGetTaskResultDownload => [p!"force_get_task_result"]
  | .ForceSubtaskResults => [p!"ack_report_computed_task"]
  | .ForceSubtaskResultsResponse => [p!"subtask_results_accepted", p!"subtask_results_rejected"]
  | .ForceSubtaskResultsRejected => [p!"force_subtask_results"]
  | .ForceReportComputedTaskResponse =>
    [p!"ack_report_computed_task", p!"reject_report_computed_task"]
  | _ => []

/-- `TaskMessage.OWNER_CHOICES` (`message/tasks.py:54-58`). -/
inductive Owner where
  | provider | requestor | concent
  deriving DecidableEq, Repr

/-- `EXPECTED_OWNERS`. -/
def Cls.expectedOwners : Cls → List Owner
  | .TaskToCompute => [.requestor]
  | .ReportComputedTask => [.provider]
  | .SubtaskResultsAccepted => [.requestor]
  | .SubtaskResultsRejected => [.requestor, .concent]
  | .TaskFailure => [.provider]
  | .CannotComputeTask => [.provider]
  | .AckReportComputedTask => [.requestor, .concent]
  | .RejectReportComputedTask => [.requestor, .concent]
  | .ServiceRefused => [.concent]
  | .ForceReportComputedTask => [.provider, .concent]
  | .VerdictReportComputedTask => [.concent]
  | .SubtaskResultsVerify => [.provider]
  | .AckSubtaskResultsVerify => [.concent]
  | .SubtaskResultsSettled => [.concent]
  | .ForceGetTaskResult => [.requestor]
  | .AckForceGetTaskResult => [.concent]
  | .ForceGetTaskResultFailed => [.concent]
  | .ForceGetTaskResultRejected => [.concent]
  | .ForceGetTaskResultUpload => [.concent]
  | .ForceGetTaskResultDownload => [.concent]
  | .ForceSubtaskResults => [.provider, .concent]
  | .ForceSubtaskResultsResponse => [.concent]
  | .ForceSubtaskResultsRejected => [.concent]
  | .ForceReportComputedTaskResponse => [.concent]
  | _ => []

/-- Height of the class in the graph of declared message slots (not part of the code;
used as recursion bound, see `Props/Depth.lean`). -/
def Cls.rank : Cls → Nat
  | .RemoveTaskContainer | .TaskToCompute => 1
  | .ReportComputedTask | .TaskFailure | .CannotComputeTask | .ServiceRefused
  | .SubtaskResultsSettled | .ForceGetTaskResultFailed => 2
  | .SubtaskResultsAccepted | .SubtaskResultsRejected | .AckReportComputedTask
  | .RejectReportComputedTask | .ForceReportComputedTask | .ForceGetTaskResult => 3
  | .VerdictReportComputedTask | .SubtaskResultsVerify | .AckForceGetTaskResult
  | .ForceGetTaskResultRejected | .ForceGetTaskResultUpload | .ForceGetTaskResultDownload
  | .ForceSubtaskResults | .ForceSubtaskResultsResponse | .ForcePayment
  | .ForceReportComputedTaskResponse => 4
  | .AckSubtaskResultsVerify | .ForceSubtaskResultsRejected | .ForcePaymentRejected => 5
  | _ => 0

/-- Bound on `Cls.rank`, plus one. -/
def maxDepth : Nat := 6

end Verif
