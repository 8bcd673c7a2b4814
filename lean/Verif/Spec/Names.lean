import Verif.Model.Val
import Verif.Model.Classes
/-!
# Specification: the names in the class bodies

Written by `tools/check_tables.py --names` from the class bodies in `/repo`, without looking at the
tables of the model.  Names with two underscores at both ends are left out, and `slots`, which is a
parameter of the constructors.
-/

namespace Verif.Spec

open Verif

/-- Those of the body of `NodeSlotMixin`. -/
def classAttributesNodeSlotMixin : List PStr :=
  [p!"serialize_slot", p!"deserialize_slot", p!"serialize_node", p!"deserialize_node"]

/-- Those of the body of `Message`. -/
def classAttributesMessage : List PStr :=
  [p!"HDR_FORMAT", p!"HDR_LEN", p!"SIG_LEN", p!"ENCRYPT", p!"SIGN", p!"ENUM_SLOTS",
    p!"MSG_SLOTS", p!"get_short_hash", p!"serialize", p!"serialize_header",
    p!"serialize_slot", p!"serialize_message", p!"serialize_message_single",
    p!"deserialize_slot", p!"deserialize_message", p!"deserialize_message_single",
    p!"unpack_header", p!"deserialize_header", p!"deserialize",
    p!"deserialize_with_header", p!"load_slots", p!"valid_slot", p!"_verify_signature",
    p!"verify_signature", p!"_get_signature", p!"sign_message", p!"_fake_sign"]

/-- Those of the body of `PromissorySlotMixin`. -/
def classAttributesPromissorySlotMixin : List PStr :=
  [p!"CONCENT_PROMISSORY_NOTE_SIG", p!"_get_concent_promissory_note",
    p!"sign_concent_promissory_note", p!"verify_concent_promissory_note"]

/-- Those of the body of `TaskMessage`. -/
def classAttributesTaskMessage : List PStr :=
  [p!"TASK_ID_PROVIDERS", p!"OWNER_CHOICES", p!"EXPECTED_OWNERS", p!"_get_task_value",
    p!"validate_ownership", p!"validate_ownership_chain", p!"verify_owners",
    p!"deserialize_with_header", p!"is_valid"]

/-- The class attributes and methods of a class and those it inherits. -/
def classAttributes : Cls → List PStr
  | .Hello => [p!"ENCRYPT", p!"VERSION_FORMAT", p!"VERSION_LENGTH", p!"NODE_SLOTS",
    p!"deserialize_with_header", p!"serialize", p!"get_short_hash"] ++
    classAttributesNodeSlotMixin ++ classAttributesMessage
  | .RandVal => classAttributesMessage
  | .Disconnect => [p!"ENCRYPT", p!"REASON"] ++ classAttributesMessage
  | .ChallengeSolution => classAttributesMessage
  | .Ping => [p!"SIGN"] ++ classAttributesMessage
  | .Pong => [p!"SIGN"] ++ classAttributesMessage
  | .GetPeers => [p!"SIGN"] ++ classAttributesMessage
  | .Peers => [p!"SIGN", p!"serialize_slot", p!"serialize_peer_list", p!"deserialize_slot",
    p!"deserialize_peer_list"] ++ classAttributesMessage
  | .GetTasks => [p!"SIGN"] ++ classAttributesMessage
  | .Tasks => [p!"deserialize_slot", p!"deserialize_tasks", p!"serialize_slot"] ++
    classAttributesMessage
  | .RemoveTask => classAttributesMessage
  | .GetResourcePeers => [p!"SIGN"] ++ classAttributesMessage
  | .ResourcePeers => [p!"SIGN"] ++ classAttributesMessage
  | .Degree => [p!"SIGN"] ++ classAttributesMessage
  | .Gossip => [p!"SIGN"] ++ classAttributesMessage
  | .StopGossip => [p!"SIGN"] ++ classAttributesMessage
  | .LocRank => [p!"SIGN"] ++ classAttributesMessage
  | .FindNode => [p!"SIGN"] ++ classAttributesMessage
  | .WantToStartTaskSession => [p!"NODE_SLOTS"] ++ classAttributesNodeSlotMixin ++
    classAttributesMessage
  | .SetTaskSession => [p!"NODE_SLOTS"] ++ classAttributesNodeSlotMixin ++
    classAttributesMessage
  | .RemoveTaskContainer => [p!"MSG_SLOTS"] ++ classAttributesMessage
  | .WantToComputeTask => [p!"DEFAULT_NUM_SUBTASKS", p!"serialize_slot",
    p!"deserialize_slot"] ++ classAttributesMessage
  | .TaskToCompute => [p!"EXPECTED_OWNERS", p!"MSG_SLOTS", p!"deserialize_slot",
    p!"deserialize_with_header", p!"generate_ethsig", p!"verify_ethsig",
    p!"validate_taskid", p!"validate_ownership", p!"_get_promissory_note",
    p!"_get_concent_promissory_note", p!"sign_promissory_note", p!"verify_promissory_note",
    p!"sign_all_promissory_notes", p!"verify_all_promissory_notes"] ++
    classAttributesPromissorySlotMixin ++ classAttributesTaskMessage ++
    classAttributesMessage
  | .CannotAssignTask => [p!"REASON"] ++ classAttributesMessage
  | .ReportComputedTask => [p!"TASK_ID_PROVIDERS", p!"EXPECTED_OWNERS", p!"MSG_SLOTS",
    p!"serialize_slot", p!"deserialize_slot"] ++ classAttributesTaskMessage ++
    classAttributesMessage
  | .SubtaskResultsAccepted => [p!"TASK_ID_PROVIDERS", p!"EXPECTED_OWNERS", p!"MSG_SLOTS",
    p!"is_valid"] ++ classAttributesTaskMessage ++ classAttributesMessage
  | .SubtaskResultsRejected => [p!"TASK_ID_PROVIDERS", p!"EXPECTED_OWNERS", p!"MSG_SLOTS",
    p!"REASON", p!"REQUESTOR_REASONS_ALLOWED", p!"is_valid", p!"is_valid_for_requestor"] ++
    classAttributesTaskMessage ++ classAttributesMessage
  | .TaskFailure => [p!"TASK_ID_PROVIDERS", p!"EXPECTED_OWNERS", p!"MSG_SLOTS", p!"REASON",
    p!"DEFAULT_REASON"] ++ classAttributesTaskMessage ++ classAttributesMessage
  | .StartSessionResponse => classAttributesMessage
  | .CannotComputeTask => [p!"TASK_ID_PROVIDERS", p!"EXPECTED_OWNERS", p!"MSG_SLOTS",
    p!"REASON"] ++ classAttributesTaskMessage ++ classAttributesMessage
  | .SubtaskPayment => classAttributesMessage
  | .SubtaskPaymentRequest => classAttributesMessage
  | .AckReportComputedTask => [p!"TASK_ID_PROVIDERS", p!"EXPECTED_OWNERS", p!"MSG_SLOTS"]
    ++ classAttributesTaskMessage ++ classAttributesMessage
  | .RejectReportComputedTask => [p!"TASK_ID_PROVIDERS", p!"EXPECTED_OWNERS",
    p!"MSG_SLOTS", p!"REASON"] ++ classAttributesTaskMessage ++ classAttributesMessage
  | .PushResource => classAttributesMessage
  | .HasResource => classAttributesMessage
  | .WantsResource => classAttributesMessage
  | .PullResource => classAttributesMessage
  | .PullAnswer => classAttributesMessage
  | .ResourceHandshakeStart => classAttributesMessage
  | .ResourceHandshakeNonce => classAttributesMessage
  | .ResourceHandshakeVerdict => classAttributesMessage
  | .ServiceRefused => [p!"TASK_ID_PROVIDERS", p!"EXPECTED_OWNERS", p!"MSG_SLOTS",
    p!"REASON"] ++ classAttributesTaskMessage ++ classAttributesMessage
  | .ForceReportComputedTask => [p!"TASK_ID_PROVIDERS", p!"EXPECTED_OWNERS", p!"MSG_SLOTS"]
    ++ classAttributesTaskMessage ++ classAttributesMessage
  | .VerdictReportComputedTask => [p!"TASK_ID_PROVIDERS", p!"EXPECTED_OWNERS",
    p!"MSG_SLOTS", p!"is_valid"] ++ classAttributesTaskMessage ++ classAttributesMessage
  | .FileTransferToken => [p!"Operation", p!"ENUM_SLOTS", p!"deserialize_slot",
    p!"FileInfo", p!"get_file_info"] ++ classAttributesMessage
  | .SubtaskResultsVerify => [p!"TASK_ID_PROVIDERS", p!"EXPECTED_OWNERS", p!"MSG_SLOTS",
    p!"_get_concent_promissory_note"] ++ classAttributesPromissorySlotMixin ++
    classAttributesTaskMessage ++ classAttributesMessage
  | .AckSubtaskResultsVerify => [p!"TASK_ID_PROVIDERS", p!"EXPECTED_OWNERS", p!"MSG_SLOTS"]
    ++ classAttributesTaskMessage ++ classAttributesMessage
  | .SubtaskResultsSettled => [p!"TASK_ID_PROVIDERS", p!"EXPECTED_OWNERS", p!"Origin",
    p!"ENUM_SLOTS", p!"MSG_SLOTS"] ++ classAttributesTaskMessage ++ classAttributesMessage
  | .ForceGetTaskResult => [p!"TASK_ID_PROVIDERS", p!"EXPECTED_OWNERS", p!"MSG_SLOTS"] ++
    classAttributesTaskMessage ++ classAttributesMessage
  | .AckForceGetTaskResult => [p!"TASK_ID_PROVIDERS", p!"EXPECTED_OWNERS", p!"MSG_SLOTS"]
    ++ classAttributesTaskMessage ++ classAttributesMessage
  | .ForceGetTaskResultFailed => [p!"TASK_ID_PROVIDERS", p!"EXPECTED_OWNERS",
    p!"MSG_SLOTS"] ++ classAttributesTaskMessage ++ classAttributesMessage
  | .ForceGetTaskResultRejected => [p!"TASK_ID_PROVIDERS", p!"EXPECTED_OWNERS",
    p!"MSG_SLOTS", p!"REASON"] ++ classAttributesTaskMessage ++ classAttributesMessage
  | .ForceGetTaskResultUpload => [p!"TASK_ID_PROVIDERS", p!"EXPECTED_OWNERS",
    p!"MSG_SLOTS"] ++ classAttributesTaskMessage ++ classAttributesMessage
  | .ForceGetTaskResultDownload => [p!"TASK_ID_PROVIDERS", p!"EXPECTED_OWNERS",
    p!"MSG_SLOTS"] ++ classAttributesTaskMessage ++ classAttributesMessage
  | .ForceSubtaskResults => [p!"TASK_ID_PROVIDERS", p!"EXPECTED_OWNERS", p!"MSG_SLOTS"] ++
    classAttributesTaskMessage ++ classAttributesMessage
  | .ForceSubtaskResultsResponse => [p!"TASK_ID_PROVIDERS", p!"EXPECTED_OWNERS",
    p!"MSG_SLOTS"] ++ classAttributesTaskMessage ++ classAttributesMessage
  | .ForceSubtaskResultsRejected => [p!"TASK_ID_PROVIDERS", p!"EXPECTED_OWNERS",
    p!"MSG_SLOTS", p!"REASON"] ++ classAttributesTaskMessage ++ classAttributesMessage
  | .ForcePayment => [p!"MSG_SLOTS"] ++ classAttributesMessage
  | .ForcePaymentCommitted => [p!"Actor", p!"ENUM_SLOTS"] ++ classAttributesMessage
  | .ForcePaymentRejected => [p!"REASON", p!"MSG_SLOTS"] ++ classAttributesMessage
  | .ForceReportComputedTaskResponse => [p!"TASK_ID_PROVIDERS", p!"EXPECTED_OWNERS",
    p!"REASON", p!"MSG_SLOTS"] ++ classAttributesTaskMessage ++ classAttributesMessage
  | .ClientAuthorization => classAttributesMessage

/-- Those of the body of `Message`. -/
def classPropertiesMessage : List PStr :=
  [p!"_type", p!"timestamp", p!"encrypted"]

/-- Those of the body of `AbstractReasonMessage`. -/
def classPropertiesAbstractReasonMessage : List PStr :=
  [p!"ENUM_SLOTS"]

/-- Those of the body of `TaskMessage`. -/
def classPropertiesTaskMessage : List PStr :=
  [p!"task_id", p!"subtask_id", p!"task_to_compute", p!"provider_id", p!"requestor_id"]

/-- The properties of a class and those it inherits. -/
def classProperties : Cls → List PStr
  | .Hello => classPropertiesMessage
  | .RandVal => classPropertiesMessage
  | .Disconnect => classPropertiesAbstractReasonMessage ++ classPropertiesMessage
  | .ChallengeSolution => classPropertiesMessage
  | .Ping => classPropertiesMessage
  | .Pong => classPropertiesMessage
  | .GetPeers => classPropertiesMessage
  | .Peers => classPropertiesMessage
  | .GetTasks => classPropertiesMessage
  | .Tasks => classPropertiesMessage
  | .RemoveTask => classPropertiesMessage
  | .GetResourcePeers => classPropertiesMessage
  | .ResourcePeers => classPropertiesMessage
  | .Degree => classPropertiesMessage
  | .Gossip => classPropertiesMessage
  | .StopGossip => classPropertiesMessage
  | .LocRank => classPropertiesMessage
  | .FindNode => classPropertiesMessage
  | .WantToStartTaskSession => classPropertiesMessage
  | .SetTaskSession => classPropertiesMessage
  | .RemoveTaskContainer => classPropertiesMessage
  | .WantToComputeTask => [p!"task_id"] ++ classPropertiesMessage
  | .TaskToCompute => [p!"requestor_ethereum_address", p!"provider_public_key",
    p!"provider_ethereum_address", p!"task_id", p!"subtask_id", p!"task_to_compute"] ++
    classPropertiesTaskMessage ++ classPropertiesMessage
  | .CannotAssignTask => classPropertiesAbstractReasonMessage ++ classPropertiesMessage
  | .ReportComputedTask => classPropertiesTaskMessage ++ classPropertiesMessage
  | .SubtaskResultsAccepted => classPropertiesTaskMessage ++ classPropertiesMessage
  | .SubtaskResultsRejected => classPropertiesTaskMessage ++
    classPropertiesAbstractReasonMessage ++ classPropertiesMessage
  | .TaskFailure => classPropertiesTaskMessage ++ classPropertiesAbstractReasonMessage ++
    classPropertiesMessage
  | .StartSessionResponse => classPropertiesMessage
  | .CannotComputeTask => classPropertiesTaskMessage ++
    classPropertiesAbstractReasonMessage ++ classPropertiesMessage
  | .SubtaskPayment => classPropertiesMessage
  | .SubtaskPaymentRequest => classPropertiesMessage
  | .AckReportComputedTask => classPropertiesTaskMessage ++ classPropertiesMessage
  | .RejectReportComputedTask => classPropertiesTaskMessage ++
    classPropertiesAbstractReasonMessage ++ classPropertiesMessage
  | .PushResource => classPropertiesMessage
  | .HasResource => classPropertiesMessage
  | .WantsResource => classPropertiesMessage
  | .PullResource => classPropertiesMessage
  | .PullAnswer => classPropertiesMessage
  | .ResourceHandshakeStart => classPropertiesMessage
  | .ResourceHandshakeNonce => classPropertiesMessage
  | .ResourceHandshakeVerdict => classPropertiesMessage
  | .ServiceRefused => classPropertiesTaskMessage ++ classPropertiesAbstractReasonMessage
    ++ classPropertiesMessage
  | .ForceReportComputedTask => classPropertiesTaskMessage ++ classPropertiesMessage
  | .VerdictReportComputedTask => classPropertiesTaskMessage ++ classPropertiesMessage
  | .FileTransferToken => [p!"is_upload", p!"is_download"] ++ classPropertiesMessage
  | .SubtaskResultsVerify => classPropertiesTaskMessage ++ classPropertiesMessage
  | .AckSubtaskResultsVerify => classPropertiesTaskMessage ++ classPropertiesMessage
  | .SubtaskResultsSettled => classPropertiesTaskMessage ++ classPropertiesMessage
  | .ForceGetTaskResult => classPropertiesTaskMessage ++ classPropertiesMessage
  | .AckForceGetTaskResult => classPropertiesTaskMessage ++ classPropertiesMessage
  | .ForceGetTaskResultFailed => classPropertiesTaskMessage ++ classPropertiesMessage
  | .ForceGetTaskResultRejected => classPropertiesTaskMessage ++
    classPropertiesAbstractReasonMessage ++ classPropertiesMessage
  | .ForceGetTaskResultUpload => classPropertiesTaskMessage ++ classPropertiesMessage
  | .ForceGetTaskResultDownload => classPropertiesTaskMessage ++ classPropertiesMessage
  | .ForceSubtaskResults => classPropertiesTaskMessage ++ classPropertiesMessage
  | .ForceSubtaskResultsResponse => classPropertiesTaskMessage ++ classPropertiesMessage
  | .ForceSubtaskResultsRejected => classPropertiesTaskMessage ++
    classPropertiesAbstractReasonMessage ++ classPropertiesMessage
  | .ForcePayment => classPropertiesMessage
  | .ForcePaymentCommitted => classPropertiesMessage
  | .ForcePaymentRejected => classPropertiesAbstractReasonMessage ++ classPropertiesMessage
  | .ForceReportComputedTaskResponse => classPropertiesTaskMessage ++
    classPropertiesAbstractReasonMessage ++ classPropertiesMessage
  | .ClientAuthorization => classPropertiesMessage

end Verif.Spec
