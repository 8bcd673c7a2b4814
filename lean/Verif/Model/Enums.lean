import Verif.Model.Val
/-! # Enumerations: values and kind -/

namespace Verif

/-- `issubclass(E, datastructures.StringEnum)` (`datastructures/__init__.py:87-94`);
such members are `str` instances whose text is the member name. -/
def EnumId.isStringEnum : EnumId → Bool
  | .disconnectReason => false            -- message/base.py:721
  | .cannotAssignReason => true           -- message/tasks.py:513
  | .subtaskResultsRejectedReason => false -- message/tasks.py:627
  | .taskFailureReason => true            -- message/tasks.py:704
  | .cannotComputeReason => true          -- message/tasks.py:742
  | .rejectReportReason => true           -- message/tasks.py:841
  | .serviceRefusedReason => false        -- message/concents.py:34
  | .ftOperation => true                  -- message/concents.py:124
  | .ftCategory => true                   -- message/concents.py:160
  | .settledOrigin => false               -- message/concents.py:287
  | .fgtrRejectedReason => false          -- message/concents.py:381
  | .fsrRejectedReason => false           -- message/concents.py:504
  | .forcePaymentActor => false           -- message/concents.py:558
  | .forcePaymentRejectedReason => false  -- message/concents.py:577
  | .frctResponseReason => false          -- message/concents.py:599
  | .marketType => true                   -- datastructures/tasks.py:24

/-- The `.value`s of the members, in definition order. -/
def EnumId.values : EnumId → List PStr
  | .disconnectReason =>  -- message/base.py:721-733
    [p!"duplicate_peers", p!"too_many_peers", p!"refresh", p!"unverified", p!"protocol_version",
     p!"bad_protocol", p!"timeout", p!"no_more_messages", p!"wrong_encryption",
     p!"resource_handshake", p!"key_not_difficult", p!"bootstrap"]
  | .cannotAssignReason =>  -- message/tasks.py:513-518
    [p!"NotMyTask", p!"NoMoreSubtasks", p!"TaskFinished", p!"ConcentDisabled"]
  | .subtaskResultsRejectedReason =>  -- message/tasks.py:627-635
    [p!"Results verification negative", p!"Concent could not retrieve resources to verify",
     p!"Concent results verification negative",
     p!"Concent reported failure to retrieve the resources to verify",
     p!"Could not retrieve resources"]
  | .taskFailureReason =>  -- message/tasks.py:704-707
    [p!"ComputationError", p!"BudgetExceeded", p!"TimeExceeded"]
  | .cannotComputeReason =>  -- message/tasks.py:742-757
    [p!"CannotTakeWork", p!"WrongCTD", p!"WrongKey", p!"WrongAddress", p!"WrongEnvironment",
     p!"NoSourceCode", p!"WrongDockerImages", p!"ConcentRequired", p!"ConcentDisabled",
     p!"InsufficientBalance", p!"InsufficientDeposit", p!"TooShortDeposit",
     p!"PromissoryNoteMissing", p!"OfferCancelled", p!"ResourcesTooBig"]
  | .rejectReportReason =>  -- message/tasks.py:841-844
    [p!"SubtaskTimeLimitExceeded", p!"GotMessageCannotComputeTask", p!"GotMessageTaskFailure"]
  | .serviceRefusedReason =>  -- message/concents.py:34-43
    [p!"TOO_SMALL_COMMUNICATION_PAYMENT", p!"TOO_SMALL_REQUESTOR_DEPOSIT",
     p!"TOO_SMALL_PROVIDER_DEPOSIT", p!"SYSTEM_OVERLOADED", p!"DUPLICATE_REQUEST",
     p!"REQUEST_FORMAT_OR_CONTENT_INVALID",
     p!"CONCENT_SERVICE_IS_NOT_ENABLED_FOR_THIS_SUBTASK", p!"UNSUPPORTED_PROTOCOL_VERSION",
     p!"PRICE_NOT_POSITIVE"]
  | .ftOperation => [p!"upload", p!"download"]  -- message/concents.py:124-126
  | .ftCategory => [p!"results", p!"resources"]  -- message/concents.py:160-162
  | .settledOrigin => [p!"results_accepted_timeout", p!"results_rejected"]  -- concents.py:287-289
  | .fgtrRejectedReason => [p!"acceptance_time_limit_exceeded"]  -- message/concents.py:381-382
  | .fsrRejectedReason =>  -- message/concents.py:504-506
    [p!"premature: still within the verification timeout",
     p!"too late: past the forced communication timeout"]
  | .forcePaymentActor => [p!"requestor", p!"provider"]  -- message/concents.py:558-560
  | .forcePaymentRejectedReason =>  -- message/concents.py:577-579
    [p!"no unsettled tasks found", p!"timestamp error - subtasks are not overdue yet"]
  | .frctResponseReason =>  -- message/concents.py:599-608
    [p!"ack_from_requestor", p!"reject_from_requestor", p!"subtask_timeout", p!"concent_ack"]
  | .marketType => [p!"Brass", p!"Usage"]  -- datastructures/tasks.py:24-26

/-- `E(value)` (enum lookup by value); `none` stands for `ValueError`.  A member of
`E` is returned as is; a member of another string enum is equal to its text. -/
def EnumId.lookup (e : EnumId) : Val → Option Val
  | .str s => if e.values.contains s then some (.enum e s) else none
  | .enum e' s =>
    if (e' == e || e'.isStringEnum) && e.values.contains s then some (.enum e s) else none
  | _ => none

end Verif
