import Verif.Spec.FactoryArgs
/-!
# Specification: what factories may draw

Ranges as in the declarations of the factories; `fake.random_int` without bounds draws 0 to 9999.
-/

namespace Verif.Spec

open Verif

/-- A time the clock may show. -/
def Clock (t : Int) : Prop := 0 ≤ t ∧ t < 2 ^ 64

/-- `TaskHeaderFactory` (`factories/datastructures/tasks.py:17-44`): raw public keys have 64 bytes. -/
structure HeaderInRange (d : HeaderDraw) : Prop where
  key : d.key.length = 64
  mask : d.mask.length = 32
  now : Clock d.now
  nodeName : d.nodeName.length < 2 ^ 32
  timeout : 60 ≤ d.timeout ∧ d.timeout ≤ 600
  version : d.version.1 ≤ 9999 ∧ d.version.2.1 ≤ 9999 ∧ d.version.2.2 ≤ 9999
  memory : 0 ≤ d.memory ∧ d.memory ≤ 4096
  maxPrice : 10 ≤ d.maxPrice ∧ d.maxPrice ≤ 50
  budget : 10 ≤ d.budget ∧ d.budget ≤ 50
  count : 1 ≤ d.count ∧ d.count ≤ 256

/-- `WantToComputeTaskFactory` (`factories/tasks.py:20-36`). -/
structure OfferInRange (d : OfferDraw) : Prop where
  key : d.key.length = 64
  header : HeaderInRange d.header
  now : Clock d.now

/-- `ComputeTaskDefFactory` (`factories/tasks.py:54-64`): UUIDs as text. -/
structure DefInRange (d : DefDraw) : Prop where
  taskId : d.taskId.length = 36
  subtaskId : d.subtaskId.length = 36
  resource : d.resource.length = 36
  now : Clock d.now

/-- `TaskToComputeFactory` (`factories/tasks.py:67-82, 160-226`): private keys have 32 bytes, a sha1
in hexadecimal 40 digits. -/
structure TaskInRange (d : TaskDraw) : Prop where
  key : d.key.length = 64
  eth : d.eth.1.length = 32 ∧ d.eth.2.length = 64
  offer : OfferInRange d.offer
  definition : DefInRange d.definition
  package : d.package.length = 40
  size : 2 ^ 20 ≤ d.size ∧ d.size ≤ 10 * 2 ^ 20
  price : 2 ^ 20 ≤ d.price ∧ d.price ≤ 10 * 2 ^ 20
  now : Clock d.now

/-- Everything that is drawn for a message: texts, bytes and numbers of usual sizes (keys have 64
bytes), members of the enumeration asked for. -/
structure DrawsInRange (d : Draws) : Prop where
  text : ∀ path, (d.text path).length < 2 ^ 32
  num : ∀ path, (d.num path).natAbs < 2 ^ 64
  bytes : ∀ path, (d.bytes path).length = 64
  member : MembersDrawn d
  task : ∀ path, TaskInRange (d.task path)
  now : ∀ path, Clock (d.now path)

/-- The key signs: with signatures of 65 bytes. -/
def Signs (E : Env) (priv : Bytes) : Prop := ∀ h, ∃ s, E.sign priv h = .ok s ∧ s.length = 65

/-- A key pair that can be used. -/
def UsablePair (E : Env) (kp : Bytes × Bytes) : Prop := Signs E kp.1 ∧ kp.2.length = 64

/-- The circumstances under which messages are made: hashes of 32 bytes, a version text that can be
written, draws as above, and drawn private keys that sign. -/
structure World (E : Env) (keccak : Bytes → Bytes) (d : Draws) : Prop where
  hash : ∀ b, (keccak b).length = 32
  version : E.version.length < 2 ^ 62
  draws : DrawsInRange d
  signs : ∀ path, Signs E (d.task path).eth.1

/-- The classes of messages that have a factory (`factories/concents.py`, `factories/tasks.py`,
`factories/base.py`). -/
def makeable : List Cls :=
  [.Hello, .WantToStartTaskSession, .SetTaskSession,
    .WantToComputeTask, .TaskToCompute, .CannotComputeTask, .TaskFailure, .ReportComputedTask,
    .AckReportComputedTask, .RejectReportComputedTask, .SubtaskResultsAccepted, .SubtaskResultsRejected,
    .FileTransferToken, .ForceReportComputedTask, .SubtaskResultsVerify, .AckSubtaskResultsVerify,
    .SubtaskResultsSettled, .ForceGetTaskResult, .AckForceGetTaskResult, .ForceGetTaskResultFailed,
    .ForceGetTaskResultRejected, .ForceGetTaskResultUpload, .ForceGetTaskResultDownload,
    .ForceSubtaskResults, .ForceSubtaskResultsResponse, .ForceSubtaskResultsRejected, .ForcePayment,
    .ForcePaymentCommitted, .ForcePaymentRejected, .ForceReportComputedTaskResponse,
    .VerdictReportComputedTask, .ClientAuthorization, .ServiceRefused]

end Verif.Spec
