import Verif.Model.Frame
import Verif.Spec.Frame
import Verif.Spec.Uuid
/-! # Specification: task messages -/

namespace Verif.Spec

open Verif

/-- A frame that is well formed, timely, decodes to the message `m` and, if a sender key is
given, carries that sender's signature: everything the base class checks.  What remains are the
checks of the message's own class.  (`Hello` has its own format.) -/
def Carries (E : Env) (dec : Bytes → Bytes → Res Bytes) (data : Bytes) (priv pub : Option Bytes)
    (ct : Bool) (now : Int) (m : Msg) : Prop :=
  76 < data.length ∧ minTimestamp < frameTime data ∧ frameTime data < maxTimestamp ∧
  m.cls ≠ .Hello ∧ m.cls.typeId = frameType data ∧
  timeGate ct now ⟨frameType data, frameTime data, frameFlag data⟩ = .ok () ∧
  ∃ payload, Payload (loadDecrypt dec priv) data payload ∧
    parsePayload E m.cls ⟨frameType data, frameTime data, frameFlag data⟩ (frameSig data) none pub
      payload = .ok m

/-- Following attributes from object to object. -/
inductive At : Val → List PStr → Val → Prop
  | here (v : Val) : At v [] v
  | step {c : Cls} {ty ts enc sig : Val} {attrs : Attrs} {name : PStr} {path : List PStr}
      {w : Val} : At (getAttr attrs name) path w → At (.msg c ty ts enc sig attrs) (name :: path) w

/-- The reasons of `SubtaskResultsRejected`. -/
def rejection (text : PStr) : Val := .enum .subtaskResultsRejectedReason text

/-- The reason that needs an attached `ForceGetTaskResultFailed`. -/
def forcedResourcesFailure : Val :=
  rejection p!"Concent reported failure to retrieve the resources to verify"

/-- The reasons a requestor may give, with and without Concent. -/
def requestorReasons : Bool → List Val
  | true => [rejection p!"Results verification negative", forcedResourcesFailure]
  | false => [rejection p!"Results verification negative", rejection p!"Could not retrieve resources"]

/-- Two messages concern the same task and subtask. -/
def SameTask (a b : Val) : Prop :=
  pyEq (taskGet p!"task_id" a) (taskGet p!"task_id" b) = true ∧
  pyEq (taskGet p!"subtask_id" a) (taskGet p!"subtask_id" b) = true

/-- A valid rejection: it has a reason, an attachment concerns the same subtask, and a forced
resource failure has an attachment. -/
def RejectionOk (m : Msg) : Prop :=
  getAttr m.attrs p!"reason" ≠ .none ∧
  (getAttr m.attrs p!"force_get_task_result_failed" ≠ .none →
    SameTask m.val (getAttr m.attrs p!"force_get_task_result_failed")) ∧
  (getAttr m.attrs p!"reason" = forcedResourcesFailure →
    getAttr m.attrs p!"force_get_task_result_failed" ≠ .none)

/-- `signature` is a signature of the message `w` by the holder of the 64-byte public key `pk`:
recovering the key from it and the digest of `w` gives `pk`. -/
def SignedBy (E : Env) (w : Msg) (signature : Val) (pk : Bytes) : Prop :=
  pk.length = 64 ∧ ∃ h, shortHash E w = .ok h ∧ E.recover signature (E.sha3 h) = some (4 :: pk)

/-- The text is a UUID whose node part is the first six bytes of the seed. -/
def SeededBy (id : PStr) (seed : Bytes) : Prop :=
  ∃ u, UuidText id u ∧ u % 2 ^ 48 = bigEndian (seed.take 6)

end Verif.Spec
