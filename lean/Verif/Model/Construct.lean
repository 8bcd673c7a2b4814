import Verif.Model.Frame
/-!
# Message constructors

`message/base.py:96-141` and the class constructors (`message/base.py:691-695`,
`message/p2p.py:45-47, 88-95, 153-159, 175-181`, `message/tasks.py:229-231, 264-267, 711-714,
721-727`).
-/

namespace Verif

/-- What `getattr` and `setattr` find under a name on an instance that is being built. -/
inductive NameKind where
  /-- a slot: can be read and written -/
  | slot
  /-- a class attribute or a method, never `None`, not writable (no instance dictionary:
  every class and mixin declares `__slots__`) -/
  | const
  /-- a property without setter -/
  | prop
  /-- reading and writing raise `AttributeError` -/
  | absent
  deriving DecidableEq, Repr

/-- Class attributes and methods of `Message` (`message/base.py:82-592`); `_type` is a
property that is never `None`. -/
def messageNames : List PStr :=
  [p!"HDR_FORMAT", p!"HDR_LEN", p!"SIG_LEN", p!"ENCRYPT", p!"SIGN", p!"ENUM_SLOTS",
   p!"MSG_SLOTS", p!"_type", p!"get_short_hash", p!"serialize", p!"serialize_header",
   p!"serialize_slot", p!"serialize_message", p!"serialize_message_single",
   p!"deserialize_slot", p!"deserialize_message", p!"deserialize_message_single",
   p!"unpack_header", p!"deserialize_header", p!"deserialize", p!"deserialize_with_header",
   p!"load_slots", p!"valid_slot", p!"_verify_signature", p!"verify_signature",
   p!"_get_signature", p!"sign_message", p!"_fake_sign"]

/-- Class attributes and methods of `TaskMessage` (`message/tasks.py:50-222`). -/
def taskNames : List PStr :=
  [p!"TASK_ID_PROVIDERS", p!"OWNER_CHOICES", p!"EXPECTED_OWNERS", p!"_get_task_value",
   p!"validate_ownership", p!"validate_ownership_chain", p!"verify_owners", p!"is_valid"]

/-- Class attributes and methods of `PromissorySlotMixin` (`datastructures/promissory.py:110-148`). -/
def promissoryNames : List PStr :=
  [p!"CONCENT_PROMISSORY_NOTE_SIG", p!"_get_concent_promissory_note",
   p!"sign_concent_promissory_note", p!"verify_concent_promissory_note"]

/-- Class attributes and methods of the class bodies themselves and of `NodeSlotMixin`. -/
def Cls.bodyNames : Cls → List PStr
  | .Hello => [p!"VERSION_FORMAT", p!"VERSION_LENGTH", p!"NODE_SLOTS", p!"serialize_node",
      p!"deserialize_node"]
  | .WantToStartTaskSession => [p!"NODE_SLOTS", p!"serialize_node", p!"deserialize_node"]
  | .SetTaskSession => [p!"NODE_SLOTS", p!"serialize_node", p!"deserialize_node"]
  | .Disconnect => [p!"REASON"]
  | .Peers => [p!"serialize_peer_list", p!"deserialize_peer_list"]
  | .Tasks => [p!"deserialize_tasks"]
  | .WantToComputeTask => [p!"DEFAULT_NUM_SUBTASKS"]
  | .TaskToCompute => [p!"generate_ethsig", p!"verify_ethsig", p!"validate_taskid",
      p!"_get_promissory_note", p!"sign_promissory_note", p!"verify_promissory_note",
      p!"sign_all_promissory_notes", p!"verify_all_promissory_notes"] ++ promissoryNames
  | .CannotAssignTask => [p!"REASON"]
  | .SubtaskResultsRejected => [p!"REASON", p!"REQUESTOR_REASONS_ALLOWED",
      p!"is_valid_for_requestor"]
  | .TaskFailure => [p!"REASON", p!"DEFAULT_REASON"]
  | .CannotComputeTask => [p!"REASON"]
  | .RejectReportComputedTask => [p!"REASON"]
  | .ServiceRefused => [p!"REASON"]
  | .FileTransferToken => [p!"Operation", p!"FileInfo", p!"get_file_info"]
  | .SubtaskResultsVerify => promissoryNames
  | .SubtaskResultsSettled => [p!"Origin"]
  | .ForceGetTaskResultRejected => [p!"REASON"]
  | .ForceSubtaskResultsRejected => [p!"REASON"]
  | .ForcePaymentCommitted => [p!"Actor"]
  | .ForcePaymentRejected => [p!"REASON"]
  | .ForceReportComputedTaskResponse => [p!"REASON"]
  | _ => []

/-- Properties without setter: `TaskMessage` (`message/tasks.py:73-106`), `WantToComputeTask`
(269-271), `TaskToCompute` (332-342), `FileTransferToken` (`message/concents.py:180-186`). -/
def Cls.properties (c : Cls) : List PStr :=
  (if c.isTask then [p!"task_id", p!"subtask_id", p!"task_to_compute", p!"provider_id",
    p!"requestor_id"] else []) ++
  (match c with
   | .WantToComputeTask => [p!"task_id"]
   | .TaskToCompute => [p!"requestor_ethereum_address", p!"provider_public_key",
       p!"provider_ethereum_address"]
   | .FileTransferToken => [p!"is_upload", p!"is_download"]
   | _ => [])

/-- What a name stands for.  A slot declared by the class hides what it inherits under the same
name.  `timestamp` and `encrypted` (`message/base.py:177-191`) read the header, which is set last,
so both of them, and the setter of the second, raise `AttributeError` here: they are `absent`.
Simplification: `__x__` names inherited from `object` are not listed. -/
def Cls.nameKind (c : Cls) (name : PStr) : NameKind :=
  if c.payload.contains name || (c == .Hello && name == p!"_version") then .slot
  else if c.properties.contains name then .prop
  else if messageNames.contains name || c.bodyNames.contains name ||
      (c.isTask && taskNames.contains name) then .const
  else .absent

/-- Evaluation of a read-only property of a partly built instance: any function. -/
abbrev Getter := Cls → PStr → Attrs → Res Val

/-- One round of the loop over the keyword arguments (`message/base.py:116-123`). -/
def applyKw (G : Getter) (c : Cls) (k : PStr) (v : Val) (as : Attrs) : Res Attrs :=
  match c.nameKind k with
  | .slot => if getAttr as k = .none then .ok (setName k v as) else .ok as
  | .const => .ok as
  | .prop =>
    match G c k as with
    | .error e => .error e
    | .ok w => if w = .none then .error .attributeError else .ok as
  | .absent => .error .attributeError

/-- The loop over the keyword arguments (`message/base.py:116-123`). -/
def applyKws (G : Getter) (c : Cls) : List (PStr × Val) → Attrs → Res Attrs
  | [], as => .ok as
  | (k, v) :: rest, as =>
    match applyKw G c k v as with
    | .error e => .error e
    | .ok as' => applyKws G c rest as'

/-- `StartSessionResponse.__init__` (`message/tasks.py:721-727`) takes `conn_id` out of the
keyword arguments and sets it first. -/
def takesConnId (c : Cls) (kv : PStr × Val) : Bool :=
  c == .StartSessionResponse && kv.1 == p!"conn_id"

/-- `self.conn_id = conn_id` (`message/tasks.py:726`); `loadSlots` has already put `None`. -/
def seedConnId (c : Cls) (kwargs : List (PStr × Val)) (as : Attrs) : Attrs :=
  if c = .StartSessionResponse then setName p!"conn_id" (getAttr kwargs p!"conn_id") as else as

/-- The end of `Hello.__init__` (`message/base.py:693-695`). -/
def ownVersion (E : Env) (c : Cls) (deserialized : Bool) (as : Attrs) : Attrs :=
  if c = .Hello ∧ deserialized = false ∧ (lookupName p!"_version" as).isNone then
    setName p!"_version" (.str E.version) as
  else as

/-- `cls(header=..., sig=..., slots=..., deserialized=..., **kwargs)` at the given time in
seconds.  `kwargs` are the keyword arguments other than these four (Python does not pass `self`
this way, nor a name twice).  The warning for a deserialized message without header
(`message/base.py:125-129`) is not modelled. -/
def newMessage (E : Env) (G : Getter) (now : Int) (c : Cls) (header : Option (Val × Val × Val))
    (sig slots : Val) (deserialized : Bool) (kwargs : List (PStr × Val)) : Res Msg :=
  match wrapLoad (loadSlots E (loadMsg E maxDepth) c (dictOf slots) c.payload) with
  | .error e => .error e
  | .ok loaded =>
    match applyKws G c (kwargs.filter fun kv => !takesConnId c kv) (seedConnId c kwargs loaded) with
    | .error e => .error e
    | .ok as =>
      let (ty, ts, enc) := match header with
        | some h => h
        | none => (.int c.typeId, .int now, .bool false)
      .ok ⟨c, ty, ts, enc, sig, ownVersion E c deserialized (postInit c as)⟩

/-- `clone_message(msg, override_class, override_header)` (`factories/helpers.py:29-38`) at the given
time.  A class and a `MessageHeader` are never false, so `or` falls back exactly when nothing is
given.  Sharing of mutable values between a message and its clone is not modelled. -/
def cloneMessage (E : Env) (G : Getter) (now : Int) (m : Msg) (cls : Option Cls)
    (header : Option (Val × Val × Val)) : Res Msg :=
  match m.slots with
  | .error e => .error e
  | .ok s =>
    newMessage E G now (cls.getD m.cls) (some (header.getD (m.ty, m.ts, m.enc))) m.sig s false []

/-- `override_timestamp(msg, timestamp)` (`factories/helpers.py:18-26`). -/
def overrideTimestamp (m : Msg) (timestamp : Val) : Msg := { m with ts := timestamp }

/-- A message as it sits in a slot. -/
def Msg.ofVal : Val → Option Msg
  | .msg c ty ts enc sig as => some ⟨c, ty, ts, enc, sig, as⟩
  | _ => Option.none

/-- `VerdictReportComputedTaskFactory.arct_report_computed_task` (`factories/concents.py:354-364`),
run on a built message: the acknowledgement gets a clone of the forced report, with the attributes
given as `arct_report_computed_task__name` replaced.  Simplification: those names are payload
slots of `ReportComputedTask`. -/
def verdictReport (E : Env) (G : Getter) (now : Int) (msg : Msg) (kwargs : Attrs) : Res Msg :=
  match Msg.ofVal (getAttr msg.attrs p!"force_report_computed_task") with
  | Option.none => .error .attributeError
  | some force =>
    match Msg.ofVal (getAttr force.attrs p!"report_computed_task") with
    | Option.none => .error .attributeError
    | some rct =>
      match cloneMessage E G now rct none none with
      | .error e => .error e
      | .ok r =>
        let r' : Msg := { r with attrs := kwargs.foldl (fun as kv => setName kv.1 kv.2 as) r.attrs }
        match getAttr msg.attrs p!"ack_report_computed_task" with
        | .msg c ty ts enc sig as =>
          let ack := Val.msg c ty ts enc sig (setName p!"report_computed_task" r'.val as)
          .ok { msg with attrs := setName p!"ack_report_computed_task" ack msg.attrs }
        | _ => .error .attributeError

end Verif
