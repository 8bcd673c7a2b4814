import Verif.Model.Factories
/-!
# The other factories of messages (`factories/base.py`, `factories/p2p.py`, `factories/tasks.py:240-334`,
`factories/concents.py`)

Declarations and hooks are tables; what `factory_boy` does with them is as described in
`Model/Factories.lean`.  Hooks run in the order in which they were declared, so the inherited `sign`
runs before those of the class.  A factory is named by the class it makes.
-/

namespace Verif

/-- Everything that is drawn while a message is made with all the messages in it, and the clock, by
the place it is for: the names that lead there. -/
structure Draws where
  text : List PStr → PStr
  num : List PStr → Int
  bytes : List PStr → Bytes
  member : List PStr → EnumId → PStr
  task : List PStr → TaskDraw
  now : List PStr → Int

/-- What a factory declares for a field. -/
inductive Decl where
  /-- a value -/
  | const (v : Val)
  /-- drawn text after a fixed prefix -/
  | text (start : PStr)
  /-- a drawn number -/
  | num
  /-- drawn bytes -/
  | bytes
  /-- `FuzzyChoice` of an enumeration -/
  | choice (e : EnumId)
  /-- the time in seconds -/
  | now
  /-- `random_eth_pub_key()` (`factories/helpers.py:94-95`) -/
  | key
  /-- `SubFactory(Node)` -/
  | node
  /-- `List` of `SubFactory(FileInfoFactory, **args)` -/
  | files (each : List Attrs)
  /-- `SubFactory` of messages, with arguments and possibly another declaration of `files` -/
  | message (c : Cls) (args : Attrs) (files : Option (List Attrs))

/-- What a factory does after construction, besides signing. -/
inductive Hook where
  /-- `helpers.optional_subfactory` -/
  | optional (c : Cls)
  /-- `upload` and `download` of the factory of tokens -/
  | operation (member : PStr)
  /-- `subtask_results_accepted` and `subtask_results_rejected` of the factory of responses -/
  | generate (c : Cls)
  /-- `subtask_results_accepted_list` of the factory of payments -/
  | acceptedList
  /-- `arct_report_computed_task` of the factory of verdicts -/
  | sharedReport

/-- The declarations and hooks of a factory. -/
structure MsgFactory where
  decls : List (PStr × Decl)
  hooks : List (PStr × Hook) := []

/-- `SubFactory(C)`. -/
def sub (c : Cls) : Decl := .message c [] none

/-- The tables of declarations; `TaskToCompute` and `WantToComputeTask` are modelled apart
(`taskFactory`, `offerFactory`). -/
def Cls.factory : Cls → Option MsgFactory
  | .Hello => some {  -- factories/base.py:9-15
      decls := [(p!"rand_val", .num), (p!"proto_id", .num), (p!"node_info", .node)] }
  | .WantToStartTaskSession => some {  -- factories/p2p.py:10-16
      decls := [(p!"node_info", .node), (p!"conn_id", .text []), (p!"super_node_info", .node)] }
  | .SetTaskSession => some {  -- factories/p2p.py:19-26
      decls := [(p!"key_id", .text []), (p!"node_info", .node), (p!"conn_id", .text []),
        (p!"super_node_info", .node)] }
  | .CannotComputeTask => some {  -- factories/tasks.py:240-245
      decls := [(p!"task_to_compute", sub .TaskToCompute),
        (p!"reason", .choice .cannotComputeReason)] }
  | .TaskFailure => some {  -- factories/tasks.py:248-253
      decls := [(p!"task_to_compute", sub .TaskToCompute), (p!"err", .text [])] }
  | .ReportComputedTask => some {  -- factories/tasks.py:256-267
      decls := [(p!"address", .text []), (p!"port", .num), (p!"key_id", .bytes),
        (p!"task_to_compute", sub .TaskToCompute), (p!"package_hash", .text p!"sha1:"),
        (p!"size", .num), (p!"multihash", .text []), (p!"secret", .text [])] }
  | .AckReportComputedTask => some {  -- factories/tasks.py:270-274
      decls := [(p!"report_computed_task", sub .ReportComputedTask)] }
  | .RejectReportComputedTask => some {  -- factories/tasks.py:277-312
      decls := [(p!"reason", .choice .rejectReportReason)]
      hooks := [(p!"attached_task_to_compute", .optional .TaskToCompute),
        (p!"task_failure", .optional .TaskFailure),
        (p!"cannot_compute_task", .optional .CannotComputeTask)] }
  | .SubtaskResultsAccepted => some {  -- factories/tasks.py:315-322
      decls := [(p!"report_computed_task", sub .ReportComputedTask), (p!"payment_ts", .now)] }
  | .SubtaskResultsRejected => some {  -- factories/tasks.py:325-334
      decls := [(p!"report_computed_task", sub .ReportComputedTask),
        (p!"reason", .const (.enum .subtaskResultsRejectedReason p!"Results verification negative"))] }
  | .FileTransferToken => some {  -- factories/concents.py:30-61
      decls := [(p!"subtask_id", .text []), (p!"token_expiration_deadline", .const (.int 1800)),
        (p!"storage_cluster_address", .text []), (p!"authorized_client_public_key", .bytes),
        (p!"operation", .const (.enum .ftOperation p!"upload")), (p!"files", .files [[]])]
      hooks := [(p!"upload", .operation p!"upload"), (p!"download", .operation p!"download")] }
  | .ForceReportComputedTask => some {  -- factories/concents.py:64-70
      decls := [(p!"result_hash", .text []), (p!"report_computed_task", sub .ReportComputedTask)] }
  | .SubtaskResultsVerify => some {  -- factories/concents.py:73-78
      decls := [(p!"subtask_results_rejected", sub .SubtaskResultsRejected)] }
  | .AckSubtaskResultsVerify => some {  -- factories/concents.py:81-94
      decls := [(p!"subtask_results_verify", sub .SubtaskResultsVerify),
        (p!"file_transfer_token", .message .FileTransferToken []
          (some [[(p!"category", .enum .ftCategory p!"resources")],
            [(p!"category", .enum .ftCategory p!"results")]]))] }
  | .SubtaskResultsSettled => some {  -- factories/concents.py:97-115
      decls := [(p!"origin", .const (.enum .settledOrigin p!"results_accepted_timeout")),
        (p!"task_to_compute", sub .TaskToCompute)] }
  | .ForceGetTaskResult => some {  -- factories/concents.py:118-123
      decls := [(p!"report_computed_task", sub .ReportComputedTask)] }
  | .AckForceGetTaskResult => some {  -- factories/concents.py:126-130
      decls := [(p!"force_get_task_result", sub .ForceGetTaskResult)] }
  | .ForceGetTaskResultFailed => some {  -- factories/concents.py:133-138
      decls := [(p!"task_to_compute", sub .TaskToCompute)] }
  | .ForceGetTaskResultRejected => some {  -- factories/concents.py:141-145
      decls := [(p!"force_get_task_result", sub .ForceGetTaskResult)] }
  | .ForceGetTaskResultUpload => some {  -- factories/concents.py:148-154
      decls := [(p!"force_get_task_result", sub .ForceGetTaskResult),
        (p!"file_transfer_token", .message .FileTransferToken [(p!"upload", .bool true)] none)] }
  | .ForceGetTaskResultDownload => some {  -- factories/concents.py:157-163
      decls := [(p!"force_get_task_result", sub .ForceGetTaskResult),
        (p!"file_transfer_token", .message .FileTransferToken [(p!"download", .bool true)] none)] }
  | .ForceSubtaskResultsResponse => some {  -- factories/concents.py:166-210
      decls := []
      hooks := [(p!"subtask_results_accepted", .generate .SubtaskResultsAccepted),
        (p!"subtask_results_rejected", .generate .SubtaskResultsRejected)] }
  | .ForceSubtaskResults => some {  -- factories/concents.py:213-218
      decls := [(p!"ack_report_computed_task", sub .AckReportComputedTask)] }
  | .ForceSubtaskResultsRejected => some {  -- factories/concents.py:221-238
      decls := [(p!"force_subtask_results", sub .ForceSubtaskResults),
        (p!"reason", .const (.enum .fsrRejectedReason
          p!"premature: still within the verification timeout"))] }
  | .ForcePayment => some {  -- factories/concents.py:241-267
      decls := []
      hooks := [(p!"subtask_results_accepted_list", .acceptedList)] }
  | .ForcePaymentCommitted => some {  -- factories/concents.py:270-293
      decls := [(p!"payment_ts", .now), (p!"task_owner_key", .key),
        (p!"provider_eth_account", .text p!"0x"), (p!"amount_paid", .num),
        (p!"recipient_type", .const (.enum .forcePaymentActor p!"provider"))] }
  | .ForcePaymentRejected => some {  -- factories/concents.py:296-301
      decls := [(p!"force_payment", sub .ForcePayment),
        (p!"reason", .const (.enum .forcePaymentRejectedReason p!"no unsettled tasks found"))] }
  | .ForceReportComputedTaskResponse => some {  -- factories/concents.py:304-339
      decls := [(p!"reason", .choice .frctResponseReason)]
      hooks := [(p!"ack_report_computed_task", .optional .AckReportComputedTask),
        (p!"reject_report_computed_task", .optional .RejectReportComputedTask)] }
  | .VerdictReportComputedTask => some {  -- factories/concents.py:342-365
      decls := [(p!"force_report_computed_task", sub .ForceReportComputedTask),
        (p!"ack_report_computed_task", sub .AckReportComputedTask)]
      hooks := [(p!"arct_report_computed_task", .sharedReport)] }
  | .ClientAuthorization => some {  -- factories/concents.py:368-372
      decls := [(p!"client_public_key", .bytes)] }
  | .ServiceRefused => some {  -- factories/concents.py:375-381
      decls := [(p!"reason", .choice .serviceRefusedReason),
        (p!"task_to_compute", sub .TaskToCompute)] }
  | _ => none

/-- The arguments of a sub-factory: those declared with it, unless they are given. -/
def mergeArgs (declared kw : Attrs) : Attrs :=
  (declared.filter fun kv => (lookupName kv.1 kw).isNone) ++ kw

/-- The factory of nodes (`factories/datastructures/p2p.py:8-14`). -/
def nodeFactory (E : Env) (name : PStr) (kw : Attrs) : Res Val := do
  let key ← given kw p!"key" (.ok (.str (p!"00adbeef" ++ (List.replicate 15 p!"deadbeef").flatten)))
  let name ← given kw p!"node_name" (.ok (.str name))
  mkCont E .node (.dict (([(p!"key", key), (p!"node_name", name)] ++
    extraArgs [p!"key", p!"node_name"] kw).map fun kv => (.str kv.1, kv.2)))

/-- The factory of peers (`factories/datastructures/p2p.py:17-23`) with address, port and node name
drawn. -/
def peerFactory (E : Env) (address : PStr) (port : Int) (name : PStr) (kw : Attrs) : Res Val := do
  let address ← given kw p!"address" (.ok (.str address))
  let port ← given kw p!"port" (.ok (.int port))
  let node ← given kw p!"node" (nodeFactory E name (subArgs p!"node" kw))
  mkFDict E .peer (.dict (([(p!"address", address), (p!"port", port), (p!"node", node)] ++
    extraArgs [p!"address", p!"port", p!"node"] kw).map fun kv => (.str kv.1, kv.2)))

/-- `FileInfoFactory(**kw)` (`factories/concents.py:21-27`). -/
def fileFactory (E : Env) (d : Draws) (path : List PStr) (kw : Attrs) : Res Val := do
  let name ← given kw p!"path" (.ok (.str (d.text (path ++ [p!"path"]))))
  let checksum ← given kw p!"checksum" (.ok (.str (p!"sha1:" ++ d.text (path ++ [p!"checksum"]))))
  let size ← given kw p!"size" (.ok (.int (d.num (path ++ [p!"size"]))))
  mkFDict E .fileInfo (.dict (([(p!"path", name), (p!"checksum", checksum), (p!"size", size)] ++
    extraArgs [p!"path", p!"checksum", p!"size"] kw).map fun kv => (.str kv.1, kv.2)))

/-- `factory.List` of files: arguments `0`, `0__path` etc. belong to the first element.
Arguments for elements that are not declared are not modelled. -/
def filesFactory (E : Env) (d : Draws) (path : List PStr) (kw : Attrs) :
    Nat → List Attrs → Res (List Val)
  | _, [] => .ok []
  | i, args :: rest =>
    let index := Nat.toDigits 10 i
    match given kw index (fileFactory E d (path ++ [index]) (mergeArgs args (subArgs index kw))) with
    | .error e => .error e
    | .ok v =>
      match filesFactory E d path kw (i + 1) rest with
      | .error e => .error e
      | .ok vs => .ok (v :: vs)

/-- A factory of messages as it is called by others: place, class, declaration of `files`,
arguments. -/
abbrev Maker := List PStr → Cls → Option (List Attrs) → Attrs → Res Msg

/-- The value for a declaration, with the arguments for its name. -/
def Decl.value (E : Env) (d : Draws) (make : Maker) (path : List PStr) (kw : Attrs) : Decl → Res Val
  | .const v => .ok v
  | .text start => .ok (.str (start ++ d.text path))
  | .num => .ok (.int (d.num path))
  | .bytes => .ok (.bytes (d.bytes path))
  | .choice e => .ok (.enum e (d.member path e))
  | .now => .ok (.int (d.now path))
  | .key => (encodeHex (.bytes (d.bytes path))).map .str
  | .node => nodeFactory E (d.text path) kw
  | .files each => (filesFactory E d path kw 0 each).map .list
  | .message c args other => (make path c other (mergeArgs args kw)).map Msg.val

/-- The fields for all declarations. -/
def declared (E : Env) (d : Draws) (make : Maker) (path : List PStr) (kw : Attrs) :
    List (PStr × Decl) → Res Attrs
  | [] => .ok []
  | (n, dcl) :: rest =>
    match given kw n (dcl.value E d make (path ++ [n]) (subArgs n kw)) with
    | .error e => .error e
    | .ok v =>
      match declared E d make path kw rest with
      | .error e => .error e
      | .ok vs => .ok ((n, v) :: vs)

/-- As many messages as asked for. -/
def makeMany (make : Maker) (path : List PStr) (c : Cls) (kw : Attrs) : Nat → Nat → Res (List Val)
  | _, 0 => .ok []
  | i, n + 1 =>
    match make (path ++ [Nat.toDigits 10 i]) c none kw with
    | .error e => .error e
    | .ok m =>
      match makeMany make path c kw (i + 1) n with
      | .error e => .error e
      | .ok ms => .ok (m.val :: ms)

/-- `range(n)`: how many rounds. -/
def rounds : Val → Res Nat
  | .int n => .ok n.toNat
  | .bool b => .ok b.toNat
  | _ => .error .typeError

/-- `setattr(obj, field, v)`. -/
def Msg.set (m : Msg) (field : PStr) (v : Val) : Msg := { m with attrs := setName field v m.attrs }

/-- What the hook of this name does to the message (`factories/helpers.py:41-67` for `optional`,
`factories/concents.py:45-61, 186-210, 252-267, 354-363` for the others), called with the create
strategy. -/
def Hook.run (E : Env) (G : Getter) (d : Draws) (make : Maker) (path : List PStr) (name : PStr)
    (kw : Attrs) (m : Msg) : Hook → Res Msg
  | .optional c =>
    let args := subArgs name kw
    let rest := args.filter fun kv => kv.1 != p!"_generate"
    if rest ≠ [] ∨ (getAttr args p!"_generate").truthy then
      match make (path ++ [name]) c none rest with
      | .error e => .error e
      | .ok x => .ok (m.set name x.val)
    else .ok (m.set name (getAttr kw name))
  | .operation member =>
    if (getAttr kw name).truthy then .ok (m.set p!"operation" (.enum .ftOperation member)) else .ok m
  | .generate c =>
    let args := subArgs name kw
    if (getAttr kw name).truthy then .ok (m.set name (getAttr kw name))
    else if args = [] then .ok m
    else
      match lookupName p!"generate" args with
      | none => .error .keyError
      | some g =>
        if g.truthy then
          match make (path ++ [name]) c none (args.filter fun kv => kv.1 != p!"generate") with
          | .error e => .error e
          | .ok x => .ok (m.set name x.val)
        else .ok m
  | .acceptedList =>
    let args := subArgs name kw
    let count := getAttr args p!"generate"
    if (getAttr kw name).truthy then .ok (m.set name (getAttr kw name))
    else if count.truthy then
      match rounds count with
      | .error e => .error e
      | .ok n =>
        match makeMany make (path ++ [name]) .SubtaskResultsAccepted
            (args.filter fun kv => kv.1 != p!"generate") 0 n with
        | .error e => .error e
        | .ok l => if l = [] then .ok m else .ok (m.set name (.list l))
    else .ok m
  | .sharedReport => verdictReport E G (d.now path) m (subArgs name kw)

/-- The hooks of a factory in order. -/
def runHooks (E : Env) (G : Getter) (d : Draws) (make : Maker) (path : List PStr) (kw : Attrs) :
    List (PStr × Hook) → Msg → Res Msg
  | [], m => .ok m
  | (name, hook) :: rest, m =>
    match hook.run E G d make path name kw m with
    | .error e => .error e
    | .ok m' => runHooks E G d make path kw rest m'

/-- Another declaration of `files`, if there is one. -/
def withFiles (files : Option (List Attrs)) (decls : List (PStr × Decl)) : List (PStr × Decl) :=
  match files with
  | none => decls
  | some each => decls.map fun nd => if nd.1 = p!"files" then (nd.1, .files each) else nd

/-- The names a factory declares. -/
def MsgFactory.roots (f : MsgFactory) : List PStr :=
  f.decls.map Prod.fst ++ p!"sign" :: f.hooks.map Prod.fst

/-- A call of a factory with recursion bound (`Cls.rank` is never exhausted: sub-factories make
messages for message slots). -/
def makeAt (E : Env) (G : Getter) (keccak : Bytes → Bytes) (d : Draws) : Nat → Maker
  | 0, _, _, _, _ => .error .recursionError
  | n + 1, path, c, files, kw =>
    if c = .TaskToCompute then taskFactory E G keccak (d.task path) kw
    else if c = .WantToComputeTask then offerFactory E G keccak (d.task path).offer kw
    else
      match c.factory with
      | none => .error .otherError
      | some f =>
        match declared E d (makeAt E G keccak d n) path kw (withFiles files f.decls) with
        | .error e => .error e
        | .ok fields =>
          match newMessage E G (d.now path) c none .none .none false (fields ++ extraArgs f.roots kw) with
          | .error e => .error e
          | .ok m =>
            match signHook E kw m with
            | .error e => .error e
            | .ok m => runHooks E G d (makeAt E G keccak d n) path kw f.hooks m

/-- `CFactory(**kw)`. -/
def make (E : Env) (G : Getter) (keccak : Bytes → Bytes) (d : Draws) (c : Cls) (kw : Attrs) : Res Msg :=
  makeAt E G keccak d maxDepth [] c none kw

/-! ### Class methods that call the factory with further arguments -/

/-- `name=value` in a call that also passes `**kw`. -/
def addArg (name : PStr) (v : Val) (kw : Attrs) : Res Attrs :=
  if (lookupName name kw).isSome then .error .typeError else .ok (kw ++ [(name, v)])

/-- The class methods of the factories. -/
inductive Variant where
  | withTaskToCompute | withTaskFailure | withCannotComputeTask
  | originAcceptanceTimeout | originResultsRejected
  | withAccepted | withRejected
  | premature | tooLate
  | withAcceptedTasks
  | toProvider | toRequestor
  | withAck | withReject
  deriving DecidableEq, Repr

/-- The class that a class method makes a message of. -/
def Variant.cls : Variant → Cls
  | .withTaskToCompute | .withTaskFailure | .withCannotComputeTask => .RejectReportComputedTask
  | .originAcceptanceTimeout | .originResultsRejected => .SubtaskResultsSettled
  | .withAccepted | .withRejected => .ForceSubtaskResultsResponse
  | .premature | .tooLate => .ForceSubtaskResultsRejected
  | .withAcceptedTasks => .ForcePayment
  | .toProvider | .toRequestor => .ForcePaymentCommitted
  | .withAck | .withReject => .ForceReportComputedTaskResponse

/-- The arguments with which a class method calls its factory. -/
def Variant.args (kw : Attrs) : Variant → Res Attrs
  | .withTaskToCompute =>  -- factories/tasks.py:290-296
    addArg p!"attached_task_to_compute___generate" (.bool true)
      (fillArg [p!"reason"] p!"reason" (.enum .rejectReportReason p!"SubtaskTimeLimitExceeded") kw)
  | .withTaskFailure =>  -- factories/tasks.py:298-304
    addArg p!"task_failure___generate" (.bool true)
      (fillArg [p!"reason"] p!"reason" (.enum .rejectReportReason p!"GotMessageTaskFailure") kw)
  | .withCannotComputeTask =>  -- factories/tasks.py:306-312
    addArg p!"cannot_compute_task___generate" (.bool true)
      (fillArg [p!"reason"] p!"reason" (.enum .rejectReportReason p!"GotMessageCannotComputeTask") kw)
  | .originAcceptanceTimeout =>  -- factories/concents.py:105-109
    .ok (setName p!"origin" (.enum .settledOrigin p!"results_accepted_timeout") kw)
  | .originResultsRejected =>  -- factories/concents.py:111-115
    .ok (setName p!"origin" (.enum .settledOrigin p!"results_rejected") kw)
  | .withAccepted =>  -- factories/concents.py:170-174
    .ok (if (lookupName p!"subtask_results_accepted" kw).isSome then kw
      else setName p!"subtask_results_accepted__generate" (.bool true) kw)
  | .withRejected =>  -- factories/concents.py:176-180
    .ok (if (lookupName p!"subtask_results_rejected" kw).isSome then kw
      else setName p!"subtask_results_rejected__generate" (.bool true) kw)
  | .premature =>  -- factories/concents.py:228-232
    .ok (setName p!"reason"
      (.enum .fsrRejectedReason p!"premature: still within the verification timeout") kw)
  | .tooLate =>  -- factories/concents.py:234-238
    .ok (setName p!"reason"
      (.enum .fsrRejectedReason p!"too late: past the forced communication timeout") kw)
  | .withAcceptedTasks =>  -- factories/concents.py:245-248
    .ok (setName p!"subtask_results_accepted_list__generate" (.int 1) kw)
  | .toProvider =>  -- factories/concents.py:283-287
    .ok (setName p!"recipient_type" (.enum .forcePaymentActor p!"provider") kw)
  | .toRequestor =>  -- factories/concents.py:289-293
    .ok (setName p!"recipient_type" (.enum .forcePaymentActor p!"requestor") kw)
  | .withAck =>  -- factories/concents.py:320-327
    addArg p!"ack_report_computed_task___generate" (.bool true)
      (fillArg [p!"reason"] p!"reason" (.enum .frctResponseReason p!"ack_from_requestor") kw)
  | .withReject =>  -- factories/concents.py:329-339 (the reason is set if it is given)
    match addArg p!"reject_report_computed_task___generate" (.bool true)
        (if (lookupName p!"reason" kw).isSome then
          setName p!"reason" (.enum .frctResponseReason p!"reject_from_requestor") kw else kw) with
    | .error e => .error e
    | .ok kw => addArg p!"reject_report_computed_task__attached_task_to_compute___generate"
        (.bool true) kw

/-- A class method called with arguments. -/
def makeVariant (E : Env) (G : Getter) (keccak : Bytes → Bytes) (d : Draws) (v : Variant) (kw : Attrs) :
    Res Msg :=
  match v.args kw with
  | .error e => .error e
  | .ok kw => make E G keccak d v.cls kw

end Verif
