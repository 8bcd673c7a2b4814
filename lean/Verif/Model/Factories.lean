import Verif.Model.Construct
import Verif.Model.Address
import Verif.Model.Tasks
/-!
# Factories of messages (`factories/`)

What `factory_boy` does with a declaration is modelled as follows: a keyword argument replaces the
declaration of its name; an argument `name__rest` goes to the sub-factory or to the hook `name` as
`rest`; other arguments go to the constructor; hooks run after construction in the order of their
declaration, those of the base class first.  Everything drawn at random (`faker`, new key pairs) and
the clock are parameters.
-/

namespace Verif

/-- `fake_golem_uuid(node_id)` (`factories/helpers.py:70-84`): the random UUID `u` with its last 48
bits replaced. -/
def fakeGolemUuid (u : Nat) (nodeId : Val) : Res PStr :=
  match decodeHex nodeId with
  | .error e => .error e
  | .ok seed => .ok (uuidText (u / 2 ^ 48 * 2 ^ 48 + seedToNode seed))

/-- `fake_version()` (`factories/helpers.py:86-91`) with the three numbers drawn. -/
def fakeVersion (major minor patch : Nat) : PStr :=
  Nat.toDigits 10 major ++ '.' :: Nat.toDigits 10 minor ++ '.' :: Nat.toDigits 10 patch

/-- The given argument, or else what the declaration says. -/
def given (kw : Attrs) (name : PStr) (default : Res Val) : Res Val :=
  match lookupName name kw with
  | some v => .ok v
  | none => default

/-- The arguments for the sub-factory or hook of this name. -/
def subArgs (name : PStr) (kw : Attrs) : Attrs :=
  kw.filterMap fun kv =>
    if (name ++ p!"__").isPrefixOf kv.1 then some (kv.1.drop (name.length + 2), kv.2) else none

/-- The arguments for the constructor that no declaration mentions; `roots` are the names of
declarations and hooks. -/
def extraArgs (roots : List PStr) (kw : Attrs) : Attrs :=
  kw.filter fun kv => roots.all fun r => kv.1 != r && !(r ++ p!"__").isPrefixOf kv.1

/-- The private key among the arguments of a `sign` hook (`factories/helpers.py:104-114`,
`factories/datastructures/tasks.py:45-54`): another argument is an error of `factory_boy`, an empty
key is none. -/
def signArg (kw : Attrs) : Res (Option Bytes) :=
  let args := subArgs p!"sign" kw
  if args.any fun kv => kv.1 != p!"privkey" then .error .otherError
  else
    match getAttr args p!"privkey" with
    | .bytes [] => .ok none
    | .bytes b => .ok (some b)
    | .none => .ok none
    | _ => .error .typeError

/-- `MessageFactory.sign` (`factories/helpers.py:102-121`). -/
def signHook (E : Env) (kw : Attrs) (m : Msg) : Res Msg := do
  match ← signArg kw with
  | none => .ok m
  | some priv => m.signMessage E priv

/-- What is drawn for a task header. -/
structure HeaderDraw where
  key : Bytes
  mask : Bytes
  now : Int
  uuid : Nat
  nodeName : PStr
  timeout : Int
  version : Nat × Nat × Nat
  memory : Int
  maxPrice : Int
  budget : Int
  count : Int

/-- `Node(key=key).to_dict()` with the factory of nodes
(`factories/datastructures/p2p.py:8-14`). -/
def fakeOwner (E : Env) (name : PStr) (key : Val) : Res Val := do
  toDict (← mkCont E .node (.dict [(.str p!"key", key), (.str p!"node_name", .str name)]))

/-- The names `TaskHeaderFactory` declares. -/
def headerRoots : List PStr :=
  [p!"requestor_public_key", p!"mask", p!"timestamp", p!"task_id", p!"market_type", p!"task_owner",
   p!"deadline", p!"subtask_timeout", p!"environment", p!"min_version", p!"estimated_memory",
   p!"max_price", p!"subtask_budget", p!"subtasks_count", p!"sign"]

/-- `TaskHeaderFactory(**kw)` (`factories/datastructures/tasks.py:17-54`). -/
def headerFactory (E : Env) (d : HeaderDraw) (kw : Attrs) : Res Val := do
  let key ← given kw p!"requestor_public_key" ((encodeHex (.bytes d.key)).map .str)
  let mask ← given kw p!"mask" (.ok (.bytes d.mask))
  let timestamp ← given kw p!"timestamp" (.ok (.int d.now))
  let taskId ← given kw p!"task_id" ((fakeGolemUuid d.uuid key).map .str)
  let market ← given kw p!"market_type" (.ok (.enum .marketType p!"Brass"))
  let owner ← given kw p!"task_owner" (fakeOwner E d.nodeName key)
  let deadline ← given kw p!"deadline" (.ok (.int (d.now + 3600)))
  let timeout ← given kw p!"subtask_timeout" (.ok (.int d.timeout))
  let env ← given kw p!"environment" (.ok (.str p!"DEFAULT"))
  let version ← given kw p!"min_version"
    (.ok (.str (fakeVersion d.version.1 d.version.2.1 d.version.2.2)))
  let memory ← given kw p!"estimated_memory" (.ok (.int d.memory))
  let price ← given kw p!"max_price" (.ok (.int d.maxPrice))
  let budget ← given kw p!"subtask_budget" (.ok (.int d.budget))
  let count ← given kw p!"subtasks_count" (.ok (.int d.count))
  let fields : Attrs :=
    [(p!"mask", mask), (p!"timestamp", timestamp), (p!"task_id", taskId), (p!"market_type", market),
     (p!"task_owner", owner), (p!"deadline", deadline), (p!"subtask_timeout", timeout),
     (p!"environment", env), (p!"min_version", version), (p!"estimated_memory", memory),
     (p!"max_price", price), (p!"subtask_budget", budget), (p!"subtasks_count", count)]
  let header ← mkCont E .taskHeader
    (.dict ((fields ++ extraArgs headerRoots kw).map fun kv => (.str kv.1, kv.2)))
  match header, ← signArg kw with
  | .cont .taskHeader fs, some priv => (headerSign E fs priv).map (.cont .taskHeader)
  | h, _ => .ok h

/-- What is drawn for an offer: the provider's new key, the header, the clock. -/
structure OfferDraw where
  key : Bytes
  header : HeaderDraw
  now : Int

/-- The names `WantToComputeTaskFactory` declares. -/
def offerRoots : List PStr :=
  [p!"provider_public_key", p!"provider_ethereum_address", p!"task_header", p!"price", p!"sign"]

/-- `WantToComputeTaskFactory(**kw)` (`factories/tasks.py:20-36`).  The price is the float
`0.1 * 10 ** 18`. -/
def offerFactory (E : Env) (G : Getter) (keccak : Bytes → Bytes) (d : OfferDraw) (kw : Attrs) :
    Res Msg := do
  let key ← given kw p!"provider_public_key" ((encodeHex (.bytes d.key)).map .str)
  let address ← given kw p!"provider_ethereum_address" ((pubkeyToAddress keccak key).map .str)
  let header ← given kw p!"task_header" (headerFactory E d.header (subArgs p!"task_header" kw))
  let price ← given kw p!"price" (.ok (.float 0x4376345785D8A000))
  let m ← newMessage E G d.now .WantToComputeTask none .none .none false
    ([(p!"provider_public_key", key), (p!"provider_ethereum_address", address),
      (p!"task_header", header), (p!"price", price)] ++ extraArgs offerRoots kw)
  signHook E kw m

/-- What is drawn for a task definition. -/
structure DefDraw where
  taskId : PStr
  subtaskId : PStr
  resource : PStr
  now : Int

/-- `CTDBlenderExtraDataFactory()` (`factories/tasks.py:39-51`). -/
def blenderExtra : Attrs :=
  [(p!"path_root", .str []), (p!"start_task", .int 1), (p!"end_task", .int 1),
   (p!"total_tasks", .int 1), (p!"outfilebasename", .str p!"test task"),
   (p!"scene_file", .str p!"/golem/resources/look_to_windward.blend"),
   (p!"script_src", .str p!"pass"), (p!"frames", .list [.int 1]), (p!"output_format", .str p!"PNG")]

/-- The names `ComputeTaskDefFactory` declares. -/
def defRoots : List PStr := [p!"task_id", p!"subtask_id", p!"deadline", p!"extra_data", p!"resources"]

/-- `ComputeTaskDefFactory(**kw)` (`factories/tasks.py:54-64`).  Arguments `extra_data__...` and
`resources__...` are not modelled. -/
def defFactory (E : Env) (d : DefDraw) (kw : Attrs) : Res Val := do
  let taskId ← given kw p!"task_id" (.ok (.str d.taskId))
  let subtaskId ← given kw p!"subtask_id" (.ok (.str d.subtaskId))
  let deadline ← given kw p!"deadline" (.ok (.int (d.now + 86400)))
  let extra ← given kw p!"extra_data" (.ok (.dict (blenderExtra.map fun kv => (.str kv.1, kv.2))))
  let resources ← given kw p!"resources" (.ok (.list [.str d.resource]))
  mkFDict E .computeTaskDef (.dict (([(p!"task_id", taskId), (p!"subtask_id", subtaskId),
    (p!"deadline", deadline), (p!"extra_data", extra), (p!"resources", resources)] ++
      extraArgs defRoots kw).map fun kv => (.str kv.1, kv.2)))

/-- What is drawn for a `TaskToCompute`: the requestor's new key, a new ethereum key pair (private,
public), two UUIDs, and the rest. -/
structure TaskDraw where
  key : Bytes
  eth : Bytes × Bytes
  offer : OfferDraw
  definition : DefDraw
  uuid1 : Nat
  uuid2 : Nat
  package : PStr
  size : Int
  price : Int
  now : Int

/-- The names `TaskToComputeFactory` declares. -/
def taskRoots : List PStr :=
  [p!"requestor_id", p!"provider_id", p!"compute_task_def", p!"requestor_public_key",
   p!"want_to_compute_task", p!"package_hash", p!"size", p!"price", p!"resources_options", p!"task_id",
   p!"subtask_id", p!"ethsig", p!"sign"]

/-- `ttc.compute_task_def[key] = value`. -/
def setDef (E : Env) (m : Msg) (key : PStr) (v : Val) : Res Msg :=
  match getAttr m.attrs p!"compute_task_def" with
  | .fdict c items =>
    match fdSetV E (fdConv E c) c items (.str key) v with
    | .error e => .error e
    | .ok items' => .ok { m with attrs := setName p!"compute_task_def" (.fdict c items') m.attrs }
  | .dict d => .ok { m with attrs := setName p!"compute_task_def" (.dict (dictSet (.str key) v d)) m.attrs }
  | _ => .error .typeError

/-- The owner's key and the id of the task in the header of the offer, if there are such objects
(`factories/tasks.py:170-173`, under `suppress(AttributeError)`). -/
def offeredTask (m : Msg) : Option (Val × Val) :=
  match getAttr m.attrs p!"want_to_compute_task" with
  | .msg _ _ _ _ _ attrs =>
    match getAttr attrs p!"task_header" with
    | .cont .taskHeader fs =>
      match getAttr fs p!"task_owner" with
      | .cont .node ns => some (getAttr ns p!"key", getAttr fs p!"task_id")
      | _ => none
    | _ => none
  | _ => none

/-- The `task_id` hook (`factories/tasks.py:160-180`). -/
def taskIdHook (E : Env) (u : Nat) (kw : Attrs) (m : Msg) : Res Msg := do
  if getAttr m.attrs p!"compute_task_def" = .none then .ok m
  else
    let offered := match offeredTask m with
      | some (key, id) => if pyEq (getAttr m.attrs p!"requestor_id") key then id else .none
      | none => .none
    let extracted := getAttr kw p!"task_id"
    let id := if extracted.truthy then extracted else offered
    let id ← if id.truthy then .ok id
      else (fakeGolemUuid u (getAttr m.attrs p!"requestor_id")).map .str
    setDef E m p!"task_id" id

/-- The `subtask_id` hook (`factories/tasks.py:182-193`). -/
def subtaskIdHook (E : Env) (u : Nat) (kw : Attrs) (m : Msg) : Res Msg := do
  if getAttr m.attrs p!"compute_task_def" = .none then .ok m
  else
    let extracted := getAttr kw p!"subtask_id"
    let id ← if extracted.truthy then .ok extracted
      else (fakeGolemUuid u (getAttr m.attrs p!"requestor_id")).map .str
    setDef E m p!"subtask_id" id

/-- The `ethsig` hook (`factories/tasks.py:195-226`).  `eth` is the pair in the argument
`ethsig__keys`, else the one drawn; what that argument must be is in `ethsigKeys`. -/
def ethsigHook (E : Env) (eth : Bytes × Bytes) (kw : Attrs) (m : Msg) : Res Msg := do
  let args := subArgs p!"ethsig" kw
  let priv ← match getAttr args p!"privkey" with
    | .bytes b => .ok b
    | .none => .ok []
    | _ => .error .typeError
  let disable := (getAttr args p!"disable").truthy
  if priv ≠ [] ∧ disable then .error .otherError
  else if disable then .ok m
  else if priv = [] ∧ !(getAttr m.attrs p!"requestor_ethereum_public_key").truthy then
    let pub ← encodeHex (.bytes eth.2)
    let m := { m with attrs := setName p!"requestor_ethereum_public_key" (.str pub) m.attrs }
    if eth.1 = [] then .ok m else generateEthsig E m eth.1
  else if priv = [] then .ok m
  else generateEthsig E m priv

/-- The message `TaskToComputeFactory(**kw)` makes, once the arguments of its hooks are accepted
(`factories/tasks.py:67-235`). -/
def taskMade (E : Env) (G : Getter) (keccak : Bytes → Bytes) (d : TaskDraw) (kw : Attrs) :
    Res Msg := do
  let requestorKey ← given kw p!"requestor_public_key" ((encodeHex (.bytes d.key)).map .str)
  let requestorId ← given kw p!"requestor_id" (.ok requestorKey)
  let offer ← given kw p!"want_to_compute_task"
    ((offerFactory E G keccak d.offer (subArgs p!"want_to_compute_task" kw)).map Msg.val)
  let providerId ← given kw p!"provider_id" (attrOf offer p!"provider_public_key")
  let definition ← given kw p!"compute_task_def"
    (defFactory E d.definition (subArgs p!"compute_task_def" kw))
  let package ← given kw p!"package_hash" (.ok (.str (p!"sha1:" ++ d.package)))
  let size ← given kw p!"size" (.ok (.int d.size))
  let price ← given kw p!"price" (.ok (.int d.price))
  let options ← given kw p!"resources_options" (.ok .none)
  let m ← newMessage E G d.now .TaskToCompute none .none .none false
    ([(p!"requestor_id", requestorId), (p!"provider_id", providerId),
      (p!"compute_task_def", definition), (p!"requestor_public_key", requestorKey),
      (p!"want_to_compute_task", offer), (p!"package_hash", package), (p!"size", size),
      (p!"price", price), (p!"resources_options", options)] ++ extraArgs taskRoots kw)
  let m ← taskIdHook E d.uuid1 kw m
  let m ← subtaskIdHook E d.uuid2 kw m
  let m ← ethsigHook E d.eth kw m
  signHook E kw m

/-- The pair in the argument `ethsig__keys` (`factories/tasks.py:195-213`), if there is one.  An
`ECCx` is the tuple of its private and its public key; as an object without `__bool__` it is true.
The hook takes the arguments `privkey`, `keys` and `disable` only: any other is a `TypeError`. -/
def ethsigKeys (kw : Attrs) : Res (Option (Bytes × Bytes)) :=
  let args := subArgs p!"ethsig" kw
  if (args.any fun kv => !([p!"privkey", p!"keys", p!"disable"].contains kv.1)) then .error .typeError
  else
    let keys := getAttr args p!"keys"
    if !keys.truthy then .ok none
    else if (getAttr args p!"disable").truthy then .error .otherError
    else if (getAttr args p!"privkey").truthy then .error .otherError
    else
      match keys with
      | .tuple [.bytes priv, .bytes pub] => .ok (some (priv, pub))
      | _ => .error .attributeError

/-- `TaskToComputeFactory(**kw)` (`factories/tasks.py:67-235`).  The hooks `task_id` and `subtask_id`
take no arguments of their own.  The arguments of the hooks are looked at first here, and by the
hooks, after the message was made, in the code: when there are several mistakes, another one may be
reported. -/
def taskFactory (E : Env) (G : Getter) (keccak : Bytes → Bytes) (d : TaskDraw) (kw : Attrs) :
    Res Msg :=
  if subArgs p!"task_id" kw ≠ [] ∨ subArgs p!"subtask_id" kw ≠ [] then .error .typeError
  else
    match ethsigKeys kw with
    | .error e => .error e
    | .ok none => taskMade E G keccak d kw
    | .ok (some keys) => taskMade E G keccak { d with eth := keys } kw

/-- `kwargs[name] = value` unless one of the names is given. -/
def fillArg (others : List PStr) (name : PStr) (v : Val) (kw : Attrs) : Attrs :=
  if others.any fun n => (lookupName n kw).isSome then kw else setName name v kw

/-- The arguments `with_signed_nested_messages` adds for the requestor's key pair (private, public)
(`factories/tasks.py:99-126`). -/
def requestorArgs (keys : Option (Bytes × Bytes)) (kw : Attrs) : Res Attrs :=
  match keys with
  | none => .ok kw
  | some (priv, pub) =>
    match encodeHex (.bytes pub) with
    | .error e => .error e
    | .ok key =>
      let kw := fillArg [p!"requestor_public_key"] p!"requestor_public_key" (.str key) kw
      let kw := fillArg [p!"sign__privkey"] p!"sign__privkey" (.bytes priv) kw
      let kw := fillArg [p!"want_to_compute_task__task_header",
          p!"want_to_compute_task__task_header__requestor_public_key"]
        p!"want_to_compute_task__task_header__requestor_public_key" (.str key) kw
      .ok (fillArg [p!"want_to_compute_task__task_header",
          p!"want_to_compute_task__task_header__sign__privkey"]
        p!"want_to_compute_task__task_header__sign__privkey" (.bytes priv) kw)

/-- Those for the provider's key pair (`factories/tasks.py:128-145`). -/
def providerArgs (keys : Option (Bytes × Bytes)) (kw : Attrs) : Res Attrs :=
  match keys with
  | none => .ok kw
  | some (priv, pub) =>
    let key : Res PStr :=
      if [p!"want_to_compute_task", p!"want_to_compute_task__provider_public_key"].any
        fun n => (lookupName n kw).isSome then .ok [] else encodeHex (.bytes pub)
    match key with
    | .error e => .error e
    | .ok key =>
      let kw := fillArg [p!"want_to_compute_task", p!"want_to_compute_task__provider_public_key"]
        p!"want_to_compute_task__provider_public_key" (.str key) kw
      .ok (fillArg [p!"want_to_compute_task", p!"want_to_compute_task__sign__privkey"]
        p!"want_to_compute_task__sign__privkey" (.bytes priv) kw)

/-- All arguments `with_signed_nested_messages` makes (`factories/tasks.py:97-145`). -/
def signedArgs (requestor provider : Option (Bytes × Bytes)) (kw : Attrs) : Res Attrs :=
  match requestorArgs requestor kw with
  | .error e => .error e
  | .ok kw => providerArgs provider kw

/-- `TaskToComputeFactory.with_signed_nested_messages(requestor_keys, provider_keys, **kw)`
(`factories/tasks.py:84-147`). -/
def signedTask (E : Env) (G : Getter) (keccak : Bytes → Bytes) (d : TaskDraw)
    (requestor provider : Option (Bytes × Bytes)) (kw : Attrs) : Res Msg := do
  taskFactory E G keccak d (← signedArgs requestor provider kw)

/-- `TaskToComputeFactory.past_deadline(**kw)` (`factories/tasks.py:149-156`). -/
def pastDeadlineTask (E : Env) (G : Getter) (keccak : Bytes → Bytes) (d : TaskDraw) (now : Int)
    (kw : Attrs) : Res Msg :=
  taskFactory E G keccak d (setName p!"compute_task_def__deadline" (.int (now - 86400)) kw)

end Verif
