import Verif.Model.Validators
/-!
# Containers and frozen dictionaries

`datastructures/__init__.py:20-171`, `datastructures/p2p.py`, `datastructures/stats.py`,
`datastructures/tasks.py`, `message/tasks.py:22-47` (ComputeTaskDef),
`message/concents.py:156-178` (FileInfo).
-/

set_option linter.unusedSimpArgs false

namespace Verif

/-- Convert an exception as `Container.__init__` and `Message.__init__` do:
`FieldError` is re-raised, everything else becomes `MessageError`
(`datastructures/__init__.py:109-115`, `message/base.py:108-113`). -/
def wrapLoad {α : Type _} (r : Res α) : Res α :=
  match r with
  | .ok a => .ok a
  | .error (.fieldError f) => .error (.fieldError f)
  | .error _ => .error .messageError

/-! ### Keyword arguments -/

/-- The `(name, value)` pairs of a mapping with text keys. -/
def textKeys : List (Val × Val) → Option (List (PStr × Val))
  | [] => some []
  | (.str k, v) :: rest =>
    match textKeys rest with
    | some r => some ((k, v) :: r)
    | Option.none => Option.none
  | _ :: _ => Option.none

/-- `f(**value)` where `f(self, **kwargs)`: `TypeError` unless `value` is a mapping with
text keys different from `self`. -/
def kwargsOf (v : Val) : Res (List (PStr × Val)) :=
  match v.asDict with
  | Option.none => .error .typeError
  | some d =>
    match textKeys d with
    | Option.none => .error .typeError
    | some kw => if (lookupName p!"self" kw).isSome then .error .typeError else .ok kw

/-! ### Frozen dictionaries -/

/-- `ITEMS` of the frozen dictionaries: declared keys with defaults, in order. -/
def FDictId.items : FDictId → List (PStr × Val)
  | .computeTaskDef =>  -- message/tasks.py:24-35
    [(p!"task_id", .str []), (p!"subtask_id", .str []), (p!"deadline", .int 0),
     (p!"extra_data", .dict []), (p!"performance", .int 0), (p!"docker_images", .none),
     (p!"resources", .list [])]
  | .fileInfo =>  -- message/concents.py:164-169
    [(p!"path", .str []), (p!"checksum", .str []), (p!"size", .int 0),
     (p!"category", .enum .ftCategory p!"results")]
  | .peer =>  -- datastructures/p2p.py:102-106
    [(p!"address", .none), (p!"port", .none), (p!"node", .none)]
  | .cpuUsage =>  -- datastructures/stats.py:41-46
    [(p!"percpu_usage", .list []), (p!"total_usage", .int 0), (p!"usage_in_kernelmode", .int 0),
     (p!"usage_in_usermode", .int 0)]
  | .throttlingData =>  -- datastructures/stats.py:51-58
    [(p!"periods", .int 0), (p!"throttled_periods", .int 0), (p!"throttled_time", .int 0)]
  | .blockIoEntry =>  -- datastructures/stats.py:10-15
    [(p!"major", .int 0), (p!"minor", .int 0), (p!"op", .none), (p!"value", .int 0)]
  | .memoryData =>  -- datastructures/stats.py:95-100
    [(p!"failcnt", .int 0), (p!"limit", .int 0), (p!"max_usage", .int 0), (p!"usage", .int 0)]

/-- `validate_<key>` of the validating dictionaries (`message/tasks.py:37-47`,
`message/concents.py:171-178`, `datastructures/p2p.py:114-133`).  Each raises a `FieldError` naming its key. -/
def fdValidate (E : Env) (c : FDictId) (key : PStr) (v : Val) : Res Unit :=
  match c with
  | .computeTaskDef =>
    if key = p!"task_id" ∨ key = p!"subtask_id" then (Validator.varchar (some 128)).run E key v
    else .ok ()
  | .fileInfo =>
    if key = p!"category" then
      match v with
      | .enum .ftCategory s =>
        if s ∈ EnumId.ftCategory.values then .ok () else .error (.fieldError key)
      | _ => .error (.fieldError key)
    else .ok ()
  | .peer =>
    if key = p!"address" then Validator.ipaddress.run E key v
    else if key = p!"port" then Validator.port.run E key v
    else if key = p!"node" then
      match v with
      | .cont .node _ => .ok ()
      | _ => .error (.fieldError key)
    else .ok ()
  | _ => .ok ()

/-- `self[key] = value` for a text key, except the conversion done by `Peer`:
the validator runs first (`datastructures/__init__.py:76-84`), then the key check of
`FrozenDict` (`datastructures/__init__.py:56-59`). -/
def fdSet (E : Env) (c : FDictId) (items : Attrs) (key : PStr) (v : Val) : Res Attrs :=
  match fdValidate E c key v with
  | .error e => .error e
  | .ok _ =>
    if (lookupName key c.items).isSome then .ok (setName key v items) else .error .keyError

/-- `self[key] = value` for any key: a key that is not text has no validator, and is an
unknown key (`KeyError`) or unhashable (`TypeError`).  Simplification: so are members of string enums,
which equal their text (`FileInfo.Category.resources` is a key of a `ComputeTaskDef`). -/
def fdSetV (E : Env) (conv : PStr → Val → Res Val) (c : FDictId) (items : Attrs) (key v : Val) :
    Res Attrs :=
  match key with
  | .str k =>
    match conv k v with
    | .error e => .error e
    | .ok v' => fdSet E c items k v'
  | _ => if key.hashable then .error .keyError else .error .typeError

/-- The assignments made by `SetItemDict.__init__` (`datastructures/__init__.py:25-35`). -/
def fdSetAll (E : Env) (conv : PStr → Val → Res Val) (c : FDictId) :
    Attrs → List (Val × Val) → Res Attrs
  | items, [] => .ok items
  | items, (k, v) :: rest =>
    match fdSetV E conv c items k v with
    | .error e => .error e
    | .ok items' => fdSetAll E conv c items' rest

/-- `FrozenDict._set_defaults` (`datastructures/__init__.py:47-50`). -/
def fdDefaults (E : Env) (conv : PStr → Val → Res Val) (c : FDictId) :
    Attrs → List (PStr × Val) → Res Attrs
  | items, [] => .ok items
  | items, (k, v) :: rest =>
    if (lookupName k items).isSome then fdDefaults E conv c items rest
    else
      match fdSetV E conv c items (.str k) v with
      | .error e => .error e
      | .ok items' => fdDefaults E conv c items' rest

/-- The pairs `for key, value in x` iterates over: `TypeError` if `x` or an element is
not iterable, `ValueError` if an element does not have two items. -/
def pairsOf : List Val → Res (List (Val × Val))
  | [] => .ok []
  | x :: xs =>
    match x.iter with
    | some [k, v] =>
      match pairsOf xs with
      | .ok r => .ok ((k, v) :: r)
      | .error e => .error e
    | some _ => .error .valueError
    | Option.none => .error .typeError

/-- The argument of `SetItemDict.__init__` as pairs (`datastructures/__init__.py:25-33`). -/
def fdArg (v : Val) : Res (List (Val × Val)) :=
  match v.asDict with
  | some d => .ok d
  | Option.none =>
    match v.iter with
    | Option.none => .error .typeError
    | some l => pairsOf l

/-- The pairs in front of the first element that is not a pair. -/
def pairsBefore : List Val → List (Val × Val)
  | [] => []
  | x :: xs =>
    match x.iter with
    | some [k, v] => (k, v) :: pairsBefore xs
    | _ => []

/-- What `SetItemDict.__init__` raises if its argument is not made of pairs
(`datastructures/__init__.py:31-33`): the pairs in front of the first other element are assigned,
and the error of an invalid assignment comes before `e`, the error of that element. -/
def fdArgError (E : Env) (conv : PStr → Val → Res Val) (c : FDictId) (v : Val) (e : Exc) : Exc :=
  match v.iter with
  | Option.none => e
  | some l =>
    match fdSetAll E conv c [] (pairsBefore l) with
    | .error e' => e'
    | .ok _ => e

/-- `C(value)` / `C(**kwargs)` for a frozen dictionary class, given the pairs. -/
def fdBuild (E : Env) (conv : PStr → Val → Res Val) (c : FDictId) (pairs : List (Val × Val)) :
    Res Val :=
  match fdSetAll E conv c [] pairs with
  | .error e => .error e
  | .ok items =>
    match fdDefaults E conv c items c.items with
    | .error e => .error e
    | .ok items' => .ok (.fdict c items')

/-- No conversion on assignment. -/
def noConv (_ : PStr) (v : Val) : Res Val := .ok v

/-! ### Containers -/

/-- `__slots__` of the container classes with their validators. -/
def ContId.slots : ContId → List (PStr × List Validator)
  | .node =>  -- datastructures/p2p.py:12-33
    [(p!"node_name", [.varchar Option.none]), (p!"key", [.varchar (some 128)]),
     (p!"prv_port", [.port]), (p!"pub_port", [.port]), (p!"p2p_prv_port", [.port]),
     (p!"p2p_pub_port", [.port]), (p!"prv_addr", [.ipaddress]), (p!"pub_addr", [.ipaddress]),
     (p!"prv_addresses", []), (p!"hyperdrive_prv_port", [.integer]),
     (p!"hyperdrive_pub_port", [.integer]), (p!"port_statuses", []), (p!"nat_type", [])]
  | .taskHeader =>  -- datastructures/tasks.py:28-88
    [(p!"mask", [.isBytes]), (p!"timestamp", [.integer]), (p!"signature", [.isBytes]),
     (p!"task_id", [.varchar (some 128)]), (p!"task_owner", [.isDictOr .node]),
     (p!"deadline", [.integer]), (p!"subtask_timeout", [.integer, .nonNegative]),
     (p!"market_type", []), (p!"environment", [.varchar (some 128)]),
     (p!"environment_prerequisites", [.dict]), (p!"min_version", [.version]),
     (p!"estimated_memory", [.integer]), (p!"max_price", [.integer]),
     (p!"subtask_budget", [.integer]), (p!"subtasks_count", [.integer, .positive]),
     (p!"concent_enabled", [.boolean])]
  | .blockIoStats =>  -- datastructures/stats.py:29-34
    [(p!"io_merged_recursive", [.dict]), (p!"io_queue_recursive", [.dict]),
     (p!"io_service_bytes_recursive", [.dict]), (p!"io_service_time_recursive", [.dict]),
     (p!"io_serviced_recursive", [.dict]), (p!"io_time_recursive", [.dict]),
     (p!"io_wait_time_recursive", [.dict]), (p!"sectors_recursive", [.dict])]
  | .cpuStats =>  -- datastructures/stats.py:65-72
    [(p!"cpu_usage", [.dict]), (p!"throttling_data", [.dict])]
  | .memoryStats =>  -- datastructures/stats.py:112-127
    [(p!"kernel_tcp_usage", [.dict]), (p!"kernel_usage", [.dict]), (p!"swap_usage", [.dict]),
     (p!"usage", [.dict]), (p!"cache", [.integer]), (p!"stats", [.dict]),
     (p!"use_hierarchy", [.boolean])]
  | .pidStats =>  -- datastructures/stats.py:132-139
    [(p!"current", [.integer]), (p!"limit", [.integer])]
  | .providerStats =>  -- datastructures/stats.py:149-178
    [(p!"blkio_stats", [.isDictOr .blockIoStats]), (p!"cpu_stats", [.isDictOr .cpuStats]),
     (p!"memory_stats", [.isDictOr .memoryStats]), (p!"pids_stats", [.isDictOr .pidStats])]

/-- `REQUIRED` (`datastructures/tasks.py:90-96`; empty elsewhere). -/
def ContId.required : ContId → List PStr
  | .taskHeader =>
    [p!"task_id", p!"task_owner", p!"subtasks_count", p!"min_version", p!"timestamp"]
  | _ => []

/-- `DEFAULTS` (`datastructures/p2p.py:35-39`; `None` elsewhere). -/
def ContId.default (c : ContId) (key : PStr) : Val :=
  match c with
  | .node =>
    if key = p!"prv_addresses" then .list []
    else if key = p!"port_statuses" then .dict []
    else if key = p!"nat_type" then .list []
    else .none
  | _ => .none

/-- `Container.deserialize_slot` (`datastructures/__init__.py:140-154`); `hook` is the
`deserialize_<key>` method (no method in the modelled classes raises `AttributeError`,
so the `except AttributeError` only skips missing methods). -/
def contDeser (E : Env) (hook : PStr → Val → Res Val) (c : ContId) (key : PStr)
    (vs : List Validator) (v : Val) : Res Val :=
  if v = .none ∧ key ∉ c.required then .ok v
  else
    match runAll E vs key v with
    | .error e => .error e
    | .ok _ => hook key v

/-- The value of one slot in `Container.load_slots` (`datastructures/__init__.py:119-131`). -/
def contField (E : Env) (hook : PStr → Val → Res Val) (c : ContId) (kw : Attrs) (key : PStr)
    (vs : List Validator) : Res Val :=
  match lookupName key kw with
  | Option.none => if key ∈ c.required then .error (.fieldError key) else .ok (c.default key)
  | some v => contDeser E hook c key vs v

/-- The loop over `__slots__` in `Container.load_slots`
(`datastructures/__init__.py:118-132`). -/
def contFields (E : Env) (hook : PStr → Val → Res Val) (c : ContId) (kw : Attrs) :
    List (PStr × List Validator) → Res Attrs
  | [] => .ok []
  | (key, vs) :: rest =>
    match contField E hook c kw key vs with
    | .error e => .error e
    | .ok v =>
      match contFields E hook c kw rest with
      | .error e => .error e
      | .ok r => .ok ((key, v) :: r)

/-- The first keyword that is not a declared slot (`datastructures/__init__.py:133-138`). -/
def firstUnknown (slots : List (PStr × List Validator)) : Attrs → Option PStr
  | [] => Option.none
  | (k, _) :: rest => if (lookupName k slots).isSome then firstUnknown slots rest else some k

/-- `Container.__init__` (`datastructures/__init__.py:109-138`). -/
def contBuild (E : Env) (hook : PStr → Val → Res Val) (c : ContId) (kw : Attrs) : Res Val :=
  wrapLoad <|
    match contFields E hook c kw c.slots with
    | .error e => .error e
    | .ok fs =>
      match firstUnknown c.slots kw with
      | some k => .error (.fieldError k)
      | Option.none => .ok (.cont c fs)

/-- `C(**value)` for a container class with the given hooks. -/
def contCall (E : Env) (hook : PStr → Val → Res Val) (c : ContId) (v : Val) : Res Val :=
  match kwargsOf v with
  | .error e => .error e
  | .ok kw => contBuild E hook c kw

/-- `C(**value)` for a frozen dictionary class without conversions. -/
def fdCall (E : Env) (c : FDictId) (v : Val) : Res Val :=
  match kwargsOf v with
  | .error e => .error e
  | .ok kw => fdBuild E noConv c (kw.map fun p => (.str p.1, p.2))

/-- `deserialize_<key>` of the containers that hold no other container
(`datastructures/stats.py:74-81` for `CpuStats`; the others have none). -/
def leafHook (E : Env) (c : ContId) (key : PStr) (v : Val) : Res Val :=
  match c with
  | .cpuStats =>
    if key = p!"cpu_usage" then (if v.truthy then fdCall E .cpuUsage v else .ok .none)
    else if key = p!"throttling_data" then
      (if v.truthy then fdCall E .throttlingData v else .ok .none)
    else .ok v
  | _ => .ok v

/-- `Node(**v)`, `BlockIoStats(**v)`, `CpuStats(**v)`, `MemoryStats(**v)`, `PidStats(**v)`. -/
def leafCall (E : Env) (c : ContId) (v : Val) : Res Val := contCall E (leafHook E c) c v

/-- The member classes of `ProviderStats` (`datastructures/stats.py:180-194`). -/
def statsClass (key : PStr) : Option ContId :=
  if key = p!"blkio_stats" then some .blockIoStats
  else if key = p!"cpu_stats" then some .cpuStats
  else if key = p!"memory_stats" then some .memoryStats
  else if key = p!"pids_stats" then some .pidStats
  else Option.none

/-- `deserialize_<key>` of all containers (`datastructures/tasks.py:98-106, 142-151`,
`datastructures/stats.py:180-194`). -/
def contHook (E : Env) (c : ContId) (key : PStr) (v : Val) : Res Val :=
  match c with
  | .taskHeader =>
    if key = p!"task_owner" then
      match v with
      | .cont .node _ => .ok v
      | _ => leafCall E .node v
    else if key = p!"mask" then
      match v with
      | .bytes b => .ok (.mask b)
      | _ => .ok v    -- unreachable: the validator accepts only bytes
    else if key = p!"market_type" then
      match EnumId.marketType.lookup v with
      | some m => .ok m
      | Option.none => .error (.fieldError p!"market_type")
    else .ok v
  | .providerStats =>
    match statsClass key with
    | some c' => if v.truthy then leafCall E c' v else .ok .none
    | Option.none => .ok v
  | c => leafHook E c key v

/-- `C(**v)` for any container class. -/
def mkCont (E : Env) (c : ContId) (v : Val) : Res Val := contCall E (contHook E c) c v

/-- `Peer.__setitem__` (`datastructures/p2p.py:108-112`): a `dict` node becomes a `Node`. -/
def peerConv (E : Env) (key : PStr) (v : Val) : Res Val :=
  if key = p!"node" ∧ v.asDict.isSome then leafCall E .node v else .ok v

/-- Conversion on item assignment. -/
def fdConv (E : Env) : FDictId → PStr → Val → Res Val
  | .peer => peerConv E
  | _ => noConv

/-- `C(value)` for any frozen dictionary class. -/
def mkFDict (E : Env) (c : FDictId) (v : Val) : Res Val :=
  match fdArg v with
  | .error e => .error (fdArgError E (fdConv E c) c v e)
  | .ok pairs => fdBuild E (fdConv E c) c pairs

/-! ### Conversion to dictionaries -/

/-- `x.value` for enum members (`datastructures/__init__.py:164-165`). -/
def Val.unEnum : Val → Val
  | .enum _ s => .str s
  | v => v

/-- Attributes whose `serialize_<key>` hook calls `value.to_dict()`
(`datastructures/tasks.py:134-136`, `datastructures/stats.py:196-210`). -/
def callsToDict : ContId → PStr → Bool
  | .taskHeader, k => k == p!"task_owner"
  | .providerStats, k => (statsClass k).isSome
  | _, _ => false

/-- One attribute that is not a container in `Container.to_dict`, with the
`serialize_<key>` hooks (`datastructures/tasks.py:134-140`,
`datastructures/stats.py:83-90, 196-210`).  Such a value has no `to_dict`; the
`AttributeError` leaves it as it is.  `int.to_bytes()` without arguments is a
`TypeError`. -/
def toDictLeaf (c : ContId) (k : PStr) (v : Val) : Res Val :=
  match c with
  | .taskHeader =>
    if k = p!"mask" then
      match v with
      | .mask b => .ok (.bytes b)
      | .int _ => .error .typeError
      | .bool _ => .error .typeError
      | _ => .ok v.unEnum
    else .ok v.unEnum
  | .providerStats =>
    if (statsClass k).isSome then (if v.truthy then .ok v.unEnum else .ok .none)
    else .ok v.unEnum
  | .cpuStats => if v.truthy then .ok v.unEnum else .ok .none
  | _ => .ok v.unEnum

mutual
/-- One attribute in `Container.to_dict` (`datastructures/__init__.py:163-170`). -/
def toDictV (c : ContId) (k : PStr) (v : Val) : Res Val :=
  match v with
  | .cont c' fs' =>
    if callsToDict c k then
      match toDictF c' fs' with
      | .error e => .error e
      | .ok d => .ok (.dict d)
    else .ok (.cont c' fs')
  | v => toDictLeaf c k v
termination_by structural v
/-- The loop of `Container.to_dict` (`datastructures/__init__.py:162-170`). -/
def toDictF (c : ContId) (fs : List (PStr × Val)) : Res (List (Val × Val)) :=
  match fs with
  | [] => .ok []
  | (k, v) :: rest =>
    match toDictV c k v with
    | .error e => .error e
    | .ok v' =>
      match toDictF c rest with
      | .error e => .error e
      | .ok r => .ok ((.str k, v') :: r)
termination_by structural fs
end

/-- `v.to_dict()`: `AttributeError` for anything but containers
(`datastructures/__init__.py:156-171`). -/
def toDict (v : Val) : Res Val :=
  match v with
  | .cont c fs =>
    match toDictF c fs with
    | .error e => .error e
    | .ok d => .ok (.dict d)
  | _ => .error .attributeError

end Verif
