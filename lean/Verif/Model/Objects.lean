import Verif.Model.Misc
/-!
# Objects and references

Lists, dictionaries, containers and messages are mutable objects: an attribute or an element is a
reference, and what is changed through one reference is changed for all.  The rest of the model
treats them as values.  This file models the sharing for the code that copies: the defaults of
frozen dictionaries (`datastructures/__init__.py:25-61`) and of nodes
(`datastructures/__init__.py:117-138`), and `copy_and_sign` (`utils.py:43-53`).
-/

namespace Verif

/-- A reference: to an immutable value, or to the mutable object of this number. -/
inductive Ref where
  | atom (v : Val)
  | obj (a : Nat)
  deriving DecidableEq, Repr

/-- What an object is apart from the references it holds.  The header and the signature of a message
are immutable values. -/
inductive Shape where
  | list
  | dict (keys : List Val)
  | fdict (c : FDictId) (names : List PStr)
  | cont (c : ContId) (names : List PStr)
  | msg (c : Cls) (ty ts enc sig : Val) (names : List PStr)
  deriving DecidableEq

/-- An object: its shape and the references to its elements, items or attributes, in order. -/
abbrev Obj := Shape × List Ref

/-- All objects; objects are never taken away (a reference keeps them alive). -/
abbrev Objects := List Obj

/-- The value of an object whose elements have these values. -/
def Shape.value : Shape → List Val → Val
  | .list, vs => .list vs
  | .dict keys, vs => .dict (keys.zip vs)
  | .fdict c names, vs => .fdict c (names.zip vs)
  | .cont c names, vs => .cont c (names.zip vs)
  | .msg c ty ts enc sig names, vs => .msg c ty ts enc sig (names.zip vs)

/-- The results of all, or none. -/
def allSome {α β : Type} (f : α → Option β) : List α → Option (List β)
  | [] => some []
  | x :: xs =>
    match f x, allSome f xs with
    | some y, some ys => some (y :: ys)
    | _, _ => none

/-- The value of a reference, looking through at most `n` objects within each other. -/
def Objects.read (h : Objects) : Nat → Ref → Option Val
  | _, .atom v => some v
  | 0, .obj _ => none
  | n + 1, .obj a =>
    match h[a]? with
    | none => none
    | some (s, rs) =>
      match allSome (Objects.read h n) rs with
      | none => none
      | some vs => some (s.value vs)

/-- The value of a reference; none if the reference is dangling or objects contain themselves. -/
def Objects.value (h : Objects) (r : Ref) : Option Val := h.read (h.length + 1) r

/-- `copy.deepcopy` of several references, one after the other. -/
def copyAll (copy : Objects → Ref → Option (Objects × Ref)) : Objects → List Ref → Option (Objects × List Ref)
  | h, [] => some (h, [])
  | h, r :: rs =>
    match copy h r with
    | none => none
    | some (h1, r') =>
      match copyAll copy h1 rs with
      | none => none
      | some (h2, rs') => some (h2, r' :: rs')

/-- `copy.deepcopy(x)` for objects within each other at most `n` times.  Simplification: an object
referred to twice within `x` is copied twice (no `memo`). -/
def deepcopy : Nat → Objects → Ref → Option (Objects × Ref)
  | _, h, .atom v => some (h, .atom v)
  | 0, _, .obj _ => none
  | n + 1, h, .obj a =>
    match h[a]? with
    | none => none
    | some (s, rs) =>
      match copyAll (deepcopy n) h rs with
      | none => none
      | some (h', rs') => some (h' ++ [(s, rs')], .obj h'.length)

/-- The items of a frozen dictionary as references. -/
abbrev Items := List (PStr × Ref)

/-- `self[key] = value` in a frozen dictionary that is not a `Peer`
(`datastructures/__init__.py:56-59, 76-84`): the validator looks at the value, the reference is
kept. -/
def itemSet (E : Env) (h : Objects) (c : FDictId) (items : Items) (key : PStr) (r : Ref) : Res Items :=
  match h.value r with
  | none => .error .otherError
  | some v =>
    match fdValidate E c key v with
    | .error e => .error e
    | .ok _ => if (lookupName key c.items).isSome then .ok (setName key r items) else .error .keyError

/-- The assignments of `SetItemDict.__init__` (`datastructures/__init__.py:25-35`). -/
def itemsSet (E : Env) (h : Objects) (c : FDictId) : Items → Items → Res Items
  | items, [] => .ok items
  | items, (k, r) :: rest =>
    match itemSet E h c items k r with
    | .error e => .error e
    | .ok items' => itemsSet E h c items' rest

/-- `FrozenDict._set_defaults` (`datastructures/__init__.py:47-50`): the last argument are the items of
`ITEMS`, whose values are objects of their own; each is copied when it is used. -/
def itemsDefault (E : Env) (c : FDictId) : Objects → Items → Items → Res (Objects × Items)
  | h, items, [] => .ok (h, items)
  | h, items, (k, r) :: rest =>
    if (lookupName k items).isSome then itemsDefault E c h items rest
    else
      match deepcopy (h.length + 1) h r with
      | none => .error .otherError
      | some (h1, r') =>
        match itemSet E h1 c items k r' with
        | .error e => .error e
        | .ok items' => itemsDefault E c h1 items' rest

/-- `C(**given)` for a frozen dictionary that is not a `Peer`
(`datastructures/__init__.py:52-54`): the objects afterwards and the new dictionary. -/
def newDict (E : Env) (c : FDictId) (ITEMS : Items) (h : Objects) (given : Items) : Res (Objects × Ref) :=
  match itemsSet E h c [] given with
  | .error e => .error e
  | .ok items =>
    match itemsDefault E c h items ITEMS with
    | .error e => .error e
    | .ok (h', items') =>
      .ok (h' ++ [(.fdict c (items'.map Prod.fst), items'.map Prod.snd)], .obj h'.length)

/-- The mutable defaults that exist once the modules are loaded: `extra_data` and `resources` of
`ComputeTaskDef` (`message/tasks.py:31, 34`), `percpu_usage` of `CpuUsage`
(`datastructures/stats.py:42`). -/
def classObjects : Objects := [(.dict [], []), (.list, []), (.list, [])]

/-- `C.ITEMS` of the frozen dictionary classes, with the objects in `classObjects`. -/
def classItems : FDictId → Items
  | .computeTaskDef =>  -- message/tasks.py:24-35
    [(p!"task_id", .atom (.str [])), (p!"subtask_id", .atom (.str [])), (p!"deadline", .atom (.int 0)),
     (p!"extra_data", .obj 0), (p!"performance", .atom (.int 0)), (p!"docker_images", .atom .none),
     (p!"resources", .obj 1)]
  | .fileInfo =>  -- message/concents.py:164-169
    [(p!"path", .atom (.str [])), (p!"checksum", .atom (.str [])), (p!"size", .atom (.int 0)),
     (p!"category", .atom (.enum .ftCategory p!"results"))]
  | .peer =>  -- datastructures/p2p.py:102-106
    [(p!"address", .atom .none), (p!"port", .atom .none), (p!"node", .atom .none)]
  | .cpuUsage =>  -- datastructures/stats.py:41-46
    [(p!"percpu_usage", .obj 2), (p!"total_usage", .atom (.int 0)),
     (p!"usage_in_kernelmode", .atom (.int 0)), (p!"usage_in_usermode", .atom (.int 0))]
  | .throttlingData =>  -- datastructures/stats.py:51-58
    [(p!"periods", .atom (.int 0)), (p!"throttled_periods", .atom (.int 0)),
     (p!"throttled_time", .atom (.int 0))]
  | .blockIoEntry =>  -- datastructures/stats.py:10-15
    [(p!"major", .atom (.int 0)), (p!"minor", .atom (.int 0)), (p!"op", .atom .none),
     (p!"value", .atom (.int 0))]
  | .memoryData =>  -- datastructures/stats.py:95-100
    [(p!"failcnt", .atom (.int 0)), (p!"limit", .atom (.int 0)), (p!"max_usage", .atom (.int 0)),
     (p!"usage", .atom (.int 0))]

/-- `self.DEFAULTS.get(key, lambda: None)()` for a `Node` (`datastructures/__init__.py:129`,
`datastructures/p2p.py:35-39`): the factories make a new object with each call. -/
def nodeDefault (h : Objects) (key : PStr) : Objects × Ref :=
  if key = p!"prv_addresses" then (h ++ [(.list, [])], .obj h.length)
  else if key = p!"port_statuses" then (h ++ [(.dict [], [])], .obj h.length)
  else if key = p!"nat_type" then (h ++ [(.list, [])], .obj h.length)
  else (h, .atom .none)

/-- The loop over `__slots__` in `Container.load_slots` for a `Node`
(`datastructures/__init__.py:118-132`): what is given is validated and kept (there are no
`deserialize_` methods), what is not is made. -/
def nodeSlots (E : Env) (given : Items) : Objects → List (PStr × List Validator) → Res (Objects × Items)
  | h, [] => .ok (h, [])
  | h, (key, vs) :: rest =>
    match lookupName key given with
    | Option.none =>
      match nodeSlots E given (nodeDefault h key).1 rest with
      | .error e => .error e
      | .ok (h', items) => .ok (h', (key, (nodeDefault h key).2) :: items)
    | some r =>
      match h.value r with
      | Option.none => .error .otherError
      | some v =>
        match contDeser E (fun _ v => .ok v) .node key vs v with
        | .error e => .error e
        | .ok _ =>
          match nodeSlots E given h rest with
          | .error e => .error e
          | .ok (h', items) => .ok (h', (key, r) :: items)

/-- `Node(**given)` (`datastructures/__init__.py:109-138`, `datastructures/p2p.py:11-39`). -/
def newNode (E : Env) (h : Objects) (given : Items) : Res (Objects × Ref) :=
  wrapLoad <|
    match nodeSlots E given h ContId.node.slots with
    | .error e => .error e
    | .ok (h', items) =>
      match firstUnknown ContId.node.slots (given.map fun p => (p.1, Val.none)) with
      | some k => .error (.fieldError k)
      | Option.none => .ok (h' ++ [(.cont .node (items.map Prod.fst), items.map Prod.snd)], .obj h'.length)

/-- `copy_and_sign(msg, private_key)` (`utils.py:43-53`) where `msg` is the object `a`: `copy.copy`
makes a new object that holds the same references; only its signature is set. -/
def signedCopy (E : Env) (h : Objects) (a : Nat) (priv : Bytes) : Res (Objects × Ref) :=
  match h[a]? with
  | some (.msg c ty ts enc sig names, rs) =>
    if sig = .none then
      match h.value (.obj a) with
      | some (.msg _ _ _ _ _ attrs) =>
        match (⟨c, ty, ts, enc, sig, attrs⟩ : Msg).signMessage E priv with
        | .error e => .error e
        | .ok m => .ok (h ++ [(.msg c ty ts enc m.sig names, rs)], .obj h.length)
      | _ => .error .attributeError
    else .ok (h, .obj a)
  | _ => .error .attributeError

end Verif
