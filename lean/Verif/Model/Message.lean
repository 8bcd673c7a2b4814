import Verif.Model.Containers
import Verif.Model.Classes
import Verif.Model.Cbor
/-!
# Messages: slots, serialisation of slots, loading of slots

`message/base.py:82-135, 264-376, 486-520` and the class hooks in `message/p2p.py`,
`message/tasks.py`, `message/concents.py`, `datastructures/p2p.py:68-98`.
-/

set_option linter.unusedSimpArgs false

namespace Verif

/-- A message instance.  `attrs` holds the payload slots in declaration order (and
`_version` for `Hello`); every constructor sets all of them. -/
structure Msg where
  cls : Cls
  ty : Val
  ts : Val
  enc : Val
  sig : Val
  attrs : Attrs
  deriving DecidableEq, Repr

/-- The message as a Python object. -/
def Msg.val (m : Msg) : Val := .msg m.cls m.ty m.ts m.enc m.sig m.attrs

/-- `name in __slots__` restricted to payload slots (`valid_slot`, `message/base.py:517-520`). -/
def Cls.validSlot (c : Cls) (name : PStr) : Bool := c.payload.contains name

/-! ### Serialising -/

/-- `Peer.serialize` (`datastructures/p2p.py:135-138`); other elements have no
`serialize`.  Simplification: a message inside a peer list (which has an unrelated
`serialize` method) is treated like any other wrong element. -/
def serPeer (p : Val) : Res Val :=
  match p with
  | .fdict .peer items =>
    match lookupName p!"node" items with
    | Option.none => .error .keyError
    | some n =>
      match toDict n with
      | .error e => .error e
      | .ok d => .ok (.dict ((setName p!"node" d items).map fun kv => (.str kv.1, kv.2)))
  | _ => .error .attributeError

/-- Slots written by a class hook that does not go through the generic code:
`NodeSlotMixin.serialize_slot` (`datastructures/p2p.py:71-74, 82-93`),
`Peers.serialize_slot` (`message/p2p.py:49-56`), `Tasks.serialize_slot`
(`message/p2p.py:117-127`), `WantToComputeTask.serialize_slot`
(`message/tasks.py:273-277`), `ReportComputedTask.serialize_slot`
(`message/tasks.py:551-555`).  `none`: no hook applies. -/
def serHook (c : Cls) (key : PStr) (v : Val) : Option (Res Val) :=
  if c.nodeSlots.contains key && v.truthy then
    some (match toDict v with
      | .ok d => .ok d
      | .error (.fieldError f) => .error (.fieldError f)
      | .error _ => .error (.fieldError key))
  else if c = .Peers ∧ key = p!"peers" then
    some (match v.iter with
      | Option.none => .error .typeError
      | some l =>
        match mapRes serPeer l with
        | .error e => .error e
        | .ok r => .ok (.list r))
  else if c = .Tasks ∧ key = p!"tasks" then
    some (match v with
      | .list l =>
        match mapRes toDict l with
        | .error e => .error e
        | .ok r => .ok (.list r)
      | _ => .error (.fieldError p!"tasks"))
  else if c = .WantToComputeTask ∧ key = p!"task_header" then
    match v with
    | .cont .taskHeader _ => some (toDict v)
    | _ => Option.none
  else if c = .ReportComputedTask ∧ key = p!"stats" then
    match v with
    | .cont .providerStats _ => some (toDict v)
    | _ => Option.none
  else Option.none

mutual
/-- `Message.slots` (`message/base.py:506-515`): `[[key, value], ...]`. -/
def serAttrs (c : Cls) (as : List (PStr × Val)) : Res (List Val) :=
  match as with
  | [] => .ok []
  | (k, v) :: rest =>
    if c.validSlot k then
      match serSlot c k v with
      | .error e => .error e
      | .ok v' =>
        match serAttrs c rest with
        | .error e => .error e
        | .ok r => .ok (.list [.str k, v'] :: r)
    else serAttrs c rest
termination_by structural as
/-- `serialize_slot` (`message/base.py:264-269` and the class hooks) and
`serialize_message` (`message/base.py:271-284`). -/
def serSlot (c : Cls) (key : PStr) (v : Val) : Res Val :=
  match serHook c key v with
  | some r => r
  | Option.none =>
    match v with
    | .enum _ s => .ok (.str s)
    | .none =>
      match lookupName key c.msgSlots with
      | Option.none => .ok .none
      | some sd =>
        if sd.allowNone then .ok (.tuple [.bool false, .none]) else .error (.fieldError key)
    | .list l =>
      match lookupName key c.msgSlots with
      | Option.none => .ok (.list l)
      | some sd =>
        match serMsgs sd.cls key l with
        | .error e => .error e
        | .ok r => .ok (.tuple [.bool true, .list r])
    | .msg c' ty ts enc sig attrs =>
      match lookupName key c.msgSlots with
      | Option.none => .ok (.msg c' ty ts enc sig attrs)
      | some sd =>
        if c' = sd.cls then
          match serAttrs c' attrs with
          | .error e => .error e
          | .ok s => .ok (.tuple [.bool false, .tuple [.tuple [ty, ts, enc], sig, .list s]])
        else .error (.fieldError key)
    | v =>
      match lookupName key c.msgSlots with
      | Option.none => .ok v
      | some _ => .error (.fieldError key)
termination_by structural v
/-- `[self.serialize_message_single(key, msg) for msg in value]` (`message/base.py:284-294`):
`(header, sig, slots)` of each message. -/
def serMsgs (want : Cls) (key : PStr) (l : List Val) : Res (List Val) :=
  match l with
  | [] => .ok []
  | .msg c' ty ts enc sig attrs :: rest =>
    if c' = want then
      match serAttrs c' attrs with
      | .error e => .error e
      | .ok s =>
        match serMsgs want key rest with
        | .error e => .error e
        | .ok r => .ok (.tuple [.tuple [ty, ts, enc], sig, .list s] :: r)
    else .error (.fieldError key)
  | _ :: _ => .error (.fieldError key)
termination_by structural l
end

/-- `m.slots()`. -/
def Msg.slots (m : Msg) : Res Val :=
  match serAttrs m.cls m.attrs with
  | .error e => .error e
  | .ok l => .ok (.list l)

/-! ### Loading -/

/-- The pairs of a Python iterable as a dict: later keys win, `TypeError` for an
unhashable key. -/
def dictOfPairs : List (Val × Val) → List (Val × Val) → Option (List (Val × Val))
  | acc, [] => some acc
  | acc, (k, v) :: rest =>
    if k.hashable then dictOfPairs (dictSet k v acc) rest else Option.none

/-- `dict(slots)`, `{}` on `TypeError` or `ValueError` (`message/base.py:487-490`). -/
def dictOf (slots : Val) : List (Val × Val) :=
  match slots.asDict with
  | some d => d
  | Option.none =>
    match slots.iter with
    | Option.none => []
    | some l =>
      match pairsOf l with
      | .error _ => []
      | .ok ps =>
        match dictOfPairs [] ps with
        | some d => d
        | Option.none => []

/-- `x == b` for a Python bool `b`. -/
def eqBool (x : Val) (b : Bool) : Bool :=
  match x with
  | .bool c => c == b
  | .int i => i == (if b then 1 else 0)
  | .float f => if b then f == 0x3FF0000000000000 else floatIsZero f
  | _ => false

/-- Construction of a message of the given class from header fields, signature and
slots (the recursive call for nested messages). -/
abbrev Loader := Cls → (ty ts enc sig slots : Val) → Res Val

/-- `deserialize_message_single` (`message/base.py:345-377`). -/
def deserSingle (rec : Loader) (sd : SlotDef) (key : PStr) (v : Val) : Res Val :=
  if v = .none then
    if sd.allowNone then .ok .none else .error (.fieldError key)
  else
    match v.iter with
    | some [header, sig, slots] =>
      match header.iter with
      | some [ty, ts, enc] =>
        match rec sd.cls ty ts enc sig slots with
        | .ok m => .ok m
        | .error (.fieldError f) => .error (.fieldError f)
        | .error _ => .error (.fieldError key)
      | _ => .error (.fieldError key)
    | _ => .error (.fieldError key)

/-- `deserialize_message` (`message/base.py:310-343`). -/
def deserMessage (rec : Loader) (sd : SlotDef) (key : PStr) (v : Val) : Res Val :=
  match v.iter with
  | some [isList, value] =>
    if value.truthy && !(eqBool isList sd.isList) then .error (.fieldError key)
    else if value.truthy && isList.truthy then
      match value with
      | .list l =>
        match mapRes (deserSingle rec sd key) l with
        | .error e => .error e
        | .ok r => .ok (.list r)
      | _ => .error (.fieldError key)
    else deserSingle rec sd key value
  | _ => .error (.fieldError key)

/-- `Message.deserialize_slot` (`message/base.py:296-308`). -/
def deserBase (rec : Loader) (c : Cls) (key : PStr) (v : Val) : Res Val :=
  match (if v = .none then Option.none else lookupName key c.enumSlots) with
  | some e =>
    match e.lookup v with
    | some m => .ok m
    | Option.none => .error (.fieldError key)
  | Option.none =>
    match lookupName key c.msgSlots with
    | some sd => deserMessage rec sd key v
    | Option.none => .ok v

/-- `deserialize_fileinfo` (`message/concents.py:142-149`): the `category` text is
replaced by the enum member if it names one.  The entry must be a dict (anything else
has no item assignment by name or no `get`); a frozen dictionary only comes here when slots that
did not travel are loaded (`factories/helpers.py:29-38`). -/
def deserFileInfo (E : Env) (f : Val) : Res Val :=
  match f with
  | .dict d =>
    let cat := match dictGet (.str p!"category") d with
      | some x => x
      | Option.none => .none
    match EnumId.ftCategory.lookup cat with
    | some m => mkFDict E .fileInfo (.dict (dictSet (.str p!"category") m d))
    | Option.none => mkFDict E .fileInfo (.dict d)
  | .fdict c items =>
    match EnumId.ftCategory.lookup (getAttr items p!"category") with
    | some m =>
      match fdSetV E (fdConv E c) c items (.str p!"category") m with
      | .error e => .error e
      | .ok items' => mkFDict E .fileInfo (.fdict c items')
    | Option.none => mkFDict E .fileInfo (.fdict c items)
  | _ => .error .attributeError

/-- `deserialize_slot` with the class hooks: `NodeSlotMixin` (`datastructures/p2p.py:76-80, 95-98`),
`Peers` (`message/p2p.py:58-74`), `Tasks` (`message/p2p.py:97-115`), `WantToComputeTask`
(`message/tasks.py:279-297`), `TaskToCompute` (`message/tasks.py:344-353`),
`ReportComputedTask` (`message/tasks.py:557-561`), `FileTransferToken`
(`message/concents.py:141-154`). -/
def deserSlot (E : Env) (rec : Loader) (c : Cls) (key : PStr) (v : Val) : Res Val :=
  if c.nodeSlots.contains key then
    if v.truthy then
      match Validator.dict.run E key v with
      | .error e => .error e
      | .ok _ => mkCont E .node v
    else .ok v
  else if c = .Peers ∧ key = p!"peers" then
    match v with
    | .list l =>
      match mapRes (mkFDict E .peer) l with
      | .error e => .error e
      | .ok r => .ok (.list r)
    | _ => .error (.fieldError key)
  else if c = .Tasks ∧ key = p!"tasks" then
    match v with
    | .list l =>
      match mapRes (fun h =>
          match Validator.dict.run E p!"tasks" h with
          | .error e => .error e
          | .ok _ => mkCont E .taskHeader h) l with
      | .error e => .error e
      | .ok r => .ok (.list r)
    | _ => .error (.fieldError p!"tasks")
  else if c = .WantToComputeTask ∧ key = p!"task_header" ∧ v ≠ .none then mkCont E .taskHeader v
  else if c = .WantToComputeTask ∧ key = p!"cpu_usage" ∧ v ≠ .none then
    match runAll E [.integer, .nonNegative] key v with
    | .error e => .error e
    | .ok _ => .ok v
  else if c = .WantToComputeTask ∧ key = p!"num_subtasks" then
    match Validator.positiveInteger.run E key v with
    | .error e => .error e
    | .ok _ => .ok v
  else if c = .TaskToCompute ∧ key = p!"compute_task_def" then mkFDict E .computeTaskDef v
  else if c = .TaskToCompute ∧ (key = p!"price" ∨ key = p!"size") then
    match Validator.integer.run E key v with
    | .error e => .error e
    | .ok _ => .ok v
  else if c = .ReportComputedTask ∧ key = p!"stats" ∧ v ≠ .none then mkCont E .providerStats v
  else if c = .FileTransferToken ∧ key = p!"files" then
    match v.iter with
    | Option.none => .error .typeError
    | some l =>
      match mapRes (deserFileInfo E) l with
      | .error e => .error e
      | .ok r => .ok (.list r)
  else deserBase rec c key v

/-- The loop of `Message.load_slots` (`message/base.py:492-504`).  `StartSessionResponse`
sets `conn_id` before (`message/tasks.py:721-727`), so `hasattr` makes the loop skip it. -/
def loadSlots (E : Env) (rec : Loader) (c : Cls) (d : List (Val × Val)) : List PStr → Res Attrs
  | [] => .ok []
  | name :: rest =>
    match (if c = .StartSessionResponse ∧ name = p!"conn_id" then .ok .none
           else match dictGet (.str name) d with
             | Option.none => .ok .none
             | some v => deserSlot E rec c name v : Res Val) with
    | .error e => .error e
    | .ok v =>
      match loadSlots E rec c d rest with
      | .error e => .error e
      | .ok r => .ok ((name, v) :: r)

/-- `getattr(self, k)` replaced by a function of it. -/
def modifyName (name : PStr) (f : Val → Val) : Attrs → Attrs
  | [] => []
  | (k, v) :: rest => if k = name then (k, f v) :: rest else (k, v) :: modifyName name f rest

/-- `x or []`. -/
def orEmpty (v : Val) : Val := if v.truthy then v else .list []

/-- `x` if it is not `None`, else the default. -/
def orDefault (d v : Val) : Val := if v = .none then d else v

/-- What the class constructors do after `Message.__init__`: `Peers`
(`message/p2p.py:45-47`), `Tasks` (88-95), `ResourcePeers` (153-159), `Gossip` (175-181),
`ConcentEnabled` (`message/tasks.py:229-231`), `WantToComputeTask` (264-267), `TaskFailure`
(711-714). -/
def postInit (c : Cls) (as : Attrs) : Attrs :=
  match c with
  | .Peers => modifyName p!"peers" orEmpty as
  | .Tasks => modifyName p!"tasks" orEmpty as
  | .ResourcePeers => modifyName p!"resource_peers" orEmpty as
  | .Gossip => modifyName p!"gossip" orEmpty as
  | .WantToComputeTask =>
    modifyName p!"num_subtasks" (orDefault (.int 1))
      (modifyName p!"concent_enabled" (fun v => .bool v.truthy) as)
  | .TaskToCompute => modifyName p!"concent_enabled" (fun v => .bool v.truthy) as
  | .TaskFailure =>
    modifyName p!"reason" (orDefault (.enum .taskFailureReason p!"ComputationError")) as
  | _ => as

/-- The attributes a class constructor computes from `slots`
(`message/base.py:107-113` followed by the rest of the constructor). -/
def loadAttrs (E : Env) (rec : Loader) (c : Cls) (slots : Val) : Res Attrs :=
  match wrapLoad (loadSlots E rec c (dictOf slots) c.payload) with
  | .error e => .error e
  | .ok as => .ok (postInit c as)

/-- Nested construction with recursion bound: `fuel` limits the nesting of message
slots; `Props/Depth.lean` proves that `maxDepth` is never exhausted. -/
def loadMsg (E : Env) : Nat → Loader
  | 0, _, _, _, _, _, _ => .error .recursionError
  | n + 1, c, ty, ts, enc, sig, slots =>
    match loadAttrs E (loadMsg E n) c slots with
    | .error e => .error e
    | .ok as => .ok (.msg c ty ts enc sig as)

end Verif
