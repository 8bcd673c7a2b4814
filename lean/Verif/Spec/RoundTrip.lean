import Verif.Spec.Data
import Verif.Spec.Slots
import Verif.Spec.Container
import Verif.Model.Message
/-!
# Specification: fields that hold what their class declares

What a message must hold for the dump / load round trip (C02) to be claimed.
-/

namespace Verif.Spec

open Verif

/-- Data that keeps its shape on the wire: `None`, booleans, numbers, text, bytes, lists,
dictionaries with distinct scalar keys, and tagged values; no tuples. -/
def Data (v : Val) : Prop := data v = true

/-- A frozen dictionary of the given class: its declared keys, with valid data. -/
def DictOk (E : Env) (c : FDictId) (v : Val) : Prop :=
  ∃ items, v = .fdict c items ∧ DeclaredKeys c items ∧
    ∀ k x, (k, x) ∈ items → itemOk E c k x ∧ Data x

/-- A container field that holds valid data as it was given. -/
def DataField (E : Env) (c : ContId) (k : PStr) (x : Val) : Prop :=
  Data x ∧ ∀ vs, (k, vs) ∈ c.slots → ∀ w ∈ vs, w.accepts E x = true

/-- An instance of a container class whose fields, in order, satisfy `P` or are `None` without
being required. -/
def Fields (c : ContId) (P : PStr → Val → Prop) (v : Val) : Prop :=
  ∃ fs, v = .cont c fs ∧ fs.map Prod.fst = fieldNames c ∧
    ∀ k x, (k, x) ∈ fs → (x = .none ∧ k ∉ c.required) ∨ P k x

/-- `Node`, `BlockIoStats`, `MemoryStats` or `PidStats`. -/
def SimpleOk (E : Env) (c : ContId) (v : Val) : Prop := Fields c (DataField E c) v

/-- `CpuStats`. -/
def CpuOk (E : Env) (v : Val) : Prop :=
  Fields .cpuStats (fun k x =>
    (k = p!"cpu_usage" ∧ DictOk E .cpuUsage x) ∨
    (k = p!"throttling_data" ∧ DictOk E .throttlingData x)) v

/-- `ProviderStats`. -/
def StatsOk (E : Env) (v : Val) : Prop :=
  Fields .providerStats (fun k x =>
    (k = p!"blkio_stats" ∧ SimpleOk E .blockIoStats x) ∨
    (k = p!"cpu_stats" ∧ CpuOk E x) ∨
    (k = p!"memory_stats" ∧ SimpleOk E .memoryStats x) ∨
    (k = p!"pids_stats" ∧ SimpleOk E .pidStats x)) v

/-- `TaskHeader`. -/
def HeaderOk (E : Env) (v : Val) : Prop :=
  Fields .taskHeader (fun k x =>
    if k = p!"mask" then ∃ b, x = .mask b
    else if k = p!"market_type" then ∃ s ∈ EnumId.marketType.values, x = .enum .marketType s
    else if k = p!"task_owner" then SimpleOk E .node x
    else DataField E .taskHeader k x) v

/-- `Peer`: address and port are data, the node a `Node`. -/
def PeerOk (E : Env) (v : Val) : Prop :=
  ∃ items, v = .fdict .peer items ∧ DeclaredKeys .peer items ∧
    ∀ k x, (k, x) ∈ items → itemOk E .peer k x ∧
      if k = p!"node" then SimpleOk E .node x else Data x

/-- `FileInfo`: a category, the rest data. -/
def FileOk (E : Env) (v : Val) : Prop :=
  ∃ items, v = .fdict .fileInfo items ∧ DeclaredKeys .fileInfo items ∧
    ∀ k x, (k, x) ∈ items → itemOk E .fileInfo k x ∧ (k ≠ p!"category" → Data x)

/-- A list whose elements satisfy `P`. -/
def ListOf (P : Val → Prop) (v : Val) : Prop := ∃ l, v = .list l ∧ ∀ x ∈ l, P x

/-- A field that is not a message slot holds a value of the declared kind. -/
def FieldOk (E : Env) (c : Cls) (name : PStr) (v : Val) : Prop :=
  if name ∈ c.nodeSlots then (Data v ∧ holds v = false) ∨ SimpleOk E .node v
  else if c = .Peers ∧ name = p!"peers" then ListOf (PeerOk E) v
  else if c = .Tasks ∧ name = p!"tasks" then ListOf (HeaderOk E) v
  else if c = .WantToComputeTask ∧ name = p!"task_header" then v = .none ∨ HeaderOk E v
  else if c = .WantToComputeTask ∧ name = p!"cpu_usage" then v = .none ∨ ∃ n : Nat, v = .int n
  else if c = .WantToComputeTask ∧ name = p!"num_subtasks" then ∃ n : Nat, 0 < n ∧ v = .int n
  else if c = .TaskToCompute ∧ name = p!"compute_task_def" then DictOk E .computeTaskDef v
  else if c = .TaskToCompute ∧ (name = p!"price" ∨ name = p!"size") then ∃ i, v = .int i
  else if c = .ReportComputedTask ∧ name = p!"stats" then v = .none ∨ StatsOk E v
  else if c = .FileTransferToken ∧ name = p!"files" then ListOf (FileOk E) v
  else if c = .StartSessionResponse ∧ name = p!"conn_id" then v = .none
  else match lookupName name c.enumSlots with
    | some e => v = .none ∨ ∃ s ∈ e.values, v = .enum e s
    | none => Data v

/-- A message slot holds a message of the declared class, or a non-empty list of them if
declared as a list, or `None` where allowed. -/
def SlotOk (sd : SlotDef) (v : Val) : Prop :=
  if sd.isList then ∃ l, v = .list l ∧ l ≠ [] ∧ ∀ x ∈ l, isMsg sd.cls x = true
  else (v = .none ∧ sd.allowNone = true) ∨ isMsg sd.cls v = true

/-- The fields that may not be `None` when they are read, though loading a message that lacks
them leaves them `None`. -/
def mandatory (c : Cls) (name : PStr) : Bool :=
  (c == .TaskToCompute && [p!"compute_task_def", p!"price", p!"size"].contains name) ||
  (c == .FileTransferToken && name == p!"files") ||
  (match lookupName name c.msgSlots with
   | some sd => !sd.allowNone
   | none => false)

/-- The payload attributes of a message of class `c` are all there and hold what is declared,
with the class defaults filled in, at every depth; the headers of nested messages are data. -/
inductive WellTyped (E : Env) : Cls → Attrs → Prop
  | mk (c : Cls) (attrs : Attrs) (names : attrs.map Prod.fst = c.payload)
    (fields : ∀ name v, (name, v) ∈ attrs → lookupName name c.msgSlots = none →
      FieldOk E c name v ∧ defaulted c name v = v)
    (slots : ∀ name sd v, (name, v) ∈ attrs → lookupName name c.msgSlots = some sd → SlotOk sd v)
    (heads : ∀ name sd v ty ts enc sig as, (name, v) ∈ attrs →
      lookupName name c.msgSlots = some sd → .msg sd.cls ty ts enc sig as ∈ members v →
      Data ty ∧ Data ts ∧ Data enc ∧ Data sig)
    (nested : ∀ name sd v ty ts enc sig as, (name, v) ∈ attrs →
      lookupName name c.msgSlots = some sd → .msg sd.cls ty ts enc sig as ∈ members v →
      WellTyped E sd.cls as) : WellTyped E c attrs

/-- The attributes of a whole message: those of `Hello` end with its version. -/
def WellTypedMsg (E : Env) (m : Msg) : Prop :=
  if m.cls = .Hello then
    ∃ as v, m.attrs = as ++ [(p!"_version", .str v)] ∧ WellTyped E .Hello as
  else WellTyped E m.cls m.attrs

/-- `x` is the message found in a tree of attributes by going through message slots: at each
step a name and the number of the message in that slot. -/
inductive Sits : List (PStr × Nat) → Attrs → Msg → Prop
  | here {attrs : Attrs} {name : PStr} {i : Nat} {x : Msg}
    (h : (members (getAttr attrs name))[i]? = some x.val) : Sits [(name, i)] attrs x
  | deeper {attrs : Attrs} {name : PStr} {i : Nat} {y x : Msg} {path : List (PStr × Nat)}
    (h : (members (getAttr attrs name))[i]? = some y.val) (hx : Sits path y.attrs x) :
    Sits ((name, i) :: path) attrs x

/-- No mandatory field is missing, in the message or in any message it carries. -/
def Complete (m : Msg) : Prop :=
  (∀ name ∈ m.cls.payload, mandatory m.cls name = true → getAttr m.attrs name ≠ .none) ∧
  ∀ path x, Sits path m.attrs x → ∀ name ∈ x.cls.payload, mandatory x.cls name = true →
    getAttr x.attrs name ≠ .none

end Verif.Spec
