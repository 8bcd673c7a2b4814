import Verif.Spec.Container
import Verif.Spec.Version
/-!
# Specification: what the containers may be built from

Independent of the validator tables of the model: every field is listed with a predicate on the
(plain) value, for the container classes of `datastructures/`.
-/

namespace Verif.Spec

open Verif

/-- Any text. -/
def Text (v : Val) : Prop := ∃ s, v = .str s
/-- A text of at most `n` characters. -/
def TextUpTo (n : Nat) (v : Val) : Prop := ∃ s, v = .str s ∧ s.length ≤ n
/-- An integer (not a boolean). -/
def Integer (v : Val) : Prop := ∃ i, v = .int i
/-- An integer of at least `n`. -/
def IntegerFrom (n : Int) (v : Val) : Prop := ∃ i, v = .int i ∧ n ≤ i
/-- A port; 65535 is not one (see C43). -/
def PortNumber (v : Val) : Prop := ∃ i, v = .int i ∧ 1 ≤ i ∧ i ≤ 65534
/-- True or false. -/
def Boolean (v : Val) : Prop := ∃ b, v = .bool b
/-- A byte string. -/
def ByteString (v : Val) : Prop := ∃ b, v = .bytes b
/-- A dictionary. -/
def Dictionary (v : Val) : Prop := ∃ d, v = .dict d
/-- The text of a semantic version (a line feed may follow, see C22). -/
def VersionText (v : Val) : Prop :=
  ∃ (t : Ver) (s : PStr), t.Wf ∧ t.Said s ∧ (v = .str s ∨ v = .str (s ++ ['\n']))
/-- One of the given texts. -/
def OneOf (l : List PStr) (v : Val) : Prop := ∃ s ∈ l, v = .str s
/-- A dictionary whose keys are among the given names. -/
def KeysAmong (l : List PStr) (v : Val) : Prop :=
  ∃ kw : Attrs, v = .dict (asPairs kw) ∧ ∀ k ∈ kw.map Prod.fst, k ∈ l

/-- A field of a container. -/
structure Field where
  name : PStr
  required : Bool
  ok : Val → Prop

/-- The keywords conform to the fields: only listed names, all required ones, and every given
value is as the field says, or `None` for a field that is not required. -/
structure Conforms (fields : List Field) (kw : Attrs) : Prop where
  known : ∀ k ∈ kw.map Prod.fst, ∃ f ∈ fields, f.name = k
  required : ∀ f ∈ fields, f.required = true → f.name ∈ kw.map Prod.fst
  valid : ∀ f ∈ fields, ∀ v, (f.name, v) ∈ kw → (v = .none ∧ f.required = false) ∨ f.ok v

/-- A dictionary that conforms to the fields. -/
def Record (fields : List Field) (v : Val) : Prop :=
  ∃ kw, v = .dict (asPairs kw) ∧ Conforms fields kw

/-- An empty dictionary, or one that conforms to the fields. -/
def EmptyOrRecord (fields : List Field) (v : Val) : Prop := v = .dict [] ∨ Record fields v

/-- `Node` (`datastructures/p2p.py:11-33`). -/
def nodeFields (E : Env) : List Field :=
  [⟨p!"node_name", false, Text⟩, ⟨p!"key", false, TextUpTo 128⟩,
   ⟨p!"prv_port", false, PortNumber⟩, ⟨p!"pub_port", false, PortNumber⟩,
   ⟨p!"p2p_prv_port", false, PortNumber⟩, ⟨p!"p2p_pub_port", false, PortNumber⟩,
   ⟨p!"prv_addr", false, fun v => E.ipOk v = true⟩, ⟨p!"pub_addr", false, fun v => E.ipOk v = true⟩,
   ⟨p!"prv_addresses", false, fun _ => True⟩, ⟨p!"hyperdrive_prv_port", false, Integer⟩,
   ⟨p!"hyperdrive_pub_port", false, Integer⟩, ⟨p!"port_statuses", false, fun _ => True⟩,
   ⟨p!"nat_type", false, fun _ => True⟩]

/-- `TaskHeader` (`datastructures/tasks.py:28-96`). -/
def headerFields (E : Env) : List Field :=
  [⟨p!"mask", false, ByteString⟩, ⟨p!"timestamp", true, Integer⟩,
   ⟨p!"signature", false, ByteString⟩, ⟨p!"task_id", true, TextUpTo 128⟩,
   ⟨p!"task_owner", true, Record (nodeFields E)⟩, ⟨p!"deadline", false, Integer⟩,
   ⟨p!"subtask_timeout", false, IntegerFrom 0⟩,
   ⟨p!"market_type", false, OneOf [p!"Brass", p!"Usage"]⟩,
   ⟨p!"environment", false, TextUpTo 128⟩, ⟨p!"environment_prerequisites", false, Dictionary⟩,
   ⟨p!"min_version", true, VersionText⟩, ⟨p!"estimated_memory", false, Integer⟩,
   ⟨p!"max_price", false, Integer⟩, ⟨p!"subtask_budget", false, Integer⟩,
   ⟨p!"subtasks_count", true, IntegerFrom 1⟩, ⟨p!"concent_enabled", false, Boolean⟩]

/-- `BlockIoStats` (`datastructures/stats.py:25-34`). -/
def blockIoFields : List Field :=
  [p!"io_merged_recursive", p!"io_queue_recursive", p!"io_service_bytes_recursive",
   p!"io_service_time_recursive", p!"io_serviced_recursive", p!"io_time_recursive",
   p!"io_wait_time_recursive", p!"sectors_recursive"].map fun n => ⟨n, false, Dictionary⟩

/-- `CpuStats` (`datastructures/stats.py:37-81`). -/
def cpuFields : List Field :=
  [⟨p!"cpu_usage", false, KeysAmong [p!"percpu_usage", p!"total_usage", p!"usage_in_kernelmode",
      p!"usage_in_usermode"]⟩,
   ⟨p!"throttling_data", false, KeysAmong [p!"periods", p!"throttled_periods",
      p!"throttled_time"]⟩]

/-- `MemoryStats` (`datastructures/stats.py:110-127`). -/
def memoryFields : List Field :=
  [⟨p!"kernel_tcp_usage", false, Dictionary⟩, ⟨p!"kernel_usage", false, Dictionary⟩,
   ⟨p!"swap_usage", false, Dictionary⟩, ⟨p!"usage", false, Dictionary⟩,
   ⟨p!"cache", false, Integer⟩, ⟨p!"stats", false, Dictionary⟩,
   ⟨p!"use_hierarchy", false, Boolean⟩]

/-- `PidStats` (`datastructures/stats.py:130-139`). -/
def pidFields : List Field := [⟨p!"current", false, Integer⟩, ⟨p!"limit", false, Integer⟩]

/-- `ProviderStats` (`datastructures/stats.py:142-194`). -/
def providerFields : List Field :=
  [⟨p!"blkio_stats", false, EmptyOrRecord blockIoFields⟩,
   ⟨p!"cpu_stats", false, EmptyOrRecord cpuFields⟩,
   ⟨p!"memory_stats", false, EmptyOrRecord memoryFields⟩,
   ⟨p!"pids_stats", false, EmptyOrRecord pidFields⟩]

/-- The fields of each container class. -/
def fieldsOf (E : Env) : ContId → List Field
  | .node => nodeFields E
  | .taskHeader => headerFields E
  | .blockIoStats => blockIoFields
  | .cpuStats => cpuFields
  | .memoryStats => memoryFields
  | .pidStats => pidFields
  | .providerStats => providerFields

/-- An instance of the container class whose fields hold what is listed. -/
def Held (c : ContId) (fields : List Field) (w : Val) : Prop :=
  ∃ fs, w = .cont c fs ∧ fs.map Prod.fst = fields.map Field.name ∧
    ∀ f ∈ fields, (getAttr fs f.name = .none ∧ f.required = false) ∨ f.ok (getAttr fs f.name)

/-- A `Node` object. -/
def NodeHeld (E : Env) : Val → Prop := Held .node (nodeFields E)

/-- A `TaskHeader` object: mask, owner and market type are objects. -/
def HeaderHeld (E : Env) : Val → Prop :=
  Held .taskHeader ((headerFields E).map fun f =>
    if f.name = p!"mask" then { f with ok := fun v => ∃ b, v = .mask b }
    else if f.name = p!"task_owner" then { f with ok := NodeHeld E }
    else if f.name = p!"market_type" then
      { f with ok := fun v => ∃ s ∈ [p!"Brass", p!"Usage"], v = .enum .marketType s }
    else f)

/-- A `CpuStats` object: its fields are frozen dictionaries. -/
def CpuHeld : Val → Prop :=
  Held .cpuStats
    [⟨p!"cpu_usage", false, fun v => ∃ items, v = .fdict .cpuUsage items ∧
        DeclaredKeys .cpuUsage items⟩,
     ⟨p!"throttling_data", false, fun v => ∃ items, v = .fdict .throttlingData items ∧
        DeclaredKeys .throttlingData items⟩]

/-- A `ProviderStats` object: its fields are objects. -/
def StatsHeld : Val → Prop :=
  Held .providerStats
    [⟨p!"blkio_stats", false, Held .blockIoStats blockIoFields⟩,
     ⟨p!"cpu_stats", false, CpuHeld⟩,
     ⟨p!"memory_stats", false, Held .memoryStats memoryFields⟩,
     ⟨p!"pids_stats", false, Held .pidStats pidFields⟩]

end Verif.Spec
