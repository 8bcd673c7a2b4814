import Verif.Model.Containers
/-! # Specification: containers and frozen dictionaries -/

namespace Verif.Spec

open Verif

/-- The declared field names of a container class. -/
def fieldNames (c : ContId) : List PStr := c.slots.map Prod.fst

/-- The keyword set `kw` is acceptable for a container: required fields are there, there is no
unknown field, and every value passes the validators of its field (`None` need not, unless the
field is required). -/
structure Acceptable (E : Env) (c : ContId) (kw : Attrs) : Prop where
  required : ∀ k ∈ c.required, k ∈ kw.map Prod.fst
  known : ∀ k ∈ kw.map Prod.fst, k ∈ fieldNames c
  valid : ∀ k vs v, (k, vs) ∈ c.slots → lookupName k kw = some v →
    (v = .none ∧ k ∉ c.required) ∨ ∀ x ∈ vs, x.accepts E v = true

/-- Fields whose value is converted on construction. -/
def converted : ContId → List PStr
  | .taskHeader => [p!"mask", p!"task_owner", p!"market_type"]
  | .cpuStats => [p!"cpu_usage", p!"throttling_data"]
  | .providerStats => [p!"blkio_stats", p!"cpu_stats", p!"memory_stats", p!"pids_stats"]
  | _ => []

/-- A keyword set as a dictionary. -/
def asPairs (kw : Attrs) : List (Val × Val) := kw.map fun p => (.str p.1, p.2)

/-- No field but the market type holds an enumeration member. -/
def EnumFree (fs : Attrs) : Prop :=
  ∀ k v, (k, v) ∈ fs → k ≠ p!"market_type" → ∀ e s, v ≠ .enum e s

/-- The keys of the frozen dictionaries and what they hold unless something is given. -/
def dictEntries : FDictId → List (PStr × Val)
  | .computeTaskDef => [(p!"task_id", .str p!""), (p!"subtask_id", .str p!""), (p!"deadline", .int 0),
      (p!"extra_data", .dict []), (p!"performance", .int 0), (p!"docker_images", .none), (p!"resources", .list [])]
  | .fileInfo => [(p!"path", .str p!""), (p!"checksum", .str p!""), (p!"size", .int 0),
      (p!"category", .enum .ftCategory p!"results")]
  | .peer => [(p!"address", .none), (p!"port", .none), (p!"node", .none)]
  | .cpuUsage => [(p!"percpu_usage", .list []), (p!"total_usage", .int 0), (p!"usage_in_kernelmode", .int 0),
      (p!"usage_in_usermode", .int 0)]
  | .throttlingData => [(p!"periods", .int 0), (p!"throttled_periods", .int 0), (p!"throttled_time", .int 0)]
  | .blockIoEntry => [(p!"major", .int 0), (p!"minor", .int 0), (p!"op", .none), (p!"value", .int 0)]
  | .memoryData => [(p!"failcnt", .int 0), (p!"limit", .int 0), (p!"max_usage", .int 0), (p!"usage", .int 0)]

/-- The declared keys. -/
def dictKeys (c : FDictId) : List PStr := (dictEntries c).map Prod.fst

/-- The items of a frozen dictionary are as declared: exactly the declared keys, once each. -/
def DeclaredKeys (c : FDictId) (items : Attrs) : Prop :=
  (items.map Prod.fst).Nodup ∧ ∀ k, k ∈ items.map Prod.fst ↔ k ∈ dictKeys c

/-- What the keys of the validating dictionaries may hold. -/
def itemOk (E : Env) (c : FDictId) (key : PStr) (v : Val) : Prop :=
  match c with
  | .computeTaskDef =>
    key = p!"task_id" ∨ key = p!"subtask_id" → ∃ s, v.asStr = some s ∧ s.length ≤ 128
  | .fileInfo => key = p!"category" → ∃ s ∈ [p!"results", p!"resources"], v = .enum .ftCategory s
  | .peer =>
    (key = p!"address" → E.ipOk v = true) ∧
    (key = p!"port" → ∃ i : Int, v = .int i ∧ 0 < i ∧ i < 65535) ∧
    (key = p!"node" → ∃ fs, v = .cont .node fs)
  | _ => True

end Verif.Spec
