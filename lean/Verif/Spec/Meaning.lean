import Verif.Spec.Accept
/-!
# Specification: what the data of a frame means

The values the fields of a message get from a payload, down to the fields of nested messages.
Together with `Spec.Accept` it says what `load` gives, without following the code.
-/

namespace Verif.Spec

open Verif

/-- The value a dictionary has for a name. -/
def entry (name : PStr) : Val → Option Val
  | .dict d => lastValue name d
  | _ => none

/-- One field of an object: its name, its value if the dictionary does not mention it, and what becomes
of a value other than `None`. -/
structure Member where
  name : PStr
  missing : Val := .none
  meaning : Val → Val := id

/-- The object described by a dictionary. -/
def objectOf (c : ContId) (members : List Member) (v : Val) : Val :=
  .cont c (members.map fun f => (f.name,
    match entry f.name v with
    | none => f.missing
    | some w => if w = .none then .none else f.meaning w))

/-- The node described by a dictionary. -/
def nodeOf : Val → Val := objectOf .node
  [{ name := p!"node_name" }, { name := p!"key" }, { name := p!"prv_port" }, { name := p!"pub_port" },
   { name := p!"p2p_prv_port" }, { name := p!"p2p_pub_port" }, { name := p!"prv_addr" },
   { name := p!"pub_addr" }, { name := p!"prv_addresses", missing := .list [] },
   { name := p!"hyperdrive_prv_port" }, { name := p!"hyperdrive_pub_port" },
   { name := p!"port_statuses", missing := .dict [] }, { name := p!"nat_type", missing := .list [] }]

/-- The mask of these bytes. -/
def maskOf : Val → Val
  | .bytes b => .mask b
  | v => v

/-- The member of the enumeration with this text. -/
def memberOf (e : EnumId) : Val → Val
  | .str s => .enum e s
  | v => v

/-- The task header described by a dictionary. -/
def headerOf : Val → Val := objectOf .taskHeader
  [{ name := p!"mask", meaning := maskOf }, { name := p!"timestamp" }, { name := p!"signature" },
   { name := p!"task_id" }, { name := p!"task_owner", meaning := nodeOf }, { name := p!"deadline" },
   { name := p!"subtask_timeout" }, { name := p!"market_type", meaning := memberOf .marketType },
   { name := p!"environment" }, { name := p!"environment_prerequisites" }, { name := p!"min_version" },
   { name := p!"estimated_memory" }, { name := p!"max_price" }, { name := p!"subtask_budget" },
   { name := p!"subtasks_count" }, { name := p!"concent_enabled" }]

/-- The text keys of the entries, each where it comes first. -/
def keyOrder : List (Val × Val) → List PStr
  | [] => []
  | (.str k, _) :: rest => k :: (keyOrder rest).filter (· ≠ k)
  | _ :: rest => keyOrder rest

/-- The frozen dictionary made from the entries: the keys that are given in their order, each with the
value given last, then the other declared keys with what they hold unless something is given. -/
def itemsOf (c : FDictId) (meaning : PStr → Val → Val) (ps : List (Val × Val)) : Val :=
  .fdict c ((keyOrder ps).map (fun k => (k, meaning k ((lastValue k ps).getD .none))) ++
    (dictEntries c).filter fun p => p.1 ∉ keyOrder ps)

/-- A value that is kept. -/
def kept (_ : PStr) (v : Val) : Val := v

/-- `None` for an empty dictionary. -/
def unlessEmpty (meaning : Val → Val) (v : Val) : Val := if v = .dict [] then .none else meaning v

/-- The frozen dictionary described by a dictionary. -/
def dictOfKind (c : FDictId) : Val → Val
  | .dict d => itemsOf c kept d
  | v => v

/-- The statistics described by dictionaries. -/
def blockIoOf : Val → Val := objectOf .blockIoStats
  [{ name := p!"io_merged_recursive" }, { name := p!"io_queue_recursive" },
   { name := p!"io_service_bytes_recursive" }, { name := p!"io_service_time_recursive" },
   { name := p!"io_serviced_recursive" }, { name := p!"io_time_recursive" },
   { name := p!"io_wait_time_recursive" }, { name := p!"sectors_recursive" }]

@[inherit_doc blockIoOf]
def cpuOf : Val → Val := objectOf .cpuStats
  [{ name := p!"cpu_usage", meaning := unlessEmpty (dictOfKind .cpuUsage) },
   { name := p!"throttling_data", meaning := unlessEmpty (dictOfKind .throttlingData) }]

@[inherit_doc blockIoOf]
def memoryOf : Val → Val := objectOf .memoryStats
  [{ name := p!"kernel_tcp_usage" }, { name := p!"kernel_usage" }, { name := p!"swap_usage" },
   { name := p!"usage" }, { name := p!"cache" }, { name := p!"stats" }, { name := p!"use_hierarchy" }]

@[inherit_doc blockIoOf]
def pidsOf : Val → Val := objectOf .pidStats [{ name := p!"current" }, { name := p!"limit" }]

@[inherit_doc blockIoOf]
def statsOf : Val → Val := objectOf .providerStats
  [{ name := p!"blkio_stats", meaning := unlessEmpty blockIoOf },
   { name := p!"cpu_stats", meaning := unlessEmpty cpuOf },
   { name := p!"memory_stats", meaning := unlessEmpty memoryOf },
   { name := p!"pids_stats", meaning := unlessEmpty pidsOf }]

/-- A peer: its node is an object. -/
def PeerAs (v y : Val) : Prop :=
  ∃ ps, Entries v ps ∧ y = itemsOf .peer (fun k w => if k = p!"node" then nodeOf w else w) ps

/-- A task definition. -/
def TaskDefAs (v y : Val) : Prop := ∃ ps, Entries v ps ∧ y = itemsOf .computeTaskDef kept ps

/-- A file: its category is a member of the enumeration. -/
def FileAs (v y : Val) : Prop :=
  ∃ d, v = .dict d ∧
    y = itemsOf .fileInfo (fun k w => if k = p!"category" then memberOf .ftCategory w else w) d

/-- The lists have the same length and their elements belong together. -/
inductive Each (R : Val → Val → Prop) : List Val → List Val → Prop
  | nil : Each R [] []
  | cons {x y : Val} {xs ys : List Val} : R x y → Each R xs ys → Each R (x :: xs) (y :: ys)

/-- What the values of the fields with a rule become. -/
def RuledAs (c : Cls) (name : PStr) (w y : Val) : Prop :=
  match c with
  | .Peers => ∃ l ys, w = .list l ∧ y = .list ys ∧ Each PeerAs l ys
  | .Tasks => ∃ l, w = .list l ∧ y = .list (l.map headerOf)
  | .WantToComputeTask =>
    if name = p!"task_header" then y = (if w = .none then .none else headerOf w) else y = w
  | .TaskToCompute => if name = p!"compute_task_def" then TaskDefAs w y else y = w
  | .ReportComputedTask => y = (if w = .none then .none else statsOf w)
  | .FileTransferToken => ∃ l ys, Elements w l ∧ y = .list ys ∧ Each FileAs l ys
  | _ => y = w

mutual
/-- The payload reads as these attributes of a message of the class: fields it does not give count as
`None`, and then the defaults of the class are put in. -/
inductive Reads (E : Env) : Cls → Val → Attrs → Prop
  | mk {e : Entry} {v : Val} (read : PStr → Val) : e ∈ catalogue →
      (∀ name kind, (name, kind) ∈ e.fields → Unread e.cls name ∨ (∀ w, ¬ Given v name w) →
        read name = .none) →
      (∀ name kind w, (name, kind) ∈ e.fields → ¬ Unread e.cls name → Given v name w →
        ReadsField E e.cls name kind w (read name)) →
      Reads E e.cls v (e.fields.map fun p => (p.1, defaulted e.cls p.1 (read p.1)))
/-- The value reads as that value of the field. -/
inductive ReadsField (E : Env) : Cls → PStr → Kind → Val → Val → Prop
  | ruled {c : Cls} {name : PStr} {kind : Kind} {w y : Val} {P : Val → Prop} :
      fieldRule E c name = some P → P w → RuledAs c name w y → ReadsField E c name kind w y
  | plain {c : Cls} {name : PStr} {w : Val} : fieldRule E c name = none → ReadsField E c name .plain w w
  | noNode {c : Cls} {name : PStr} {w : Val} : fieldRule E c name = none → holds w = false →
      ReadsField E c name .node w w
  | node {c : Cls} {name : PStr} {w : Val} : fieldRule E c name = none → holds w = true →
      Record (nodeFields E) w → ReadsField E c name .node w (nodeOf w)
  | noChoice {c : Cls} {name : PStr} {values : List PStr} : fieldRule E c name = none →
      ReadsField E c name (.choice values) .none .none
  | choice {c : Cls} {name : PStr} {values : List PStr} {e : EnumId} {s : PStr} : fieldRule E c name = none →
      e.values = values → s ∈ values → ReadsField E c name (.choice values) (.str s) (.enum e s)
  | absent {c : Cls} {name : PStr} {cls : Cls} {list : Bool} {w flag : Val} : fieldRule E c name = none →
      Elements w [flag, .none] → ReadsField E c name (.message cls true list) w .none
  | single {c : Cls} {name : PStr} {cls : Cls} {optional : Bool} {w flag x y : Val} : fieldRule E c name = none →
      Elements w [flag, x] → sameKey flag (.bool false) = true → ReadsMessage E cls x y →
      ReadsField E c name (.message cls optional false) w y
  | several {c : Cls} {name : PStr} {cls : Cls} {optional : Bool} {w flag : Val} {l ys : List Val} :
      fieldRule E c name = none → Elements w [flag, .list l] → l ≠ [] → sameKey flag (.bool true) = true →
      l.length = ys.length → (∀ p ∈ l.zip ys, ReadsMessage E cls p.1 p.2) →
      ReadsField E c name (.message cls optional true) w (.list ys)
/-- The value reads as that nested message: header, signature and payload. -/
inductive ReadsMessage (E : Env) : Cls → Val → Val → Prop
  | mk {cls : Cls} {x header sig slots ty ts enc : Val} {attrs : Attrs} : Elements x [header, sig, slots] →
      Elements header [ty, ts, enc] → Reads E cls slots attrs →
      ReadsMessage E cls x (.msg cls ty ts enc sig attrs)
end

/-- The frame can be read, and it reads as that message. -/
def ReadsFrame (E : Env) (dec : Bytes → Bytes → Res Bytes) (data : Bytes) (priv pub : Option Bytes)
    (ct : Bool) (now : Int) (m : Msg) : Prop :=
  ∃ e ∈ catalogue, LegibleFrame E dec data priv pub ct now e ∧
    ∃ payload item rest v attrs, Opened dec priv data payload ∧ payload = item ++ rest ∧ Item item v ∧
      Reads E e.cls v attrs ∧
      m = { cls := e.cls, ty := .int (frameType data), ts := .int (frameTime data),
            enc := .bool (frameFlag data), sig := .bytes (frameSig (unversioned data)),
            attrs := if e.number = 0 then
                attrs ++ [(p!"_version", .str ((fieldVersion (versionField data)).map fun b => Char.ofNat b.toNat))]
              else attrs }

end Verif.Spec
