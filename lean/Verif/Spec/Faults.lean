import Verif.Spec.Accept
/-!
# Specification: what is wrong with a record

The exception for data that cannot be read as a node, a task header, statistics, a peer, a file or a
task definition: that of the first fault.  Fields are looked at in the order of their declaration,
entries of dictionaries as they come.
-/

namespace Verif.Spec

open Verif

/-- What is left of an exception when the constructor of a message lets it through: every fault but that of
a field is a `MessageError`. -/
def letThrough : Exc → Exc
  | .fieldError f => .fieldError f
  | _ => .messageError

/-- The data gives keywords: a dictionary with texts as keys, none of which is `self`. -/
def Keywords (v : Val) (kw : Attrs) : Prop := v = .dict (asPairs kw) ∧ p!"self" ∉ kw.map Prod.fst

/-- The fields of records that are records themselves. -/
def partFields (E : Env) : List (PStr × List Field) :=
  [(p!"task_owner", nodeFields E), (p!"blkio_stats", blockIoFields), (p!"cpu_stats", cpuFields),
   (p!"memory_stats", memoryFields), (p!"pids_stats", pidFields)]

/-- The fields of records that are dictionaries with known keys. -/
def counterFields : List PStr := [p!"cpu_usage", p!"throttling_data"]

/-- The value need not be looked at. -/
def Skipped (f : Field) (w : Val) : Prop := w = .none ∧ f.required = false

/-- The keywords are all right as far as the field is concerned. -/
def InOrder (f : Field) (kw : Attrs) : Prop :=
  (f.required = true → f.name ∈ kw.map Prod.fst) ∧ ∀ w, (f.name, w) ∈ kw → Skipped f w ∨ f.ok w

mutual
/-- The first fault of a record. -/
inductive BadRecord (E : Env) : List Field → Val → Exc → Prop
  | shape {fs : List Field} {v : Val} : (∀ kw, ¬ Keywords v kw) → BadRecord E fs v .messageError
  | missing {v : Val} {kw : Attrs} {f : Field} {before after : List Field} : Keywords v kw →
      (∀ g ∈ before, InOrder g kw) → f.required = true → f.name ∉ kw.map Prod.fst →
      BadRecord E (before ++ f :: after) v (.fieldError f.name)
  | value {v w : Val} {kw : Attrs} {f : Field} {before after : List Field} {e : Exc} : Keywords v kw →
      (∀ g ∈ before, InOrder g kw) → (f.name, w) ∈ kw → ¬ Skipped f w → BadValue E f w e →
      BadRecord E (before ++ f :: after) v e
  | unknown {fs : List Field} {v w : Val} {kw before after : Attrs} {k : PStr} : Keywords v kw →
      (∀ f ∈ fs, InOrder f kw) → kw = before ++ (k, w) :: after →
      (∀ k' w', (k', w') ∈ before → ∃ f ∈ fs, f.name = k') → (∀ f ∈ fs, f.name ≠ k) →
      BadRecord E fs v (.fieldError k)
/-- What is wrong with the value of a field of a record. -/
inductive BadValue (E : Env) : Field → Val → Exc → Prop
  | plain {f : Field} {w : Val} : ¬ f.ok w →
      (∀ d, w ≠ .dict d) ∨ ((∀ fs, (f.name, fs) ∉ partFields E) ∧ f.name ∉ counterFields) →
      BadValue E f w (.fieldError f.name)
  | counters {f : Field} {d : List (Val × Val)} : ¬ f.ok (.dict d) → f.name ∈ counterFields →
      BadValue E f (.dict d) .messageError
  | part {f : Field} {d : List (Val × Val)} {fs : List Field} {e : Exc} : ¬ f.ok (.dict d) →
      (f.name, fs) ∈ partFields E → BadRecord E fs (.dict d) e → BadValue E f (.dict d) e
end

/-- What is wrong with an entry of a task definition, a file or a peer. -/
inductive BadEntry (E : Env) : FDictId → Val → Val → Exc → Prop
  | key {c : FDictId} {k w : Val} : (∀ s, k ≠ .str s) → BadEntry E c k w .messageError
  | unknown {c : FDictId} {s : PStr} {w : Val} : s ∉ dictKeys c → BadEntry E c (.str s) w .messageError
  | id {s : PStr} {w : Val} : s = p!"task_id" ∨ s = p!"subtask_id" → ¬ TextUpTo 128 w →
      BadEntry E .computeTaskDef (.str s) w (.fieldError s)
  | category {w : Val} : ¬ OneOf [p!"results", p!"resources"] w →
      BadEntry E .fileInfo (.str p!"category") w (.fieldError p!"category")
  | address {w : Val} : ¬ E.ipOk w = true → BadEntry E .peer (.str p!"address") w (.fieldError p!"address")
  | port {w : Val} : ¬ PortNumber w → BadEntry E .peer (.str p!"port") w (.fieldError p!"port")
  | noNode {w : Val} : (∀ d, w ≠ .dict d) → BadEntry E .peer (.str p!"node") w (.fieldError p!"node")
  | node {d : List (Val × Val)} {e : Exc} : BadRecord E (nodeFields E) (.dict d) e →
      BadEntry E .peer (.str p!"node") (.dict d) e

/-- Nothing is wrong with any of the entries. -/
def GoodEntries (E : Env) (c : FDictId) (ps : List (Val × Val)) : Prop :=
  ∀ k w, (k, w) ∈ ps → ∀ e, ¬ BadEntry E c k w e

/-- The data begins with these entries. -/
inductive Begins : Val → List (Val × Val) → Prop
  | dict {d ps rest : List (Val × Val)} : d = ps ++ rest → Begins (.dict d) ps
  | pairs {v : Val} {l rest : List Val} {ps : List (Val × Val)} : (∀ d, v ≠ .dict d) → Elements v (l ++ rest) →
      PairUp l ps → Begins v ps

/-- The key of a peer is given, or its default will do. -/
def PeerKey (E : Env) (ps : List (Val × Val)) (n : PStr) : Prop :=
  (∃ w, (.str n, w) ∈ ps) ∨ (n = p!"address" ∧ E.ipOk .none = true)

/-- The first fault of a task definition, a file or a peer. -/
inductive BadDict (E : Env) : FDictId → Val → Exc → Prop
  | shape {c : FDictId} {v : Val} : (∀ l, ¬ Elements v l) → BadDict E c v .messageError
  | entry {c : FDictId} {v k w : Val} {before : List (Val × Val)} {e : Exc} : Begins v (before ++ [(k, w)]) →
      GoodEntries E c before → BadEntry E c k w e → BadDict E c v e
  | pair {c : FDictId} {v x : Val} {l rest : List Val} {ps : List (Val × Val)} : (∀ d, v ≠ .dict d) →
      Elements v (l ++ x :: rest) → PairUp l ps → GoodEntries E c ps → (∀ k w, ¬ Elements x [k, w]) →
      BadDict E c v .messageError
  | missing {v : Val} {ps : List (Val × Val)} {before after : List PStr} {n : PStr} : Entries v ps →
      GoodEntries E .peer ps → [p!"address", p!"port", p!"node"] = before ++ n :: after →
      (∀ m ∈ before, PeerKey E ps m) → ¬ PeerKey E ps n → BadDict E .peer v (.fieldError n)

/-- What is wrong with data for a file. -/
inductive BadFile (E : Env) : Val → Exc → Prop
  | shape {v : Val} : (∀ d, v ≠ .dict d) → BadFile E v .messageError
  | entries {d : List (Val × Val)} {e : Exc} : BadDict E .fileInfo (.dict d) e → BadFile E (.dict d) e

/-- What is wrong with the value of a field that has a rule of its own. -/
inductive BadRule (E : Env) : Cls → PStr → Val → Exc → Prop
  | peers {w : Val} : (∀ l, w ≠ .list l) → BadRule E .Peers p!"peers" w (.fieldError p!"peers")
  | peer {x : Val} {before after : List Val} {e : Exc} : (∀ y ∈ before, PeerData E y) → BadDict E .peer x e →
      BadRule E .Peers p!"peers" (.list (before ++ x :: after)) e
  | tasks {w : Val} : (∀ l, w ≠ .list l) → BadRule E .Tasks p!"tasks" w (.fieldError p!"tasks")
  | noTask {x : Val} {before after : List Val} : (∀ y ∈ before, Record (headerFields E) y) →
      (∀ d, x ≠ .dict d) → BadRule E .Tasks p!"tasks" (.list (before ++ x :: after)) (.fieldError p!"tasks")
  | task {d : List (Val × Val)} {before after : List Val} {e : Exc} :
      (∀ y ∈ before, Record (headerFields E) y) → BadRecord E (headerFields E) (.dict d) e →
      BadRule E .Tasks p!"tasks" (.list (before ++ .dict d :: after)) e
  | header {w : Val} {e : Exc} : w ≠ .none → BadRecord E (headerFields E) w e →
      BadRule E .WantToComputeTask p!"task_header" w e
  | usage {w : Val} : w ≠ .none → ¬ IntegerFrom 0 w →
      BadRule E .WantToComputeTask p!"cpu_usage" w (.fieldError p!"cpu_usage")
  | subtasks {w : Val} : ¬ IntegerFrom 1 w →
      BadRule E .WantToComputeTask p!"num_subtasks" w (.fieldError p!"num_subtasks")
  | definition {w : Val} {e : Exc} : BadDict E .computeTaskDef w e →
      BadRule E .TaskToCompute p!"compute_task_def" w e
  | number {name : PStr} {w : Val} : name = p!"price" ∨ name = p!"size" → ¬ Integer w →
      BadRule E .TaskToCompute name w (.fieldError name)
  | stats {w : Val} {e : Exc} : w ≠ .none → BadRecord E providerFields w e →
      BadRule E .ReportComputedTask p!"stats" w e
  | files {w : Val} : (∀ l, ¬ Elements w l) → BadRule E .FileTransferToken p!"files" w .messageError
  | file {w x : Val} {before after : List Val} {e : Exc} : Elements w (before ++ x :: after) →
      (∀ y ∈ before, FileData y) → BadFile E x e → BadRule E .FileTransferToken p!"files" w e

end Verif.Spec
