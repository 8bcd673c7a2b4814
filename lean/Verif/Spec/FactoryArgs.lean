import Verif.Spec.RoundTrip
import Verif.Spec.Factories
import Verif.Model.MessageFactories
/-! # Specification: arguments of the right kind -/

namespace Verif.Spec

open Verif

/-- The argument `key` of the factory of `c` means the field `n` of a message of class `c'`, directly
or through message fields. -/
inductive Means : Cls → PStr → Cls → PStr → Prop
  | field {c : Cls} {n : PStr} (h : n ∈ c.payload) : Means c n c n
  | deeper {c c' : Cls} {f key n : PStr} {sd : SlotDef} (slot : (f, sd) ∈ c.msgSlots)
    (rest : Means sd.cls key c' n) : Means c (f ++ p!"__" ++ key) c' n

/-- What a message field may be given: what it may hold when the message is dumped, and messages in
it that hold what they declare. -/
def MessagesOk (E : Env) (sd : SlotDef) (v : Val) : Prop :=
  SlotOk sd v ∧ ∀ ty ts enc sig as, .msg sd.cls ty ts enc sig as ∈ members v →
    (Data ty ∧ Data ts ∧ Data enc ∧ Data sig) ∧ WellTyped E sd.cls as

/-- A value of the kind that a field declares. -/
def ValueOk (E : Env) (c : Cls) (n : PStr) (v : Val) : Prop :=
  match lookupName n c.msgSlots with
  | some sd => MessagesOk E sd v
  | none => FieldOk E c n v

/-- The argument `key` of the factory of `c` means a file of a token, or a part of its
description. -/
inductive MeansFile : Cls → PStr → PStr → Prop
  | here (i : Nat) (part : PStr) :
    MeansFile .FileTransferToken (p!"files__" ++ Nat.toDigits 10 i ++ part) part
  | deeper {c : Cls} {f key part : PStr} {sd : SlotDef} (slot : (f, sd) ∈ c.msgSlots)
    (rest : MeansFile sd.cls key part) : MeansFile c (f ++ p!"__" ++ key) part

/-- Arguments that mean fields have values of the declared kind, and those that mean files are
descriptions of files; the others, but for categories of files, are data.  The report shared by the
parts of a verdict and the version of a `Hello` are not given. -/
structure ArgsOk (E : Env) (c : Cls) (kw : Attrs) : Prop where
  fields : ∀ k v c' n, (k, v) ∈ kw → Means c k c' n → ValueOk E c' n v
  files : ∀ k v, (k, v) ∈ kw → MeansFile c k [] → FileOk E v
  data : ∀ k v, (k, v) ∈ kw → (∀ c' n, ¬ Means c k c' n) → ¬ MeansFile c k [] →
    ¬ MeansFile c k p!"__category" → Data v
  shared : c = .VerdictReportComputedTask → ∀ k v, (k, v) ∈ kw →
    (p!"arct_report_computed_task__").isPrefixOf k = false
  version : c = .Hello → p!"_version" ∉ kw.map Prod.fst

/-- Draws of members are members. -/
def MembersDrawn (d : Draws) : Prop := ∀ path e, d.member path e ∈ e.values

/-- A payment claim, or the one that is refused, claims something. -/
def Claims (m : Msg) : Prop :=
  (m.cls = .ForcePayment → getAttr m.attrs p!"subtask_results_accepted_list" ≠ .none) ∧
  (m.cls = .ForcePaymentRejected → ∀ x : Msg, getAttr m.attrs p!"force_payment" = x.val →
    getAttr x.attrs p!"subtask_results_accepted_list" ≠ .none)

end Verif.Spec
