import Verif.Model.Classes
import Verif.Spec.Truth
/-! # Specification: fields of messages -/

namespace Verif.Spec

open Verif

/-- Class defaults: what a constructor makes of the value of a field. -/
def defaulted (c : Cls) (name : PStr) (v : Val) : Val :=
  if (c, name) ∈ [(Cls.Peers, p!"peers"), (.Tasks, p!"tasks"),
      (.ResourcePeers, p!"resource_peers"), (.Gossip, p!"gossip")] then
    if holds v then v else .list []
  else if (c, name) ∈ [(Cls.WantToComputeTask, p!"concent_enabled"),
      (.TaskToCompute, p!"concent_enabled")] then .bool (holds v)
  else if (c, name) = (Cls.WantToComputeTask, p!"num_subtasks") then
    if v = .none then .int 1 else v
  else if (c, name) = (Cls.TaskFailure, p!"reason") then
    if v = .none then .enum .taskFailureReason p!"ComputationError" else v
  else v

/-- The value a list of `(key, value)` pairs gives to a name: that of the last pair with this
key. -/
def lastValue (name : PStr) (ps : List (Val × Val)) : Option Val :=
  (ps.reverse.find? fun p => p.1 = .str name).map Prod.snd

/-- A list of pairs the way it is written in a payload. -/
def wirePairs (ps : List (Val × Val)) : Val := .list (ps.map fun p => .list [p.1, p.2])

/-- An instance of the given message class. -/
def isMsg (c : Cls) : Val → Bool
  | .msg c' .. => c' == c
  | _ => false

/-- The messages in a message slot. -/
def members : Val → List Val
  | .msg c ty ts enc sig attrs => [.msg c ty ts enc sig attrs]
  | .list l => l
  | _ => []

/-- What a message slot holds after loading: an instance of the declared class, or, if declared
as a list, a list of them. -/
def shapeOk (sd : SlotDef) (v : Val) : Prop :=
  (sd.isList = false ∧ isMsg sd.cls v = true) ∨
  (sd.isList = true ∧ ∃ l, v = .list l ∧ ∀ x ∈ l, isMsg sd.cls x = true)

/-- A statement about class and attributes holds of every message of a tree, as far as it is
reached through declared message slots. -/
inductive Everywhere (Q : Cls → Attrs → Prop) : Val → Prop
  | mk (c : Cls) (ty ts enc sig : Val) (attrs : Attrs) (here : Q c attrs)
    (nested : ∀ name sd x, (name, sd) ∈ c.msgSlots → x ∈ members (getAttr attrs name) →
      Everywhere Q x) : Everywhere Q (.msg c ty ts enc sig attrs)

/-- The message slots of a message hold `None` or what is declared. -/
def SlotsTyped (c : Cls) (attrs : Attrs) : Prop :=
  ∀ name sd, (name, sd) ∈ c.msgSlots →
    getAttr attrs name = .none ∨ shapeOk sd (getAttr attrs name)

/-- The enum slots of a message hold `None` or a member of the declared enumeration. -/
def EnumsTyped (c : Cls) (attrs : Attrs) : Prop :=
  ∀ name e, (name, e) ∈ c.enumSlots →
    getAttr attrs name = .none ∨ ∃ s ∈ e.values, getAttr attrs name = .enum e s

/-- The numeric and boolean fields of offers and tasks. -/
def NumbersTyped (c : Cls) (attrs : Attrs) : Prop :=
  (c = .WantToComputeTask →
    (getAttr attrs p!"cpu_usage" = .none ∨ ∃ n : Nat, getAttr attrs p!"cpu_usage" = .int n) ∧
    (∃ n : Nat, 0 < n ∧ getAttr attrs p!"num_subtasks" = .int n) ∧
    ∃ b, getAttr attrs p!"concent_enabled" = .bool b) ∧
  (c = .TaskToCompute →
    (getAttr attrs p!"price" = .none ∨ ∃ i, getAttr attrs p!"price" = .int i) ∧
    (getAttr attrs p!"size" = .none ∨ ∃ i, getAttr attrs p!"size" = .int i) ∧
    ∃ b, getAttr attrs p!"concent_enabled" = .bool b)

/-- What may be dumped from a message slot: an instance of the declared class, a list of them,
or `None` where allowed. -/
def Dumpable (sd : SlotDef) (v : Val) : Prop :=
  (v = .none ∧ sd.allowNone = true) ∨ isMsg sd.cls v = true ∨
  ∃ l, v = .list l ∧ ∀ x ∈ l, isMsg sd.cls x = true

/-- One decision: accepted unchanged exactly if `good`, else `FieldError` naming the field. -/
def Decides (r : Res Val) (name : PStr) (w : Val) (good : Prop) : Prop :=
  (good ∧ r = .ok w) ∨ (¬ good ∧ r = .error (.fieldError name))

end Verif.Spec
