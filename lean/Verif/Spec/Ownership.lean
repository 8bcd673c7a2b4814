import Verif.Spec.Tasks
import Verif.Spec.Slots
/-! # Specification: ownership of task messages -/

namespace Verif.Spec

open Verif

mutual
/-- The `TaskToCompute` messages found along the declared provider slots of a message, depth
first, in the order of the declaration. -/
inductive Chain : Val → List Val → Prop
  | ttc (ty ts enc sig : Val) (attrs : Attrs) :
      Chain (.msg .TaskToCompute ty ts enc sig attrs) [.msg .TaskToCompute ty ts enc sig attrs]
  | task {c : Cls} (ty ts enc sig : Val) {attrs : Attrs} {l : List Val} :
      c.isTask = true → c ≠ .TaskToCompute → ChainSlots attrs c.taskIdProviders l →
      Chain (.msg c ty ts enc sig attrs) l
  | none : Chain .none []
/-- The same for a list of slots. -/
inductive ChainSlots : Attrs → List PStr → List Val → Prop
  | nil (attrs : Attrs) : ChainSlots attrs [] []
  | cons {attrs : Attrs} {name : PStr} {names : List PStr} {l l' : List Val} :
      Chain (getAttr attrs name) l → ChainSlots attrs names l' →
      ChainSlots attrs (name :: names) (l ++ l')
end

/-- A field of a `TaskToCompute`: the ids are those of its `compute_task_def`, the parties are
its own fields, and it is its own `task_to_compute`. -/
def ttcField (a : PStr) : Val → Val
  | .msg c ty ts enc sig attrs =>
    if a = p!"task_to_compute" then .msg c ty ts enc sig attrs
    else if a = p!"task_id" ∨ a = p!"subtask_id" then
      match (getAttr attrs p!"compute_task_def").asDict with
      | some d => ((d.find? fun kv => kv.1 = .str a).map Prod.snd).getD .none
      | Option.none => .none
    else getAttr attrs a
  | _ => .none

/-- The five accessors of task messages. -/
def accessors : List PStr :=
  [p!"task_id", p!"subtask_id", p!"task_to_compute", p!"provider_id", p!"requestor_id"]

/-- A message occurs in a tree, reached through declared message slots, lists included. -/
inductive Within : Val → Val → Prop
  | refl (v : Val) : Within v v
  | step {c : Cls} {ty ts enc sig : Val} {attrs : Attrs} {name : PStr} {sd : SlotDef} {x w : Val} :
      (name, sd) ∈ c.msgSlots → x ∈ members (getAttr attrs name) → Within x w →
      Within (.msg c ty ts enc sig attrs) w

/-- A task message occurs in a tree of task messages, as the value of any attribute. -/
inductive Inside : Val → Val → Prop
  | refl {c : Cls} (ty ts enc sig : Val) (attrs : Attrs) : c.isTask = true →
      Inside (.msg c ty ts enc sig attrs) (.msg c ty ts enc sig attrs)
  | step {c : Cls} {ty ts enc sig : Val} {attrs : Attrs} {name : PStr} {x w : Val} :
      c.isTask = true → (name, x) ∈ attrs → Inside x w → Inside (.msg c ty ts enc sig attrs) w

/-- The public key of a party, as named by the `TaskToCompute` belonging to a message: the
provider's key is in the offer, the requestor's in the `TaskToCompute`, Concent's is given. -/
inductive PartyKey (concent : Option Bytes) (m : Msg) : Owner → Bytes → Prop
  | provider {t w : Msg} {k : Bytes} : m.taskToCompute = t.val →
      getAttr t.attrs p!"want_to_compute_task" = w.val →
      decodeHex (getAttr w.attrs p!"provider_public_key") = .ok k → PartyKey concent m .provider k
  | requestor {t : Msg} {k : Bytes} : m.taskToCompute = t.val →
      decodeHex (getAttr t.attrs p!"requestor_public_key") = .ok k → PartyKey concent m .requestor k
  | concent {k : Bytes} : concent = some k → PartyKey concent m .concent k

/-- The message is signed, over its own content, by one of the parties expected for its class. -/
def Owned (E : Env) (concent : Option Bytes) (m : Msg) : Prop :=
  ∃ o ∈ m.cls.expectedOwners, ∃ k, PartyKey concent m o k ∧ SignedBy E m m.sig k

/-- The task header of the offer in a `TaskToCompute` is signed by the requestor. -/
def HeaderOwned (E : Env) (t : Msg) : Prop :=
  ∃ w : Msg, getAttr t.attrs p!"want_to_compute_task" = w.val ∧
  ∃ fs, getAttr w.attrs p!"task_header" = .cont .taskHeader fs ∧
  ∃ rk, decodeHex (getAttr t.attrs p!"requestor_public_key") = .ok rk ∧ rk.length = 64 ∧
  getAttr fs p!"signature" ≠ .none ∧
  ∃ h, headerHash E fs = .ok h ∧ E.recover (getAttr fs p!"signature") (E.sha3 h) = some (4 :: rk)

/-- What has to hold of one task message of a tree. -/
def Proper (E : Env) (concent : Option Bytes) (w : Msg) : Prop :=
  Owned E concent w ∧ (w.cls = .TaskToCompute → HeaderOwned E w)

/-- The keys and digests needed for checking a task message exist: the parties of its
`TaskToCompute` are named, the keys of the expected owners have 64 bytes, and the contents can
be serialised. -/
def Checkable (E : Env) (concent : Option Bytes) (w : Msg) : Prop :=
  (∃ k, PartyKey concent w .provider k) ∧ (∃ k, PartyKey concent w .requestor k) ∧
  (∀ o ∈ w.cls.expectedOwners, ∃ k, PartyKey concent w o k ∧ k.length = 64) ∧
  (∃ h, shortHash E w = .ok h) ∧
  (w.cls = .TaskToCompute → ∃ o : Msg, getAttr w.attrs p!"want_to_compute_task" = o.val ∧
    ∃ fs, getAttr o.attrs p!"task_header" = .cont .taskHeader fs ∧
    (∃ rk, decodeHex (getAttr w.attrs p!"requestor_public_key") = .ok rk ∧ rk.length = 64) ∧
    ∃ h, headerHash E fs = .ok h)

end Verif.Spec
