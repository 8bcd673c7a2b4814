import Verif.Model.Frame
import Verif.Spec.Protocol
import Verif.Spec.Frame
import Verif.Spec.CborItem
import Verif.Spec.Version
/-!
# Specification: what can be read as a message

A description of acceptable payloads over the catalogue: which data a field may be given, down to
the fields of nested messages.  Written for data as the payload codec delivers it.
-/

namespace Verif.Spec

open Verif

/-- The elements of data that has elements: those of a list, the characters of a text, the numbers
of a byte string, the keys of a dictionary. -/
inductive Elements : Val → List Val → Prop
  | list (l : List Val) : Elements (.list l) l
  | text (s : PStr) : Elements (.str s) (s.map fun c => .str [c])
  | bytes (b : Bytes) : Elements (.bytes b) (b.map fun x => .int x.toNat)
  | dict (d : List (Val × Val)) : Elements (.dict d) (d.map Prod.fst)

/-- Every element of the list is made of two. -/
inductive PairUp : List Val → List (Val × Val) → Prop
  | nil : PairUp [] []
  | cons {x k w : Val} {xs : List Val} {ps : List (Val × Val)} :
      Elements x [k, w] → PairUp xs ps → PairUp (x :: xs) ((k, w) :: ps)

/-- Keys and values of data that can be seen as a dictionary: those of a dictionary, or the elements
of anything else if they are pairs. -/
inductive Entries : Val → List (Val × Val) → Prop
  | dict (d : List (Val × Val)) : Entries (.dict d) d
  | pairs {v : Val} {l : List Val} {ps : List (Val × Val)} : (∀ d, v ≠ .dict d) → Elements v l →
      PairUp l ps → Entries v ps

/-- The payload `v` gives the field the value `w`: it can be seen as a dictionary (no key is a list,
a dictionary or tagged), and the last entry of this name has that value.  A payload that cannot be seen
as a dictionary gives no field anything. -/
def Given (v : Val) (name : PStr) (w : Val) : Prop :=
  ∃ ps, Entries v ps ∧ (∀ p ∈ ps, scalar p.1 = true) ∧ lastValue name ps = some w

/-- Data for a `ComputeTaskDef`: known keys, and texts of at most 128 characters as ids. -/
def TaskDefData (v : Val) : Prop :=
  ∃ ps, Entries v ps ∧ ∀ k w, (k, w) ∈ ps → ∃ n ∈ dictKeys .computeTaskDef, k = .str n ∧
    (n = p!"task_id" ∨ n = p!"subtask_id" → TextUpTo 128 w)

/-- Data for a `Peer`: nothing but an address, a port and a node, and none of them missing. -/
def PeerData (E : Env) (v : Val) : Prop :=
  ∃ ps, Entries v ps ∧
    (∀ k w, (k, w) ∈ ps → (k = .str p!"address" ∧ E.ipOk w = true) ∨ (k = .str p!"port" ∧ PortNumber w) ∨
      (k = .str p!"node" ∧ Record (nodeFields E) w)) ∧
    ∀ n ∈ [p!"address", p!"port", p!"node"], (∃ w, (.str n, w) ∈ ps) ∨ (n = p!"address" ∧ E.ipOk .none = true)

/-- Data for a `FileInfo`: a dictionary with known keys, whose category is one of the two. -/
def FileData (v : Val) : Prop :=
  ∃ kw, v = .dict (asPairs kw) ∧ ∀ k w, (k, w) ∈ kw → k ∈ dictKeys .fileInfo ∧
    (k = p!"category" → OneOf [p!"results", p!"resources"] w)

/-- `None`, or as said. -/
def NoneOr (P : Val → Prop) (v : Val) : Prop := v = .none ∨ P v

/-- A list of such values. -/
def EachOf (P : Val → Prop) (v : Val) : Prop := ∃ l, v = .list l ∧ ∀ x ∈ l, P x

/-- The fields whose values are checked although the catalogue does not say anything about them. -/
def fieldRule (E : Env) : Cls → PStr → Option (Val → Prop)
  | .Peers, name => if name = p!"peers" then some (EachOf (PeerData E)) else none
  | .Tasks, name => if name = p!"tasks" then some (EachOf (Record (headerFields E))) else none
  | .WantToComputeTask, name =>
    if name = p!"task_header" then some (NoneOr (Record (headerFields E)))
    else if name = p!"cpu_usage" then some (NoneOr (IntegerFrom 0))
    else if name = p!"num_subtasks" then some (IntegerFrom 1)
    else none
  | .TaskToCompute, name =>
    if name = p!"compute_task_def" then some TaskDefData
    else if name = p!"price" ∨ name = p!"size" then some Integer
    else none
  | .ReportComputedTask, name => if name = p!"stats" then some (NoneOr (Record providerFields)) else none
  | .FileTransferToken, name =>
    if name = p!"files" then some (fun v => ∃ l, Elements v l ∧ ∀ x ∈ l, FileData x) else none
  | _, _ => none

/-- The field is set by the class and never read from a payload. -/
def Unread (c : Cls) (name : PStr) : Prop := c = .StartSessionResponse ∧ name = p!"conn_id"

mutual
/-- The payload can be read as a message of the class: every field that it gives can be read. -/
inductive Legible (E : Env) : Cls → Val → Prop
  | mk {e : Entry} {v : Val} : e ∈ catalogue →
      (∀ name kind w, (name, kind) ∈ e.fields → ¬ Unread e.cls name → Given v name w →
        LegibleField E e.cls name kind w) → Legible E e.cls v
/-- The value can be read as that field. -/
inductive LegibleField (E : Env) : Cls → PStr → Kind → Val → Prop
  | ruled {c : Cls} {name : PStr} {kind : Kind} {w : Val} {P : Val → Prop} :
      fieldRule E c name = some P → P w → LegibleField E c name kind w
  | plain {c : Cls} {name : PStr} {w : Val} : fieldRule E c name = none → LegibleField E c name .plain w
  | node {c : Cls} {name : PStr} {w : Val} : fieldRule E c name = none →
      holds w = false ∨ Record (nodeFields E) w → LegibleField E c name .node w
  | choice {c : Cls} {name : PStr} {values : List PStr} {w : Val} : fieldRule E c name = none →
      NoneOr (OneOf values) w → LegibleField E c name (.choice values) w
  | absent {c : Cls} {name : PStr} {cls : Cls} {list : Bool} {w flag : Val} : fieldRule E c name = none →
      Elements w [flag, .none] → LegibleField E c name (.message cls true list) w
  | single {c : Cls} {name : PStr} {cls : Cls} {optional : Bool} {w flag x : Val} : fieldRule E c name = none →
      Elements w [flag, x] → sameKey flag (.bool false) = true → LegibleMessage E cls x →
      LegibleField E c name (.message cls optional false) w
  | several {c : Cls} {name : PStr} {cls : Cls} {optional : Bool} {w flag : Val} {l : List Val} :
      fieldRule E c name = none → Elements w [flag, .list l] → l ≠ [] → sameKey flag (.bool true) = true →
      (∀ x ∈ l, LegibleMessage E cls x) → LegibleField E c name (.message cls optional true) w
/-- The value can be read as a nested message of the class: header, signature and payload. -/
inductive LegibleMessage (E : Env) : Cls → Val → Prop
  | mk {cls : Cls} {x header sig slots ty ts enc : Val} : Elements x [header, sig, slots] →
      Elements header [ty, ts, enc] → Legible E cls slots → LegibleMessage E cls x
end

/-- The sender's signature, if the class is signed and a sender is expected: the signature bytes of the
frame recover to that key over the digest of type, timestamp and payload (and version). -/
def SenderOk (E : Env) (data : Bytes) (pub : Option Bytes) (payload : Bytes) : Prop :=
  ∀ key, pub = some key → key ≠ [] → key.length = 64 ∧
    ∃ hd, dumps (.list [.int (frameType data), .int (frameTime data)]) = .ok hd ∧
      E.recover (.bytes (frameSig (unversioned data)))
        (E.sha3 (E.sha1 (hd ++ payload) ++ versionBytes data)) = some (4 :: key)

/-- The classes whose messages are checked as a whole after they have been read. -/
def checkedClasses : List Cls :=
  [.TaskToCompute, .SubtaskResultsAccepted, .SubtaskResultsRejected, .VerdictReportComputedTask]

/-- The text says the version; a line feed may follow. -/
def SaidLine (v : Ver) (s : PStr) : Prop := v.Said s ∨ ∃ r, s = r ++ ['\n'] ∧ v.Said r

/-- The version bytes of a `Hello` are acceptable: ASCII text of a version with our major and minor
number; neither theirs nor ours is a pre-release of a `.0` release. -/
def PeerVersion (ours : PStr) (raw : Bytes) : Prop :=
  ∃ o t : Ver, o.Wf ∧ t.Wf ∧ SaidLine o ours ∧ (∀ b ∈ raw, b.toNat < 128) ∧
    SaidLine t (raw.map fun b => Char.ofNat b.toNat) ∧ t.major = o.major ∧ t.minor = o.minor ∧
    ¬ (t.patch = 0 ∧ t.pre ≠ []) ∧ ¬ (o.patch = 0 ∧ o.pre ≠ [])

/-- The payload of a frame: the bytes after the signature, deciphered if the frame says that it is
enciphered and there is a key. -/
def Opened (dec : Bytes → Bytes → Res Bytes) (priv : Option Bytes) (data payload : Bytes) : Prop :=
  (payload = frameBody (unversioned data) ∧ (frameFlag data = false ∨ priv = none ∨ priv = some [])) ∨
  ∃ key, priv = some key ∧ key ≠ [] ∧ frameFlag data = true ∧
    dec key (frameBody (unversioned data)) = .ok payload

/-- The frame can be read as a message of that entry of the catalogue. -/
structure LegibleFrame (E : Env) (dec : Bytes → Bytes → Res Bytes) (data : Bytes) (priv pub : Option Bytes)
    (ct : Bool) (now : Int) (e : Entry) : Prop where
  long : 76 < data.length
  past : newYear 40 < frameTime data
  future : frameTime data < newYear 1040
  number : e.number = frameType data
  fresh : ct = true → now ≤ (frameTime data : Int) * 1000000 + 10 * 60 * 1000000 ∧
    (frameTime data : Int) * 1000000 ≤ now + 5 * 60 * 1000000
  version : e.number = 0 → PeerVersion E.version (fieldVersion (versionField data))
  payload : ∃ payload item rest v, Opened dec priv data payload ∧ payload = item ++ rest ∧
    Item item v ∧ Legible E e.cls v ∧ (e.signed = true → SenderOk E data pub payload)

end Verif.Spec
