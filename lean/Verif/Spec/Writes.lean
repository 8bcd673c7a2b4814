import Verif.Spec.Accept
import Verif.Spec.Encoded
/-!
# Specification: what is sent for a message

The mirror image of `Spec.Accept` and `Spec.Meaning`: the data that stands for the fields of a message,
down to the fields of nested messages, and the frame that carries it.
-/

namespace Verif.Spec

open Verif

/-! ### Objects -/

/-- The members of an object that are objects themselves. -/
def innerNames : ContId → List PStr
  | .taskHeader => [p!"task_owner"]
  | .providerStats => [p!"blkio_stats", p!"cpu_stats", p!"memory_stats", p!"pids_stats"]
  | _ => []

/-- The members that are described as `None` if they are empty. -/
def Omittable (c : ContId) (name : PStr) : Prop :=
  (c = .providerStats ∧ name ∈ innerNames .providerStats) ∨ c = .cpuStats

mutual
/-- The object is described by the dictionary: all its members, in order. -/
inductive Described : Val → Val → Prop
  | mk {c : ContId} (members : List (PStr × Val × Val)) : (∀ m ∈ members, DescribedAs c m.1 m.2.1 m.2.2) →
      Described (.cont c (members.map fun m => (m.1, m.2.1))) (.dict (members.map fun m => (.str m.1, m.2.2)))
/-- The value of a member of an object is described by the data. -/
inductive DescribedAs : ContId → PStr → Val → Val → Prop
  | inner {c : ContId} {name : PStr} {v w : Val} : name ∈ innerNames c → Described v w → DescribedAs c name v w
  | mask {b : Bytes} : DescribedAs .taskHeader p!"mask" (.mask b) (.bytes b)
  | member {c : ContId} {name : PStr} {e : EnumId} {s : PStr} : DescribedAs c name (.enum e s) (.str s)
  | empty {c : ContId} {name : PStr} {v : Val} : Omittable c name → holds v = false → DescribedAs c name v .none
  | same {c : ContId} {name : PStr} {v : Val} : (∀ e s, v ≠ .enum e s) →
      (name ∈ innerNames c → ∀ d fs, v ≠ .cont d fs) → (Omittable c name → holds v = true) →
      (c = .taskHeader → name = p!"mask" → (∀ b, v ≠ .mask b) ∧ (∀ i, v ≠ .int i) ∧ ∀ b, v ≠ .bool b) →
      DescribedAs c name v v
end

/-! ### Fields -/

/-- The elements of a value that has elements. -/
inductive Items : Val → List Val → Prop
  | elements {v : Val} {l : List Val} : Elements v l → Items v l
  | tuple (l : List Val) : Items (.tuple l) l
  | dictionary (c : FDictId) (items : Attrs) : Items (.fdict c items) (items.map fun kv => .str kv.1)

/-- A peer is sent as a dictionary with its node described. -/
inductive PeerSent : Val → Val → Prop
  | mk {before after : Attrs} {node w : Val} : p!"node" ∉ before.map Prod.fst → Described node w →
      PeerSent (.fdict .peer (before ++ (p!"node", node) :: after))
        (.dict (asPairs (before ++ (p!"node", w) :: after)))

/-- The field has a form of its own. -/
def Special (c : Cls) (name : PStr) (kind : Kind) (v : Val) : Prop :=
  (kind = .node ∧ holds v = true) ∨ (c = .Peers ∧ name = p!"peers") ∨ (c = .Tasks ∧ name = p!"tasks") ∨
  (c = .WantToComputeTask ∧ name = p!"task_header" ∧ ∃ fs, v = .cont .taskHeader fs) ∨
  (c = .ReportComputedTask ∧ name = p!"stats" ∧ ∃ fs, v = .cont .providerStats fs)

/-- Such a field is sent as the data. -/
inductive SentSpecially : Cls → PStr → Kind → Val → Val → Prop
  | node {c : Cls} {name : PStr} {v w : Val} : holds v = true → Described v w → SentSpecially c name .node v w
  | peers {kind : Kind} {v : Val} (l : List (Val × Val)) : Items v (l.map (·.1)) → (∀ p ∈ l, PeerSent p.1 p.2) →
      SentSpecially .Peers p!"peers" kind v (.list (l.map (·.2)))
  | tasks {kind : Kind} (l : List (Val × Val)) : (∀ p ∈ l, Described p.1 p.2) →
      SentSpecially .Tasks p!"tasks" kind (.list (l.map (·.1))) (.list (l.map (·.2)))
  | header {kind : Kind} {fs : Attrs} {w : Val} : Described (.cont .taskHeader fs) w →
      SentSpecially .WantToComputeTask p!"task_header" kind (.cont .taskHeader fs) w
  | stats {kind : Kind} {fs : Attrs} {w : Val} : Described (.cont .providerStats fs) w →
      SentSpecially .ReportComputedTask p!"stats" kind (.cont .providerStats fs) w

mutual
/-- The value of a field of a class is sent as the data. -/
inductive SentField : Cls → PStr → Kind → Val → Val → Prop
  | special {c : Cls} {name : PStr} {kind : Kind} {v w : Val} : SentSpecially c name kind v w →
      SentField c name kind v w
  | member {c : Cls} {name : PStr} {kind : Kind} {e : EnumId} {s : PStr} : ¬ Special c name kind (.enum e s) →
      SentField c name kind (.enum e s) (.str s)
  | absent {c : Cls} {name : PStr} {cls : Cls} {list : Bool} :
      SentField c name (.message cls true list) .none (.tuple [.bool false, .none])
  | single {c : Cls} {name : PStr} {cls : Cls} {optional list : Bool} {v w : Val} : SentMessage cls v w →
      SentField c name (.message cls optional list) v (.tuple [.bool false, w])
  | several {c : Cls} {name : PStr} {cls : Cls} {optional list : Bool} (l : List (Val × Val)) :
      (∀ p ∈ l, SentMessage cls p.1 p.2) →
      SentField c name (.message cls optional list) (.list (l.map (·.1))) (.tuple [.bool true, .list (l.map (·.2))])
  | same {c : Cls} {name : PStr} {kind : Kind} {v : Val} : ¬ Special c name kind v →
      (∀ cls optional list, kind ≠ .message cls optional list) → (∀ e s, v ≠ .enum e s) →
      SentField c name kind v v
/-- A message of the class inside another one is sent as header, signature and fields. -/
inductive SentMessage : Cls → Val → Val → Prop
  | mk {c : Cls} {ty ts enc sig : Val} {attrs : Attrs} {l : List Val} : SentFields c attrs l →
      SentMessage c (.msg c ty ts enc sig attrs) (.tuple [.tuple [ty, ts, enc], sig, .list l])
/-- The fields of a message among its attributes are sent as pairs of name and data, in order. -/
inductive SentFields : Cls → Attrs → List Val → Prop
  | nil {c : Cls} : SentFields c [] []
  | other {e : Entry} {name : PStr} {v : Val} {rest : Attrs} {l : List Val} : e ∈ catalogue →
      name ∉ e.fields.map Prod.fst → SentFields e.cls rest l → SentFields e.cls ((name, v) :: rest) l
  | field {e : Entry} {name : PStr} {kind : Kind} {v w : Val} {rest : Attrs} {l : List Val} : e ∈ catalogue →
      (name, kind) ∈ e.fields → SentField e.cls name kind v w → SentFields e.cls rest l →
      SentFields e.cls ((name, v) :: rest) (.list [.str name, w] :: l)
end

/-! ### Frames -/

/-- The payload of a message: its fields as they are sent, as bytes. -/
def PayloadOf (m : Msg) (payload : Bytes) : Prop :=
  ∃ l, SentFields m.cls m.attrs l ∧ Encoded (.list l) payload

/-- ASCII, with question marks for all other characters. -/
def ascii (s : PStr) : Bytes := s.map fun c => if c.toNat < 128 then UInt8.ofNat c.toNat else 0x3f

/-- The version in a `Hello`; other messages have none. -/
inductive VersionOf (m : Msg) : Bytes → Prop
  | hello {s : PStr} : m.cls = .Hello → getAttr m.attrs p!"_version" = .str s → VersionOf m (ascii s)
  | other : m.cls ≠ .Hello → VersionOf m []

/-- What is signed for a message: the SHA-1 of type, time and payload, followed by the version. -/
def DigestOf (E : Env) (m : Msg) (payload digest : Bytes) : Prop :=
  ∃ hd version, Encoded (.list [m.ty, m.ts]) hd ∧ VersionOf m version ∧ digest = E.sha1 (hd ++ payload) ++ version

/-- No key: `None` or an empty byte string. -/
def NoKey (k : Option Bytes) : Prop := k = none ∨ k = some []

/-- The flag and the bytes after the signature. -/
inductive Enciphered (e : Entry) (encrypt : Bytes → Bytes → Res Bytes) (pub : Option Bytes) (payload : Bytes) :
    Bool → Bytes → Prop
  | yes {key body : Bytes} : e.encrypted = true → pub = some key → key ≠ [] → encrypt key payload = .ok body →
      Enciphered e encrypt pub payload true body
  | no : e.encrypted = false ∨ NoKey pub → Enciphered e encrypt pub payload false payload

/-- The bytes of the signature: made with the key, zeros, or those the message has already. -/
inductive SignatureOf (E : Env) (e : Entry) (m : Msg) (priv : Option Bytes) (payload : Bytes) : Bytes → Prop
  | made {key digest s : Bytes} : m.sig = .none → e.signed = true → priv = some key → key ≠ [] →
      DigestOf E m payload digest → E.sign key (E.sha3 digest) = .ok s → SignatureOf E e m priv payload s
  | blank : m.sig = .none → e.signed = false ∨ NoKey priv → SignatureOf E e m priv payload (List.replicate 65 0)
  | kept {s : Bytes} : m.sig = .bytes s → NoKey priv ∨ s = [] → SignatureOf E e m priv payload s

/-- The number of seconds in the header. -/
inductive TimeOf : Val → Nat → Prop
  | int (t : Nat) : TimeOf (.int t) t
  | bool (b : Bool) : TimeOf (.bool b) (if b then 1 else 0)

/-- The last 32 bytes of a `Hello`: a length, at most 31 bytes of the version, zeros. -/
def TrailerOf (m : Msg) (trailer : Bytes) : Prop :=
  ∃ version, VersionOf m version ∧
    (m.cls = .Hello → trailer.length = 32 ∧ ∃ shown zeros, trailer = UInt8.ofNat shown.length :: (shown ++ zeros) ∧
      shown = version.take 31 ∧ ∀ z ∈ zeros, z = 0) ∧
    (m.cls ≠ .Hello → trailer = [])

/-- The frame of a message is these bytes, and this is the message afterwards. -/
def WritesFrame (E : Env) (encrypt : Bytes → Bytes → Res Bytes) (m : Msg) (priv pub : Option Bytes)
    (data : Bytes) (m' : Msg) : Prop :=
  ∃ e ∈ catalogue, e.cls = m.cls ∧ ∃ number time flag sig payload body trailer,
    number.length = 2 ∧ bigEndian number = e.number ∧ time.length = 8 ∧ TimeOf m.ts (bigEndian time) ∧
    PayloadOf m payload ∧ SignatureOf E e m priv payload sig ∧ Enciphered e encrypt pub payload flag body ∧
    TrailerOf m trailer ∧
    data = number ++ time ++ [if flag then 1 else 0] ++ sig ++ body ++ trailer ∧
    m' = { m with enc := .bool flag, sig := .bytes sig }

end Verif.Spec
