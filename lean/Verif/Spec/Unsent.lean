import Verif.Spec.Writes
/-!
# Specification: why a message cannot be sent

The counterpart of `Spec.Writes`: which fault of a message is found first when it is written, the exception
it is reported with, and what has become of the message by then.
-/

namespace Verif.Spec

open Verif

/-! ### Objects -/

/-- A task header whose mask is a number, or an object with one among its inner objects. -/
inductive NumberMask : Val → Prop
  | here {fs : Attrs} {v : Val} : (p!"mask", v) ∈ fs → (∃ i, v = .int i) ∨ (∃ b, v = .bool b) →
      NumberMask (.cont .taskHeader fs)
  | inner {c : ContId} {fs : Attrs} {name : PStr} {v : Val} : (name, v) ∈ fs → name ∈ innerNames c →
      NumberMask v → NumberMask (.cont c fs)

/-- The value cannot be described by a dictionary. -/
inductive Indescribable : Val → Exc → Prop
  | stranger {v : Val} : (∀ c fs, v ≠ .cont c fs) → Indescribable v .attributeError
  | mask {v : Val} : NumberMask v → Indescribable v .typeError

/-- All elements up to one are as they should be, and that one has the fault. -/
def FirstFault (Fine : Val → Prop) (Fault : Val → Exc → Prop) (l : List Val) (x : Exc) : Prop :=
  ∃ before v after, l = before ++ v :: after ∧ (∀ y ∈ before, Fine y) ∧ Fault v x

/-- The value cannot be sent as a peer. -/
inductive PeerUnsent : Val → Exc → Prop
  | stranger {v : Val} : (∀ items, v ≠ .fdict .peer items) → PeerUnsent v .attributeError
  | lost {items : Attrs} : p!"node" ∉ items.map Prod.fst → PeerUnsent (.fdict .peer items) .keyError
  | node {before after : Attrs} {node : Val} {x : Exc} : p!"node" ∉ before.map Prod.fst → Indescribable node x →
      PeerUnsent (.fdict .peer (before ++ (p!"node", node) :: after)) x

/-! ### Fields -/

/-- A field with a form of its own cannot be sent. -/
inductive UnsentSpecially : Cls → PStr → Kind → Val → Exc → Prop
  | node {c : Cls} {name : PStr} {v : Val} {x : Exc} : holds v = true → Indescribable v x →
      UnsentSpecially c name .node v (.fieldError name)
  | nopeers {kind : Kind} {v : Val} : (∀ l, ¬ Items v l) → UnsentSpecially .Peers p!"peers" kind v .typeError
  | peers {kind : Kind} {v : Val} {l : List Val} {x : Exc} : Items v l →
      FirstFault (fun p => ∃ w, PeerSent p w) PeerUnsent l x → UnsentSpecially .Peers p!"peers" kind v x
  | notasks {kind : Kind} {v : Val} : (∀ l, v ≠ .list l) →
      UnsentSpecially .Tasks p!"tasks" kind v (.fieldError p!"tasks")
  | tasks {kind : Kind} {l : List Val} {x : Exc} : FirstFault (fun t => ∃ w, Described t w) Indescribable l x →
      UnsentSpecially .Tasks p!"tasks" kind (.list l) x
  | header {kind : Kind} {fs : Attrs} : NumberMask (.cont .taskHeader fs) →
      UnsentSpecially .WantToComputeTask p!"task_header" kind (.cont .taskHeader fs) .typeError
  | stats {kind : Kind} {fs : Attrs} : NumberMask (.cont .providerStats fs) →
      UnsentSpecially .ReportComputedTask p!"stats" kind (.cont .providerStats fs) .typeError

/-- The value is not a message of the class. -/
def NoMessage (c : Cls) (v : Val) : Prop := ∀ ty ts enc sig attrs, v ≠ .msg c ty ts enc sig attrs

mutual
/-- The value of a field of a class cannot be sent. -/
inductive UnsentField : Cls → PStr → Kind → Val → Exc → Prop
  | special {c : Cls} {name : PStr} {kind : Kind} {v : Val} {x : Exc} : UnsentSpecially c name kind v x →
      UnsentField c name kind v x
  | missing {c : Cls} {name : PStr} {cls : Cls} {list : Bool} :
      UnsentField c name (.message cls false list) .none (.fieldError name)
  | stranger {c : Cls} {name : PStr} {cls : Cls} {optional list : Bool} {v : Val} : v ≠ .none →
      (∀ e s, v ≠ .enum e s) → (∀ l, v ≠ .list l) → NoMessage cls v →
      UnsentField c name (.message cls optional list) v (.fieldError name)
  | inside {c : Cls} {name : PStr} {cls : Cls} {optional list : Bool} {ty ts enc sig : Val} {attrs : Attrs} {x : Exc} :
      UnsentFields cls attrs x →
      UnsentField c name (.message cls optional list) (.msg cls ty ts enc sig attrs) x
  | strangers {c : Cls} {name : PStr} {cls : Cls} {optional list : Bool} {before after : List Val} {v : Val} :
      (∀ y ∈ before, ∃ w, SentMessage cls y w) → NoMessage cls v →
      UnsentField c name (.message cls optional list) (.list (before ++ v :: after)) (.fieldError name)
  | among {c : Cls} {name : PStr} {cls : Cls} {optional list : Bool} {before after : List Val}
      {ty ts enc sig : Val} {attrs : Attrs} {x : Exc} :
      (∀ y ∈ before, ∃ w, SentMessage cls y w) → UnsentFields cls attrs x →
      UnsentField c name (.message cls optional list) (.list (before ++ .msg cls ty ts enc sig attrs :: after)) x
/-- One of the fields of a message among its attributes cannot be sent, all before it can. -/
inductive UnsentFields : Cls → Attrs → Exc → Prop
  | mk {e : Entry} {name : PStr} {kind : Kind} {v : Val} {before after : Attrs} {l : List Val} {x : Exc} :
      e ∈ catalogue → SentFields e.cls before l → (name, kind) ∈ e.fields → UnsentField e.cls name kind v x →
      UnsentFields e.cls (before ++ (name, v) :: after) x
end

/-! ### Frames -/

/-- The flag a message of the class gets. -/
inductive FlagFor (e : Entry) (pub : Option Bytes) : Bool → Prop
  | yes : e.encrypted = true → ¬ NoKey pub → FlagFor e pub true
  | no : e.encrypted = false ∨ NoKey pub → FlagFor e pub false

/-- What the message has for a signature once its payload is written: as in `SignatureOf`, but it may
have had something that is no byte string. -/
inductive HasSignature (E : Env) (e : Entry) (m : Msg) (priv : Option Bytes) (payload : Bytes) : Val → Prop
  | bytes {s : Bytes} : SignatureOf E e m priv payload s → HasSignature E e m priv payload (.bytes s)
  | kept : m.sig ≠ .none → (∀ s, m.sig ≠ .bytes s) → HasSignature E e m priv payload m.sig

/-- The message is to be signed, with this key. -/
def ToSign (e : Entry) (m : Msg) (priv : Option Bytes) (key : Bytes) : Prop :=
  m.sig = .none ∧ e.signed = true ∧ priv = some key ∧ key ≠ []

/-- The message is no `Hello`, or has a version. -/
def Versioned (m : Msg) : Prop := ∃ version, VersionOf m version

/-- What is wrong with a message that is not to be signed anew, the exception, and the message afterwards;
`flag` is the flag it gets. -/
inductive NoFrameOf (E : Env) (encrypt : Bytes → Bytes → Res Bytes) (e : Entry) (m : Msg) (priv pub : Option Bytes)
    (flag : Bool) : Exc → Msg → Prop
  /-- A field cannot be sent. -/
  | field {x : Exc} : UnsentFields m.cls m.attrs x → NoFrameOf E encrypt e m priv pub flag x { m with enc := .bool flag }
  /-- The fields cannot be written as bytes. -/
  | payload {l : List Val} : SentFields m.cls m.attrs l → (∀ b, ¬ Encoded (.list l) b) →
      NoFrameOf E encrypt e m priv pub flag .serializationError { m with enc := .bool flag }
  /-- Type and time cannot be written as bytes to be signed. -/
  | head {key payload : Bytes} : PayloadOf m payload → ToSign e m priv key →
      (∀ b, ¬ Encoded (.list [m.ty, m.ts]) b) →
      NoFrameOf E encrypt e m priv pub flag .serializationError { m with enc := .bool flag }
  /-- A `Hello` without a version is to be signed. -/
  | unversioned {key payload b : Bytes} : PayloadOf m payload → ToSign e m priv key → Encoded (.list [m.ty, m.ts]) b →
      ¬ Versioned m → NoFrameOf E encrypt e m priv pub flag .attributeError { m with enc := .bool flag }
  /-- The key does not sign. -/
  | sign {key payload digest : Bytes} {x : Exc} : PayloadOf m payload → ToSign e m priv key →
      DigestOf E m payload digest → E.sign key (E.sha3 digest) = .error x →
      NoFrameOf E encrypt e m priv pub flag x { m with enc := .bool flag }
  /-- The other key does not encipher; the message has its signature already. -/
  | cipher {key payload : Bytes} {sig : Val} {x : Exc} : PayloadOf m payload → HasSignature E e m priv payload sig →
      flag = true → pub = some key → encrypt key payload = .error x →
      NoFrameOf E encrypt e m priv pub flag x { m with enc := .bool flag, sig := sig }
  /-- The time is no number of 64 bits. -/
  | time {payload body : Bytes} {sig : Val} : PayloadOf m payload → HasSignature E e m priv payload sig →
      Enciphered e encrypt pub payload flag body → (∀ n < 2 ^ 64, ¬ TimeOf m.ts n) →
      NoFrameOf E encrypt e m priv pub flag .structError { m with enc := .bool flag, sig := sig }
  /-- The signature is no byte string. -/
  | signature {payload body : Bytes} {n : Nat} {sig : Val} : PayloadOf m payload → HasSignature E e m priv payload sig →
      Enciphered e encrypt pub payload flag body → n < 2 ^ 64 → TimeOf m.ts n → (∀ s, sig ≠ .bytes s) →
      NoFrameOf E encrypt e m priv pub flag .typeError { m with enc := .bool flag, sig := sig }
  /-- A `Hello` without a version. -/
  | version {payload body s : Bytes} {n : Nat} : PayloadOf m payload → SignatureOf E e m priv payload s →
      Enciphered e encrypt pub payload flag body → n < 2 ^ 64 → TimeOf m.ts n → ¬ Versioned m →
      NoFrameOf E encrypt e m priv pub flag .attributeError { m with enc := .bool flag, sig := .bytes s }

/-- There is no frame for the message: this is the exception, and this the message afterwards. -/
inductive NoFrame (E : Env) (encrypt : Bytes → Bytes → Res Bytes) (m : Msg) (priv pub : Option Bytes) :
    Exc → Msg → Prop
  /-- It is to be signed, but has a signature; nothing happens to it. -/
  | signed : ¬ NoKey priv → holds m.sig = true → NoFrame E encrypt m priv pub .signatureAlreadyExists m
  | fault {e : Entry} {flag : Bool} {x : Exc} {m' : Msg} : NoKey priv ∨ holds m.sig = false → e ∈ catalogue →
      e.cls = m.cls → FlagFor e pub flag → NoFrameOf E encrypt e m priv pub flag x m' →
      NoFrame E encrypt m priv pub x m'

end Verif.Spec
