import Verif.Spec.Ownership
import Verif.Spec.Unsent
import Verif.Spec.Hex
/-!
# Specification: what checking the owners of a task message says

What has to be right for the check to pass, and which fault is reported, with which exception, if several
things are wrong.
-/

namespace Verif.Spec

open Verif

/-! ### Keys, digests, signatures -/

/-- The value denotes the key, in hexadecimal digits. -/
inductive KeyIn : Val → Bytes → Prop
  | text {s : PStr} {k : Bytes} : HexText s k → KeyIn (.str s) k
  | bytes {b k : Bytes} : HexText (b.map fun x => Char.ofNat x.toNat) k → KeyIn (.bytes b) k
  | member {e : EnumId} {s : PStr} {k : Bytes} : e.isStringEnum = true → HexText s k → KeyIn (.enum e s) k

/-- The value denotes no key. -/
inductive NoKeyIn : Val → Exc → Prop
  | other {v : Val} : (∀ s, v ≠ .str s) → (∀ b, v ≠ .bytes b) → (∀ e s, e.isStringEnum = true → v ≠ .enum e s) →
      NoKeyIn v .typeError
  | foreign {s : PStr} : (∃ c ∈ s, 128 ≤ c.toNat) → NoKeyIn (.str s) .valueError
  | text {s : PStr} : (∀ c ∈ s, c.toNat < 128) → (∀ k, ¬ HexText s k) → NoKeyIn (.str s) .binasciiError
  | bytes {b : Bytes} : (∀ k, ¬ HexText (b.map fun x => Char.ofNat x.toNat) k) → NoKeyIn (.bytes b) .binasciiError
  | member {e : EnumId} {s : PStr} : e.isStringEnum = true → (∀ k, ¬ HexText s k) →
      NoKeyIn (.enum e s) .binasciiError

/-- What is signed for a message. -/
def HasDigest (E : Env) (m : Msg) (d : Bytes) : Prop := ∃ payload, PayloadOf m payload ∧ DigestOf E m payload d

/-- Why there is nothing to be signed for a message. -/
inductive NoDigest (m : Msg) : Exc → Prop
  | field {x : Exc} : UnsentFields m.cls m.attrs x → NoDigest m x
  | payload {l : List Val} : SentFields m.cls m.attrs l → (∀ b, ¬ Encoded (.list l) b) →
      NoDigest m .serializationError
  | head {payload : Bytes} : PayloadOf m payload → (∀ b, ¬ Encoded (.list [m.ty, m.ts]) b) →
      NoDigest m .serializationError
  | version {payload b : Bytes} : PayloadOf m payload → Encoded (.list [m.ty, m.ts]) b → ¬ Versioned m →
      NoDigest m .attributeError

/-- The signature of the digest was made by the holder of the key. -/
def MadeBy (E : Env) (key : Bytes) (sig : Val) (digest : Bytes) : Prop :=
  E.recover sig (E.sha3 digest) = some (4 :: key)

/-- Why the signature of a digest does not pass for one made by the holder of the key. -/
inductive NotMadeBy (E : Env) (key : Bytes) (sig : Val) (digest : Bytes) : Exc → Prop
  | length : key.length ≠ 64 → NotMadeBy E key sig digest .invalidKeys
  | forged : key.length = 64 → ¬ MadeBy E key sig digest → NotMadeBy E key sig digest .invalidSignature

/-- What is signed for a task header: the SHA-1 of all members but the signature. -/
def HeaderDigest (E : Env) (fs : Attrs) (d : Bytes) : Prop :=
  ∃ members b, Described (.cont .taskHeader fs) (.dict members) ∧
    Encoded (.dict (members.filter fun kv => kv.1 ≠ .str p!"signature")) b ∧ d = E.sha1 b

/-- Why there is nothing to be signed for a task header. -/
inductive NoHeaderDigest (fs : Attrs) : Exc → Prop
  | mask : NumberMask (.cont .taskHeader fs) → NoHeaderDigest fs .typeError
  | bytes {members : List (Val × Val)} : Described (.cont .taskHeader fs) (.dict members) →
      (∀ b, ¬ Encoded (.dict (members.filter fun kv => kv.1 ≠ .str p!"signature")) b) →
      NoHeaderDigest fs .serializationError

/-! ### The header in a `TaskToCompute` -/

/-- The value of an attribute is a message. -/
def MessageAt (attrs : Attrs) (name : PStr) (w : Msg) : Prop := getAttr attrs name = w.val

/-- The task header of the offer in a `TaskToCompute`. -/
def HeaderAt (t : Msg) (fs : Attrs) : Prop :=
  ∃ w, MessageAt t.attrs p!"want_to_compute_task" w ∧ getAttr w.attrs p!"task_header" = .cont .taskHeader fs

/-- The header is signed by the requestor. -/
def HeaderVouched (E : Env) (t : Msg) : Prop :=
  ∃ fs k d, HeaderAt t fs ∧ KeyIn (getAttr t.attrs p!"requestor_public_key") k ∧ k.length = 64 ∧
    getAttr fs p!"signature" ≠ .none ∧ HeaderDigest E fs d ∧ MadeBy E k (getAttr fs p!"signature") d

/-- What is wrong with the header. -/
inductive HeaderFault (E : Env) (t : Msg) : Exc → Prop
  | missing : (∀ fs, ¬ HeaderAt t fs) → HeaderFault E t .attributeError
  | key {fs : Attrs} {x : Exc} : HeaderAt t fs → NoKeyIn (getAttr t.attrs p!"requestor_public_key") x →
      HeaderFault E t x
  | unsigned {fs : Attrs} {k : Bytes} : HeaderAt t fs → KeyIn (getAttr t.attrs p!"requestor_public_key") k →
      getAttr fs p!"signature" = .none → HeaderFault E t .invalidSignature
  | digest {fs : Attrs} {k : Bytes} {x : Exc} : HeaderAt t fs → KeyIn (getAttr t.attrs p!"requestor_public_key") k →
      getAttr fs p!"signature" ≠ .none → NoHeaderDigest fs x → HeaderFault E t x
  | signature {fs : Attrs} {k d : Bytes} {x : Exc} : HeaderAt t fs →
      KeyIn (getAttr t.attrs p!"requestor_public_key") k → getAttr fs p!"signature" ≠ .none → HeaderDigest E fs d →
      NotMadeBy E k (getAttr fs p!"signature") d x → HeaderFault E t x

/-! ### One task message -/

/-- The keys of provider and requestor, as the `TaskToCompute` of the message names them. -/
def PartiesOf (m : Msg) (p r : Bytes) : Prop :=
  ∃ t w, m.taskToCompute = Msg.val t ∧ MessageAt t.attrs p!"want_to_compute_task" w ∧
    KeyIn (getAttr w.attrs p!"provider_public_key") p ∧ KeyIn (getAttr t.attrs p!"requestor_public_key") r

/-- The parties are not named. -/
inductive PartiesUnknown (m : Msg) : Exc → Prop
  | task : (∀ t : Msg, m.taskToCompute ≠ t.val) → PartiesUnknown m .attributeError
  | offer {t : Msg} : m.taskToCompute = t.val → (∀ w, ¬ MessageAt t.attrs p!"want_to_compute_task" w) →
      PartiesUnknown m .attributeError
  | provider {t w : Msg} {x : Exc} : m.taskToCompute = t.val → MessageAt t.attrs p!"want_to_compute_task" w →
      NoKeyIn (getAttr w.attrs p!"provider_public_key") x → PartiesUnknown m x
  | requestor {t w : Msg} {p : Bytes} {x : Exc} : m.taskToCompute = t.val →
      MessageAt t.attrs p!"want_to_compute_task" w → KeyIn (getAttr w.attrs p!"provider_public_key") p →
      NoKeyIn (getAttr t.attrs p!"requestor_public_key") x → PartiesUnknown m x

/-- The key of a party. -/
inductive SenderKey (p r : Bytes) (concent : Option Bytes) : Owner → Bytes → Prop
  | provider : SenderKey p r concent .provider p
  | requestor : SenderKey p r concent .requestor r
  | concent {k : Bytes} : concent = some k → SenderKey p r concent .concent k

/-- The key is one, but the signature of the message was not made with it. -/
def Excluded (E : Env) (m : Msg) (p r : Bytes) (concent : Option Bytes) (d : Bytes) (o : Owner) : Prop :=
  ∃ k, SenderKey p r concent o k ∧ k.length = 64 ∧ ¬ MadeBy E k m.sig d

/-- The message is signed by one of those that may send it; those before are excluded. -/
def SenderVouched (E : Env) (concent : Option Bytes) (m : Msg) : Prop :=
  ∃ e ∈ catalogue, e.cls = m.cls ∧ ∃ p r d before o after k, PartiesOf m p r ∧ HasDigest E m d ∧
    e.senders = before ++ o :: after ∧ (∀ q ∈ before, Excluded E m p r concent d q) ∧
    SenderKey p r concent o k ∧ k.length = 64 ∧ MadeBy E k m.sig d

/-- What is wrong with the sender. -/
inductive SenderFault (E : Env) (concent : Option Bytes) (m : Msg) : Exc → Prop
  | parties {x : Exc} : PartiesUnknown m x → SenderFault E concent m x
  | digest {p r : Bytes} {x : Exc} : PartiesOf m p r → NoDigest m x → SenderFault E concent m x
  /-- Concent may be the sender, but its key is not given. -/
  | keyless {e : Entry} {p r d : Bytes} {before after : List Owner} : PartiesOf m p r → HasDigest E m d →
      e ∈ catalogue → e.cls = m.cls → e.senders = before ++ .concent :: after →
      (∀ q ∈ before, Excluded E m p r concent d q) → concent = none → SenderFault E concent m .typeError
  | length {e : Entry} {p r d k : Bytes} {before after : List Owner} {o : Owner} : PartiesOf m p r → HasDigest E m d →
      e ∈ catalogue → e.cls = m.cls → e.senders = before ++ o :: after →
      (∀ q ∈ before, Excluded E m p r concent d q) → SenderKey p r concent o k → k.length ≠ 64 →
      SenderFault E concent m .invalidKeys
  | nobody {e : Entry} {p r d : Bytes} : PartiesOf m p r → HasDigest E m d → e ∈ catalogue → e.cls = m.cls →
      (∀ q ∈ e.senders, Excluded E m p r concent d q) → SenderFault E concent m .invalidSignature

/-- Everything is right with one task message. -/
def Vouched (E : Env) (concent : Option Bytes) (m : Msg) : Prop :=
  (m.cls = .TaskToCompute → HeaderVouched E m) ∧ SenderVouched E concent m

/-- What is wrong with one task message. -/
inductive Disowned (E : Env) (concent : Option Bytes) (m : Msg) : Exc → Prop
  | header {x : Exc} : m.cls = .TaskToCompute → HeaderFault E m x → Disowned E concent m x
  | sender {x : Exc} : (m.cls = .TaskToCompute → HeaderVouched E m) → SenderFault E concent m x →
      Disowned E concent m x

/-! ### Chains -/

/-- Everything is right with all task messages in a value. -/
def AllVouched (E : Env) (concent : Option Bytes) (v : Val) : Prop :=
  ∀ w : Msg, Inside v w.val → Vouched E concent w

/-- The first task message with which something is wrong: a message is looked at before what is inside it, and
its attributes in order. -/
inductive ChainFault (E : Env) (concent : Option Bytes) : Val → Exc → Prop
  | here {m : Msg} {x : Exc} : m.cls.isTask = true → Disowned E concent m x → ChainFault E concent m.val x
  | inside {c : Cls} {ty ts enc sig : Val} {before after : Attrs} {name : PStr} {v : Val} {x : Exc} :
      c.isTask = true → Vouched E concent ⟨c, ty, ts, enc, sig, before ++ (name, v) :: after⟩ →
      (∀ kv ∈ before, AllVouched E concent kv.2) → ChainFault E concent v x →
      ChainFault E concent (.msg c ty ts enc sig (before ++ (name, v) :: after)) x

/-- The key of the provider, as a value, or why there is none. -/
inductive ProviderValue (m : Msg) : Val → Prop
  | mk {t w : Msg} : m.taskToCompute = t.val → MessageAt t.attrs p!"want_to_compute_task" w →
      ProviderValue m (getAttr w.attrs p!"provider_public_key")

/-- The key of the requestor, as a value. -/
inductive RequestorValue (m : Msg) : Val → Prop
  | mk {t : Msg} : m.taskToCompute = t.val → RequestorValue m (getAttr t.attrs p!"requestor_public_key")

/-- If a key is expected, it is the one that is found. -/
def RoleRight (Value : Val → Prop) (expected : Option Bytes) : Prop :=
  NoKey expected ∨ ∃ k v, expected = some k ∧ Value v ∧ KeyIn v k

/-- A key is expected and something else found. -/
inductive RoleFault (Value : Val → Prop) (expected : Option Bytes) : Exc → Prop
  | missing : ¬ NoKey expected → (∀ v, ¬ Value v) → RoleFault Value expected .attributeError
  | nokey {v : Val} {x : Exc} : ¬ NoKey expected → Value v → NoKeyIn v x → RoleFault Value expected x
  | mismatch {v : Val} {k k' : Bytes} : ¬ NoKey expected → Value v → KeyIn v k → expected = some k' → k ≠ k' →
      RoleFault Value expected .ownershipMismatch

/-- What checking the owners says: provider, requestor, then the messages. -/
inductive OwnersFault (E : Env) (m : Msg) (provider requestor concent : Option Bytes) : Exc → Prop
  | provider {x : Exc} : RoleFault (ProviderValue m) provider x → OwnersFault E m provider requestor concent x
  | requestor {x : Exc} : RoleRight (ProviderValue m) provider → RoleFault (RequestorValue m) requestor x →
      OwnersFault E m provider requestor concent x
  | chain {x : Exc} : RoleRight (ProviderValue m) provider → RoleRight (RequestorValue m) requestor →
      ChainFault E concent m.val x → OwnersFault E m provider requestor concent x

end Verif.Spec
