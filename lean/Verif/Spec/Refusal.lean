import Verif.Spec.Meaning
import Verif.Spec.Whole
import Verif.Spec.Errors
import Verif.Spec.Faults
/-!
# Specification: why a frame is refused

For every frame that cannot be read, or is not accepted, the exception its receiver gets.  The reasons are
looked for in the order header, time, version, cipher, codec, fields, signature, message as a whole, and the
fields in the order of the catalogue.  What is wrong with a field that has a structure of its own (a node, a
task header, statistics, peers, files, task definitions) is said in `Spec.Faults`.
-/

namespace Verif.Spec

open Verif

/-- Inside a field everything but a `FieldError` becomes a `FieldError` of that field. -/
def inField (name : PStr) : Exc → Exc
  | .fieldError f => .fieldError f
  | _ => .fieldError name

/-- The value looks like a field for a message, or for messages: a flag and what it announces. -/
def Announced (optional list : Bool) (w : Val) : Prop :=
  ∃ flag x, Elements w [flag, x] ∧ ((x = .none ∧ optional = true) ∨
    (list = false ∧ sameKey flag (.bool false) = true) ∨
    (list = true ∧ sameKey flag (.bool true) = true ∧ ∃ l, x = .list l ∧ l ≠ []))

/-- The value looks like a message: header, signature and payload, and the header has three parts. -/
def Enveloped (x : Val) : Prop :=
  ∃ header sig slots ty ts enc, Elements x [header, sig, slots] ∧ Elements header [ty, ts, enc]

mutual
/-- The payload cannot be read as a message of the class: the first field that cannot be read gives this
exception. -/
inductive Blames (E : Env) : Cls → Val → Exc → Prop
  | mk {e : Entry} {v w : Val} {before after : List (PStr × Kind)} {name : PStr} {kind : Kind} {x : Exc} :
      e ∈ catalogue → e.fields = before ++ (name, kind) :: after →
      (∀ n k x, (n, k) ∈ before → ¬ Unread e.cls n → Given v n x → LegibleField E e.cls n k x) →
      ¬ Unread e.cls name → Given v name w → BlamesField E e.cls name kind w x → Blames E e.cls v x
/-- The value cannot be read as that field. -/
inductive BlamesField (E : Env) : Cls → PStr → Kind → Val → Exc → Prop
  | ruled {c : Cls} {name : PStr} {kind : Kind} {w : Val} {x : Exc} : BadRule E c name w x →
      BlamesField E c name kind w x
  | noNode {c : Cls} {name : PStr} {w : Val} : fieldRule E c name = none → holds w = true →
      (∀ d, w ≠ .dict d) → BlamesField E c name .node w (.fieldError name)
  | node {c : Cls} {name : PStr} {d : List (Val × Val)} {x : Exc} : fieldRule E c name = none → d ≠ [] →
      BadRecord E (nodeFields E) (.dict d) x → BlamesField E c name .node (.dict d) x
  | choice {c : Cls} {name : PStr} {values : List PStr} {w : Val} : fieldRule E c name = none →
      ¬ NoneOr (OneOf values) w → BlamesField E c name (.choice values) w (.fieldError name)
  | announced {c : Cls} {name : PStr} {cls : Cls} {optional list : Bool} {w : Val} : fieldRule E c name = none →
      ¬ Announced optional list w → BlamesField E c name (.message cls optional list) w (.fieldError name)
  | single {c : Cls} {name : PStr} {cls : Cls} {optional : Bool} {w flag y : Val} {x : Exc} :
      fieldRule E c name = none → Elements w [flag, y] → sameKey flag (.bool false) = true →
      ¬ (y = .none ∧ optional = true) → BlamesMessage E cls name y x →
      BlamesField E c name (.message cls optional false) w x
  | several {c : Cls} {name : PStr} {cls : Cls} {optional : Bool} {w flag y : Val} {before after : List Val}
      {x : Exc} : fieldRule E c name = none → Elements w [flag, .list (before ++ y :: after)] →
      sameKey flag (.bool true) = true → (∀ z ∈ before, LegibleMessage E cls z) → BlamesMessage E cls name y x →
      BlamesField E c name (.message cls optional true) w x
/-- The value cannot be read as a message of the class in that field. -/
inductive BlamesMessage (E : Env) : Cls → PStr → Val → Exc → Prop
  | envelope {cls : Cls} {name : PStr} {y : Val} : ¬ Enveloped y → BlamesMessage E cls name y (.fieldError name)
  | inside {cls : Cls} {name : PStr} {y header sig slots ty ts enc : Val} {x : Exc} :
      Elements y [header, sig, slots] → Elements header [ty, ts, enc] → Blames E cls slots x →
      BlamesMessage E cls name y (inField name x)
end

/-- The value is not hexadecimal text. -/
inductive NotHex : Val → Exc → Prop
  | type {v : Val} : (∀ s, v ≠ .str s) → (∀ b, v ≠ .bytes b) → NotHex v .typeError
  | foreign {s : PStr} : (∃ c ∈ s, 128 ≤ c.toNat) → NotHex (.str s) .valueError
  | text {s : PStr} : (∀ c ∈ s, c.toNat < 128) → (∀ b, ¬ HexText s b) → NotHex (.str s) .binasciiError
  | bytes {bs : Bytes} : (∀ b, ¬ HexText (bs.map fun x => Char.ofNat x.toNat) b) → NotHex (.bytes bs) .binasciiError

/-- The offer of a task. -/
def OfferOf (m w : Msg) : Prop :=
  w.cls = .WantToComputeTask ∧ getAttr m.attrs p!"want_to_compute_task" = w.val

/-- The key that signs a task for payment. -/
def PaymentKey (m : Msg) (pk : Bytes) : Prop :=
  decodeHex (getAttr m.attrs p!"requestor_ethereum_public_key") = .ok pk

/-- The offer of the task is signed for payment. -/
def Promised (E : Env) (m : Msg) : Prop :=
  ∃ w pk, OfferOf m w ∧ PaymentKey m pk ∧ SignedBy E w (getAttr m.attrs p!"ethsig") pk

/-- The message does not pass the check of its class. -/
inductive Objection (E : Env) (m : Msg) : Exc → Prop
  | paymentType : m.cls = .SubtaskResultsAccepted →
      (∀ i, getAttr m.attrs p!"payment_ts" ≠ .int i) → (∀ b, getAttr m.attrs p!"payment_ts" ≠ .bool b) →
      (∀ f, getAttr m.attrs p!"payment_ts" ≠ .float f) → Objection E m .typeError
  | paymentHuge {i : Int} : m.cls = .SubtaskResultsAccepted →
      getAttr m.attrs p!"payment_ts" = .int i → i ≤ -(2 ^ 1024 - 2 ^ 970) → Objection E m .overflowError
  | payment {t : Int} : m.cls = .SubtaskResultsAccepted → m.ts = .int t →
      (∀ i, getAttr m.attrs p!"payment_ts" = .int i → -(2 ^ 1024 - 2 ^ 970) < i) →
      (∃ i, getAttr m.attrs p!"payment_ts" = .int i) ∨ (∃ b, getAttr m.attrs p!"payment_ts" = .bool b) ∨
        (∃ f, getAttr m.attrs p!"payment_ts" = .float f) →
      ¬ PaymentOk (getAttr m.attrs p!"payment_ts") t → Objection E m .validationError
  | rejection : m.cls = .SubtaskResultsRejected → ¬ RejectionOk m → Objection E m .validationError
  | verdictGap : m.cls = .VerdictReportComputedTask →
      (∀ t, ¬ At m.val [p!"ack_report_computed_task", p!"report_computed_task", p!"task_to_compute"] t) ∨
        (∀ t, ¬ At m.val [p!"force_report_computed_task", p!"report_computed_task", p!"task_to_compute"] t) →
      Objection E m .attributeError
  | verdictHalf {t1 t2 : Val} : m.cls = .VerdictReportComputedTask →
      At m.val [p!"ack_report_computed_task", p!"report_computed_task", p!"task_to_compute"] t1 →
      At m.val [p!"force_report_computed_task", p!"report_computed_task", p!"task_to_compute"] t2 →
      (t1 = .none ∧ t2 ≠ .none) ∨ (t1 ≠ .none ∧ t2 = .none) → Objection E m .validationError
  | verdict {a b : Msg} : m.cls = .VerdictReportComputedTask →
      At m.val [p!"ack_report_computed_task", p!"report_computed_task", p!"task_to_compute"] a.val →
      At m.val [p!"force_report_computed_task", p!"report_computed_task", p!"task_to_compute"] b.val →
      b.eq a = .ok false → Objection E m .validationError
  | verdictUnequal {a b : Msg} {e : Exc} : m.cls = .VerdictReportComputedTask →
      At m.val [p!"ack_report_computed_task", p!"report_computed_task", p!"task_to_compute"] a.val →
      At m.val [p!"force_report_computed_task", p!"report_computed_task", p!"task_to_compute"] b.val →
      b.eq a = .error e → Objection E m e
  | noOffer : m.cls = .TaskToCompute → getAttr m.attrs p!"want_to_compute_task" = .none →
      Objection E m .attributeError
  | key {w : Msg} {e : Exc} : m.cls = .TaskToCompute → OfferOf m w →
      NotHex (getAttr m.attrs p!"requestor_ethereum_public_key") e → Objection E m e
  | digest {w : Msg} {pk : Bytes} {e : Exc} : m.cls = .TaskToCompute → OfferOf m w → PaymentKey m pk →
      shortHash E w = .error e → Objection E m e
  | keyLength {w : Msg} {pk h : Bytes} : m.cls = .TaskToCompute → OfferOf m w → PaymentKey m pk →
      shortHash E w = .ok h → pk.length ≠ 64 → Objection E m .invalidKeys
  | unsigned {w : Msg} {pk h : Bytes} : m.cls = .TaskToCompute → OfferOf m w → PaymentKey m pk →
      shortHash E w = .ok h → pk.length = 64 → ¬ SignedBy E w (getAttr m.attrs p!"ethsig") pk →
      Objection E m .invalidSignature
  | noDefinition : m.cls = .TaskToCompute → Promised E m →
      getAttr m.attrs p!"compute_task_def" = .none → Objection E m .typeError
  | requestor {e : Exc} : m.cls = .TaskToCompute → Promised E m →
      getAttr m.attrs p!"compute_task_def" ≠ .none → NotHex (getAttr m.attrs p!"requestor_id") e →
      Objection E m e
  | taskId {d : List (Val × Val)} {tid : PStr} {seed : Bytes} : m.cls = .TaskToCompute → Promised E m →
      (getAttr m.attrs p!"compute_task_def").asDict = some d →
      dictGet (.str p!"task_id") d = some (.str tid) → decodeHex (getAttr m.attrs p!"requestor_id") = .ok seed →
      ¬ SeededBy tid seed → Objection E m (.fieldError p!"task_id")
  | subtaskId {d : List (Val × Val)} {tid sid : PStr} {seed : Bytes} : m.cls = .TaskToCompute → Promised E m →
      (getAttr m.attrs p!"compute_task_def").asDict = some d →
      dictGet (.str p!"task_id") d = some (.str tid) → dictGet (.str p!"subtask_id") d = some (.str sid) →
      decodeHex (getAttr m.attrs p!"requestor_id") = .ok seed →
      SeededBy tid seed → ¬ SeededBy sid seed → Objection E m (.fieldError p!"subtask_id")

/-- The header is that of a message: long enough, a time of this millenium, a number of the catalogue. -/
structure Headed (data : Bytes) (e : Entry) : Prop where
  long : 76 < data.length
  past : newYear 40 < frameTime data
  future : frameTime data < newYear 1040
  number : e.number = frameType data

/-- The frame is neither too old nor from the future. -/
def Timely (data : Bytes) (ct : Bool) (now : Int) : Prop :=
  ct = true → now ≤ (frameTime data : Int) * 1000000 + 10 * 60 * 1000000 ∧
    (frameTime data : Int) * 1000000 ≤ now + 5 * 60 * 1000000

/-- The text of the bytes is a version. -/
def VersionBytes (raw : Bytes) : Prop :=
  (∀ b ∈ raw, b.toNat < 128) ∧ ∃ v : Ver, v.Wf ∧ SaidLine v (raw.map fun b => Char.ofNat b.toNat)

/-- Our own version is a version. -/
def OwnVersion (ours : PStr) : Prop := ∃ v : Ver, v.Wf ∧ SaidLine v ours

/-- Everything before the payload is in order. -/
structure Opening (E : Env) (data : Bytes) (ct : Bool) (now : Int) (e : Entry) : Prop where
  headed : Headed data e
  timely : Timely data ct now
  version : e.number = 0 → PeerVersion E.version (fieldVersion (versionField data))

/-- What is wrong with the frame, and the exception it gives. -/
inductive Refusal (E : Env) (dec : Bytes → Bytes → Res Bytes) (data : Bytes) (priv pub : Option Bytes)
    (ct : Bool) (now : Int) : Exc → Prop
  | short : data.length ≤ 76 → Refusal E dec data priv pub ct now .messageError
  | header : 76 < data.length → (∀ e ∈ catalogue, ¬ Headed data e) →
      Refusal E dec data priv pub ct now .headerError
  | old {e : Entry} : e ∈ catalogue → Headed data e → ct = true →
      (frameTime data : Int) * 1000000 + 10 * 60 * 1000000 < now →
      Refusal E dec data priv pub ct now .messageTooOld
  | future {e : Entry} : e ∈ catalogue → Headed data e → ct = true →
      now + 5 * 60 * 1000000 < (frameTime data : Int) * 1000000 →
      Refusal E dec data priv pub ct now .messageFromFuture
  | version {e : Entry} : e ∈ catalogue → Headed data e → Timely data ct now → e.number = 0 →
      ¬ PeerVersion E.version (fieldVersion (versionField data)) →
      OwnVersion E.version ∨ ¬ VersionBytes (fieldVersion (versionField data)) →
      Refusal E dec data priv pub ct now .versionMismatch
  | ownVersion {e : Entry} : e ∈ catalogue → Headed data e → Timely data ct now → e.number = 0 →
      ¬ OwnVersion E.version → VersionBytes (fieldVersion (versionField data)) →
      Refusal E dec data priv pub ct now .valueError
  | cipher {e : Entry} {key : Bytes} {x : Exc} : e ∈ catalogue → Opening E data ct now e →
      frameFlag data = true → priv = some key → key ≠ [] → dec key (frameBody (unversioned data)) = .error x →
      Refusal E dec data priv pub ct now (if x.isMessageError = true then x else .decryptionError)
  | codec {e : Entry} {payload : Bytes} : e ∈ catalogue → Opening E data ct now e →
      Opened dec priv data payload → (∀ item rest v, payload = item ++ rest → ¬ Item item v) →
      Refusal E dec data priv pub ct now .serializationError
  | field {e : Entry} {payload item rest : Bytes} {v : Val} {x : Exc} : e ∈ catalogue →
      Opening E data ct now e → Opened dec priv data payload → payload = item ++ rest → Item item v →
      Blames E e.cls v x → Refusal E dec data priv pub ct now x
  | senderKey {e : Entry} {payload item rest key : Bytes} {v : Val} : e ∈ catalogue → Opening E data ct now e →
      Opened dec priv data payload → payload = item ++ rest → Item item v → Legible E e.cls v →
      e.signed = true → pub = some key → key ≠ [] → key.length ≠ 64 →
      Refusal E dec data priv pub ct now .invalidKeys
  | sender {e : Entry} {payload item rest key : Bytes} {v : Val} : e ∈ catalogue → Opening E data ct now e →
      Opened dec priv data payload → payload = item ++ rest → Item item v → Legible E e.cls v →
      e.signed = true → pub = some key → key.length = 64 → ¬ SenderOk E data pub payload →
      Refusal E dec data priv pub ct now .invalidSignature
  | whole {m : Msg} {e : Exc} : ReadsFrame E dec data priv pub ct now m → Objection E m e →
      Refusal E dec data priv pub ct now e

end Verif.Spec
