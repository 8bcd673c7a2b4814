import Verif.Model.Tasks
/-!
# Frames: serialising and deserialising whole messages

`message/base.py:212-262, 379-484, 634-706`, `message/tasks.py:200-206, 371-384`,
`shortcuts.py:9-28`.
-/

set_option linter.unusedSimpArgs false

namespace Verif

/-- An optional key argument used for its truth value: `None` and `b''` are falsy. -/
def givenKey : Option Bytes → Option Bytes
  | some (b :: bs) => some (b :: bs)
  | _ => none

/-! ### Hello version trailer (`message/base.py:637-638, 657-685`) -/

/-- `Hello.VERSION_LENGTH` (`message/base.py:638`). -/
def versionLen : Nat := 32

/-- `struct.pack('!32p', data)`: length byte, at most 31 bytes, zero padding. -/
def packPascal (b : Bytes) : Bytes :=
  UInt8.ofNat (min b.length 31) :: (b.take 31 ++ List.replicate (31 - b.length) 0)

/-- `struct.unpack('!32p', data)`; `none` stands for `struct.error`. -/
def unpackPascal (b : Bytes) : Option Bytes :=
  if b.length ≠ versionLen then none
  else
    match b with
    | [] => none
    | n :: rest => some (rest.take (min n.toNat 31))

/-- `b.decode('ascii', 'replace')`. -/
def asciiDecodeReplace (b : Bytes) : PStr :=
  b.map fun x => if x.toNat < 128 then Char.ofNat x.toNat else '�'

/-! ### Serialising -/

/-- `_fake_sign` (`message/base.py:590-591`). -/
def fakeSig : Bytes := List.replicate sigLen 0

/-- The signature part of `serialize` (`message/base.py:228-238`): new message state. -/
def signFor (E : Env) (m : Msg) (payload : Bytes) (signAs : Option Bytes) : Res Msg :=
  if m.sig = .none then
    match (if m.cls.sign then givenKey signAs else none) with
    | some k =>
      match shortHashOf E m payload with
      | .error e => .error e
      | .ok h =>
        match E.ecdsaSign k h with
        | .error e => .error e
        | .ok s => .ok { m with sig := .bytes s }
    | none => .ok { m with sig := .bytes fakeSig }
  else .ok m

/-- The concatenation `serialize_header() + self.sig + payload`
(`message/base.py:241-245, 247-262`). -/
def joinFrame (m : Msg) (payload : Bytes) : Res Bytes :=
  match packHeader m.cls.typeId m.ts m.enc with
  | .error e => .error e
  | .ok h =>
    match m.sig with
    | .bytes s => .ok (h ++ s ++ payload)
    | _ => .error .typeError

/-- `Message.serialize` (`message/base.py:212-245`): the outcome and the state of the
message afterwards (the encrypted flag is set before anything else can fail, the
signature before encryption). -/
def serializeBase (E : Env) (m : Msg) (signAs : Option Bytes)
    (encryptFunc : Option (Bytes → Res Bytes)) : Res Bytes × Msg :=
  if (givenKey signAs).isSome && m.sig.truthy then (.error .signatureAlreadyExists, m)
  else
    let m1 := { m with enc := .bool (m.cls.encrypt && encryptFunc.isSome) }
    match m1.slots with
    | .error e => (.error e, m1)
    | .ok s =>
      match dumps s with
      | .error e => (.error e, m1)
      | .ok payload =>
        match signFor E m1 payload signAs with
        | .error e => (.error e, m1)
        | .ok m2 =>
          match (if m2.enc.truthy then encryptFunc else none) with
          | none => (joinFrame m2 payload, m2)
          | some f =>
            match f payload with
            | .error e => (.error e, m2)
            | .ok c => (joinFrame m2 c, m2)

/-- `serialize` with the `Hello` override (`message/base.py:679-685`). -/
def serialize (E : Env) (m : Msg) (signAs : Option Bytes)
    (encryptFunc : Option (Bytes → Res Bytes)) : Res Bytes × Msg :=
  if m.cls = .Hello then
    match serializeBase E m signAs encryptFunc with
    | (.error e, m') => (.error e, m')
    | (.ok b, m') =>
      match getAttr m'.attrs p!"_version" with
      | .str v => (.ok (b ++ packPascal (asciiReplace v)), m')
      | _ => (.error .attributeError, m')
  else serializeBase E m signAs encryptFunc

/-! ### Deserialising -/

/-- `deserialize_header` (`message/base.py:391-415`). -/
def deserializeHeader (data : Bytes) : Res Header :=
  match unpackHeader data with
  | .error e => .error e
  | .ok h =>
    if minTimestamp < h.timestamp ∧ h.timestamp < maxTimestamp then
      if (Cls.ofType h.type).isSome then .ok h else .error .headerError
    else .error .headerError

/-- Outcome of a computation together with the arguments the decryption function was
called with. -/
abbrev Logged (α : Type) := List Bytes × Res α

/-- Continue with a computation that does not decrypt anything. -/
def Logged.andThen {α β : Type} (x : Logged α) (f : α → Res β) : Logged β :=
  (x.1, match x.2 with
    | .error e => .error e
    | .ok a => f a)

/-- Decryption step of `deserialize_with_header` (`message/base.py:462-471`). -/
def decryptStep (enc : Bool) (decrypt : Bytes → Res Bytes) (payload : Bytes) : Logged Bytes :=
  if enc then
    ([payload],
      match decrypt payload with
      | .ok p => .ok p
      | .error e => if e.isMessageError then .error e else .error .decryptionError)
  else ([], .ok payload)

/-- Construction of the instance from the decoded slots (`message/base.py:474-480`); a
`Hello` also gets its version (`message/base.py:669-676`). -/
def construct (E : Env) (c : Cls) (h : Header) (sig : Bytes) (version : Option PStr)
    (slots : Val) : Res Msg :=
  match loadAttrs E (loadMsg E maxDepth) c slots with
  | .error e => .error e
  | .ok as =>
    .ok ⟨c, .int h.type, .int h.timestamp, .bool h.encrypted, .bytes sig,
      match version with
      | some v => as ++ [(p!"_version", .str v)]
      | none => as⟩

/-- Parsing, construction and signature check of `deserialize_with_header`
(`message/base.py:472-484`) on the decrypted payload. -/
def parsePayload (E : Env) (c : Cls) (h : Header) (sig : Bytes) (version : Option PStr)
    (sender : Option Bytes) (payload : Bytes) : Res Msg :=
  match loads payload with
  | .error e => .error e
  | .ok slots =>
    match construct E c h sig version slots with
    | .error e => .error e
    | .ok m =>
      match (if c.sign then givenKey sender else none) with
      | none => .ok m
      | some k =>
        match shortHashOf E m payload with
        | .error e => .error e
        | .ok hash =>
          match E.ecdsaVerify k m.sig hash with
          | .error e => .error e
          | .ok _ => .ok m

/-- `Message.deserialize_with_header` (`message/base.py:454-484`). -/
def dwhBase (E : Env) (c : Cls) (h : Header) (data : Bytes) (decrypt : Bytes → Res Bytes)
    (sender : Option Bytes) (version : Option PStr) : Logged Msg :=
  (decryptStep h.encrypted decrypt (data.drop sigLen)).andThen
    (parsePayload E c h (data.take sigLen) version sender)

/-- The checks task message classes add after construction: `is_valid`
(`message/tasks.py:200-206`), then for `TaskToCompute` the ethereum signature and the
ids (`message/tasks.py:371-384`). -/
def taskChecks (E : Env) (m : Msg) : Res Msg :=
  if m.cls.isTask then
    match isValid m with
    | .error e => .error e
    | .ok _ =>
      if m.cls = .TaskToCompute then
        match verifyEthsig E m with
        | .error e => .error e
        | .ok _ =>
          match validateTaskId m with
          | .error e => .error e
          | .ok _ => .ok m
      else .ok m
  else .ok m

/-- `class_.deserialize_with_header(...)`: `Hello` (`message/base.py:657-677`), task
messages, all others. -/
def dwh (E : Env) (c : Cls) (h : Header) (data : Bytes) (decrypt : Bytes → Res Bytes)
    (sender : Option Bytes) : Logged Msg :=
  if c = .Hello then
    match unpackPascal (data.drop (data.length - versionLen)) with
    | none => ([], .error .versionMismatch)
    | some raw =>
      match verifyVersion E.version (asciiDecodeReplace raw) with
      | .error e => ([], .error e)
      | .ok _ =>
        dwhBase E c h (data.take (data.length - versionLen)) decrypt sender
          (some (asciiDecodeReplace raw))
  else (dwhBase E c h data decrypt sender none).andThen (taskChecks E)

/-- `if check_time: verify_time(header.timestamp)` (`message/base.py:440-441`). -/
def timeGate (checkTime : Bool) (nowUs : Int) (h : Header) : Res Unit :=
  if checkTime then verifyTime nowUs h.timestamp else .ok ()

/-- `Message.deserialize` (`message/base.py:418-452`).  `msg = none` is Python `None`. -/
def deserialize (E : Env) (msg : Option Bytes) (decrypt : Bytes → Res Bytes)
    (checkTime : Bool) (nowUs : Int) (sender : Option Bytes) : Logged Msg :=
  match msg with
  | none => ([], .error .messageError)
  | some msg =>
    if msg.length ≤ hdrLen + sigLen then ([], .error .messageError)
    else
      match deserializeHeader (msg.take hdrLen) with
      | .error e => ([], .error e)
      | .ok h =>
        match timeGate checkTime nowUs h with
        | .error e => ([], .error e)
        | .ok _ =>
          match Cls.ofType h.type with
          | none => ([], .error .keyError)
          | some c => dwh E c h (msg.drop hdrLen) decrypt sender

/-! ### `shortcuts.py` -/

/-- `shortcuts.dump(msg, privkey, pubkey)` (`shortcuts.py:9-17`); `encrypt pubkey data`
is `ecies.encrypt`. -/
def dump (E : Env) (encrypt : Bytes → Bytes → Res Bytes) (m : Msg)
    (privkey pubkey : Option Bytes) : Res Bytes × Msg :=
  serialize E m privkey ((givenKey pubkey).map encrypt)

/-- The decryption function passed on by `shortcuts.load` (`shortcuts.py:21-24`). -/
def loadDecrypt (decrypt : Bytes → Bytes → Res Bytes) (privkey : Option Bytes) (payload : Bytes) :
    Res Bytes :=
  match givenKey privkey with
  | none => .ok payload
  | some k => decrypt k payload

/-- `shortcuts.load(data, privkey, pubkey, check_time)` (`shortcuts.py:20-28`);
`decrypt privkey data` is `ecies.decrypt`. -/
def load (E : Env) (decrypt : Bytes → Bytes → Res Bytes) (data : Option Bytes)
    (privkey pubkey : Option Bytes) (checkTime : Bool) (nowUs : Int) : Logged Msg :=
  deserialize E data (loadDecrypt decrypt privkey) checkTime nowUs pubkey

end Verif
