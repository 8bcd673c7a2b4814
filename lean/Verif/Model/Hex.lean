import Verif.Model.Enums
import Verif.Model.Bytes
import Verif.Model.Unicode
/-! # Hexadecimal text and UUIDs -/

namespace Verif

/-- Lower-case hexadecimal digit. -/
def hexDigit (n : Nat) : Char :=
  if n < 10 then Char.ofNat (48 + n) else Char.ofNat (87 + n)

/-- Value of a hexadecimal digit (either case). -/
def hexVal (c : Char) : Option Nat :=
  let n := c.toNat
  if 48 ≤ n ∧ n ≤ 57 then some (n - 48)
  else if 97 ≤ n ∧ n ≤ 102 then some (n - 87)
  else if 65 ≤ n ∧ n ≤ 70 then some (n - 55)
  else none

/-- `binascii.hexlify(b)` / `b.hex()` as text. -/
def hexlify (b : Bytes) : PStr :=
  b.flatMap fun x => [hexDigit (x.toNat / 16), hexDigit (x.toNat % 16)]

/-- `binascii.unhexlify` on text; odd length and non-hexadecimal digits are
`binascii.Error`. -/
def unhexlify : PStr → Res Bytes
  | [] => .ok []
  | [_] => .error .binasciiError
  | a :: b :: rest =>
    match hexVal a, hexVal b with
    | some x, some y =>
      match unhexlify rest with
      | .ok r => .ok (UInt8.ofNat (x * 16 + y) :: r)
      | .error e => .error e
    | _, _ => .error .binasciiError

/-- `utils.decode_hex(b)` (`utils.py:31-32`).  Text must be ASCII (`ValueError`),
bytes are read as ASCII text, other types are a `TypeError`.  String enum members
are text. -/
def decodeHex (v : Val) : Res Bytes :=
  match v with
  | .str s => if s.all (fun c => c.toNat < 128) then unhexlify s else .error .valueError
  | .bytes b => unhexlify (b.map fun x => Char.ofNat x.toNat)
  | .enum e s => if e.isStringEnum then unhexlify s else .error .typeError
  | _ => .error .typeError

/-- `utils.encode_hex(b)` (`utils.py:21-28`).  The comparison of an `int` with
`bytes` in line 25 is never true, so a `0x` prefix is not stripped; `b[0]` of an
empty value is an `IndexError`.  String enum members are text. -/
def encodeHex (v : Val) : Res PStr :=
  match v with
  | .str s => enc (utf8Enc s)
  | .enum e s => if e.isStringEnum then enc (utf8Enc s) else .error .typeError
  | .bytes b => enc b
  | _ => .error .typeError
where
  enc (b : Bytes) : Res PStr :=
    match b with
    | [] => .error .indexError
    | _ :: _ => .ok (hexlify b)

/-! ### UUIDs (Python's `uuid` module, used by `idgenerator.py`, `utils.py:35-40`) -/

/-- Remove all non-overlapping occurrences of `p`, left to right
(`s.replace(p, '')`); `skip` characters are still to be dropped. -/
def removeAll (p : PStr) : Nat → PStr → PStr
  | _, [] => []
  | n + 1, _ :: cs => removeAll p n cs
  | 0, c :: cs =>
    if p.isPrefixOf (c :: cs) then removeAll p (p.length - 1) cs else c :: removeAll p 0 cs

/-- `s.strip('{}')`. -/
def stripBraces (s : PStr) : PStr :=
  let p := fun c => c == '{' || c == '}'
  ((s.dropWhile p).reverse.dropWhile p).reverse

/-- ASCII white space skipped by `int(s, 16)`. -/
def isSpaceC (c : Char) : Bool := c == ' ' || (9 ≤ c.toNat && c.toNat ≤ 13)

/-- Hexadecimal digits with single underscores between them; `prev` tells whether
the previous character was a digit. -/
def hexDigitsVal (acc : Nat) (prev : Bool) : PStr → Option Nat
  | [] => if prev then some acc else none
  | c :: cs =>
    if c = '_' then (if prev then hexDigitsVal acc false cs else none)
    else
      match hexVal c with
      | some d => hexDigitsVal (acc * 16 + d) true cs
      | none => none

/-- After the sign: an optional `0x` / `0X` prefix (which may be followed by one
underscore), then digits. -/
def intUnsigned16 (s : PStr) : Option Nat :=
  match s with
  | '0' :: 'x' :: '_' :: cs => hexDigitsVal 0 false cs
  | '0' :: 'X' :: '_' :: cs => hexDigitsVal 0 false cs
  | '0' :: 'x' :: cs => hexDigitsVal 0 false cs
  | '0' :: 'X' :: cs => hexDigitsVal 0 false cs
  | s => hexDigitsVal 0 false s

/-- An optional sign before the digits. -/
def intSigned16 (s : PStr) : Option Int :=
  match s with
  | '+' :: cs => (intUnsigned16 cs).map Int.ofNat
  | '-' :: cs => (intUnsigned16 cs).map fun n => -Int.ofNat n
  | cs => (intUnsigned16 cs).map Int.ofNat

/-- `int(s, 16)`; `none` stands for `ValueError`. -/
def pyInt16 (s : PStr) : Option Int :=
  let a := s.map asciiOf
  intSigned16 ((a.dropWhile isSpaceC).reverse.dropWhile isSpaceC).reverse

/-- `uuid.UUID(text)` as its 128-bit integer; `none` stands for `ValueError`. -/
def parseUuid (s : PStr) : Option Nat :=
  let h := removeAll p!"-" 0 (stripBraces (removeAll p!"uuid:" 0 (removeAll p!"urn:" 0 s)))
  if h.length ≠ 32 then none
  else
    match pyInt16 h with
    | some i => if 0 ≤ i ∧ i < 2 ^ 128 then some i.toNat else none
    | none => none

/-- `'%0nx' % x` (for `x < 16^n`). -/
def hexN : Nat → Nat → PStr
  | 0, _ => []
  | n + 1, x => hexN n (x / 16) ++ [hexDigit (x % 16)]

/-- `str(uuid)`: 8-4-4-4-12 hexadecimal digits. -/
def uuidText (u : Nat) : PStr :=
  let h := hexN 32 u
  h.take 8 ++ p!"-" ++ (h.drop 8).take 4 ++ p!"-" ++ (h.drop 12).take 4 ++ p!"-"
    ++ (h.drop 16).take 4 ++ p!"-" ++ h.drop 20

/-- `UUID.node`. -/
def uuidNode (u : Nat) : Nat := u % 2 ^ 48

/-- `uuid.uuid1(node, clock_seq)` at the given 60-bit time stamp. -/
def uuid1 (timestamp clockSeq node : Nat) : Nat :=
  timestamp % 2 ^ 32 * 2 ^ 96 + timestamp / 2 ^ 32 % 2 ^ 16 * 2 ^ 80
    + (2 ^ 12 + timestamp / 2 ^ 48 % 2 ^ 12) * 2 ^ 64
    + (2 ^ 15 + clockSeq % 2 ^ 14) * 2 ^ 48 + node

/-- `utils.uuid_to_bytes32` (`utils.py:35-36`). -/
def uuidToBytes32 (u : Nat) : Bytes := toBE 16 u ++ List.replicate 16 0

/-- `utils.bytes32_to_uuid` (`utils.py:39-40`): `UUID(bytes=b[:16])` needs exactly
16 bytes. -/
def bytes32ToUuid (b : Bytes) : Res Nat :=
  let x := b.take 16
  if x.length = 16 then .ok (ofBE x) else .error .valueError

/-! ### Seeded ids (`idgenerator.py`) -/

/-- `SEED_LEN` (`idgenerator.py:6`). -/
def seedLen : Nat := 6

/-- `seed_to_node` (`idgenerator.py:45-46`). -/
def seedToNode (seed : Bytes) : Nat := ofBE (seed.take seedLen)

/-- `generate_id` (`idgenerator.py:9-15`) at a given time and clock sequence. -/
def generateId (timestamp clockSeq : Nat) (seed : Bytes) : PStr :=
  uuidText (uuid1 timestamp clockSeq (seedToNode seed))

/-- `generate_id_from_hex` (`idgenerator.py:18-20`). -/
def generateIdFromHex (timestamp clockSeq : Nat) (hexSeed : Val) : Res PStr :=
  match decodeHex hexSeed with
  | .ok seed => .ok (generateId timestamp clockSeq seed)
  | .error e => .error e

/-- `generate_new_id_from_id` (`idgenerator.py:23-29`). -/
def generateNewIdFromId (timestamp clockSeq : Nat) (id : PStr) : Res PStr :=
  match parseUuid id with
  | some u => .ok (uuidText (uuid1 timestamp clockSeq (uuidNode u)))
  | none => .error .valueError

/-- The comparison in `check_id_seed` (`idgenerator.py:32-37`) for text. -/
def checkTextSeed (id : PStr) (seed : Bytes) : Bool :=
  match parseUuid id with
  | some u => seedToNode seed == uuidNode u
  | none => false

/-- `check_id_seed` (`idgenerator.py:32-37`).  String enum members are text.
`uuid.UUID(None)` is a `TypeError`, other values fail on `.replace` (`bytes` with
`TypeError`). -/
def checkIdSeed (id : Val) (seed : Bytes) : Res Bool :=
  match id with
  | .str s => .ok (checkTextSeed s seed)
  | .enum e s => if e.isStringEnum then .ok (checkTextSeed s seed) else .error .attributeError
  | .none => .error .typeError
  | .bytes _ => .error .typeError
  | _ => .error .attributeError

/-- `check_id_hex_seed` (`idgenerator.py:40-42`). -/
def checkIdHexSeed (id hexSeed : Val) : Res Bool :=
  match decodeHex hexSeed with
  | .ok seed => checkIdSeed id seed
  | .error e => .error e

end Verif
