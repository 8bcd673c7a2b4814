import Verif.Model.Bytes
import Verif.Model.Enums
/-!
# The payload codec

`golem_messages/serializer.py:34-35` wraps `cbor.dumps` / `cbor.loads` of the
pinned third-party package `cbor==1.0.0` (`setup.py:40`).  The package's source is
not in the repository; the encoder and decoder below transcribe its documented
behaviour (RFC 7049 with its choices: shortest integer heads, 64-bit floats,
big integers as tags 2/3, no key sorting, trailing data ignored by `loads`,
`undefined` decoded to `None`, unknown tags kept as `Tag` objects).

Simplifications: tag 1 (epoch date, a `datetime` in Python) is kept as an opaque
`Val.tag 1 v` that cannot be encoded again; tag 35 (regular expression, which the Python
fallback of the package compiles) is kept like other tags, as its C extension does; big-integer tags
require a byte string.
-/

namespace Verif

/-- Initial byte and argument of a data item (`_encode_type_num`). -/
def cborHead (major n : Nat) : Bytes :=
  if n ≤ 23 then [UInt8.ofNat (major * 32 + n)]
  else if n ≤ 0xff then UInt8.ofNat (major * 32 + 24) :: toBE 1 n
  else if n ≤ 0xffff then UInt8.ofNat (major * 32 + 25) :: toBE 2 n
  else if n ≤ 0xffffffff then UInt8.ofNat (major * 32 + 26) :: toBE 4 n
  else UInt8.ofNat (major * 32 + 27) :: toBE 8 n

/-- A head whose argument must fit 64 bits (lengths and tag numbers). -/
def cborHeadR (major n : Nat) : Res Bytes :=
  if n < 2 ^ 64 then .ok (cborHead major n) else .error .otherError

/-- A definite-length byte or text string. -/
def cborStr (major : Nat) (b : Bytes) : Res Bytes :=
  match cborHeadR major b.length with
  | .error e => .error e
  | .ok h => .ok (h ++ b)

/-- Magnitude of a big integer as a byte string (`_dumps_bignum_to_bytearray`). -/
def bigBytes (n : Nat) : Bytes := toBE (byteLen n n) n

/-- `dumps_int`. -/
def cborInt (i : Int) : Res Bytes :=
  match i with
  | .ofNat n =>
    if n < 2 ^ 64 then .ok (cborHead 0 n)
    else (cborStr 2 (bigBytes n)).map (cborHead 6 2 ++ ·)
  | .negSucc n =>
    if n < 2 ^ 64 then .ok (cborHead 1 n)
    else (cborStr 2 (bigBytes n)).map (cborHead 6 3 ++ ·)

/-- Prepend a head to encoded content. -/
def withHead (h : Res Bytes) (body : Res Bytes) : Res Bytes :=
  match h, body with
  | .ok h, .ok b => .ok (h ++ b)
  | .error e, _ => .error e
  | _, .error e => .error e

/-- Concatenate two encodings. -/
def catRes (a b : Res Bytes) : Res Bytes := withHead a b

mutual
/-- `cbor.dumps(v)` (before the error wrapping of `serializer.py`).  Tuples and
lists are arrays, dict subclasses are maps, string enum members are text; other
enum members and library instances cannot be encoded. -/
def cborEnc (v : Val) : Res Bytes :=
  match v with
  | .none => .ok [0xf6]
  | .bool b => .ok [if b then 0xf5 else 0xf4]
  | .int i => cborInt i
  | .float bits => .ok (0xfb :: toBE 8 bits.toNat)
  | .str s => cborStr 3 (utf8Enc s)
  | .bytes b => cborStr 2 b
  | .list l => withHead (cborHeadR 4 l.length) (cborEncL l)
  | .tuple l => withHead (cborHeadR 4 l.length) (cborEncL l)
  | .dict d => withHead (cborHeadR 5 d.length) (cborEncD d)
  | .tag n v => if n = 1 then .error .otherError else withHead (cborHeadR 6 n) (cborEnc v)
  | .enum e s => if e.isStringEnum then cborStr 3 (utf8Enc s) else .error .otherError
  | .fdict _ items => withHead (cborHeadR 5 items.length) (cborEncF items)
  | .cont _ _ => .error .otherError
  | .mask _ => .error .otherError
  | .msg _ _ _ _ _ _ => .error .otherError
termination_by structural v
def cborEncL (l : List Val) : Res Bytes :=
  match l with
  | [] => .ok []
  | x :: xs => catRes (cborEnc x) (cborEncL xs)
termination_by structural l
def cborEncD (d : List (Val × Val)) : Res Bytes :=
  match d with
  | [] => .ok []
  | (k, x) :: xs => catRes (cborEnc k) (catRes (cborEnc x) (cborEncD xs))
termination_by structural d
def cborEncF (f : List (PStr × Val)) : Res Bytes :=
  match f with
  | [] => .ok []
  | (k, x) :: xs => catRes (cborStr 3 (utf8Enc k)) (catRes (cborEnc x) (cborEncF xs))
termination_by structural f
end

/-! ### Decoder -/

/-- Split off `n` bytes; end of input is an error. -/
def takeBytes (n : Nat) (b : Bytes) : Res (Bytes × Bytes) :=
  if b.length < n then .error .otherError else .ok (b.take n, b.drop n)

/-- The argument of a data item with additional information `info < 28`. -/
def cborArg (info : Nat) (b : Bytes) : Res (Nat × Bytes) :=
  if info ≤ 23 then .ok (info, b)
  else
    let n := if info = 24 then 1 else if info = 25 then 2 else if info = 26 then 4 else 8
    if info ≤ 27 then (takeBytes n b).map fun (x, r) => (ofBE x, r)
    else .error .otherError

/-- IEEE half/single precision bit pattern to double precision bit pattern
(`eb` exponent bits, `mb` mantissa bits).  Simplification: the fraction of a NaN is kept;
CPython and the library may set its quiet bit or drop it. -/
def widenFloat (eb mb x : Nat) : UInt64 :=
  let s := x / 2 ^ (eb + mb)
  let e := x / 2 ^ mb % 2 ^ eb
  let m := x % 2 ^ mb
  let bias := 2 ^ (eb - 1) - 1
  let r :=
    if e = 0 then
      if m = 0 then 0
      else
        let k := Nat.log2 m
        (k + 1024 - bias - mb) * 2 ^ 52 + (m - 2 ^ k) * 2 ^ (52 - k)
    else if e = 2 ^ eb - 1 then 2047 * 2 ^ 52 + m * 2 ^ (52 - mb)
    else (e + 1023 - bias) * 2 ^ 52 + m * 2 ^ (52 - mb)
  UInt64.ofNat (s * 2 ^ 63 + r)

/-- Simple values and floats (major type 7). -/
def cborSimple (info : Nat) (b : Bytes) : Res (Val × Bytes) :=
  if info = 20 then .ok (.bool false, b)
  else if info = 21 then .ok (.bool true, b)
  else if info = 22 then .ok (.none, b)
  else if info = 23 then .ok (.none, b)
  else if info = 25 then (takeBytes 2 b).map fun (x, r) => (.float (widenFloat 5 10 (ofBE x)), r)
  else if info = 26 then (takeBytes 4 b).map fun (x, r) => (.float (widenFloat 8 23 (ofBE x)), r)
  else if info = 27 then (takeBytes 8 b).map fun (x, r) => (.float (UInt64.ofNat (ofBE x)), r)
  else .error .otherError

/-- `tagify`: big integers; other tags are kept. -/
def tagify (n : Nat) (v : Val) : Res Val :=
  if n = 2 then
    match v with
    | .bytes b => .ok (.int (ofBE b))
    | _ => .error .typeError
  else if n = 3 then
    match v with
    | .bytes b => .ok (.int (Int.negSucc (ofBE b)))
    | _ => .error .typeError
  else .ok (.tag n v)

/-- Text item from its bytes. -/
def cborText (b : Bytes) : Res Val :=
  match utf8Dec b with
  | some s => .ok (.str s)
  | Option.none => .error .valueError

/-- Concatenate the chunks of an indefinite-length byte string. -/
def joinBytes : List Val → Res Bytes
  | [] => .ok []
  | .bytes b :: rest => (joinBytes rest).map (b ++ ·)
  | _ => .error .typeError

/-- Concatenate the chunks of an indefinite-length text string. -/
def joinText : List Val → Res PStr
  | [] => .ok []
  | .str b :: rest => (joinText rest).map (b ++ ·)
  | _ => .error .typeError

mutual
/-- Decode one data item; returns the value and the unread rest.  `fuel` bounds the
number of items read (every item consumes at least one byte, see `cborLoads`). -/
def cborDec (fuel : Nat) (b : Bytes) : Res (Val × Bytes) :=
  match fuel with
  | 0 => .error .recursionError
  | f + 1 =>
    match b with
    | [] => .error .otherError
    | b0 :: rest =>
      let major := b0.toNat / 32
      let info := b0.toNat % 32
      if major = 7 then cborSimple info rest
      else if info = 31 then
        if major = 2 then
          match cborDecUntil f rest with
          | .error e => .error e
          | .ok (l, r) => (joinBytes l).map fun x => (.bytes x, r)
        else if major = 3 then
          match cborDecUntil f rest with
          | .error e => .error e
          | .ok (l, r) => (joinText l).map fun x => (.str x, r)
        else if major = 4 then
          match cborDecUntil f rest with
          | .error e => .error e
          | .ok (l, r) => .ok (.list l, r)
        else if major = 5 then
          match cborDecMapUntil f [] rest with
          | .error e => .error e
          | .ok (d, r) => .ok (.dict d, r)
        else .error .otherError
      else
        match cborArg info rest with
        | .error e => .error e
        | .ok (n, r) =>
          if major = 0 then .ok (.int (Int.ofNat n), r)
          else if major = 1 then .ok (.int (Int.negSucc n), r)
          else if major = 2 then
            match takeBytes n r with
            | .error e => .error e
            | .ok (x, r') => .ok (.bytes x, r')
          else if major = 3 then
            match takeBytes n r with
            | .error e => .error e
            | .ok (x, r') => (cborText x).map (·, r')
          else if major = 4 then
            match cborDecN f n r with
            | .error e => .error e
            | .ok (l, r') => .ok (.list l, r')
          else if major = 5 then
            match cborDecMapN f n [] r with
            | .error e => .error e
            | .ok (d, r') => .ok (.dict d, r')
          else
            match cborDec f r with
            | .error e => .error e
            | .ok (v, r') => (tagify n v).map (·, r')
termination_by structural fuel
/-- Decode exactly `n` items. -/
def cborDecN (fuel : Nat) (n : Nat) (b : Bytes) : Res (List Val × Bytes) :=
  match fuel with
  | 0 => .error .recursionError
  | f + 1 =>
    match n with
    | 0 => .ok ([], b)
    | n + 1 =>
      match cborDec f b with
      | .error e => .error e
      | .ok (v, r) =>
        match cborDecN f n r with
        | .error e => .error e
        | .ok (l, r') => .ok (v :: l, r')
termination_by structural fuel
/-- Decode exactly `n` key/value pairs into the dict `acc` (`ob[k] = v`). -/
def cborDecMapN (fuel : Nat) (n : Nat) (acc : List (Val × Val)) (b : Bytes) :
    Res (List (Val × Val) × Bytes) :=
  match fuel with
  | 0 => .error .recursionError
  | f + 1 =>
    match n with
    | 0 => .ok (acc, b)
    | n + 1 =>
      match cborDec f b with
      | .error e => .error e
      | .ok (k, r) =>
        match cborDec f r with
        | .error e => .error e
        | .ok (v, r') =>
          if k.hashable then cborDecMapN f n (dictSet k v acc) r' else .error .typeError
termination_by structural fuel
/-- Decode items up to the break code `0xff`. -/
def cborDecUntil (fuel : Nat) (b : Bytes) : Res (List Val × Bytes) :=
  match fuel with
  | 0 => .error .recursionError
  | f + 1 =>
    match b with
    | [] => .error .otherError
    | b0 :: rest =>
      if b0 = 0xff then .ok ([], rest)
      else
        match cborDec f (b0 :: rest) with
        | .error e => .error e
        | .ok (v, r) =>
          match cborDecUntil f r with
          | .error e => .error e
          | .ok (l, r') => .ok (v :: l, r')
termination_by structural fuel
/-- Decode key/value pairs up to the break code `0xff`. -/
def cborDecMapUntil (fuel : Nat) (acc : List (Val × Val)) (b : Bytes) :
    Res (List (Val × Val) × Bytes) :=
  match fuel with
  | 0 => .error .recursionError
  | f + 1 =>
    match b with
    | [] => .error .otherError
    | b0 :: rest =>
      if b0 = 0xff then .ok (acc, rest)
      else
        match cborDec f (b0 :: rest) with
        | .error e => .error e
        | .ok (k, r) =>
          match cborDec f r with
          | .error e => .error e
          | .ok (v, r') =>
            if k.hashable then cborDecMapUntil f (dictSet k v acc) r' else .error .typeError
termination_by structural fuel
end

/-- `serializer.dumps(v)`: `serializer.py:12-34`; any exception of `cbor.dumps`
becomes `SerializationError`. -/
def dumps (v : Val) : Res Bytes :=
  match cborEnc v with
  | .ok b => .ok b
  | .error _ => .error .serializationError

/-- `serializer.loads(b)`: `serializer.py:12-31, 35`; any exception of `cbor.loads`
becomes `SerializationError`.  `cbor.loads` ignores data after the first item. -/
def loads (b : Bytes) : Res Val :=
  match cborDec (2 * b.length + 2) b with
  | .ok (v, _) => .ok v
  | .error _ => .error .serializationError

end Verif
