import Verif.Model.Exc
/-!
# Big-endian integers and UTF-8

`int.to_bytes(n, 'big')`, `int.from_bytes(b, 'big')`, `struct` big-endian fields
and `str.encode('utf-8')` / `bytes.decode('utf-8')` (Python builtins used
throughout the library).
-/

namespace Verif

/-- `n` big-endian bytes of `x mod 256^n` (`struct.pack('!H' / '!I' / '!Q')`,
`int.to_bytes(n, 'big')` for `x < 256^n`). -/
def toBE : Nat → Nat → Bytes
  | 0, _ => []
  | n + 1, x => toBE n (x / 256) ++ [UInt8.ofNat (x % 256)]

/-- `int.from_bytes(b, 'big')`. -/
def ofBE (b : Bytes) : Nat := b.foldl (fun acc x => acc * 256 + x.toNat) 0

/-- Number of bytes of the minimal big-endian representation (`0` for zero). -/
def byteLen (fuel : Nat) (x : Nat) : Nat :=
  match fuel with
  | 0 => 0
  | f + 1 => if x = 0 then 0 else byteLen f (x / 256) + 1

/-- UTF-8 encoding of one code point. -/
def utf8EncChar (c : Char) : Bytes :=
  let n := c.toNat
  if n < 0x80 then [UInt8.ofNat n]
  else if n < 0x800 then [UInt8.ofNat (0xC0 + n / 64), UInt8.ofNat (0x80 + n % 64)]
  else if n < 0x10000 then
    [UInt8.ofNat (0xE0 + n / 4096), UInt8.ofNat (0x80 + n / 64 % 64), UInt8.ofNat (0x80 + n % 64)]
  else
    [UInt8.ofNat (0xF0 + n / 262144), UInt8.ofNat (0x80 + n / 4096 % 64),
     UInt8.ofNat (0x80 + n / 64 % 64), UInt8.ofNat (0x80 + n % 64)]

/-- `s.encode('utf-8')`. -/
def utf8Enc (s : PStr) : Bytes := s.flatMap utf8EncChar

/-- UTF-8 continuation byte. -/
def isCont (b : UInt8) : Bool := 0x80 ≤ b.toNat && b.toNat < 0xC0

/-- The code point with number `n`, if there is one. -/
def charOf? (n : Nat) : Option Char :=
  if h : n.isValidChar then some (Char.ofNatAux n h) else none

/-- Decode the first code point of a byte string (strict UTF-8). -/
def utf8Dec1 (b : Bytes) : Option (Char × Bytes) :=
  match b with
  | [] => none
  | b0 :: r0 =>
    if b0.toNat < 0x80 then (charOf? b0.toNat).map (·, r0)
    else if b0.toNat < 0xC2 then none
    else if b0.toNat < 0xE0 then
      match r0 with
      | b1 :: r1 =>
        if isCont b1 then (charOf? ((b0.toNat - 0xC0) * 64 + (b1.toNat - 0x80))).map (·, r1)
        else none
      | _ => none
    else if b0.toNat < 0xF0 then
      match r0 with
      | b1 :: b2 :: r2 =>
        let n := (b0.toNat - 0xE0) * 4096 + (b1.toNat - 0x80) * 64 + (b2.toNat - 0x80)
        if isCont b1 && isCont b2 && decide (0x800 ≤ n) then (charOf? n).map (·, r2) else none
      | _ => none
    else if b0.toNat < 0xF5 then
      match r0 with
      | b1 :: b2 :: b3 :: r3 =>
        let n := (b0.toNat - 0xF0) * 262144 + (b1.toNat - 0x80) * 4096
          + (b2.toNat - 0x80) * 64 + (b3.toNat - 0x80)
        if isCont b1 && isCont b2 && isCont b3 && decide (0x10000 ≤ n) then
          (charOf? n).map (·, r3)
        else none
      | _ => none
    else none

/-- Decode code points until the end of input (at most `fuel` of them). -/
def utf8DecF : Nat → Bytes → Option PStr
  | _, [] => some []
  | 0, _ :: _ => none
  | f + 1, b :: bs =>
    match utf8Dec1 (b :: bs) with
    | none => none
    | some (c, rest) => (utf8DecF f rest).map (c :: ·)

/-- `b.decode('utf-8')` (strict); `none` stands for `UnicodeDecodeError`.  Every
code point takes at least one byte, so `b.length` steps suffice. -/
def utf8Dec (b : Bytes) : Option PStr := utf8DecF b.length b

end Verif
