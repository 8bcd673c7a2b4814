import Verif.Model.Bytes
import Verif.Model.Classes
/-!
# Specification of the frame layout

Independent of the decoder: how a reader of the protocol description sees a frame:
2 bytes type, 8 bytes timestamp, 1 flag byte, 65 bytes signature, payload.
-/

namespace Verif.Spec

open Verif

/-- Value of a big-endian byte string. -/
def bigEndian : Bytes → Nat
  | [] => 0
  | x :: xs => x.toNat * 256 ^ xs.length + bigEndian xs

/-- Type number of a frame. -/
def frameType (data : Bytes) : Nat := bigEndian (data.take 2)

/-- Timestamp of a frame. -/
def frameTime (data : Bytes) : Nat := bigEndian ((data.drop 2).take 8)

/-- Encrypted flag of a frame. -/
def frameFlag (data : Bytes) : Bool := data.drop 10 |>.head? |> (· ≠ some 0)

/-- Signature bytes of a frame. -/
def frameSig (data : Bytes) : Bytes := (data.drop 11).take 65

/-- Everything after the signature. -/
def frameBody (data : Bytes) : Bytes := data.drop 76

/-- A frame without the 32-byte version field that ends a `Hello` (type 0). -/
def unversioned (data : Bytes) : Bytes :=
  if frameType data = 0 then data.take (data.length - 32) else data

/-- The version field of a `Hello` frame: its last 32 bytes, a length and that many bytes. -/
def versionField (data : Bytes) : Bytes := data.drop (data.length - 32)

/-- The version bytes in a version field; a length above 31 counts as 31. -/
def fieldVersion : Bytes → Bytes
  | [] => []
  | n :: rest => rest.take (min n.toNat 31)

/-- What the sender's version contributes to a frame's digest. -/
def versionBytes (data : Bytes) : Bytes :=
  if frameType data = 0 then fieldVersion (versionField data) else []

/-- The payload obtained from the bytes after the signature: as they are, or deciphered. -/
def Payload (decrypt : Bytes → Res Bytes) (data payload : Bytes) : Prop :=
  if frameFlag data then decrypt (frameBody (unversioned data)) = .ok payload
  else payload = frameBody (unversioned data)

/-- Gregorian leap years. -/
def leap (y : Nat) : Bool := y % 4 == 0 && (y % 100 != 0 || y % 400 == 0)

/-- Seconds from 1970-01-01 to the first of January of year `1970 + n`. -/
def newYear : Nat → Nat
  | 0 => 0
  | n + 1 => newYear n + (if leap (1970 + n) then 366 else 365) * 86400

/-- The type number belongs to a message class. -/
def Registered (t : Nat) : Prop := ∃ c : Cls, c.typeId = t

end Verif.Spec
