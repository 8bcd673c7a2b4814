import Verif.Model.Val
import Verif.Spec.Hex
import Verif.Spec.Frame
/-! # Specification: Ethereum addresses (EIP-55) and keys as text -/

namespace Verif.Spec

open Verif

/-- The `i`-th hexadecimal digit of a byte string. -/
def nibbleAt (b : Bytes) (i : Nat) : Nat :=
  let x := (b.getD (i / 2) 0).toNat
  if i % 2 = 0 then x / 16 else x % 16

/-- The forty lower-case digits of an address, as ASCII bytes. -/
def plainDigits (a : Bytes) : Bytes :=
  (List.range 40).map fun i => UInt8.ofNat (hexLower.getD (nibbleAt a i) '?').toNat

/-- EIP-55: `0x` and forty digits; a letter is a capital exactly where the hash of the plain digits has
a digit of at least 8. -/
def eip55 (keccak : Bytes → Bytes) (a : Bytes) : PStr :=
  p!"0x" ++ (List.range 40).map fun i =>
    (if 8 ≤ nibbleAt (keccak (plainDigits a)) i then hexUpper else hexLower).getD (nibbleAt a i) '?'

/-- The address of a public key: the last 20 bytes of its 32-byte hash. -/
def keyAddress (keccak : Bytes → Bytes) (key : Bytes) : PStr :=
  eip55 keccak ((keccak key).drop 12)

/-- The text is a public key in hexadecimal digits: with or without `0x`; a missing leading zero is
supplied. -/
def KeyText (s : PStr) (key : Bytes) : Prop :=
  ∃ pre t, s = pre ++ t ∧ pre ∈ [[], p!"0x", p!"0X"] ∧ (HexText t key ∨ HexText ('0' :: t) key)

/-- The bytes that a value given as public key stands for: text in hexadecimal, bytes as they are, a
non-negative number as its big-endian bytes without leading zeros (at least one), a bool as 0 or 1. -/
inductive KeyOf : Val → Bytes → Prop
  | text {s key} : KeyText s key → KeyOf (.str s) key
  | member {e s key} : e.isStringEnum = true → KeyText s key → KeyOf (.enum e s) key
  | bytes {b} : KeyOf (.bytes b) b
  | bool {b : Bool} : KeyOf (.bool b) [if b then 1 else 0]
  | int {i : Nat} {key : Bytes} : bigEndian key = i → key ≠ [] →
      (1 < key.length → key.head? ≠ some 0) → KeyOf (.int i) key

/-- What is hashed for a signed message: byte 25, `Ethereum Signed Message:`, a line feed, the length in
decimal digits, the message. -/
def signedMessage (b : Bytes) : Bytes :=
  (25 :: p!"Ethereum Signed Message:\n".map (fun c => UInt8.ofNat c.toNat)) ++
    (Nat.toDigits 10 b.length).map (fun c => UInt8.ofNat c.toNat) ++ b

end Verif.Spec
