import Verif.Spec.Frame
import Verif.Spec.Data
import Verif.Spec.Float
/-!
# Specification: the payload format

The data items of RFC 7049 with the values Python's `cbor` gives them, written as a grammar:
which bytes spell which value, without a reader.
-/

namespace Verif.Spec

open Verif

/-- UTF-8, by the encoder of Lean's core library. -/
def utf8 (s : List Char) : Bytes := s.flatMap String.utf8EncodeChar

/-- The initial bytes of an item of a major type and their argument (RFC 7049, 2.1): one byte
for arguments below 24, else a byte that announces 1, 2, 4 or 8 bytes and those, big-endian. -/
inductive Head (major : Nat) : Bytes → Nat → Prop
  | short {n : Nat} (hn : n < 24) : Head major [UInt8.ofNat (32 * major + n)] n
  | long {k : Nat} {x : Bytes} (hk : k < 4) (hx : x.length = 2 ^ k) :
      Head major (UInt8.ofNat (32 * major + 24 + k) :: x) (bigEndian x)

/-- The keys of a list without those that repeat an earlier one. -/
def firstKeys : List Val → List Val
  | [] => []
  | k :: rest => k :: (firstKeys rest).filter fun l => !sameKey k l

/-- The value a Python dict holds under a key after the assignments, in order. -/
def valueAssigned (k : Val) (pairs : List (Val × Val)) : Val :=
  match pairs.reverse.find? (fun p => sameKey p.1 k) with
  | some p => p.2
  | none => .none

/-- The dict built by the assignments `d[k] = v`, in order: keys in order of first assignment,
each with the value assigned last. -/
def assigned (pairs : List (Val × Val)) : List (Val × Val) :=
  (firstKeys (pairs.map Prod.fst)).map fun k => (k, valueAssigned k pairs)

/-- The double `d` is the number with the bits `x` in the IEEE format with `eb` exponent and `mb`
fraction bits: same sign, and the same value, an infinity or a NaN with the same fraction.
Values are in units of `2^-1074`. -/
def Widened (eb mb x : Nat) (d : UInt64) : Prop :=
  ∃ s e f, s < 2 ∧ e < 2 ^ eb ∧ f < 2 ^ mb ∧ x = s * 2 ^ (eb + mb) + e * 2 ^ mb + f ∧
    d.toNat / 2 ^ 63 = s ∧
    if e = 2 ^ eb - 1 then d.toNat = s * 2 ^ 63 + 2047 * 2 ^ 52 + f * 2 ^ (52 - mb)
    else IsDouble d ((-1) ^ s *
      ((if e = 0 then (f : Int) else (2 ^ mb + f) * 2 ^ (e - 1)) *
        2 ^ (1074 - (2 ^ (eb - 1) - 2 + mb))))

/-- The bytes spell the value.  Deviations of the library from the RFC: `undefined` reads as
`None`; the chunks of a string of unknown length may be any items that read as strings of that
type; a key given twice is not refused; the argument of a tag 2 or 3 may be a string of unknown
length. -/
inductive Item : Bytes → Val → Prop
  | uint {h : Bytes} {n : Nat} (hh : Head 0 h n) : Item h (.int n)
  | nint {h : Bytes} {n : Nat} (hh : Head 1 h n) : Item h (.int (-1 - n))
  | bytes {h x : Bytes} (hh : Head 2 h x.length) : Item (h ++ x) (.bytes x)
  | text {h : Bytes} {s : List Char} (hh : Head 3 h (utf8 s).length) : Item (h ++ utf8 s) (.str s)
  | array {h : Bytes} (parts : List (Bytes × Val)) (hh : Head 4 h parts.length)
      (hp : ∀ p ∈ parts, Item p.1 p.2) :
      Item (h ++ parts.flatMap (·.1)) (.list (parts.map (·.2)))
  | map {h : Bytes} (pairs : List ((Bytes × Val) × Bytes × Val)) (hh : Head 5 h pairs.length)
      (hk : ∀ p ∈ pairs, Item p.1.1 p.1.2) (hv : ∀ p ∈ pairs, Item p.2.1 p.2.2)
      (hs : ∀ p ∈ pairs, scalar p.1.2 = true) :
      Item (h ++ pairs.flatMap fun p => p.1.1 ++ p.2.1)
        (.dict (assigned (pairs.map fun p => (p.1.2, p.2.2))))
  | posBig {h b x : Bytes} (hh : Head 6 h 2) (hb : Item b (.bytes x)) :
      Item (h ++ b) (.int (bigEndian x))
  | negBig {h b x : Bytes} (hh : Head 6 h 3) (hb : Item b (.bytes x)) :
      Item (h ++ b) (.int (-1 - bigEndian x))
  | tag {h b : Bytes} {n : Nat} {v : Val} (hh : Head 6 h n) (h2 : n ≠ 2) (h3 : n ≠ 3)
      (hb : Item b v) : Item (h ++ b) (.tag n v)
  | chunkedBytes (parts : List (Bytes × Bytes)) (hp : ∀ p ∈ parts, Item p.1 (.bytes p.2)) :
      Item (0x5f :: (parts.flatMap (·.1) ++ [0xff])) (.bytes (parts.flatMap (·.2)))
  | chunkedText (parts : List (Bytes × List Char)) (hp : ∀ p ∈ parts, Item p.1 (.str p.2)) :
      Item (0x7f :: (parts.flatMap (·.1) ++ [0xff])) (.str (parts.flatMap (·.2)))
  | openArray (parts : List (Bytes × Val)) (hp : ∀ p ∈ parts, Item p.1 p.2) :
      Item (0x9f :: (parts.flatMap (·.1) ++ [0xff])) (.list (parts.map (·.2)))
  | openMap (pairs : List ((Bytes × Val) × Bytes × Val))
      (hk : ∀ p ∈ pairs, Item p.1.1 p.1.2) (hv : ∀ p ∈ pairs, Item p.2.1 p.2.2)
      (hs : ∀ p ∈ pairs, scalar p.1.2 = true) :
      Item (0xbf :: ((pairs.flatMap fun p => p.1.1 ++ p.2.1) ++ [0xff]))
        (.dict (assigned (pairs.map fun p => (p.1.2, p.2.2))))
  | false : Item [0xf4] (.bool false)
  | true : Item [0xf5] (.bool true)
  | null : Item [0xf6] .none
  | undefined : Item [0xf7] .none
  | half {x : Bytes} {d : UInt64} (hx : x.length = 2) (hd : Widened 5 10 (bigEndian x) d) :
      Item (0xf9 :: x) (.float d)
  | single {x : Bytes} {d : UInt64} (hx : x.length = 4) (hd : Widened 8 23 (bigEndian x) d) :
      Item (0xfa :: x) (.float d)
  | double {x : Bytes} {d : UInt64} (hx : x.length = 8) (hd : d.toNat = bigEndian x) :
      Item (0xfb :: x) (.float d)

end Verif.Spec
