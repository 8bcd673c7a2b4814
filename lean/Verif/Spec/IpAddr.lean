import Verif.Model.IpAddr
import Verif.Spec.Hex
/-! # Specification: IP addresses as text (RFC 4291, section 2.2) -/

namespace Verif.Spec

open Verif

/-- Decimal digits of a number. -/
inductive DecText : PStr → Nat → Prop
  | nil : DecText [] 0
  | snoc {s : PStr} {n d : Nat} {c : Char} : DecText s n → p!"0123456789"[d]? = some c →
      DecText (s ++ [c]) (10 * n + d)

/-- Hexadecimal digits of a number. -/
inductive HexNum : PStr → Nat → Prop
  | nil : HexNum [] 0
  | snoc {s : PStr} {n d : Nat} {c : Char} : HexNum s n → Nibble c d → HexNum (s ++ [c]) (16 * n + d)

/-- One to three digits, at most 255; leading zeros as the version of Python has it. -/
structure Octet (pol : IpPolicy) (s : PStr) (n : Nat) : Prop where
  value : DecText s n
  some : s ≠ []
  three : s.length ≤ 3
  byte : n ≤ 255
  zeros : (∃ t, s = '0' :: t ∧ t ≠ []) →
    pol.zeros = .allowed ∨ pol.zeros = .ambiguous ∧ n ≤ 7

/-- Four octets separated by dots. -/
inductive Quad (pol : IpPolicy) : PStr → Nat → Nat → Nat → Nat → Prop
  | mk {a b c d : PStr} {w x y z : Nat} : Octet pol a w → Octet pol b x → Octet pol c y →
      Octet pol d z → Quad pol (a ++ '.' :: b ++ '.' :: c ++ '.' :: d) w x y z

/-- One to four hexadecimal digits. -/
structure Hextet (s : PStr) (n : Nat) : Prop where
  value : HexNum s n
  some : s ≠ []
  four : s.length ≤ 4

/-- Hextets separated by colons. -/
inductive Hextets : PStr → List Nat → Prop
  | one {s n} : Hextet s n → Hextets s [n]
  | cons {s n t xs} : Hextet s n → Hextets t xs → Hextets (s ++ ':' :: t) (n :: xs)

/-- Hextets separated by colons, the last two possibly written as IPv4 address. -/
inductive Groups (pol : IpPolicy) : PStr → List Nat → Prop
  | one {s n} : Hextet s n → Groups pol s [n]
  | quad {s a b c d} : Quad pol s a b c d → Groups pol s [a * 256 + b, c * 256 + d]
  | cons {s n t xs} : Hextet s n → Groups pol t xs → Groups pol (s ++ ':' :: t) (n :: xs)

/-- Eight hextets, one run of at least one zero possibly written `::`. -/
inductive Ipv6 (pol : IpPolicy) : PStr → List Nat → Prop
  | full {s xs} : Groups pol s xs → xs.length = 8 → Ipv6 pol s xs
  | gap {l r xs ys} : (l = [] ∧ xs = [] ∨ Hextets l xs) → (r = [] ∧ ys = [] ∨ Groups pol r ys) →
      xs.length + ys.length ≤ 7 →
      Ipv6 pol (l ++ p!"::" ++ r) (xs ++ List.replicate (8 - (xs.length + ys.length)) 0 ++ ys)

/-- The text is an IP address: version 4, or version 6 with an optional scope id where Python has
them. -/
inductive IpText (pol : IpPolicy) : PStr → Prop
  | v4 {s a b c d} : Quad pol s a b c d → IpText pol s
  | v6 {s xs} : Ipv6 pol s xs → IpText pol s
  | zone {s xs z} : pol.scope = true → Ipv6 pol s xs → z ≠ [] → '%' ∉ z → '/' ∉ z →
      IpText pol (s ++ '%' :: z)

/-- A value Python's `ipaddress` accepts: text of an address, a packed address of 4 or 16 bytes, or a
number below `2^128` (a bool is one). -/
inductive IpValue (pol : IpPolicy) : Val → Prop
  | text {s} : IpText pol s → IpValue pol (.str s)
  | packed {b : Bytes} : b.length = 4 ∨ b.length = 16 → IpValue pol (.bytes b)
  | number {i : Int} : 0 ≤ i → i < 2 ^ 128 → IpValue pol (.int i)
  | truth {b} : IpValue pol (.bool b)

/-- The first version accepts no more than the second: leading zeros and scope ids. -/
def Stricter (p q : IpPolicy) : Prop :=
  (p.zeros = .refused ∨ q.zeros = .allowed ∨ p.zeros = q.zeros) ∧ (p.scope = true → q.scope = true)

end Verif.Spec
