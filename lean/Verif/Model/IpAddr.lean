import Verif.Model.Validators
import Verif.Model.Hex
/-!
# `ipaddress.ip_address`

The parser behind `validate_ipaddress` (`validators.py:64-72`), from Python's `ipaddress` module:
`IPv4Address`, `IPv6Address` and their `_ip_int_from_string`.  Where versions of Python differ
(`setup.py:37` asks for 3.6 or later) there is a parameter.
-/

namespace Verif

/-- Leading zeros in the octets of IPv4 addresses. -/
inductive LeadingZeros
  /-- refused if the value is above 7 (3.6, 3.7) -/
  | ambiguous
  /-- allowed (3.8.0 to 3.8.11, 3.9.0 to 3.9.4) -/
  | allowed
  /-- refused (later) -/
  | refused
  deriving DecidableEq, Repr

/-- What depends on the version of Python. -/
structure IpPolicy where
  zeros : LeadingZeros
  /-- scope ids in IPv6 addresses (3.9 and later) -/
  scope : Bool
  deriving DecidableEq, Repr

/-- `s.split(d)` for one character. -/
def splitC (d : Char) : PStr → List PStr
  | [] => [[]]
  | c :: cs =>
    if c = d then [] :: splitC d cs
    else
      match splitC d cs with
      | p :: ps => (c :: p) :: ps
      | [] => [[c]]

/-- `IPv4Address._parse_octet`. -/
def parseOctet (pol : IpPolicy) (s : PStr) : Option Nat :=
  if s = [] then none
  else if !s.all (fun c => 48 ≤ c.toNat && c.toNat ≤ 57) then none
  else if 3 < s.length then none
  else
    let n := s.foldl (fun a c => a * 10 + (c.toNat - 48)) 0
    let zero := s.head? = some '0' ∧ 1 < s.length
    if pol.zeros = .ambiguous ∧ 7 < n ∧ zero then none
    else if pol.zeros = .refused ∧ zero then none
    else if 255 < n then none
    else some n

/-- `IPv4Address._ip_int_from_string`, as four octets. -/
def parseIpv4 (pol : IpPolicy) (s : PStr) : Option (Nat × Nat × Nat × Nat) :=
  match splitC '.' s with
  | [a, b, c, d] =>
    match parseOctet pol a, parseOctet pol b, parseOctet pol c, parseOctet pol d with
    | some w, some x, some y, some z => some (w, x, y, z)
    | _, _, _, _ => none
  | _ => none

/-- `IPv6Address._parse_hextet`. -/
def parseHextet (s : PStr) : Option Nat :=
  if !s.all (fun c => (hexVal c).isSome) then none
  else if 4 < s.length then none
  else if s = [] then none
  else some (s.foldl (fun a c => a * 16 + (hexVal c).getD 0) 0)

/-- `[f(x) for x in l]` where `f` may fail. -/
def parseAll (f : PStr → Option Nat) : List PStr → Option (List Nat)
  | [] => some []
  | x :: xs =>
    match f x, parseAll f xs with
    | some y, some ys => some (y :: ys)
    | _, _ => none

/-- An IPv4 address as last part is replaced by two parts in hexadecimal. -/
def expandV4 (pol : IpPolicy) (parts : List PStr) : Option (List PStr) :=
  match parts.getLast? with
  | none => none
  | some last =>
    if last.contains '.' then
      match parseIpv4 pol last with
      | none => none
      | some (a, b, c, d) =>
        some (parts.dropLast ++ [Nat.toDigits 16 (a * 256 + b), Nat.toDigits 16 (c * 256 + d)])
    else some parts

/-- The loop that finds `::` among the inner parts: `none` if there are two, `some none` if there
is none. -/
def findSkip (i : Nat) (seen : Option Nat) : List PStr → Option (Option Nat)
  | [] => some seen
  | p :: ps =>
    if p = [] then
      match seen with
      | some _ => none
      | none => findSkip (i + 1) (some i) ps
    else findSkip (i + 1) seen ps

/-- The rest of `IPv6Address._ip_int_from_string`, as eight hextets. -/
def parseParts (parts : List PStr) : Option (List Nat) :=
  if 9 < parts.length then none
  else
    match findSkip 1 none parts.tail.dropLast with
    | none => none
    | some (some k) =>
      let hi := if parts.head? = some [] then k - 1 else k
      let lo := if parts.getLast? = some [] then parts.length - k - 2 else parts.length - k - 1
      if parts.head? = some [] ∧ hi ≠ 0 then none
      else if parts.getLast? = some [] ∧ lo ≠ 0 then none
      else if 8 < hi + lo + 1 then none
      else
        match parseAll parseHextet (parts.take hi),
          parseAll parseHextet (parts.drop (parts.length - lo)) with
        | some xs, some ys => some (xs ++ List.replicate (8 - (hi + lo)) 0 ++ ys)
        | _, _ => none
    | some none =>
      if parts.length ≠ 8 then none
      else if parts.head? = some [] then none
      else if parts.getLast? = some [] then none
      else parseAll parseHextet parts

/-- `IPv6Address._ip_int_from_string`. -/
def parseIpv6 (pol : IpPolicy) (s : PStr) : Option (List Nat) :=
  let parts := splitC ':' s
  if parts.length < 3 then none
  else
    match expandV4 pol parts with
    | none => none
    | some ps => parseParts ps

/-- `IPv6Address.__init__` up to the parser: no `/`, then `_split_scope_id`: text before the first `%`;
the rest must be non-empty without another one. -/
def splitScope (pol : IpPolicy) (s : PStr) : Option PStr :=
  if s.contains '/' then none
  else if pol.scope then
    match splitC '%' s with
    | [a] => some a
    | [a, z] => if z = [] then none else some a
    | _ => none
  else some s

/-- `ipaddress.ip_address(v)` does not raise.  Ints (also bools) are 32 or 128-bit numbers, bytes packed
addresses, everything else is read as `str(v)`; that of values other than text is never an
address: it has no part that is a number (`None`, enum members, messages, containers), or at most
one dot (floats), or begins with a bracket. -/
def ipAddressOk (pol : IpPolicy) (v : Val) : Bool :=
  match v with
  | .int i => 0 ≤ i && i < 2 ^ 128
  | .bool _ => true
  | .bytes b => b.length == 4 || b.length == 16
  | .str s =>
    (parseIpv4 pol s).isSome ||
      match splitScope pol s with
      | some a => (parseIpv6 pol a).isSome
      | none => false
  | _ => false

end Verif
