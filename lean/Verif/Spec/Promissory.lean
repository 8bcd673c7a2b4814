import Verif.Model.Misc
import Verif.Spec.Uuid
/-! # Specification: promissory notes -/

namespace Verif.Spec

open Verif

/-- An Ethereum address: `0x` and forty hexadecimal digits, denoting 20 bytes. -/
def Address (s : PStr) (b : Bytes) : Prop :=
  ∃ t, s = '0' :: 'x' :: t ∧ HexText t b ∧ b.length = 20

/-- What a promissory note says. -/
structure Promise where
  contract : Bytes
  payer : Bytes
  payee : Bytes
  amount : Nat
  subtask : Nat
  deriving DecidableEq

/-- The note has well-formed addresses, a uint256 amount and a UUID, and says `p`. -/
structure Says (n : Note) (p : Promise) : Prop where
  contract : Address n.contract p.contract
  payer : Address n.addressFrom p.payer
  payee : Address n.addressTo p.payee
  amount : n.amount = .int p.amount
  range : p.amount < 2 ^ 256
  subtask : UuidText n.subtaskId p.subtask

/-- The value is text: members of some enumerations are, too. -/
inductive TextValue : Val → PStr → Prop
  | plain (s : PStr) : TextValue (.str s) s
  | member {e : EnumId} {s : PStr} : e.isStringEnum = true → TextValue (.enum e s) s

/-- The text is the hexadecimal form, with `0x`, of the bytes. -/
def Denotes (s : PStr) (b : Bytes) : Prop := ∃ t, s = '0' :: 'x' :: t ∧ HexText t b

end Verif.Spec
