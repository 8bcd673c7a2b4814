import Verif.Spec.CborItem
/-!
# Specification: how a payload is written

Of the ways RFC 7049 has to spell a value, the one that is used, without a writer.
-/

namespace Verif.Spec

open Verif

/-- The shortest initial bytes of an item of a major type with that argument. -/
def Shortest (major : Nat) (h : Bytes) (n : Nat) : Prop :=
  Head major h n ∧ ∀ h', Head major h' n → h.length ≤ h'.length

/-- The enumerations whose members are texts. -/
def textEnums : List EnumId :=
  [.cannotAssignReason, .taskFailureReason, .cannotComputeReason, .rejectReportReason, .ftOperation, .ftCategory,
   .marketType]

/-- The value is written as the bytes: initial bytes are as short as possible, all lengths are
announced, integers beyond 64 bits are tagged byte strings without leading zeros, floats have 64 bits,
dictionaries keep their order, and tuples count as lists.  Objects of the library have no bytes. -/
inductive Encoded : Val → Bytes → Prop
  | none : Encoded .none [0xf6]
  | false : Encoded (.bool false) [0xf4]
  | true : Encoded (.bool true) [0xf5]
  | uint {h : Bytes} {n : Nat} : Shortest 0 h n → Encoded (.int n) h
  | nint {h : Bytes} {n : Nat} : Shortest 1 h n → Encoded (.int (-1 - n)) h
  | posBig {h x : Bytes} : 2 ^ 64 ≤ bigEndian x → x.head? ≠ some 0 → Shortest 2 h x.length →
      Encoded (.int (bigEndian x)) (0xc2 :: (h ++ x))
  | negBig {h x : Bytes} : 2 ^ 64 ≤ bigEndian x → x.head? ≠ some 0 → Shortest 2 h x.length →
      Encoded (.int (-1 - bigEndian x)) (0xc3 :: (h ++ x))
  | float {x : Bytes} {d : UInt64} : x.length = 8 → bigEndian x = d.toNat → Encoded (.float d) (0xfb :: x)
  | bytes {h x : Bytes} : Shortest 2 h x.length → Encoded (.bytes x) (h ++ x)
  | text {h : Bytes} {s : PStr} : Shortest 3 h (utf8 s).length → Encoded (.str s) (h ++ utf8 s)
  | member {h : Bytes} {e : EnumId} {s : PStr} : e ∈ textEnums → Encoded (.str s) h → Encoded (.enum e s) h
  | array {h : Bytes} (parts : List (Val × Bytes)) : Shortest 4 h parts.length →
      (∀ p ∈ parts, Encoded p.1 p.2) → Encoded (.list (parts.map (·.1))) (h ++ parts.flatMap (·.2))
  | tuple {h : Bytes} (parts : List (Val × Bytes)) : Shortest 4 h parts.length →
      (∀ p ∈ parts, Encoded p.1 p.2) → Encoded (.tuple (parts.map (·.1))) (h ++ parts.flatMap (·.2))
  | map {h : Bytes} (pairs : List ((Val × Bytes) × Val × Bytes)) : Shortest 5 h pairs.length →
      (∀ p ∈ pairs, Encoded p.1.1 p.1.2) → (∀ p ∈ pairs, Encoded p.2.1 p.2.2) →
      Encoded (.dict (pairs.map fun p => (p.1.1, p.2.1))) (h ++ pairs.flatMap fun p => p.1.2 ++ p.2.2)
  | dictionary {h : Bytes} {c : FDictId} (pairs : List ((PStr × Bytes) × Val × Bytes)) :
      Shortest 5 h pairs.length → (∀ p ∈ pairs, Encoded (.str p.1.1) p.1.2) →
      (∀ p ∈ pairs, Encoded p.2.1 p.2.2) →
      Encoded (.fdict c (pairs.map fun p => (p.1.1, p.2.1))) (h ++ pairs.flatMap fun p => p.1.2 ++ p.2.2)
  | tag {h b : Bytes} {n : Nat} {v : Val} : n ≠ 1 → Shortest 6 h n → Encoded v b → Encoded (.tag n v) (h ++ b)

end Verif.Spec
