import Verif.Spec.Unicode
/-!
# Specification: semantic version texts

`MAJOR.MINOR.PATCH[-PRE][+BUILD]` as written by a person, independent of the parser.
-/

namespace Verif.Spec

open Verif

/-- Decimal digit character. -/
def digit (n : Nat) : Char := Char.ofNat (48 + n)

/-- Decimal text of a number, without leading zeros. -/
def decimal (n : Nat) : PStr :=
  if _h : n < 10 then [digit n] else decimal (n / 10) ++ [digit (n % 10)]
termination_by n
decreasing_by omega

/-- Letters, digits and hyphen: the alphabet of identifiers. -/
def IdChar (c : Char) : Prop :=
  ('0' ≤ c ∧ c ≤ '9') ∨ ('a' ≤ c ∧ c ≤ 'z') ∨ ('A' ≤ c ∧ c ≤ 'Z') ∨ c = '-'

/-- Identifiers separated by dots. -/
def dotted : List PStr → PStr
  | [] => []
  | [x] => x
  | x :: y :: rest => x ++ '.' :: dotted (y :: rest)

/-- A version as a structured value. -/
structure Ver where
  major : Nat
  minor : Nat
  patch : Nat
  pre : List PStr
  build : List PStr

/-- All digits, more than one, starting with zero. -/
def LeadingZero (i : PStr) : Prop :=
  (∀ c ∈ i, '0' ≤ c ∧ c ≤ '9') ∧ ∃ rest, i = '0' :: rest ∧ rest ≠ []

/-- Well-formed identifiers: non-empty, over the alphabet; pre-release identifiers have
no leading zeros. -/
structure Ver.Wf (v : Ver) : Prop where
  pre : ∀ i ∈ v.pre, i ≠ [] ∧ (∀ c ∈ i, IdChar c) ∧ ¬ LeadingZero i
  build : ∀ i ∈ v.build, i ≠ [] ∧ ∀ c ∈ i, IdChar c

/-- The text of a version. -/
def Ver.text (v : Ver) : PStr :=
  decimal v.major ++ '.' :: (decimal v.minor ++ '.' :: (decimal v.patch
    ++ ((if v.pre = [] then [] else '-' :: dotted v.pre)
    ++ (if v.build = [] then [] else '+' :: dotted v.build))))

/-- The text says the version: its numbers may be written with the digits of any script. -/
def Ver.Said (v : Ver) (s : PStr) : Prop :=
  ∃ a b c, Numeral a v.major ∧ Numeral b v.minor ∧ Numeral c v.patch ∧
    s = a ++ '.' :: (b ++ '.' :: (c
      ++ ((if v.pre = [] then [] else '-' :: dotted v.pre)
      ++ (if v.build = [] then [] else '+' :: dotted v.build))))

end Verif.Spec
