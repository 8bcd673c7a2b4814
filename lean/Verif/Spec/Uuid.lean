import Verif.Spec.Hex
import Verif.Spec.Unicode
/-!
# Specification: which texts denote a UUID

What Python's `uuid.UUID(text)` takes for a UUID, as a grammar and independent of how it is read.
-/

namespace Verif.Spec

open Verif

/-- `c` is the hexadecimal digit of value `d`; decimal digits may be of any script. -/
def WideNibble (c : Char) (d : Nat) : Prop := Nibble c d ∨ Decimal c d

/-- Hexadecimal digits of value `n`, with at most one underscore between any two. -/
inductive HexRun : PStr → Nat → Prop
  | one {c : Char} {d : Nat} : WideNibble c d → HexRun [c] d
  | more {s : PStr} {n : Nat} {c : Char} {d : Nat} :
      HexRun s n → WideNibble c d → HexRun (s ++ [c]) (16 * n + d)
  | sep {s : PStr} {n : Nat} {c : Char} {d : Nat} :
      HexRun s n → WideNibble c d → HexRun (s ++ ['_', c]) (16 * n + d)

/-- The same, possibly after `0x` or `0x_`. -/
inductive HexNumber : PStr → Nat → Prop
  | plain {s : PStr} {n : Nat} : HexRun s n → HexNumber s n
  | marked {z x : Char} {s : PStr} {n : Nat} :
      Decimal z 0 → x = 'x' ∨ x = 'X' → HexRun s n → HexNumber (z :: x :: s) n
  | markedSep {z x : Char} {s : PStr} {n : Nat} :
      Decimal z 0 → x = 'x' ∨ x = 'X' → HexRun s n → HexNumber (z :: x :: '_' :: s) n

/-- The same, possibly with a sign. -/
inductive SignedHex : PStr → Int → Prop
  | plain {s : PStr} {n : Nat} : HexNumber s n → SignedHex s n
  | plus {s : PStr} {n : Nat} : HexNumber s n → SignedHex ('+' :: s) n
  | minus {s : PStr} {n : Nat} : HexNumber s n → SignedHex ('-' :: s) (-n)

/-- The same, possibly with white space around it. -/
def HexInt (s : PStr) (i : Int) : Prop :=
  ∃ a t b, s = a ++ t ++ b ∧ (∀ c ∈ a, Blank c) ∧ (∀ c ∈ b, Blank c) ∧ SignedHex t i

/-- `t` is `s` with every occurrence of `p` cut out, from left to right. -/
inductive Cut (p : PStr) : PStr → PStr → Prop
  | nil : Cut p [] []
  | hit {s t : PStr} : Cut p s t → Cut p (p ++ s) t
  | keep {c : Char} {s t : PStr} : ¬ p <+: c :: s → Cut p s t → Cut p (c :: s) (c :: t)

/-- A brace. -/
def Brace (c : Char) : Prop := c = '{' ∨ c = '}'

/-- `t` is `s` without the braces at either end. -/
def Unbraced (s t : PStr) : Prop :=
  ∃ a b, s = a ++ t ++ b ∧ (∀ c ∈ a, Brace c) ∧ (∀ c ∈ b, Brace c) ∧
    (∀ c, t.head? = some c → ¬ Brace c) ∧ (∀ c, t.getLast? = some c → ¬ Brace c)

/-- The text denotes the UUID `u`: without `urn:`, `uuid:`, outer braces and hyphens it has 32
characters, which are a hexadecimal number. -/
def UuidText (s : PStr) (u : Nat) : Prop :=
  ∃ a b c, Cut p!"urn:" s a ∧ Cut p!"uuid:" a b ∧ Unbraced b c ∧
    (c.filter (· ≠ '-')).length = 32 ∧ HexInt (c.filter (· ≠ '-')) u

/-- Characters that can occur in a text that denotes a UUID: digits, separators, braces, the
letters of `urn:uuid:`, signs and white space. -/
def UuidChar (c : Char) : Prop :=
  (∃ d, WideNibble c d) ∨ c ∈ p!"-{}urnid:_xX+" ∨ Blank c

end Verif.Spec
