import Verif.Model.Exc
/-! # Specification: hexadecimal text -/

namespace Verif.Spec

open Verif

/-- Lower-case hexadecimal digits. -/
def hexLower : PStr := p!"0123456789abcdef"

/-- Upper-case hexadecimal digits. -/
def hexUpper : PStr := p!"0123456789ABCDEF"

/-- `c` is the hexadecimal digit of value `n`. -/
def Nibble (c : Char) (n : Nat) : Prop := hexLower[n]? = some c ∨ hexUpper[n]? = some c

/-- The text denotes the bytes, two digits each. -/
inductive HexText : PStr → Bytes → Prop
  | nil : HexText [] []
  | cons {a b : Char} {hi lo : Nat} {x : UInt8} {s : PStr} {bs : Bytes} :
      Nibble a hi → Nibble b lo → x.toNat = 16 * hi + lo → HexText s bs →
      HexText (a :: b :: s) (x :: bs)

end Verif.Spec
