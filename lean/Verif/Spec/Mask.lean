import Verif.Spec.Frame
import Verif.Model.Mask
/-! # Specification: bits of a mask, random samples -/

namespace Verif.Spec

open Verif

/-- Bit `i` of a byte string read as a big-endian number. -/
def bitOf (b : Bytes) (i : Nat) : Bool := (bigEndian b).testBit i

/-- Number of bits set among the lowest 256. -/
def bitCount (b : Bytes) : Nat := (List.range 256).countP (bitOf b)

/-- What is assumed about `random.sample`: it returns `k` distinct elements of the
population. -/
def SamplerOk (sample : Sampler) : Prop :=
  ∀ pop k, pop.Nodup → k ≤ pop.length →
    (sample pop k).Nodup ∧ (∀ x ∈ sample pop k, x ∈ pop) ∧ (sample pop k).length = k

end Verif.Spec
