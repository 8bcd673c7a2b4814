import Verif.Model.Exc
import Verif.Model.Bytes
import Verif.Model.Float
/-! # Masks (`datastructures/masking.py:9-93`) -/

namespace Verif

/-- `Mask.MASK_BYTES` (`masking.py:11`). -/
def maskBytes : Nat := 32

/-- `Mask.MASK_LEN` (`masking.py:12`). -/
def maskLen : Nat := 256

/-- A mask: its `byte_repr` (`masking.py:15-16`). -/
structure Mask where
  byteRepr : Bytes
  deriving DecidableEq, Repr

/-- `Mask()` (`masking.py:15`). -/
def Mask.default : Mask := ⟨List.replicate maskBytes 0⟩

/-- `to_int` (`masking.py:54-55`). -/
def Mask.toInt (m : Mask) : Nat := ofBE m.byteRepr

/-- `to_bits` (`masking.py:44-46`), as the ascending list of the set. -/
def Mask.toBits (m : Mask) : List Nat := (List.range maskLen).filter fun i => m.toInt.testBit i

/-- `num_bits` (`masking.py:40-42`). -/
def Mask.numBits (m : Mask) : Nat := m.toBits.length

/-- `reduce(ior, (1 << x for x in bits), 0)` (`masking.py:63`). -/
def orBits (bits : List Nat) : Nat := bits.foldl (fun acc x => acc ||| (1 <<< x)) 0

/-- `_bits_to_bytes` (`masking.py:61-64`). -/
def bitsToBytes (bits : List Nat) : Res Bytes :=
  if orBits bits < 2 ^ maskLen then .ok (toBE maskBytes (orBits bits)) else .error .overflowError

/-- `random.sample(population, k)`: some choice of `k` elements.  The model takes the
choice as a parameter; theorems quantify over every choice function satisfying
`Sampler.Ok`. -/
abbrev Sampler := List Nat → Nat → List Nat

/-- `increase(num_bits)` (`masking.py:18-27`). -/
def Mask.increase (sample : Sampler) (m : Mask) (n : Int) : Res Mask :=
  let bits := m.toBits
  let k := min n ((maskLen : Int) - bits.length)
  if k < 0 then .error .valueError
  else if k = 0 then .ok m
  else
    let new := sample ((List.range maskLen).filter fun i => !bits.contains i) k.toNat
    match bitsToBytes (bits ++ new.filter fun i => !bits.contains i) with
    | .ok b => .ok ⟨b⟩
    | .error e => .error e

/-- `decrease(num_bits)` (`masking.py:29-38`). -/
def Mask.decrease (sample : Sampler) (m : Mask) (n : Int) : Res Mask :=
  let bits := m.toBits
  let k := min n (bits.length : Int)
  if k < 0 then .error .valueError
  else if k = 0 then .ok m
  else
    let gone := sample bits k.toNat
    match bitsToBytes (bits.filter fun i => !gone.contains i) with
    | .ok b => .ok ⟨b⟩
    | .error e => .error e

/-- `from_bits` (`masking.py:75-78`). -/
def Mask.fromBits (bits : List Nat) : Res Mask :=
  match bitsToBytes bits with
  | .ok b => .ok ⟨b⟩
  | .error e => .error e

/-- `generate(num_bits)` (`masking.py:66-73`). -/
def Mask.generate (sample : Sampler) (n : Int) : Res Mask :=
  let k := min n maskLen
  if k < 0 then .error .valueError
  else Mask.fromBits (sample (List.range maskLen) k.toNat)

/-- `matches(addr)` (`masking.py:57-59`); `sha256` is the digest function. -/
def Mask.matches (sha256 : Bytes → Bytes) (m : Mask) (addr : Bytes) : Bool :=
  ofBE (sha256 addr) &&& m.toInt == 0

/-- `get_mask_for_task` (`masking.py:84-93`).  `floorLog2 x` stands for
`math.floor(math.log2(x))` of a positive double given as `m * 2^k`; `math.log2` of zero or a
negative number is a `ValueError`. -/
def Mask.forTask (sample : Sampler) (floorLog2 : Nat × Int → Int) (desired potential : Int) :
    Res Mask :=
  if potential < 1 then .ok Mask.default
  else
    match trueDiv desired.natAbs potential.toNat with
    | .error e => .error e
    | .ok x =>
      if desired < 0 ∨ x.1 = 0 then .error .valueError
      else Mask.generate sample (max (-(floorLog2 x)) 0)

end Verif
