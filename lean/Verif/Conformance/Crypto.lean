import Verif.Model.Address
import Verif.Model.Env
import Verif.Model.IpAddr
/-!
# Keccak-256, SHA-1 and secp256k1, for running the project's tests on the model

The model takes its cryptographic functions as parameters and no theorem depends on this file.  It
computes the real functions on concrete inputs, so that the literal values expected by the unit
tests in `/repo/tests` can be compared with what the model computes.  Words and field elements are
natural numbers.
-/

namespace Verif.Conformance

open Verif

/-! ### Keccak-256 -/

/-- Rotation of a 64-bit word. -/
def rotl64 (x n : Nat) : Nat := ((x <<< n) ||| (x >>> (64 - n))) % 2 ^ 64

/-- The constants of the rounds. -/
def roundConstants : List Nat :=
  [0x0000000000000001, 0x0000000000008082, 0x800000000000808A, 0x8000000080008000, 0x000000000000808B,
   0x0000000080000001, 0x8000000080008081, 0x8000000000008009, 0x000000000000008A, 0x0000000000000088,
   0x0000000080008009, 0x000000008000000A, 0x000000008000808B, 0x800000000000008B, 0x8000000000008089,
   0x8000000000008003, 0x8000000000008002, 0x8000000000000080, 0x000000000000800A, 0x800000008000000A,
   0x8000000080008081, 0x8000000000008080, 0x0000000080000001, 0x8000000080008008]

/-- The rotation of lane `x + 5 y`. -/
def rotations : List Nat :=
  [0, 1, 62, 28, 27, 36, 44, 6, 55, 20, 3, 10, 43, 25, 39, 41, 45, 15, 21, 8, 18, 2, 61, 56, 14]

/-- A lane of a state of 1600 bits. -/
def lane (s i : Nat) : Nat := (s >>> (64 * i)) % 2 ^ 64

def pack : List Nat → Nat
  | [] => 0
  | w :: rest => w + 2 ^ 64 * pack rest

def keccakRound (s rc : Nat) : Nat :=
  let c := pack ((List.range 5).map fun x =>
    lane s x ^^^ lane s (x + 5) ^^^ lane s (x + 10) ^^^ lane s (x + 15) ^^^ lane s (x + 20))
  let d := pack ((List.range 5).map fun x => lane c ((x + 4) % 5) ^^^ rotl64 (lane c ((x + 1) % 5)) 1)
  let b := pack ((List.range 25).map fun i =>
    let src := (i % 5 + 3 * (i / 5)) % 5 + 5 * (i % 5)
    rotl64 (lane s src ^^^ lane d (src % 5)) (rotations.getD src 0))
  pack ((List.range 25).map fun i =>
    let row := 5 * (i / 5)
    lane b i ^^^ ((2 ^ 64 - 1 - lane b ((i + 1) % 5 + row)) &&& lane b ((i + 2) % 5 + row))) ^^^ rc

def keccakF (s : Nat) : Nat := roundConstants.foldl keccakRound s

def ofLE : Bytes → Nat
  | [] => 0
  | b :: rest => b.toNat + 256 * ofLE rest

def toLE : Nat → Nat → Bytes
  | 0, _ => []
  | n + 1, x => UInt8.ofNat (x % 256) :: toLE n (x / 256)

def keccakPad (b : Bytes) : Bytes :=
  let n := 136 - b.length % 136
  if n = 1 then b ++ [0x81] else b ++ [1] ++ List.replicate (n - 2) 0 ++ [0x80]

def absorb : Nat → Nat → Bytes → Nat
  | 0, s, _ => s
  | n + 1, s, b => absorb n (keccakF (s ^^^ ofLE (b.take 136))) (b.drop 136)

/-- Keccak-256. -/
def keccak256 (b : Bytes) : Bytes :=
  let p := keccakPad b
  toLE 32 (absorb (p.length / 136) 0 p)

/-- The digest of nothing, and of more than one block. -/
example :
    hexlify (keccak256 []) = p!"c5d2460186f7233c927e7db2dcc703c0e500b653ca82273b7bfad8045d85a470" ∧
    hexlify (keccak256 (asciiBytes p!"abc"))
      = p!"4e03657aea45a94fc7d47ba826c8d667c0d1e6e33a64a036ec44f58fa12d6c45" := by decide +kernel

/-! ### SHA-1 -/

def rotl32 (x n : Nat) : Nat := ((x <<< n) ||| (x >>> (32 - n))) % 2 ^ 32

/-- Word `i` of a number. -/
def word32 (s i : Nat) : Nat := (s >>> (32 * i)) % 2 ^ 32

/-- One round on five words kept in one number, the first lowest. -/
def sha1Round (s t w : Nat) : Nat :=
  let f : Nat × Nat :=
    if t < 20 then
      ((word32 s 1 &&& word32 s 2) ||| ((2 ^ 32 - 1 - word32 s 1) &&& word32 s 3), 0x5A827999)
    else if t < 40 then (word32 s 1 ^^^ word32 s 2 ^^^ word32 s 3, 0x6ED9EBA1)
    else if t < 60 then
      ((word32 s 1 &&& word32 s 2) ||| (word32 s 1 &&& word32 s 3) ||| (word32 s 2 &&& word32 s 3), 0x8F1BBCDC)
    else (word32 s 1 ^^^ word32 s 2 ^^^ word32 s 3, 0xCA62C1D6)
  (rotl32 (word32 s 0) 5 + f.1 + word32 s 4 + f.2 + w) % 2 ^ 32 + 2 ^ 32 * word32 s 0
    + 2 ^ 64 * rotl32 (word32 s 1) 30 + 2 ^ 96 * word32 s 2 + 2 ^ 128 * word32 s 3

/-- The rounds from round `t` on; `w` holds the next sixteen words of the message schedule. -/
def sha1Rounds : Nat → Nat → Nat → Nat → Nat
  | 0, s, _, _ => s
  | n + 1, s, t, w =>
    sha1Rounds n (sha1Round s t (word32 w 0)) (t + 1)
      ((w >>> 32) + 2 ^ 480 *
        rotl32 (word32 w 0 ^^^ word32 w 2 ^^^ word32 w 8 ^^^ word32 w 13) 1)

/-- The sixteen words of a block. -/
def sha1Words (b : Bytes) : Nat → Nat
  | 0 => 0
  | n + 1 => sha1Words b n + 2 ^ (32 * n) * ofBE ((b.drop (4 * n)).take 4)

def sha1Block (s : Nat) (b : Bytes) : Nat :=
  let r := sha1Rounds 80 s 0 (sha1Words b 16)
  let sum (i : Nat) := (word32 s i + word32 r i) % 2 ^ 32
  sum 0 + 2 ^ 32 * sum 1 + 2 ^ 64 * sum 2 + 2 ^ 96 * sum 3 + 2 ^ 128 * sum 4

def sha1Blocks : Nat → Nat → Bytes → Nat
  | 0, s, _ => s
  | n + 1, s, b => sha1Blocks n (sha1Block s (b.take 64)) (b.drop 64)

/-- SHA-1. -/
def sha1 (b : Bytes) : Bytes :=
  let p := b ++ [0x80] ++ List.replicate ((119 - b.length % 64) % 64) 0 ++ toBE 8 (8 * b.length)
  let s := sha1Blocks (p.length / 64) 0xC3D2E1F01032547698BADCFEEFCDAB8967452301 p
  ((List.range 5).map fun i => toBE 4 (word32 s i)).flatten

/-- The digests of nothing, of one block and of two. -/
example :
    hexlify (sha1 []) = p!"da39a3ee5e6b4b0d3255bfef95601890afd80709" ∧
    hexlify (sha1 (asciiBytes p!"abc")) = p!"a9993e364706816aba3e25717850c26c9cd0d89d" ∧
    hexlify (sha1 (asciiBytes p!"abcdbcdecdefdefgefghfghighijhijkijkljklmklmnlmnomnopnopq"))
      = p!"84983e441c3bd26ebaae4aa1f95129e5e54670f1" := by decide +kernel

/-! ### secp256k1 -/

/-- The field, the order of the group and the base point. -/
def fieldP : Nat := 2 ^ 256 - 2 ^ 32 - 977
def orderN : Nat := 0xFFFFFFFFFFFFFFFFFFFFFFFFFFFFFFFEBAAEDCE6AF48A03BBFD25E8CD0364141
def baseX : Nat := 0x79BE667EF9DCBBAC55A06295CE870B07029BFCDB2DCE28D959F2815B16F81798
def baseY : Nat := 0x483ADA7726A3C4655DA4FBFC0E1108A8FD17B448A68554199C47D08FFB10D4B8

/-- `b ^ e % m` for an exponent of at most the given number of bits. -/
def powMod (m b : Nat) : Nat → Nat → Nat
  | 0, _ => 1
  | n + 1, e =>
    let h := powMod m b n (e / 2)
    let q := h * h % m
    if e % 2 = 1 then q * b % m else q

def invMod (m b : Nat) : Nat := powMod m b 256 (m - 2)

def minusP (a b : Nat) : Nat := (a + fieldP - b) % fieldP

/-- A point `(x / z², y / z³)`; the point at infinity has `z = 0`. -/
structure Point where
  x : Nat
  y : Nat
  z : Nat

def Point.double (P : Point) : Point :=
  let a := P.x * P.x % fieldP
  let b := P.y * P.y % fieldP
  let c := b * b % fieldP
  let t := (P.x + b) % fieldP
  let d := 2 * minusP (minusP (t * t % fieldP) a) c % fieldP
  let e := 3 * a % fieldP
  let x3 := minusP (e * e % fieldP) (2 * d % fieldP)
  ⟨x3, minusP (e * minusP d x3 % fieldP) (8 * c % fieldP), 2 * P.y * P.z % fieldP⟩

/-- The sum with an affine point. -/
def Point.add (P : Point) (x y : Nat) : Point :=
  if P.z = 0 then ⟨x, y, 1⟩
  else
    let z2 := P.z * P.z % fieldP
    let h := minusP (x * z2 % fieldP) P.x
    let r := minusP (y * P.z % fieldP * z2 % fieldP) P.y
    if h = 0 then (if r = 0 then P.double else ⟨1, 1, 0⟩)
    else
      let h2 := h * h % fieldP
      let h3 := h2 * h % fieldP
      let v := P.x * h2 % fieldP
      let x3 := minusP (minusP (r * r % fieldP) h3) (2 * v % fieldP)
      ⟨x3, minusP (r * minusP v x3 % fieldP) (P.y * h3 % fieldP), P.z * h % fieldP⟩

/-- A multiple of an affine point by a number of at most the given number of bits. -/
def mulPoint (x y : Nat) : Nat → Nat → Point
  | 0, _ => ⟨1, 1, 0⟩
  | n + 1, k =>
    let d := (mulPoint x y n (k / 2)).double
    if k % 2 = 1 then d.add x y else d

/-- The coordinates, in the plane, of a point that is not at infinity. -/
def Point.affine (P : Point) : Nat × Nat :=
  let i := invMod fieldP P.z
  let i2 := i * i % fieldP
  (P.x * i2 % fieldP, P.y * i2 % fieldP * i % fieldP)

/-- The 64 bytes of the public key of a private key. -/
def publicKey (priv : Bytes) : Bytes :=
  let q := (mulPoint baseX baseY 256 (ofBE priv)).affine
  toBE 32 q.1 ++ toBE 32 q.2

/-- A signature `r`, `s`, parity; the nonce is the Keccak digest of the key and the message's. -/
def signParts (priv h : Bytes) : Nat × Nat × Nat :=
  let k := ofBE (keccak256 (priv ++ h)) % orderN
  let q := (mulPoint baseX baseY 256 k).affine
  let r := q.1 % orderN
  let s := invMod orderN k * (ofBE h + r * ofBE priv) % orderN
  if 2 * s > orderN then (r, orderN - s, 1 - q.2 % 2) else (r, s, q.2 % 2)

/-- The key recovered from a signature. -/
def recoverParts (r s parity : Nat) (h : Bytes) : Option Bytes :=
  let y := powMod fieldP ((r * r % fieldP * r + 7) % fieldP) 256 ((fieldP + 1) / 4)
  if r = 0 ∨ s = 0 ∨ r ≥ orderN ∨ s ≥ orderN ∨ parity > 1 ∨
      y * y % fieldP ≠ (r * r % fieldP * r + 7) % fieldP then none
  else
    let yR := if y % 2 = parity then y else fieldP - y
    let i := invMod orderN r
    let a := (mulPoint r yR 256 (s * i % orderN))
    let b := (mulPoint baseX baseY 256 ((orderN - ofBE h % orderN) * i % orderN)).affine
    let q := a.add b.1 b.2
    if q.z = 0 then none else some (toBE 32 q.affine.1 ++ toBE 32 q.affine.2)

/-- The environment with the real hash functions and a real signer. -/
def realEnv : Env where
  sha1 := sha1
  sha3 := keccak256
  sign k h :=
    if k.length = 32 then
      let (r, s, v) := signParts k h
      .ok (toBE 32 r ++ toBE 32 s ++ [UInt8.ofNat v])
    else .error .valueError
  recover v h :=
    match v with
    | .bytes b =>
      if b.length = 65 then
        (recoverParts (ofBE (b.take 32)) (ofBE ((b.drop 32).take 32)) (ofBE (b.drop 64)) h).map (4 :: ·)
      else none
    | _ => none
  ipOk := ipAddressOk ⟨.ambiguous, false⟩
  version := p!"3.18.0"

/-- The same functions for promissory notes. -/
def realEth : EthPrims where
  keccak := keccak256
  ecSign h k :=
    let (r, s, v) := signParts k h
    .ok (27 + v, r, s)
  ecRecover h v r s :=
    match v, r, s with
    | .int v, .bytes r, .bytes s =>
      match recoverParts (ofBE r) (ofBE s) (v - 27).toNat h with
      | some k => .ok k
      | none => .error .otherError
    | _, _, _ => .error .typeError

end Verif.Conformance
