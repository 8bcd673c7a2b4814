import Verif.Spec.Ownership
/-! # Specification: what the holder of a key has signed

Hash functions have collisions and digests can be found that a given signature fits.  So it is
never said that "a collision exists": the two colliding inputs, or the signature and the digest,
are always named. -/

namespace Verif.Spec

open Verif

/-- Something the holder of a private key signed: a message or a task header. -/
inductive Signing
  | message (m : Msg)
  | header (fs : Attrs)

/-- The version bytes a `Hello` adds to its digest. -/
def helloVersion (m : Msg) : Bytes :=
  if m.cls = .Hello then
    match getAttr m.attrs p!"_version" with
    | .str v => asciiReplace v
    | _ => []
  else []

/-- What is signed: the bytes hashed with SHA-1 and the bytes that follow the hash. -/
def Signing.Covers : Signing → Bytes → Bytes → Prop
  | .message m, x, t => ∃ hd s p, dumps (.list [m.ty, m.ts]) = .ok hd ∧ m.slots = .ok s ∧
      dumps s = .ok p ∧ x = hd ++ p ∧ t = helloVersion m
  | .header fs, x, t => ∃ d, toDictF .taskHeader fs = .ok d ∧
      dumps (.dict (d.filter fun kv => kv.1 ≠ .str p!"signature")) = .ok x ∧ t = []

/-- The digest the signature primitive gets. -/
def signDigest (E : Env) (x t : Bytes) : Bytes := E.sha3 (E.sha1 x ++ t)

/-- These two inputs collide, under SHA-1 or under SHA-3. -/
def Clash (E : Env) (x t y u : Bytes) : Prop :=
  (x ≠ y ∧ E.sha1 x = E.sha1 y) ∨
  (E.sha1 x ++ t ≠ E.sha1 y ++ u ∧ E.sha3 (E.sha1 x ++ t) = E.sha3 (E.sha1 y ++ u))

/-- This signature, on these bytes, counts as made with the key although its holder signed nothing
with that digest. -/
def Forged (E : Env) (pk : Bytes) (log : List Signing) (sig : Val) (y u : Bytes) : Prop :=
  E.recover sig (signDigest E y u) = some (4 :: pk) ∧
  ∀ a ∈ log, ∀ x t, a.Covers x t → signDigest E x t ≠ signDigest E y u

/-- Two messages with the same type, timestamp and payload, as written on the wire (and the
same version, for `Hello`). -/
def SameContent (m w : Msg) : Prop :=
  (∃ hd, dumps (.list [m.ty, m.ts]) = .ok hd ∧ dumps (.list [w.ty, w.ts]) = .ok hd) ∧
  (∃ s s' p, m.slots = .ok s ∧ w.slots = .ok s' ∧ dumps s = .ok p ∧ dumps s' = .ok p) ∧
  helloVersion m = helloVersion w

/-- Two task headers whose dictionaries without the signature are written the same way. -/
def SameHeader (f g : Attrs) : Prop :=
  ∃ d d' b, toDictF .taskHeader f = .ok d ∧ toDictF .taskHeader g = .ok d' ∧
    dumps (.dict (d.filter fun kv => kv.1 ≠ .str p!"signature")) = .ok b ∧
    dumps (.dict (d'.filter fun kv => kv.1 ≠ .str p!"signature")) = .ok b

end Verif.Spec
