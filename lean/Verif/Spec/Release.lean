import Verif.Model.Release
import Verif.Spec.Version
/-!
# Specification: what git says about a checkout

After the manual of `git describe`, independent of `version.py`.
-/

namespace Verif.Spec

open Verif

/-- A checkout: the last tag that matches, the number of commits made since and the abbreviated id
of the last one. -/
structure Checkout where
  tag : PStr
  commits : Nat
  id : PStr

/-- Tags are printable ASCII here, ids are hexadecimal. -/
structure Checkout.Wf (c : Checkout) : Prop where
  tag : ∀ x ∈ c.tag, 33 ≤ x.toNat ∧ x.toNat ≤ 126
  id : ∀ x ∈ c.id, ('0' ≤ x ∧ x ≤ '9') ∨ ('a' ≤ x ∧ x ≤ 'f')

/-- `git describe --tags`: the tag, and if the commit is not the tagged one how many commits were
made since and its id. -/
def Checkout.described (c : Checkout) : PStr :=
  if c.commits = 0 then c.tag ++ ['\n']
  else c.tag ++ '-' :: (decimal c.commits ++ '-' :: 'g' :: (c.id ++ ['\n']))

/-- The commands answer for the checkout: `git describe --tags --match <pre>[0-9]*`, also with
`--abbrev=0`, which is the tag alone. -/
def Describes (run : List PStr → Option Bytes) (pre : PStr) (c : Checkout) : Prop :=
  run [p!"git", p!"describe", p!"--tags", p!"--match", pre ++ p!"[0-9]*"]
    = some (utf8Enc c.described) ∧
  run [p!"git", p!"describe", p!"--tags", p!"--match", pre ++ p!"[0-9]*", p!"--abbrev=0"]
    = some (utf8Enc (c.tag ++ ['\n']))

/-- The version of a checkout whose last tag is that of version `v`: the version itself, or with the
commits and the id as build. -/
def Checkout.version (c : Checkout) (v : Ver) : Ver :=
  if c.commits = 0 then v
  else { v with build := [p!"dev" ++ decimal c.commits, 'g' :: c.id] }

end Verif.Spec
