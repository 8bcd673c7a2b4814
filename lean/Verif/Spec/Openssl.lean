import Verif.Model.Openssl
/-!
# Specification: which library the import should settle on
-/

namespace Verif.Spec

open Verif

/-- A library with the cipher that messages are encrypted with. -/
def HasCipher (lib : Option (List PStr)) : Prop := ∃ c, lib = some c ∧ p!"aes-128-ctr" ∈ c

/-- The directory that Homebrew keeps the versions of OpenSSL in. -/
def brewDirs : List PStr := [p!"/usr/local/Cellar/openssl/", p!"/usr/local/Cellar/openssl@1.1/"]

/-- `v` is the version listed last in the directory `p`. -/
def LastVersion (H : Host) (p v : PStr) : Prop := ∃ vs, H.dirs p = some (vs ++ [v])

/-- Entries of `PATH`. -/
inductive PathEntries : PStr → List PStr → Prop where
  | last (w : PStr) : ';' ∉ w → PathEntries w [w]
  | cons (w rest : PStr) (ws : List PStr) : ';' ∉ w → PathEntries rest ws →
      PathEntries (w ++ ';' :: rest) (w :: ws)

end Verif.Spec
