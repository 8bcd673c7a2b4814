import Verif.Model.Caches
/-! # Specification: what a process without the two inner caches would answer; recently used -/

namespace Verif.Spec

open Verif

/-- The arguments used, most recently used first, each once; the history is given newest first. -/
def latest {α : Type} [DecidableEq α] : List α → List α
  | [] => []
  | a :: rest => a :: (latest rest).filter fun x => ¬ x = a

/-- The key agreement of the primitives is the one of key objects, which see only the secret. -/
def KeyObjects.Of (O : KeyObjects) (X : EciesEnv) : Prop :=
  ∀ raw pub, X.ecdh raw pub =
    match O.secret raw with
    | .error e => .error e
    | .ok sec => O.dh sec pub

/-- What the calls answer if agreed secrets and derived keys are computed anew each time: `decrypt`
then depends on its arguments only, `encrypt` on the ephemeral key in use. -/
def answers (X : EciesEnv) (draw : Nat → Bytes) (timeout : Int) : LiveKeys → List CryptoCall →
    List (Res Bytes)
  | _, [] => []
  | s, .encrypt mgr now iv rawPub data mac :: rest =>
    (match (s.ephemKey X draw timeout mgr rawPub now).1 with
      | .error e => .error e
      | .ok keys => eciesSeal X keys iv data mac) ::
    answers X draw timeout (s.ephemKey X draw timeout mgr rawPub now).2 rest
  | s, .decrypt _ data priv mac :: rest =>
    eciesDecrypt X data priv mac :: answers X draw timeout s rest

/-- The agreement of a raw private key with a public key, if the private key is one. -/
def agreement (O : KeyObjects) (raw pub : Bytes) : List (Bytes × Bytes) :=
  match O.secret raw with
  | .ok sec => [(sec, pub)]
  | .error _ => []

/-- The agreements the calls make, in order: secret of the private key and public key.  `encrypt` makes
one if there is no ephemeral key in use for the recipient. -/
def agreements (X : EciesEnv) (O : KeyObjects) (draw : Nat → Bytes) (timeout : Int) : LiveKeys →
    List CryptoCall → List (Bytes × Bytes)
  | _, [] => []
  | s, .encrypt mgr now _ rawPub _ _ :: rest =>
    (if ∃ e ∈ s.cache, e.mgr = mgr ∧ e.pubkey = rawPub then []
      else
        match X.compress rawPub with
        | .ok pk => agreement O (draw s.drawn) pk
        | .error _ => []) ++
    agreements X O draw timeout (s.ephemKey X draw timeout mgr rawPub now).2 rest
  | s, .decrypt _ data priv _ :: rest =>
    (if data.head? = some 4 then agreement O priv (data.take 65) else []) ++
    agreements X O draw timeout s rest

end Verif.Spec
