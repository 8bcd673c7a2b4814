import Verif.Spec.DrawRanges
import Verif.Spec.Exchange
import Verif.Spec.Version
/-!
# Specification: sending what was made
-/

namespace Verif.Spec

open Verif

/-- What is drawn for a task besides `TaskInRange`: a key pair for payments that works, and UUIDs of
128 bits. -/
structure TaskDrawn (E : Env) (d : TaskDraw) : Prop where
  pair : KeyPair E d.eth.1 d.eth.2
  taskId : d.uuid1 < 2 ^ 128
  subtaskId : d.uuid2 < 2 ^ 128
  header : d.offer.header.uuid < 2 ^ 128

/-- A transmission that works, of something made at time `t` (seconds) and loaded at `now`
(microseconds): the sender's key, if there is one, signs, what is encrypted for the receiver can be
decrypted, the time is near enough, and the version in use is not a prerelease of a minor version. -/
structure Transmits (E : Env) (encrypt dec : Bytes → Bytes → Res Bytes) (priv rpub rpriv : Option Bytes)
    (t : Nat) (now : Int) (own : Ver) : Prop where
  signs : ∀ k h, priv = some k → k ≠ [] → ∃ s, E.sign k (E.sha3 h) = .ok s ∧ s.length = 65
  decrypts : ∀ k p, rpub = some k → k ≠ [] → ∃ c, encrypt k p = .ok c ∧ c ≠ [] ∧ loadDecrypt dec rpriv c = .ok p
  range : minTimestamp < t ∧ t < maxTimestamp
  late : now ≤ (t + 600) * 1000000
  early : ((t : Int) - 300) * 1000000 ≤ now
  version : E.version = own.text
  wf : own.Wf
  short : own.text.length ≤ 31
  release : ¬ (own.patch = 0 ∧ own.pre ≠ [])

end Verif.Spec
