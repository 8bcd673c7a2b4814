import Verif.Model.Tasks
/-!
# Payment signatures
-/

namespace Verif.Spec

/-- The payment signature of a task is one by this private key, of the digest of the offer in the
task. -/
def PaidBy (E : Env) (m : Msg) (priv : Bytes) : Prop :=
  ∃ w h s, getAttr m.attrs p!"want_to_compute_task" = w.val ∧ shortHash E w = .ok h ∧
    E.sign priv (E.sha3 h) = .ok s ∧ getAttr m.attrs p!"ethsig" = .bytes s

end Verif.Spec
