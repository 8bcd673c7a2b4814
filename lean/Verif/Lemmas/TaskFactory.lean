import Verif.Model.Factories

/-! The arguments of the hooks of `TaskToComputeFactory`. -/

namespace Verif

/-- What a task made is made from: the draws, perhaps with the pair given instead of the one drawn. -/
theorem taskFactory_made {E : Env} {G : Getter} {keccak : Bytes → Bytes} {d : TaskDraw} {kw : Attrs}
    {m : Msg} (h : taskFactory E G keccak d kw = .ok m) :
    ∃ keys, ethsigKeys kw = .ok keys ∧
      taskMade E G keccak { d with eth := keys.getD d.eth } kw = .ok m := by
  unfold taskFactory at h
  split at h
  · cases h
  cases hk : ethsigKeys kw with
  | error e => rw [hk] at h; cases h
  | ok keys =>
    rw [hk] at h
    cases keys with
    | none => exact ⟨none, rfl, h⟩
    | some k => exact ⟨some k, rfl, h⟩

/-- Without arguments there is no pair. -/
theorem ethsigKeys_nil {kw : Attrs} (h : subArgs p!"ethsig" kw = []) : ethsigKeys kw = .ok none := by
  unfold ethsigKeys
  rw [h]
  rfl

theorem taskFactory_free {E : Env} {G : Getter} {keccak : Bytes → Bytes} {d : TaskDraw} {kw : Attrs}
    (h1 : subArgs p!"task_id" kw = []) (h2 : subArgs p!"subtask_id" kw = [])
    (h3 : subArgs p!"ethsig" kw = []) : taskFactory E G keccak d kw = taskMade E G keccak d kw := by
  unfold taskFactory
  rw [h1, h2, ethsigKeys_nil h3]
  simp

end Verif
