import Verif.Spec.Promissory
import Verif.Lemmas.Attrs
import Verif.Lemmas.Ownership
/-! # Promissory notes of messages: the values they are made of -/

set_option linter.unusedSimpArgs false

namespace Verif

open Spec

theorem textOf_iff {v : Val} {t : PStr} : textOf v = .ok t ↔ TextValue v t := by
  constructor
  · intro h
    unfold textOf at h
    split at h
    · injection h with h; subst h; exact .plain _
    · split at h
      · rename_i he; injection h with h; subst h; exact .member he
      · cases h
    · cases h
  · intro h
    cases h with
    | plain => rfl
    | member he => unfold textOf; dsimp only; rw [if_pos he]

theorem idTextOf_iff {v : Val} {t : PStr} : idTextOf v = .ok t ↔ TextValue v t := by
  constructor
  · intro h
    unfold idTextOf at h
    split at h
    · injection h with h; subst h; exact .plain _
    · split at h
      · rename_i he; injection h with h; subst h; exact .member he
      · cases h
    all_goals cases h
  · intro h
    cases h with
    | plain => rfl
    | member he => unfold idTextOf; dsimp only; rw [if_pos he]

theorem raw_texts {n : RawNote} {t : Note} : n.texts = .ok t ↔ TextValue n.addressFrom t.addressFrom ∧
    TextValue n.addressTo t.addressTo ∧ (∃ a, amountBytes n.amount = .ok a) ∧ TextValue n.subtaskId t.subtaskId ∧
    t.amount = n.amount ∧ t.contract = n.contract := by
  unfold RawNote.texts
  constructor
  · intro h
    split at h
    · cases h
    · rename_i a ha
      split at h
      · cases h
      · rename_i b hb
        split at h
        · cases h
        · rename_i c hc
          split at h
          · cases h
          · rename_i d hd
            injection h with h
            subst h
            exact ⟨textOf_iff.mp ha, textOf_iff.mp hb, ⟨c, hc⟩, idTextOf_iff.mp hd, rfl, rfl⟩
  · rintro ⟨h1, h2, ⟨a, h3⟩, h4, h5, h6⟩
    rw [textOf_iff.mpr h1]
    dsimp only
    rw [textOf_iff.mpr h2]
    dsimp only
    rw [h3]
    dsimp only
    rw [idTextOf_iff.mpr h4]
    dsimp only
    rw [← h5, ← h6]

theorem ttc_subtask (m : Msg) (hc : m.cls = .TaskToCompute) :
    taskGet p!"subtask_id" m.val = dictAttr (getAttr m.attrs p!"compute_task_def") p!"subtask_id" := by
  unfold Msg.val
  rw [hc]
  unfold taskGet
  simp

theorem note_once (X : EthEnv) (m : Msg) (contract : PStr) (cs : Val) (hc : m.cls = .TaskToCompute) :
    ttcNote X { m with attrs := setName p!"concent_promissory_note_sig" cs m.attrs } contract =
      ttcNote X m contract := by
  generalize hm : ({ m with attrs := setName p!"concent_promissory_note_sig" cs m.attrs } : Msg) = m'
  have hg : ∀ k, k ≠ p!"concent_promissory_note_sig" → getAttr m'.attrs k = getAttr m.attrs k := by
    intro k h1
    rw [← hm]
    dsimp only
    rw [getAttr_setName, if_neg h1]
  have hc' : m'.cls = .TaskToCompute := by rw [← hm]; exact hc
  have ht : taskGet p!"subtask_id" m'.val = taskGet p!"subtask_id" m.val := by
    rw [ttc_subtask m' hc', ttc_subtask m hc, hg _ (by decide)]
  unfold ttcNote ttcRaw
  rw [ht, hg _ (by decide), hg p!"want_to_compute_task" (by decide), hg p!"price" (by decide)]

theorem rejected_ttc (rej rct t : Msg) (h1 : rej.cls = .SubtaskResultsRejected)
    (h2 : getAttr rej.attrs p!"report_computed_task" = rct.val) (h3 : rct.cls = .ReportComputedTask)
    (h4 : getAttr rct.attrs p!"task_to_compute" = t.val) :
    taskGet p!"task_to_compute" rej.val = t.val := by
  have hr : taskGet p!"task_to_compute" rct.val = t.val := by
    obtain ⟨c, ty, ts, e, sg, as⟩ := rct
    simp only at h3 h4
    subst h3
    show taskGet _ (.msg .ReportComputedTask ty ts e sg as) = _
    unfold taskGet
    rw [if_neg (by decide), if_neg (by decide), if_pos (by decide), h4]
  obtain ⟨c, ty, ts, e, sg, as⟩ := rej
  simp only at h1 h2
  subst h1
  show taskGet _ (.msg .SubtaskResultsRejected ty ts e sg as) = _
  unfold taskGet
  rw [if_neg (by decide), if_neg (by decide), if_neg (by decide), if_pos (by decide)]
  show firstTruthy [getAttr (taskGetAll p!"task_to_compute" as) p!"report_computed_task"] = _
  rw [getAttr_taskGetAll, h2, hr]
  rfl

end Verif
