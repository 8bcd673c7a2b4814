import Verif.Lemmas.Verification
import Verif.Lemmas.ToyMake
import Verif.Model.Frame
import Verif.Model.MessageFactories
/-!
# C106: reports that are loaded and have no sensible time for verification
-/

namespace Verif.Props

open Verif Spec

private def sureEnv : Env := { toyEnv with
  sign := fun k h => .ok ((k ++ List.replicate 32 0).take 32 ++ (h ++ List.replicate 33 0).take 33)
  recover := fun v h => match v with
    | .bytes s => if s.drop 32 = (h ++ List.replicate 33 0).take 33 then some (4 :: (s.take 32 ++ s.take 32)) else none
    | _ => none }

private def sureTask : TaskDraw where
  key := toyVk 8
  eth := (toySk 6, toyVk 6)
  offer := { key := toyVk 10, now := 1500000000, header := { toyTaskDraws.offer.header with
    mask := List.replicate 32 0, maxPrice := 10, budget := 10 } }
  definition := { taskId := List.replicate 36 'a', subtaskId := List.replicate 36 'b', resource := List.replicate 36 'c', now := 1500000000 }
  uuid1 := 1
  uuid2 := 2
  package := List.replicate 40 '0'
  size := 2000000
  price := 3000000
  now := 1500000000

/-- A report as the factories make it, with other arguments, signed by the provider. -/
private def reportFrame (kw : Attrs) : Option Bytes :=
  match make sureEnv (fun _ _ _ => .ok .none) (fun b => (b ++ List.replicate 32 0).take 32)
      { toyDraws with task := fun _ => sureTask } .ReportComputedTask kw with
  | .ok m =>
    (match dump sureEnv (fun _ p => .ok (1 :: p)) m (some (toySk 10)) (some (toyVk 5)) with
    | (.ok b, _) => some b
    | _ => none)
  | .error _ => none

private def loadedSo (kw : Attrs) (test : Msg → Bool) : Bool :=
  match reportFrame kw with
  | some b =>
    (match (load sureEnv (fun _ c => .ok c.tail) (some b) (some (toySk 5)) (some (toyVk 10)) true 1500000060000000).2 with
    | .ok m => test m
    | .error _ => false)
  | none => false

private theorem loadedSo_spec {kw : Attrs} {test : Msg → Bool} (h : loadedSo kw test = true) :
    ∃ data m, (load sureEnv (fun _ c => .ok c.tail) (some data) (some (toySk 5)) (some (toyVk 10)) true
      1500000060000000).2 = .ok m ∧ test m = true := by
  unfold loadedSo at h
  split at h
  · split at h
    · exact ⟨_, _, by assumption, h⟩
    · cases h
  · cases h

private def deadlineOf (m : Msg) : Option (Val × Val) :=
  match (getAttr m.attrs p!"task_to_compute") with
  | .msg _ _ ts _ _ attrs =>
    (match getAttr attrs p!"compute_task_def" with
    | .fdict .computeTaskDef items => (lookupName p!"deadline" items).map fun d => (ts, d)
    | _ => none)
  | _ => none

private theorem deadlineOf_spec {m : Msg} {start : Int} {d : Val} (h : deadlineOf m = some (.int start, d)) :
    Reports m (getAttr m.attrs p!"size") d start := by
  refine ⟨rfl, ?_⟩
  unfold deadlineOf at h
  split at h
  · rename_i c ty ts enc sig attrs e
    split at h
    · rename_i items e'
      cases hl : lookupName p!"deadline" items with
      | none => rw [hl] at h; cases h
      | some x =>
        rw [hl] at h
        injection h with h
        injection h with h1 h2
        subst h1 h2
        exact ⟨⟨c, ty, .int start, enc, sig, attrs⟩, e, rfl, items, e', hl⟩
    · cases h
  · cases h

/-- The full statement is false: `load` neither checks the size of a report nor the deadline of its
task.  A negative size, or a deadline before the task (such as the default one, the beginning of
1970), gives a negative time, and a report without a size a `TypeError`. -/
theorem verification_time_refuted :
    (∃ E dec data priv pub now m, (load E dec (some data) (some priv) (some pub) true now).2 = .ok m ∧
      m.cls = .ReportComputedTask ∧ getAttr m.attrs p!"size" = .int (-1000000000) ∧
      subtaskVerificationTime m = .ok (-16695000000)) ∧
    (∃ E dec data priv pub now m size, (load E dec (some data) (some priv) (some pub) true now).2 = .ok m ∧
      m.cls = .ReportComputedTask ∧ Reports m size (.int 0) 1500000000 ∧
      subtaskVerificationTime m = .ok (-749998857000000)) ∧
    (∃ E dec data priv pub now m, (load E dec (some data) (some priv) (some pub) true now).2 = .ok m ∧
      m.cls = .ReportComputedTask ∧ getAttr m.attrs p!"size" = .none ∧
      subtaskVerificationTime m = .error .typeError) := by
  have t1 : loadedSo [(p!"size", .int (-1000000000))] (fun m => decide (m.cls = .ReportComputedTask ∧
      getAttr m.attrs p!"size" = .int (-1000000000) ∧ subtaskVerificationTime m = .ok (-16695000000))) = true := by
    decide +kernel
  have t2 : loadedSo [(p!"task_to_compute__compute_task_def__deadline", .int 0)] (fun m =>
      decide (m.cls = .ReportComputedTask ∧ deadlineOf m = some (.int 1500000000, .int 0) ∧
        subtaskVerificationTime m = .ok (-749998857000000))) = true := by
    decide +kernel
  have t3 : loadedSo [(p!"size", .none)] (fun m => decide (m.cls = .ReportComputedTask ∧
      getAttr m.attrs p!"size" = .none ∧ subtaskVerificationTime m = .error .typeError)) = true := by
    decide +kernel
  refine ⟨?_, ?_, ?_⟩
  · obtain ⟨data, m, h, ht⟩ := loadedSo_spec t1
    exact ⟨_, _, data, _, _, _, m, h, of_decide_eq_true ht⟩
  · obtain ⟨data, m, h, ht⟩ := loadedSo_spec t2
    obtain ⟨h1, h2, h3⟩ := of_decide_eq_true ht
    exact ⟨_, _, data, _, _, _, m, _, h, h1, deadlineOf_spec h2, h3⟩
  · obtain ⟨data, m, h, ht⟩ := loadedSo_spec t3
    exact ⟨_, _, data, _, _, _, m, h, of_decide_eq_true ht⟩

end Verif.Props
