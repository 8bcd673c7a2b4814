import Verif.Lemmas.FaultRules
import Verif.Lemmas.Toy
import Verif.Props.Refusal
/-!
# C111: what is wrong with a record

Nodes, task headers and statistics are built from keywords, task definitions, peers and files from entries.
`Spec.Faults` says what the first fault of such data is and which exception that gives.
-/

namespace Verif.Props

open Verif Spec

private theorem letThrough_eq (x : Exc) : wrapped x = letThrough x := by
  cases x <;> rfl

private theorem raises_iff {α : Type} {r : Res α} {e : Exc} :
    Raises r e ↔ ∃ x, r = .error x ∧ letThrough x = e := by
  unfold Raises
  simp only [letThrough_eq]

/-- C111: a node, a task header or statistics cannot be built exactly if there is a first fault, and then
the exception is that of this fault. -/
theorem record_fault (E : Env) (c : ContId) (v : Val) (h : Data v) (e : Exc) :
    (∃ x, mkCont E c v = .error x ∧ letThrough x = e) ↔ BadRecord E (fieldsOf E c) v e := by
  rw [← raises_iff]
  exact record_raises E c h

/-- C111: the same for task definitions and peers. -/
theorem entries_fault (E : Env) (c : FDictId) (hc : c = .computeTaskDef ∨ c = .peer) (v : Val) (h : Data v) (e : Exc) :
    (∃ x, mkFDict E c v = .error x ∧ letThrough x = e) ↔ BadDict E c v e := by
  rw [← raises_iff]
  exact fdict_raises hc h

/-- C111: and for files. -/
theorem file_fault (E : Env) (v : Val) (h : Data v) (e : Exc) :
    (∃ x, deserFileInfo E v = .error x ∧ letThrough x = e) ↔ BadFile E v e := by
  rw [← raises_iff]
  exact file_raises h

/-- C111: the fault of a record is unique. -/
theorem fault_unique (E : Env) (c : ContId) (v : Val) (h : Data v) (e f : Exc)
    (he : BadRecord E (fieldsOf E c) v e) (hf : BadRecord E (fieldsOf E c) v f) : e = f := by
  obtain ⟨x, hx, rfl⟩ := (record_fault E c v h e).mpr he
  obtain ⟨y, hy, rfl⟩ := (record_fault E c v h f).mpr hf
  rw [hx] at hy
  injection hy with hy
  rw [hy]

/-! ### Faults -/

/-- A task header without anything: the first field that it needs is the timestamp. -/
example : BadRecord toyEnv (headerFields toyEnv) (.dict []) (.fieldError p!"timestamp") := by
  refine BadRecord.missing (kw := []) (before := [⟨p!"mask", false, ByteString⟩]) (f := ⟨p!"timestamp", true, Integer⟩)
    ⟨rfl, by simp⟩ ?_ rfl (by simp)
  intro g hg
  rw [List.mem_singleton.mp hg]
  exact ⟨fun h => (by cases h), fun w hw => (by cases hw)⟩

/-- A header whose owner has a port that is text: the fault is that of the port, a field of the owner. -/
private def wrongPort : Val :=
  .dict [(.str p!"timestamp", .int 1500000000), (.str p!"task_id", .str p!"a"),
    (.str p!"task_owner", .dict [(.str p!"pub_port", .str p!"80"), (.str p!"colour", .none)]),
    (.str p!"colour", .none)]

example : BadRecord toyEnv (fieldsOf toyEnv .taskHeader) wrongPort (.fieldError p!"pub_port") :=
  (record_fault toyEnv .taskHeader wrongPort (by unfold Data; decide) _).mp
    ⟨.fieldError p!"pub_port", by decide +kernel, rfl⟩

/-- A peer with a port that no connection has. -/
example : BadDict toyEnv .peer (.dict [(.str p!"address", .none), (.str p!"port", .int 65536)])
    (.fieldError p!"port") := by
  refine .entry (k := .str p!"port") (w := .int 65536) (before := [(.str p!"address", .none)])
    (.dict (rest := []) rfl) ?_ (.port ?_)
  · intro k w hm x hb
    have := List.mem_singleton.mp hm
    injection this with h1 h2
    subst h1 h2
    generalize hk : Val.str p!"address" = k at hb
    cases hb with
    | key h => exact h _ hk.symm
    | unknown h => injection hk with hk; subst hk; exact h (by decide)
    | address h => exact h rfl
    | port _ => injection hk with hk; revert hk; decide
    | noNode _ => injection hk with hk; revert hk; decide
  · rintro ⟨i, h, _, h2⟩
    injection h with h
    omega

/-- A file whose category is unknown, in a token. -/
private def unknownFile : Bytes :=
  ((packHeader 4005 (.int 1500000000) (.bool false)).toOption.getD [] ++ List.replicate 65 0) ++
    (dumps (.list [.list [.str p!"files", .list [.dict [(.str p!"path", .str p!"a"),
      (.str p!"category", .str p!"other")]]]])).toOption.getD []

example : Refusal toyEnv (fun _ d => .ok d) unknownFile none none false 0 (.fieldError p!"category") :=
  (refused_iff toyEnv _ unknownFile none none false 0 _).mp (by decide +kernel)

end Verif.Props
