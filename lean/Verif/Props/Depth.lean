import Verif.Lemmas.Depth
import Verif.Lemmas.Toy
/-! # C56: nesting depth of loaded messages -/

set_option linter.unusedSimpArgs false

namespace Verif.Props

open Verif Spec

/-- C56, declarations: the relation "is declared in a message slot of" is well founded: there is
no infinite chain of classes. -/
theorem slots_well_founded : WellFounded (fun b a => Declares a b) := by
  apply Subrelation.wf (r := fun b a : Cls => b.rank < a.rank)
  · intro a b h; exact declares_rank h
  · exact InvImage.wf Cls.rank Nat.lt_wfRel.wf

example : Declares .SubtaskResultsVerify .SubtaskResultsRejected :=
  ⟨_, _, List.mem_cons_self, rfl⟩

/-- C56, declarations: chains of declared classes have at most six members, and this is exact. -/
theorem declared_depth :
    (∀ c n, DeclaredChain c n → n ≤ 6) ∧ ∃ c, DeclaredChain c 6 := by
  refine ⟨fun c n h => Nat.le_trans (chain_rank h) (by have := rank_le c; omega), ?_⟩
  refine ⟨.AckSubtaskResultsVerify, ?_⟩
  have d : ∀ (a b : Cls) (n : PStr) (sd : SlotDef), lookupName n a.msgSlots = some sd → sd.cls = b →
      Declares a b := fun a b n sd h e => ⟨n, sd, mem_of_lookupName h, e⟩
  refine .more (d _ .SubtaskResultsVerify p!"subtask_results_verify" _ rfl rfl) ?_
  refine .more (d _ .SubtaskResultsRejected p!"subtask_results_rejected" _ rfl rfl) ?_
  refine .more (d _ .ReportComputedTask p!"report_computed_task" _ rfl rfl) ?_
  refine .more (d _ .TaskToCompute p!"task_to_compute" _ rfl rfl) ?_
  refine .more (d _ .WantToComputeTask p!"want_to_compute_task" _ rfl rfl) ?_
  exact .one _

/-- C56: in every loaded message - whatever the bytes, keys and clock - messages are nested, in
whatever place, only as deep as a chain of declared message slots starting from its class goes,
hence at most six deep. -/
theorem load_depth {E : Env} {dec : Bytes → Bytes → Res Bytes} {data : Bytes}
    {priv pub : Option Bytes} {ct : Bool} {now : Int} {m : Msg}
    (h : (load E dec (some data) priv pub ct now).2 = .ok m) :
    DeclaredChain m.cls (nest m.val) ∧ nest m.val ≤ 6 := by
  have : DeclaredChain m.cls (nest m.val) := by
    obtain ⟨_, _, _, c, hct, _, p, version, hp, hver, hv, hparse, _⟩ := load_ok h
    obtain ⟨slots, hl, hcon, _⟩ := parsePayload_ok hparse
    obtain ⟨as, ha, hm⟩ := construct_ok hcon
    have h1 := nest_loadAttrs (fun c' ty ts enc sig slots x _ => nest_loadMsg E _ c' ty ts enc sig slots x)
      (nest_loads hl) ha
    subst hm
    refine nest_msg rfl rfl rfl rfl ?_
    have e : ∀ (as bs : Attrs), nestF bs = 0 → nestF (as ++ bs) = nestF as := by
      intro as bs hb
      induction as with
      | nil => simpa [nestF] using hb
      | cons p rest ih =>
        obtain ⟨k, v⟩ := p
        simp [nestF, ih]
    rw [e _ _ (by cases version <;> rfl)]
    exact h1
  exact ⟨this, declared_depth.1 _ _ this⟩

/-- The bound on nesting in the model is no restriction: with it, loading satisfies the
unbounded recursive equation of the code, for every class and every decoded data. -/
theorem loader_unbounded (E : Env) (c : Cls) (ty ts enc sig slots : Val) :
    loadMsg E maxDepth c ty ts enc sig slots =
      match loadAttrs E (loadMsg E maxDepth) c slots with
      | .error e => .error e
      | .ok as => .ok (.msg c ty ts enc sig as) := by
  have hc := rank_le c
  rw [loadMsg_fuel E c maxDepth (maxDepth + 1) (by unfold maxDepth; omega) (by unfold maxDepth; omega)]
  rfl

/-- A frame with three levels of messages, in an environment with toy primitives. -/
private def deep : Msg :=
  ⟨.CannotComputeTask, .int 2026, .int 1500000000, .bool false, .none,
    [(p!"reason", .none), (p!"task_to_compute", .msg .TaskToCompute (.int 2002) (.int 1500000000)
      (.bool false) (.bytes (List.replicate 65 1))
      [(p!"requestor_id", .none), (p!"requestor_public_key", .none),
       (p!"requestor_ethereum_public_key", .none),
       (p!"compute_task_def", .dict [(.str p!"task_id", .str p!"t"), (.str p!"subtask_id", .str p!"s")]),
       (p!"package_hash", .none), (p!"concent_enabled", .bool true), (p!"price", .int 5),
       (p!"size", .int 6), (p!"want_to_compute_task", .msg .WantToComputeTask (.int 2001)
         (.int 1500000000) (.bool false) (.bytes (List.replicate 65 1))
         [(p!"provider_id", .str p!"p"), (p!"num_subtasks", .int 1)])])]⟩

example : ((load toyEnv (fun _ d => .ok d)
      (some ((dump toyEnv (fun _ d => .ok d) deep none none).1.toOption.getD []))
      none none false 0).2.toOption.map fun m => nest m.val) = some 3 := by decide +kernel

end Verif.Props
