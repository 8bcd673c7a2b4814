import Verif.Lemmas.CloneSlots
import Verif.Props.Construct
import Verif.Props.Reload
/-!
# C87: a clone is the message it was made from
-/

set_option linter.unusedSimpArgs false

namespace Verif.Props

open Verif Spec

private theorem ownVersion_hello {E : Env} {as : Attrs} (hn : as.map Prod.fst = Cls.Hello.payload) :
    ownVersion E .Hello false as = as ++ [(p!"_version", .str E.version)] := by
  unfold ownVersion
  have h0 : p!"_version" ∉ as.map Prod.fst := by rw [hn]; exact payload_no_version .Hello
  have h1 : lookupName p!"_version" as = none := by rw [lookupName_none]; exact h0
  rw [if_pos ⟨rfl, rfl, by rw [h1]; rfl⟩, setName_absent h0]

/-- What the constructor makes of the slots of a well-typed message. -/
private theorem again_new {E : Env} {G : Getter} {now : Int} {m : Msg} (h : Val × Val × Val)
    {as : Attrs} (hw : WellTyped E m.cls as) (hs : serAttrs m.cls m.attrs = serAttrs m.cls as) :
    cloneMessage E G now m none (some h) =
      .ok ⟨m.cls, h.1, h.2.1, h.2.2, m.sig, ownVersion E m.cls false as⟩ := by
  obtain ⟨l, h1, h3⟩ := Clone.wellTyped_again hw
  have hl := h3 maxDepth (Nat.le_trans (rank_le m.cls) (by decide))
  unfold cloneMessage Msg.slots
  rw [hs, h1]
  simp only [Option.getD_none, Option.getD_some]
  unfold loadAttrs at hl
  unfold newMessage
  split at hl
  · cases hl
  rename_i loaded hld
  injection hl with hl
  rw [hld]
  simp only [List.filter_nil]
  have hls : loadSlots E (loadMsg E maxDepth) m.cls (dictOf (.list l)) m.cls.payload = .ok loaded := by
    unfold wrapLoad at hld
    split at hld <;> first | (cases hld; assumption) | cases hld
  have hseed : seedConnId m.cls [] loaded = loaded := by
    unfold seedConnId
    split
    · rename_i hc
      have hn := loadSlots_names hls
      have hmem : p!"conn_id" ∈ loaded.map Prod.fst := by rw [hn, hc]; decide
      have hval : getAttr loaded p!"conn_id" = .none := by
        have hp : postInit m.cls loaded = loaded := by rw [hc]; rfl
        rw [hp] at hl
        subst hl
        cases hw with
        | mk _ _ names fields slots heads nested =>
          have := (fields _ _ (mem_getAttr hmem) (by rw [hc]; rfl)).1
          rw [hc] at this
          simpa [FieldOk, Cls.nodeSlots] using this
      have e : getAttr ([] : Attrs) p!"conn_id" = getAttr loaded p!"conn_id" := by rw [hval]; rfl
      rw [e]
      exact Clone.setName_same (mem_getAttr hmem) (by rw [hn]; exact payload_nodup _)
    · rfl
  rw [hseed]
  simp only [applyKws, hl]

/-- C87: a clone has the class, signature and fields of the message it was made from, at every
depth, and its header or the header that was asked for; this for every message that holds what
its class declares, `Hello` apart. -/
theorem clone_same (E : Env) (G : Getter) (now : Int) (m : Msg) (hdr : Option (Val × Val × Val))
    (hw : WellTypedMsg E m) (hh : m.cls ≠ .Hello) :
    cloneMessage E G now m none hdr =
      .ok { m with ty := (hdr.getD (m.ty, m.ts, m.enc)).1,
                   ts := (hdr.getD (m.ty, m.ts, m.enc)).2.1,
                   enc := (hdr.getD (m.ty, m.ts, m.enc)).2.2 } := by
  obtain ⟨as, hwt, hs, hc⟩ := wellTyped_split hw
  rcases hc with ⟨_, ha⟩ | ⟨hc, _⟩
  · have := again_new (E := E) (G := G) (now := now) (hdr.getD (m.ty, m.ts, m.enc)) hwt hs
    have e : cloneMessage E G now m none (some (hdr.getD (m.ty, m.ts, m.enc))) =
        cloneMessage E G now m none hdr := by
      cases hdr <;> rfl
    rw [e] at this
    rw [this]
    unfold ownVersion
    rw [if_neg (fun g => hh g.1), ha]
  · exact absurd hc hh

/-- C87: the clone of a `Hello` is the same up to its version, which is always the own one. -/
theorem clone_hello (E : Env) (G : Getter) (now : Int) (m : Msg) (as : Attrs) (v : PStr)
    (hw : WellTyped E .Hello as) (hh : m.cls = .Hello)
    (ha : m.attrs = as ++ [(p!"_version", .str v)]) :
    cloneMessage E G now m none none =
      .ok { m with attrs := as ++ [(p!"_version", .str E.version)] } := by
  have := again_new (E := E) (G := G) (now := now) (m := m) (m.ty, m.ts, m.enc) (as := as)
    (hh ▸ hw) (by rw [ha, serAttrs_version])
  have e : cloneMessage E G now m none (some (m.ty, m.ts, m.enc)) =
      cloneMessage E G now m none none := rfl
  rw [e] at this
  rw [this, hh]
  have hn : as.map Prod.fst = Cls.Hello.payload := by cases hw with | mk _ _ h => exact h
  rw [ownVersion_hello hn, ← hh]

/-- C87: the clone of a received message without gaps is that message, if it is no `Hello` of
another version. -/
theorem clone_received (E : Env) (G : Getter) (now : Int) (dec : Bytes → Bytes → Res Bytes)
    (data : Bytes) (priv pub : Option Bytes) (ct : Bool) (at' : Int) (m : Msg)
    (h : (load E dec (some data) priv pub ct at').2 = .ok m) (hc : Complete m)
    (hv : m.cls = .Hello → getAttr m.attrs p!"_version" = .str E.version) :
    cloneMessage E G now m none none = .ok m := by
  have hw := loaded_wellTyped E dec data priv pub ct at' m h hc
  by_cases hh : m.cls = .Hello
  · obtain ⟨as, hwt, _, hc⟩ := wellTyped_split hw
    rcases hc with ⟨hn, _⟩ | ⟨_, v, ha, hg⟩
    · exact absurd hh hn
    · rw [hv hh] at hg
      injection hg with hg
      rw [clone_hello E G now m as v (hh ▸ hwt) hh ha, hg, ← ha]
  · exact clone_same E G now m none hw hh

/-- C87: `override_timestamp` does what cloning with a new header does: the time stamp is the one
given, and the class, type, signature and fields stay. -/
theorem clone_override (E : Env) (G : Getter) (now : Int) (m : Msg) (t : Val)
    (hw : WellTypedMsg E m) (hh : m.cls ≠ .Hello) :
    cloneMessage E G now m none (some (m.ty, t, m.enc)) = .ok (overrideTimestamp m t) ∧
      (overrideTimestamp m t).ts = t := by
  rw [clone_same E G now m _ hw hh]
  exact ⟨rfl, rfl⟩

/-- C87: whatever is cloned, and as whatever class, the header and signature are those asked for
or those of the original, and the clone has the fields its class declares. -/
theorem clone_head (E : Env) (G : Getter) (now : Int) (m m' : Msg) (cls : Option Cls)
    (hdr : Option (Val × Val × Val)) (h : cloneMessage E G now m cls hdr = .ok m') :
    m'.cls = cls.getD m.cls ∧ m'.sig = m.sig ∧
      (m'.ty, m'.ts, m'.enc) = hdr.getD (m.ty, m.ts, m.enc) ∧
      (m'.attrs.map Prod.fst = m'.cls.payload ∨
        (m'.cls = .Hello ∧ m'.attrs.map Prod.fst = m'.cls.payload ++ [p!"_version"])) := by
  unfold cloneMessage at h
  split at h
  · cases h
  rename_i s hs
  obtain ⟨_, _, _, _, hc, hsig, hhd, _⟩ := new_ok h
  exact ⟨hc, hsig, hhd, by rw [hc]; exact nothing_else_stored E G now _ _ _ _ _ _ m' h⟩

/-- C87: `VerdictReportComputedTask` as its factory leaves it: the acknowledgement carries the very
report that was forced, and nothing else changes. -/
theorem verdict_same_report (E : Env) (G : Getter) (now : Int) (msg force rct : Msg) (c : Cls)
    (ty ts enc sig : Val) (as : Attrs)
    (hf : getAttr msg.attrs p!"force_report_computed_task" = force.val)
    (hr : getAttr force.attrs p!"report_computed_task" = rct.val)
    (ha : getAttr msg.attrs p!"ack_report_computed_task" = .msg c ty ts enc sig as)
    (hw : WellTypedMsg E rct) (hh : rct.cls ≠ .Hello) :
    verdictReport E G now msg [] =
      .ok ⟨msg.cls, msg.ty, msg.ts, msg.enc, msg.sig,
        setName p!"ack_report_computed_task" (.msg c ty ts enc sig
          (setName p!"report_computed_task" (getAttr force.attrs p!"report_computed_task") as))
          msg.attrs⟩ := by
  have hov : ∀ m : Msg, Msg.ofVal m.val = some m := fun m => rfl
  unfold verdictReport
  rw [hf, hov]
  simp only
  rw [hr, hov]
  simp only [clone_same E G now rct none hw hh, ha, Option.getD_none, List.foldl_nil]

/-- The report of a computed task, for the examples. -/
private def exReport (as : Attrs) : Msg := ⟨.ReportComputedTask, .int 2004, .int 1500000000, .bool false,
  .bytes (List.replicate 65 9),
  [(p!"address", .str p!"10.0.0.1"), (p!"node_info", .none), (p!"port", .int 40103),
   (p!"key_id", .none), (p!"extra_data", .list []),
   (p!"task_to_compute", .msg .TaskToCompute (.int 2002) (.int 1500000000) (.bool false)
     (.bytes (List.replicate 65 1)) as),
   (p!"size", .int 1024), (p!"package_hash", .str p!"sha1:00"), (p!"multihash", .none),
   (p!"secret", .none), (p!"options", .none), (p!"stats", .none)]⟩

private theorem exReport_ok {E : Env} {as : Attrs} (hw : WellTyped E .TaskToCompute as) :
    WellTypedMsg E (exReport as) := by
  have cases' : ∀ name v, (name, v) ∈ (exReport as).attrs →
      (name = p!"task_to_compute" ∧ v = .msg .TaskToCompute (.int 2002) (.int 1500000000) (.bool false)
        (.bytes (List.replicate 65 1)) as) ∨
      (lookupName name Cls.ReportComputedTask.msgSlots = none ∧
        FieldOk E .ReportComputedTask name v ∧ defaulted .ReportComputedTask name v = v) := by
    intro name v h
    simp only [exReport, List.mem_cons, List.not_mem_nil, or_false, Prod.mk.injEq] at h
    rcases h with ⟨rfl, rfl⟩|⟨rfl, rfl⟩|⟨rfl, rfl⟩|⟨rfl, rfl⟩|⟨rfl, rfl⟩|⟨rfl, rfl⟩|⟨rfl, rfl⟩|
      ⟨rfl, rfl⟩|⟨rfl, rfl⟩|⟨rfl, rfl⟩|⟨rfl, rfl⟩|⟨rfl, rfl⟩ <;>
    first
    | exact Or.inl ⟨rfl, rfl⟩
    | refine Or.inr ⟨by rfl, ?_, by rfl⟩
      simp [FieldOk, Cls.nodeSlots, Cls.enumSlots, lookupName, Data, data, dataL, dataD, Val.truthy]
  unfold WellTypedMsg
  rw [if_neg (show ¬ (exReport as).cls = .Hello from fun e => by cases e)]
  show WellTyped E .ReportComputedTask _
  refine ⟨_, _, by rfl, ?_, ?_, ?_, ?_⟩
  · intro name v h hn
    rcases cases' name v h with ⟨rfl, _⟩ | h
    · exact absurd hn (by decide)
    · exact h.2
  · intro name sd v h hs
    rcases cases' name v h with ⟨rfl, rfl⟩ | h
    · cases hs; exact Or.inr rfl
    · rw [h.1] at hs; cases hs
  · intro name sd v ty ts enc sig as' h hs hm
    rcases cases' name v h with ⟨rfl, rfl⟩ | h
    · cases hs
      simp only [members, List.mem_singleton] at hm
      cases hm
      exact ⟨by rfl, by rfl, by rfl, by rfl⟩
    · rw [h.1] at hs; cases hs
  · intro name sd v ty ts enc sig as' h hs hm
    rcases cases' name v h with ⟨rfl, rfl⟩ | h
    · cases hs
      simp only [members, List.mem_singleton] at hm
      cases hm
      exact hw
    · rw [h.1] at hs; cases hs

/-- A report that carries a task that carries an offer is cloned; with another header, only the
header changes. -/
example : ∃ (E : Env) (m : Msg), WellTypedMsg E m ∧ m.cls = .ReportComputedTask ∧
    (∃ t w : Msg, getAttr m.attrs p!"task_to_compute" = t.val ∧
      getAttr t.attrs p!"want_to_compute_task" = w.val) ∧
    cloneMessage E (fun _ _ _ => .ok .none) 0 m none none = .ok m ∧
    cloneMessage E (fun _ _ _ => .ok .none) 0 m none (some (.int 2004, .int 1600000000, .bool true)) =
      .ok { m with ts := .int 1600000000, enc := .bool true } := by
  obtain ⟨E, as, hw, w, _, hg⟩ := some_task
  have h := exReport_ok hw
  refine ⟨E, exReport as, h, rfl, ⟨⟨.TaskToCompute, _, _, _, _, as⟩, w, rfl, hg⟩, ?_, ?_⟩
  · exact clone_same E _ 0 _ none h (fun e => by cases e)
  · exact clone_same E _ 0 _ (some _) h (fun e => by cases e)

/-- A verdict whose acknowledgement was made for another report. -/
example : ∃ (E : Env) (msg msg' : Msg) (ack : Msg), msg.cls = .VerdictReportComputedTask ∧
    getAttr msg.attrs p!"ack_report_computed_task" = ack.val ∧
    getAttr ack.attrs p!"report_computed_task" = .none ∧
    verdictReport E (fun _ _ _ => .ok .none) 0 msg [] = .ok msg' ∧
    ∃ ack' force : Msg, getAttr msg'.attrs p!"ack_report_computed_task" = ack'.val ∧
      getAttr msg'.attrs p!"force_report_computed_task" = force.val ∧
      getAttr ack'.attrs p!"report_computed_task" = getAttr force.attrs p!"report_computed_task" := by
  obtain ⟨E, as, hw, w, _, hg⟩ := some_task
  have h := exReport_ok hw
  refine ⟨E, ⟨.VerdictReportComputedTask, .int 4004, .int 1500000000, .bool false, .none,
    [(p!"force_report_computed_task", .msg .ForceReportComputedTask (.int 4001) (.int 1500000000)
      (.bool false) .none [(p!"report_computed_task", (exReport as).val),
        (p!"result_hash", .none)]),
     (p!"ack_report_computed_task", .msg .AckReportComputedTask (.int 2029) (.int 1500000000)
      (.bool false) .none [(p!"report_computed_task", .none)])]⟩, _,
    ⟨.AckReportComputedTask, .int 2029, .int 1500000000, .bool false, .none,
      [(p!"report_computed_task", .none)]⟩, rfl, rfl, rfl,
    verdict_same_report E _ 0 _ ⟨.ForceReportComputedTask, .int 4001, .int 1500000000,
      .bool false, .none, [(p!"report_computed_task", (exReport as).val),
        (p!"result_hash", .none)]⟩ (exReport as) _ _ _ _ _ _ rfl rfl rfl h (fun e => by cases e),
    ⟨_, _, _, _, _, _⟩, ⟨_, _, _, _, _, _⟩, rfl, rfl, rfl⟩

/-! ### What does not survive -/

private def exHello (v : PStr) (sig : Val) : Msg := ⟨.Hello, .int 0, .int 1500000000, .bool false, sig,
  [(p!"rand_val", .int 7), (p!"proto_id", .int 29), (p!"node_info", .none), (p!"port", .int 40102),
   (p!"client_ver", .str p!"0.19"), (p!"solve_challenge", .bool false), (p!"challenge", .none),
   (p!"difficulty", .int 0), (p!"metadata", .dict []), (p!"_version", .str v)]⟩

/-- The clone of a `Hello` that came with another version has the own version: the signature that
verified on the original no longer does. -/
theorem clone_hello_refuted :
    ∃ (m m' : Msg) (pub : Bytes), m.verifySig toyEnv pub = .ok () ∧
      (∃ as, m.attrs = as ++ [(p!"_version", .str p!"1.2.9")] ∧ WellTyped toyEnv .Hello as) ∧
      cloneMessage toyEnv (fun _ _ _ => .ok .none) 0 m none none = .ok m' ∧
      m'.sig = m.sig ∧ m'.verifySig toyEnv pub ≠ .ok () := by
  have hs : (match (exHello p!"1.2.9" .none).signMessage toyEnv (List.replicate 32 7) with
      | .error _ => false
      | .ok m => match m.verifySig toyEnv (List.replicate 64 7),
          cloneMessage toyEnv (fun _ _ _ => .ok .none) 0 m none none with
        | .ok _, .ok m' => m.attrs = (exHello p!"1.2.9" .none).attrs ∧ m'.sig = m.sig ∧
            (m'.verifySig toyEnv (List.replicate 64 7)).isOk = false
        | _, _ => false) = true := by decide +kernel
  split at hs
  · cases hs
  rename_i m hm
  split at hs
  · rename_i u m' h1 h2
    simp only [decide_eq_true_eq] at hs
    refine ⟨m, m', _, h1, ⟨(exHello p!"1.2.9" .none).attrs.dropLast, hs.1, ?_⟩, h2, hs.2.1, ?_⟩
    · have hmem : ∀ name v, (name, v) ∈ (exHello p!"1.2.9" .none).attrs.dropLast →
          FieldOk toyEnv .Hello name v ∧ defaulted .Hello name v = v := by
        intro name v h
        simp only [exHello, List.dropLast, List.mem_cons, List.not_mem_nil, or_false, Prod.mk.injEq] at h
        rcases h with ⟨rfl, rfl⟩ | ⟨rfl, rfl⟩ | ⟨rfl, rfl⟩ | ⟨rfl, rfl⟩ | ⟨rfl, rfl⟩ | ⟨rfl, rfl⟩ |
          ⟨rfl, rfl⟩ | ⟨rfl, rfl⟩ | ⟨rfl, rfl⟩ <;>
        exact ⟨by simp [FieldOk, Cls.nodeSlots, Cls.enumSlots, lookupName, Data, data, Val.truthy,
          distinctKeys, keysOk, dataD], rfl⟩
      refine WellTyped.mk _ _ rfl (fun name v h _ => hmem name v h) ?_ ?_ ?_
      all_goals
        intro name sd v
        intros
        rename_i h _
        simp_all [Cls.msgSlots, lookupName]
    · intro e
      rw [e] at hs
      exact absurd hs.2.2 (by decide)
  · cases hs

/-- The connection identifier of a `StartSessionResponse` is not cloned. -/
theorem clone_conn_id_refuted :
    ∃ m m' : Msg, getAttr m.attrs p!"conn_id" = .str p!"abc" ∧
      newMessage toyEnv (fun _ _ _ => .ok .none) 0 .StartSessionResponse none .none .none false
        [(p!"conn_id", .str p!"abc")] = .ok m ∧
      cloneMessage toyEnv (fun _ _ _ => .ok .none) 0 m none none = .ok m' ∧
      getAttr m'.attrs p!"conn_id" = .none := by
  refine ⟨_, _, ?_, rfl, rfl, ?_⟩ <;> decide +kernel

/-- A message with an empty list of messages cannot be cloned. -/
theorem clone_empty_list_refuted :
    ∃ m : Msg, newMessage toyEnv (fun _ _ _ => .ok .none) 0 .ForcePayment none .none .none false
        [(p!"subtask_results_accepted_list", .list [])] = .ok m ∧
      (cloneMessage toyEnv (fun _ _ _ => .ok .none) 0 m none none).isOk = false := by
  refine ⟨_, rfl, ?_⟩
  decide +kernel

/-- Nor can a message that lacks a field it should have. -/
theorem clone_gap_refuted :
    ∃ m : Msg, newMessage toyEnv (fun _ _ _ => .ok .none) 0 .TaskToCompute none .none .none false [] =
        .ok m ∧
      (cloneMessage toyEnv (fun _ _ _ => .ok .none) 0 m none none).isOk = false := by
  refine ⟨_, rfl, ?_⟩
  decide +kernel

end Verif.Props
