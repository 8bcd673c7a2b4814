import Verif.Lemmas.Carried
import Verif.Lemmas.Toy
import Verif.Props.Auth
import Verif.Lemmas.Signing
/-!
# C18: signatures and type numbers
-/

set_option linter.unusedSimpArgs false

namespace Verif.Props

open Verif Spec

/-- The bytes hashed for these two messages differ and have the same SHA-1 digest. -/
def Sha1Collision (E : Env) (m g : Msg) : Prop :=
  ∃ x a y b, (Signing.message m).Covers x a ∧ (Signing.message g).Covers y b ∧ x ≠ y ∧
    E.sha1 x = E.sha1 y

/-- C18 for messages whose header names their own class: a digest signed for such a message is
the digest of no message with another type number or timestamp, or the bytes hashed for the two
messages collide.  (SHA-1
digests have 20 bytes.) -/
theorem type_in_digest (E : Env) (hlen : ∀ x, (E.sha1 x).length = 20) (m g : Msg) (t s s' : Int)
    (hm : m.ty = .int m.cls.typeId) (hs : m.ts = .int s) (hg : g.ty = .int t) (hs' : g.ts = .int s')
    (h : Bytes) (h1 : shortHash E m = .ok h) (h2 : shortHash E g = .ok h) :
    (t = m.cls.typeId ∧ s' = s) ∨ Sha1Collision E m g := by
  obtain ⟨x, a, c1, e1⟩ := short_form h1
  obtain ⟨y, b, c2, e2⟩ := short_form h2
  have hxy : E.sha1 x = E.sha1 y := by
    have e := e1.symm.trans e2
    have := congrArg (List.take 20) e
    rwa [List.take_left' (hlen x), List.take_left' (hlen y)] at this
  by_cases hne : x = y
  · subst hne
    obtain ⟨k1, _, p, d1, _, _, f1, _⟩ := c1
    obtain ⟨k2, _, q, d2, _, _, f2, _⟩ := c2
    rw [hm, hs] at d1
    rw [hg, hs'] at d2
    obtain ⟨i1, i2, _⟩ := digest_binds _ _ _ _ p q x (by unfold hashInput; rw [d1]; exact congrArg _ f1.symm)
      (by unfold hashInput; rw [d2]; exact congrArg _ f2.symm)
    exact Or.inl ⟨i1.symm, i2.symm⟩
  · exact Or.inr ⟨x, a, y, b, c1, c2, hne, hxy⟩

/-- C18 for the loaded message itself: whatever message `g` has the digest of the loaded
message, its type number is that of the class the receiver sees, or the two collide.  Partial:
for messages nested in the loaded one this fails, see `nested_type_refuted`. -/
theorem loaded_type_partial (E : Env) (hlen : ∀ x, (E.sha1 x).length = 20)
    (dec : Bytes → Bytes → Res Bytes) (data : Bytes)
    (priv pub : Option Bytes) (ct : Bool) (now : Int) (m g : Msg) (t s : Int) (h : Bytes)
    (hl : (load E dec (some data) priv pub ct now).2 = .ok m)
    (hg : g.ty = .int t) (hs : g.ts = .int s)
    (h1 : shortHash E m = .ok h) (h2 : shortHash E g = .ok h) :
    m.ty = .int m.cls.typeId ∧ ((t = m.cls.typeId ∧ s = frameTime data) ∨ Sha1Collision E m g) := by
  obtain ⟨_, _, _, c, hct, _, p, version, hp, hver, hv, hparse, hk⟩ := load_ok hl
  obtain ⟨slots, _, hc, _⟩ := parsePayload_ok hparse
  obtain ⟨as, ha, hm⟩ := construct_ok hc
  have e1 : m.ty = .int m.cls.typeId := by rw [hm, ← hct]
  have e2 : m.ts = .int (frameTime data) := by rw [hm]
  exact ⟨e1, type_in_digest E hlen m g t _ s e1 e2 hg hs h h1 h2⟩

/-- The hypotheses can be met: a signed frame and the message the signer dumped. -/
example :
    let g : Msg := ⟨.Ping, .int 1001, .int 1500000000, .bool false, .none, []⟩
    ∃ m h, (load toyEnv (fun _ b => .ok b)
        (some ((serialize toyEnv g (some (List.replicate 32 7)) none).1.toOption.getD []))
        none (some (List.replicate 64 7)) false 0).2 = .ok m ∧
      shortHash toyEnv m = .ok h ∧ shortHash toyEnv g = .ok h ∧ ∀ x, (toyEnv.sha1 x).length = 20 := by
  refine ⟨_, _, rfl, ?_, rfl, ?_⟩
  · decide +kernel
  · intro x; simp [toyEnv]

/-! ### Nested messages -/

private def rct : Val :=
  .msg .ReportComputedTask (.int 2004) (.int 1500000000) (.bool false) (.bytes [])
    (Cls.ReportComputedTask.payload.map fun n =>
      (n, if n = p!"task_to_compute" then
          .msg .TaskToCompute (.int 2002) (.int 1500000000) (.bool false) (.bytes [])
            (Cls.TaskToCompute.payload.map fun n => (n, if n = p!"want_to_compute_task" then
              .msg .WantToComputeTask (.int 2001) (.int 1500000000) (.bool false) (.bytes [])
                (Cls.WantToComputeTask.payload.map fun n => (n, if n = p!"num_subtasks" then .int 1
                  else if n = p!"concent_enabled" then .bool false else .none))
              else if n = p!"concent_enabled" then .bool false else if n = p!"compute_task_def" then
                .fdict .computeTaskDef FDictId.computeTaskDef.items
              else if n = p!"price" ∨ n = p!"size" then .int 0 else .none))
        else .none))

/-- A request of a requestor to get a task's result by force. -/
private def request : Msg :=
  ⟨.ForceGetTaskResult, .int 4009, .int 1500000000, .bool false, .none, [(p!"report_computed_task", rct)]⟩

private def signedRequest : Msg := ((request.signMessage toyEnv (List.replicate 32 7)).toOption).getD request

/-- The same header, signature and fields, seen as an acknowledgement. -/
private def asAck : Msg := { signedRequest with cls := .AckReportComputedTask }

/-- A provider's message to the Concent with the acknowledgement attached. -/
private def carrier : Msg :=
  ⟨.ForceSubtaskResults, .int 4015, .int 1500000000, .bool false, .none,
    [(p!"ack_report_computed_task", asAck.val)]⟩

private def carrierFrame : Bytes := ((serialize toyEnv carrier none none).1.toOption).getD []

private def loaded : Res Msg := (load toyEnv (fun _ b => .ok b) (some carrierFrame) none none false 0).2

private theorem request_signed :
    request.signMessage toyEnv (List.replicate 32 7) = .ok signedRequest := by decide +kernel

/-- C18 fails for nested messages: a requestor signs a demand to get a task's result; the very
same header, signature and fields, placed where an acknowledgement of the report is expected,
are loaded as an acknowledgement whose signature by the requestor verifies.  The digests are
equal whatever the hash function is. -/
theorem nested_type_refuted :
    ∃ (g m n : Msg) (data : Bytes),
      request.signMessage toyEnv (List.replicate 32 7) = .ok g ∧ g.cls = .ForceGetTaskResult ∧
      g.ty = .int g.cls.typeId ∧
      (load toyEnv (fun _ b => .ok b) (some data) none none false 0).2 = .ok m ∧
      Within m.val n.val ∧ n.cls = .AckReportComputedTask ∧ n.cls.typeId ≠ g.cls.typeId ∧
      n.sig = g.sig ∧ n.verifySig toyEnv (List.replicate 64 7) = .ok () ∧
      (∀ E, shortHash E n = shortHash E g) := by
  have hsl : asAck.slots = signedRequest.slots := by decide +kernel
  have hl : (load toyEnv (fun _ b => .ok b) (some carrierFrame) none none false 0).2 =
      .ok { carrier with sig := .bytes fakeSig } := by decide +kernel
  refine ⟨signedRequest, { carrier with sig := .bytes fakeSig }, asAck, carrierFrame, request_signed,
    by decide +kernel, by decide +kernel, hl, ?_, rfl, by decide +kernel, rfl, by decide +kernel, ?_⟩
  · exact .step (name := p!"ack_report_computed_task") (sd := { cls := .AckReportComputedTask })
      (x := asAck.val) (by decide) List.mem_cons_self (.refl _)
  · intro E
    unfold shortHash
    rw [hsl]
    have h1 : signedRequest.cls = .ForceGetTaskResult := by decide +kernel
    cases signedRequest.slots with
    | error e => rfl
    | ok s =>
      dsimp only
      cases dumps s with
      | error e => rfl
      | ok p =>
        dsimp only
        unfold shortHashOf
        have a1 : asAck.ty = signedRequest.ty := rfl
        have a2 : asAck.ts = signedRequest.ts := rfl
        have a3 : asAck.cls = .AckReportComputedTask := rfl
        rw [a1, a2, a3, h1]
        cases hashInput signedRequest.ty signedRequest.ts p with
        | error e => rfl
        | ok h =>
          have b1 : Cls.AckReportComputedTask ≠ .Hello := by decide
          have b2 : Cls.ForceGetTaskResult ≠ .Hello := by decide
          simp only [b1, b2, if_false]

end Verif.Props
