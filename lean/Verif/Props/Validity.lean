import Verif.Lemmas.Carried
import Verif.Lemmas.Raw
import Verif.Lemmas.Toy
import Verif.Lemmas.Float
import Verif.Props.Hex
import Verif.Props.Crypto
/-!
# C34, C35, C36, C37: checks of single task message classes at load
-/

set_option linter.unusedSimpArgs false

namespace Verif.Props

open Verif Spec

/-! ### C34: payment timestamps -/

/-- C34: a frame with a `SubtaskResultsAccepted` whose payment timestamp is an integer loads
exactly if that is not after the message's timestamp and at most 900 seconds before; otherwise
the result is a `ValidationError`.  Partial: integers below -(2^1024 - 2^970) and values that
are not integers are treated below. -/
theorem payment_window_partial (E : Env) (dec : Bytes → Bytes → Res Bytes) (data : Bytes)
    (priv pub : Option Bytes) (ct : Bool) (now : Int) (m : Msg)
    (h : Carries E dec data priv pub ct now m) (hc : m.cls = .SubtaskResultsAccepted) (p : Int)
    (hp : getAttr m.attrs p!"payment_ts" = .int p) (hb : -(2 ^ 1024 - 2 ^ 970 : Int) < p) :
    (load E dec (some data) priv pub ct now).2 =
      if p ≤ frameTime data ∧ (frameTime data : Int) ≤ p + 900 then .ok m
      else .error .validationError := by
  rw [load_carries h]
  obtain ⟨_, hts, _⟩ := carries_header h
  obtain ⟨_, _, h2, _⟩ := h
  unfold taskChecks isValid
  rw [hc]
  simp only [show Cls.isTask .SubtaskResultsAccepted = true from rfl, if_true, hts, hp, paymentValid,
    Val.structInt, reduceCtorEq, if_false]
  by_cases h1 : p > frameTime data
  · rw [if_pos h1, if_neg (by omega)]
  · have ho : intOverflowsFloat p = false := by
      have h3 : (maxTimestamp : Int) < 2 ^ 970 := by decide +kernel
      have hk : (2 ^ 1024 - 2 ^ 970 : Int) = ((2 ^ 1024 - 2 ^ 970 : Nat) : Int) := by decide +kernel
      have h4 : (2 ^ 970 : Int) < (2 ^ 1024 - 2 ^ 970 : Nat) := by decide +kernel
      rw [hk] at hb
      unfold intOverflowsFloat
      generalize (2 ^ 1024 - 2 ^ 970 : Nat) = k at *
      generalize (2 ^ 970 : Int) = q at *
      simp only [decide_eq_false_iff_not]
      omega
    rw [if_neg h1, ho]
    simp only [Bool.false_eq_true, if_false]
    have h3 : (maxTimestamp : Int) < 2 ^ 53 := by decide +kernel
    rw [intAdd900Lt_exact (by omega) (by omega) (by omega)]
    by_cases h5 : p + 900 < frameTime data
    · rw [decide_eq_true h5, if_pos rfl, if_neg (by omega)]
    · rw [decide_eq_false h5, if_neg (by simp), if_pos (by omega)]

/-- C34 for floats: a finite payment timestamp after the message's is refused, one in the window
is accepted, and one more than `900 + 2^-18` seconds earlier is refused.  Here `x` is the value
of the float in units of `2^-1074`.  Partial: between `900` and `900 + 2^-18` seconds the
rounding of the sum decides (`payment_rounding_refuted`). -/
theorem payment_float_partial (E : Env) (dec : Bytes → Bytes → Res Bytes) (data : Bytes)
    (priv pub : Option Bytes) (ct : Bool) (now : Int) (m : Msg)
    (h : Carries E dec data priv pub ct now m) (hc : m.cls = .SubtaskResultsAccepted) (f : UInt64)
    (hp : getAttr m.attrs p!"payment_ts" = .float f) (x : Int) (hx : IsDouble f x) :
    (x > frameTime data * 2 ^ 1074 →
      (load E dec (some data) priv pub ct now).2 = .error .validationError) ∧
    (x ≤ frameTime data * 2 ^ 1074 → frameTime data * 2 ^ 1074 ≤ x + 900 * 2 ^ 1074 →
      (load E dec (some data) priv pub ct now).2 = .ok m) ∧
    ((x + 900 * 2 ^ 1074) * 2 ^ 18 + 2 ^ 1074 < frameTime data * 2 ^ 1074 * 2 ^ 18 →
      (load E dec (some data) priv pub ct now).2 = .error .validationError) := by
  rw [load_carries h]
  obtain ⟨_, hts, _⟩ := carries_header h
  obtain ⟨_, _, h2, _⟩ := h
  unfold taskChecks isValid
  rw [hc]
  simp only [show Cls.isTask .SubtaskResultsAccepted = true from rfl, if_true, hts, hp, paymentValid,
    Val.structInt, reduceCtorEq, if_false]
  unfold floatGt floatAdd900Lt paymentTolerance
  rw [floatClass_double hx]
  dsimp only
  rw [show (2 ^ 1074 : Int) = floatOne from rfl]
  have h3 : (maxTimestamp : Int) < 2 ^ 35 := by decide +kernel
  obtain ⟨w1, w2⟩ := floatAdd900_window (v := x) (n := frameTime data) (by omega) (by omega)
  refine ⟨fun hgt => ?_, fun hle hin => ?_, fun hlt => ?_⟩
  · rw [if_pos (decide_eq_true hgt)]
  · rw [if_neg (by simpa using hle), if_neg (by simpa using w1 hin)]
  · by_cases hgt : x > frameTime data * floatOne
    · rw [if_pos (decide_eq_true hgt)]
    · by_cases hr : roundFloat (x + 900 * floatOne) < frameTime data * floatOne
      · rw [if_neg (by simpa using hgt), if_pos (decide_eq_true hr)]
      · have := w2 hr
        omega

/-- C34: an infinite payment timestamp is refused. -/
theorem payment_infinite (E : Env) (dec : Bytes → Bytes → Res Bytes) (data : Bytes)
    (priv pub : Option Bytes) (ct : Bool) (now : Int) (m : Msg)
    (h : Carries E dec data priv pub ct now m) (hc : m.cls = .SubtaskResultsAccepted) (f : UInt64)
    (hp : getAttr m.attrs p!"payment_ts" = .float f) (hx : IsInf f) :
    (load E dec (some data) priv pub ct now).2 = .error .validationError := by
  rw [load_carries h]
  obtain ⟨_, hts, _⟩ := carries_header h
  unfold taskChecks isValid
  rw [hc]
  simp only [show Cls.isTask .SubtaskResultsAccepted = true from rfl, if_true, hts, hp, paymentValid,
    Val.structInt, reduceCtorEq, if_false]
  unfold floatGt floatAdd900Lt paymentTolerance
  obtain ⟨neg, hn⟩ := floatClass_inf hx
  rw [hn]
  cases neg <;> rfl

/-- C34 is false for NaN: neither comparison is true, so the message is accepted, whenever
it was made. -/
theorem payment_nan (E : Env) (dec : Bytes → Bytes → Res Bytes) (data : Bytes)
    (priv pub : Option Bytes) (ct : Bool) (now : Int) (m : Msg)
    (h : Carries E dec data priv pub ct now m) (hc : m.cls = .SubtaskResultsAccepted) (f : UInt64)
    (hp : getAttr m.attrs p!"payment_ts" = .float f) (hx : IsNan f) :
    (load E dec (some data) priv pub ct now).2 = .ok m := by
  rw [load_carries h]
  obtain ⟨_, hts, _⟩ := carries_header h
  unfold taskChecks isValid
  rw [hc]
  simp only [show Cls.isTask .SubtaskResultsAccepted = true from rfl, if_true, hts, hp, paymentValid,
    Val.structInt, reduceCtorEq, if_false]
  unfold floatGt floatAdd900Lt paymentTolerance
  rw [floatClass_nan hx]
  rfl

/-- C34, the direction that needs no bound: whatever payment timestamp a loaded
`SubtaskResultsAccepted` has, it is an integer (or bool) in the window, a finite float in the
window up to `2^-18` seconds, or a NaN. -/
theorem loaded_payment (E : Env) (dec : Bytes → Bytes → Res Bytes) (data : Bytes)
    (priv pub : Option Bytes) (ct : Bool) (now : Int) (m : Msg)
    (h : (load E dec (some data) priv pub ct now).2 = .ok m)
    (hc : m.cls = .SubtaskResultsAccepted) :
    (∃ p : Int, (getAttr m.attrs p!"payment_ts" = .int p ∨
        ∃ b, getAttr m.attrs p!"payment_ts" = .bool b ∧ p = b.toInt) ∧
      p ≤ frameTime data ∧ (frameTime data : Int) ≤ p + 900) ∨
    ∃ f, getAttr m.attrs p!"payment_ts" = .float f ∧
      (IsNan f ∨ ∃ x, IsDouble f x ∧ x ≤ frameTime data * 2 ^ 1074 ∧
        frameTime data * 2 ^ 1074 * 2 ^ 18 ≤ (x + 900 * 2 ^ 1074) * 2 ^ 18 + 2 ^ 1074) := by
  obtain ⟨hca, hk⟩ := carries_of_load h (by rw [hc]; decide)
  obtain ⟨_, hts, _⟩ := carries_header hca
  obtain ⟨_, _, h2, _⟩ := id hca
  have hmax : (maxTimestamp : Int) < 2 ^ 35 := by decide +kernel
  unfold taskChecks isValid at hk
  rw [hc] at hk
  simp only [show Cls.isTask .SubtaskResultsAccepted = true from rfl, if_true, hts,
    reduceCtorEq, if_false] at hk
  split at hk
  · cases hk
  rename_i hv
  unfold paymentValid at hv
  split at hv
  · rename_i i hi
    left
    split at hv
    · cases hv
    split at hv
    · cases hv
    split at hv
    · cases hv
    rename_i h1 _ h3
    rw [intAdd900Lt_exact (by omega) (by omega) (by omega)] at h3
    have h4 : ¬ i + 900 < frameTime data := by simpa using h3
    refine ⟨i, ?_, by omega, by omega⟩
    cases hq : getAttr m.attrs p!"payment_ts" <;> rw [hq] at hi <;> simp [Val.structInt] at hi
    · right; rename_i b; exact ⟨b, rfl, by cases b <;> simp [← hi]⟩
    · left; rw [hi]
  · right
    split at hv
    · rename_i f hf
      refine ⟨f, hf, ?_⟩
      rcases float_cases f with ⟨x, hx⟩ | hx | hx
      · right
        obtain ⟨p1, _, p3⟩ := payment_float_partial E dec data priv pub ct now m hca hc f hf x hx
        refine ⟨x, hx, Int.not_lt.1 fun hgt => ?_, Int.not_lt.1 fun hlt => ?_⟩
        · rw [p1 hgt] at h; cases h
        · rw [p3 hlt] at h; cases h
      · exact .inl hx
      · have := payment_infinite E dec data priv pub ct now m hca hc f hf hx
        rw [this] at h; cases h
    · cases hv

/-- C34 is false without a payment timestamp: the comparison with `None` raises `TypeError`
(not a `MessageError`).  The same for every value that is not a number. -/
theorem payment_missing (E : Env) (dec : Bytes → Bytes → Res Bytes) (data : Bytes)
    (priv pub : Option Bytes) (ct : Bool) (now : Int) (m : Msg)
    (h : Carries E dec data priv pub ct now m) (hc : m.cls = .SubtaskResultsAccepted)
    (hp : ∀ p, getAttr m.attrs p!"payment_ts" ≠ .int p)
    (hb : ∀ b, getAttr m.attrs p!"payment_ts" ≠ .bool b)
    (hf : ∀ f, getAttr m.attrs p!"payment_ts" ≠ .float f) :
    (load E dec (some data) priv pub ct now).2 = .error .typeError := by
  rw [load_carries h]
  obtain ⟨_, hts, _⟩ := carries_header h
  unfold taskChecks isValid
  rw [hc]
  simp only [show Cls.isTask .SubtaskResultsAccepted = true from rfl, if_true, hts]
  unfold paymentValid
  cases hq : getAttr m.attrs p!"payment_ts" <;> simp [Val.structInt] <;>
    first
    | exact absurd hq (hp _)
    | exact absurd hq (hb _)
    | exact absurd hq (hf _)

/-- A frame with the given class, time and payload (flag 0, signature of zeros). -/
private def frame (c : Cls) (ts : Nat) (slots : Val) : Bytes :=
  ((packHeader c.typeId (.int ts) (.bool false)).toOption.getD [] ++ List.replicate 65 0) ++
    (dumps slots).toOption.getD []

private def ld (data : Bytes) : Res Msg :=
  (load toyEnv (fun _ d => .ok d) (some data) none none false 0).2

private def acc (p : Val) : Bytes :=
  frame .SubtaskResultsAccepted 1500000000 (.list [.list [.str p!"payment_ts", p]])

/-- C34 refuted: a `SubtaskResultsAccepted` without payment timestamp ends in a `TypeError`, one
with a hugely negative timestamp in an `OverflowError`. -/
theorem payment_error_refuted :
    ld (acc .none) = .error .typeError ∧ ld (acc (.int (-2 ^ 1024))) = .error .overflowError := by
  decide +kernel

example : (ld (acc (.int 1500000000))).isOk = true ∧ (ld (acc (.int 1499999100))).isOk = true ∧
    ld (acc (.int 1499999099)) = .error .validationError ∧
    ld (acc (.int 1500000001)) = .error .validationError := by decide +kernel

/-- C34 refuted for NaN: a payment without a date is accepted. -/
theorem payment_nan_refuted :
    (ld (acc (.float 0x7FF8000000000000))).isOk = true ∧ IsNan 0x7FF8000000000000 :=
  ⟨by decide +kernel, 0, 2 ^ 51, by decide, by decide, by decide, by decide⟩

/-- C34 refuted at the far end of the window: at time `2^31 + 2` the payment timestamp
`2^31 - 898 - 2^-22` lies more than 900 seconds back, yet the sum rounds up and it is
accepted. -/
theorem payment_rounding_refuted :
    (ld (frame .SubtaskResultsAccepted (2 ^ 31 + 2)
      (.list [.list [.str p!"payment_ts", .float 4746794003482017791]]))).isOk = true ∧
    ∃ x, IsDouble 4746794003482017791 x ∧ x + 900 * 2 ^ 1074 < (2 ^ 31 + 2) * 2 ^ 1074 :=
  ⟨by decide +kernel, _, ⟨0, 4746794003482017791 / 2 ^ 52, 4746794003482017791 % 2 ^ 52, by decide +kernel, by decide +kernel,
    by decide +kernel, by decide +kernel, rfl⟩, by decide +kernel⟩

example : (ld (acc (.float 4744078261897658368))).isOk = true ∧
    ld (acc (.float 0x7FF0000000000000)) = .error .validationError ∧
    ld (acc (.float 0xFFF0000000000000)) = .error .validationError := by decide +kernel

/-! ### C35: rejections -/

private theorem truthy_enum {v : Val} (h : v = .none ∨ ∃ s ∈ EnumId.values e, v = .enum e s) :
    v.truthy = true ↔ v ≠ .none := by
  rcases h with h | ⟨s, _, h⟩ <;> simp [h, Val.truthy]

private theorem truthy_msg {v : Val} (h : v = .none ∨ ∃ ty ts enc sig as, v = .msg c ty ts enc sig as) :
    v.truthy = true ↔ v ≠ .none := by
  rcases h with h | ⟨_, _, _, _, _, h⟩ <;> simp [h, Val.truthy]

private theorem eq_reason {e : EnumId} {v : Val} {t : PStr}
    (h : v = .none ∨ ∃ s ∈ EnumId.values e, v = .enum e s) : pyEq v (.enum e t) = true ↔ v = .enum e t := by
  rcases h with h | ⟨s, _, h⟩ <;> simp [h, pyEq]

/-- C35: `is_valid` of a rejection with typed fields succeeds exactly for valid rejections and
raises `ValidationError` for all others. -/
theorem rejection_decision (m : Msg) (hc : m.cls = .SubtaskResultsRejected)
    (hs : SlotsTyped m.cls m.attrs) (he : EnumsTyped m.cls m.attrs) :
    (rejectedValid m = .ok () ↔ RejectionOk m) ∧
    (rejectedValid m = .error .validationError ↔ ¬ RejectionOk m) := by
  rw [hc] at hs he
  have h1 := he p!"reason" .subtaskResultsRejectedReason (by decide)
  have h2 := typed_single (sd := { cls := .ForceGetTaskResultFailed, allowNone := true }) hs
    (show (p!"force_get_task_result_failed", _) ∈ _ by decide) rfl
  have t1 := truthy_enum h1
  have t2 := truthy_msg h2
  have t3 := @eq_reason _ _ p!"Concent reported failure to retrieve the resources to verify" h1
  unfold rejectedValid RejectionOk SameTask forcedResourcesFailure rejection
  dsimp only
  generalize getAttr m.attrs p!"reason" = r at *
  generalize getAttr m.attrs p!"force_get_task_result_failed" = f at *
  by_cases hr : r = .none
  · have : r.truthy = false := by simp [hr, Val.truthy]
    simp [hr, Val.truthy]
  · rw [t1.mpr hr]
    simp only [Bool.not_true, Bool.false_eq_true, if_false]
    generalize pyEq (taskGet p!"task_id" m.val) (taskGet p!"task_id" f) = a
    generalize pyEq (taskGet p!"subtask_id" m.val) (taskGet p!"subtask_id" f) = b
    by_cases hf : f = .none
    · have ft : f.truthy = false := by simp [hf, Val.truthy]
      rw [ft]
      by_cases hk : r = .enum .subtaskResultsRejectedReason
          p!"Concent reported failure to retrieve the resources to verify"
      · rw [t3.mpr hk]; simp [hr, hf, hk]
      · have : pyEq r (.enum .subtaskResultsRejectedReason
          p!"Concent reported failure to retrieve the resources to verify") = false := by
          simpa using fun h => hk (t3.mp h)
        rw [this]; simp [hr, hf, hk]
    · rw [t2.mpr hf]
      cases a <;> cases b <;> simp [hr, hf]

/-- C35: a frame with a `SubtaskResultsRejected` loads exactly if the rejection is valid,
otherwise the result is a `ValidationError`. -/
theorem rejection_load (E : Env) (dec : Bytes → Bytes → Res Bytes) (data : Bytes)
    (priv pub : Option Bytes) (ct : Bool) (now : Int) (m : Msg)
    (h : Carries E dec data priv pub ct now m) (hc : m.cls = .SubtaskResultsRejected) :
    (RejectionOk m → (load E dec (some data) priv pub ct now).2 = .ok m) ∧
    (¬ RejectionOk m → (load E dec (some data) priv pub ct now).2 = .error .validationError) := by
  rw [load_carries h]
  obtain ⟨_, _, _, _, slots, ha⟩ := carries_header h
  obtain ⟨d1, d2⟩ := rejection_decision m hc (loadAttrs_slotsTyped ha) (loadAttrs_enumsTyped ha)
  unfold taskChecks isValid
  rw [hc]
  simp only [show Cls.isTask .SubtaskResultsRejected = true from rfl, if_true, reduceCtorEq, if_false]
  exact ⟨fun hk => by rw [d1.mpr hk], fun hk => by rw [d2.mpr hk]⟩

/-- C35 for a requestor: for a rejection with a reason of the enumeration and a computed task
with a `TaskToCompute`, `is_valid_for_requestor` succeeds exactly if the reason is one allowed
in the Concent mode of the task and the rejection is valid; otherwise `ValidationError`. -/
theorem rejection_for_requestor (m : Msg) (hc : m.cls = .SubtaskResultsRejected)
    (hs : SlotsTyped m.cls m.attrs) (he : EnumsTyped m.cls m.attrs) (concent : Val)
    (hr : getAttr m.attrs p!"reason" ≠ .none)
    (hp : At m.val [p!"report_computed_task", p!"task_to_compute", p!"concent_enabled"] concent) :
    (rejectedValidForRequestor m = .ok () ↔
      getAttr m.attrs p!"reason" ∈ requestorReasons (holds concent) ∧ RejectionOk m) ∧
    (rejectedValidForRequestor m = .error .validationError ↔
      ¬ (getAttr m.attrs p!"reason" ∈ requestorReasons (holds concent) ∧ RejectionOk m)) := by
  rw [holds_eq]
  obtain ⟨d1, d2⟩ := rejection_decision m hc hs he
  rw [hc] at he
  have h1 := he p!"reason" .subtaskResultsRejectedReason (by decide)
  have t3 := fun t => @eq_reason _ _ t h1
  unfold Msg.val at hp
  cases hp with | step hp =>
  unfold rejectedValidForRequestor
  generalize hq1 : getAttr m.attrs p!"report_computed_task" = v1 at *
  cases hp with | step hp =>
  simp only [attrOf]
  rename_i as1
  generalize hq2 : getAttr as1 p!"task_to_compute" = v2 at *
  cases hp with | step hp =>
  simp only [attrOf]
  rename_i as2
  generalize hq3 : getAttr as2 p!"concent_enabled" = v3 at *
  cases hp
  have hmem : ((allowedReasons concent.truthy).any (pyEq (getAttr m.attrs p!"reason"))) = true ↔
      getAttr m.attrs p!"reason" ∈ requestorReasons concent.truthy := by
    cases concent.truthy <;>
      simp [allowedReasons, requestorReasons, rejection, forcedResourcesFailure, t3]
  by_cases hin : getAttr m.attrs p!"reason" ∈ requestorReasons concent.truthy
  · rw [if_pos (hmem.mpr hin), d1, d2]
    simp [hin]
  · rw [if_neg (fun h => hin (hmem.mp h))]
    rcases h1 with h1 | ⟨s, _, h1⟩
    · exact absurd h1 hr
    · simp [h1] at hin ⊢
      simp [hin]

private def report (concent : Bool) : Val :=
  .msg .ReportComputedTask (.int 2004) (.int 1500000000) (.bool false) .none
    [(p!"task_to_compute", .msg .TaskToCompute (.int 2002) (.int 1500000000) (.bool false) .none
      [(p!"concent_enabled", .bool concent)])]

private def rejMsg (concent : Bool) (reason : PStr) : Msg :=
  ⟨.SubtaskResultsRejected, .int 2011, .int 1500000000, .bool false, .none,
    [(p!"report_computed_task", report concent), (p!"reason", rejection reason)]⟩

/-- Without Concent the requestor may say the resources could not be retrieved, with Concent
not. -/
example : rejectedValidForRequestor (rejMsg false p!"Could not retrieve resources") = .ok () ∧
    rejectedValidForRequestor (rejMsg true p!"Could not retrieve resources") =
      .error .validationError ∧
    SlotsTyped (rejMsg true p!"Could not retrieve resources").cls
      (rejMsg true p!"Could not retrieve resources").attrs ∧
    At (rejMsg true p!"Could not retrieve resources").val
      [p!"report_computed_task", p!"task_to_compute", p!"concent_enabled"] (.bool true) := by
  refine ⟨by decide +kernel, by decide +kernel, ?_, .step (.step (.step (.here _)))⟩
  intro name sd h
  simp only [rejMsg, Cls.msgSlots, List.mem_cons, Prod.mk.injEq, List.not_mem_nil, or_false] at h
  rcases h with ⟨rfl, rfl⟩ | ⟨rfl, rfl⟩
  · exact Or.inr (Or.inl ⟨rfl, by decide⟩)
  · exact Or.inl (by decide)

private def rej (reason : Val) : Bytes :=
  frame .SubtaskResultsRejected 1500000000 (.list [.list [.str p!"reason", reason]])

example : (ld (rej (.str p!"Results verification negative"))).isOk = true ∧
    ld (rej .none) = .error .validationError ∧
    ld (rej (.str p!"Concent reported failure to retrieve the resources to verify")) =
      .error .validationError := by decide +kernel

/-! ### C36: verdicts -/

/-- C36: in a loaded verdict the acknowledgement and the forced report lead to two
`TaskToCompute` messages that compare equal (or both lead to `None`). -/
theorem verdict_consistent (E : Env) (dec : Bytes → Bytes → Res Bytes) (data : Bytes)
    (priv pub : Option Bytes) (ct : Bool) (now : Int) (m : Msg)
    (h : (load E dec (some data) priv pub ct now).2 = .ok m)
    (hc : m.cls = .VerdictReportComputedTask) :
    ∃ t1 t2, At m.val [p!"ack_report_computed_task", p!"report_computed_task", p!"task_to_compute"] t1 ∧
      At m.val [p!"force_report_computed_task", p!"report_computed_task", p!"task_to_compute"] t2 ∧
      ((t1 = .none ∧ t2 = .none) ∨
        ∃ a b : Msg, a.cls = .TaskToCompute ∧ b.cls = .TaskToCompute ∧ t1 = a.val ∧ t2 = b.val ∧
          b.eq a = .ok true) := by
  obtain ⟨hca, hk⟩ := carries_of_load h (by rw [hc]; decide)
  have hev := carries_slotsTyped hca
  unfold taskChecks isValid at hk
  rw [hc] at hk
  simp only [show Cls.isTask .VerdictReportComputedTask = true from rfl, if_true,
    reduceCtorEq, if_false] at hk
  split at hk
  · cases hk
  rename_i hv
  have path : ∀ (name : PStr) (c' : Cls), (name, { cls := c' : SlotDef }) ∈ m.cls.msgSlots →
      (p!"report_computed_task", { cls := .ReportComputedTask : SlotDef }) ∈ c'.msgSlots →
      ∀ r t, attrOf (getAttr m.attrs name) p!"report_computed_task" = .ok r →
      attrOf r p!"task_to_compute" = .ok t →
      At m.val [name, p!"report_computed_task", p!"task_to_compute"] t ∧
        (t = .none ∨ ∃ a : Msg, a.cls = .TaskToCompute ∧ t = a.val) := by
    intro name c' hs1 hs2 r t hr ht
    unfold Msg.val at hev
    cases hev with | mk _ _ _ _ _ _ here nested =>
    rcases typed_single here hs1 rfl with e1 | ⟨ty1, ts1, en1, sg1, as1, e1⟩
    · rw [e1] at hr; simp [attrOf] at hr
    have n1 := nested name _ (.msg c' ty1 ts1 en1 sg1 as1) hs1 (by rw [e1]; simp [members])
    rw [e1] at hr
    simp only [attrOf, Except.ok.injEq] at hr
    cases n1 with | mk _ _ _ _ _ _ here1 nested1 =>
    rcases typed_single here1 hs2 rfl with e2 | ⟨ty2, ts2, en2, sg2, as2, e2⟩
    · rw [← hr, e2] at ht; simp [attrOf] at ht
    have n2 := nested1 p!"report_computed_task" _ (.msg .ReportComputedTask ty2 ts2 en2 sg2 as2) hs2
      (by rw [e2]; simp [members])
    rw [← hr, e2] at ht
    simp only [attrOf, Except.ok.injEq] at ht
    cases n2 with | mk _ _ _ _ _ _ here2 nested2 =>
    constructor
    · unfold Msg.val
      refine .step ?_
      rw [e1]
      refine .step ?_
      rw [e2]
      refine .step ?_
      rw [ht]
      exact .here t
    · rcases typed_single (sd := { cls := .TaskToCompute }) here2 (by decide : (p!"task_to_compute", _) ∈ _)
        rfl with e3 | ⟨ty3, ts3, en3, sg3, as3, e3⟩
      · left; rw [← ht, e3]
      · right; exact ⟨⟨.TaskToCompute, ty3, ts3, en3, sg3, as3⟩, rfl, by rw [← ht, e3]; rfl⟩
  unfold verdictValid at hv
  split at hv
  · cases hv
  rename_i r1 hr1
  split at hv
  · cases hv
  rename_i t1 ht1
  split at hv
  · cases hv
  rename_i r2 hr2
  split at hv
  · cases hv
  rename_i t2 ht2
  obtain ⟨p1, q1⟩ := path _ .AckReportComputedTask (by rw [hc]; decide) (by decide) _ _ hr1 ht1
  obtain ⟨p2, q2⟩ := path _ .ForceReportComputedTask (by rw [hc]; decide) (by decide) _ _ hr2 ht2
  refine ⟨t1, t2, p1, p2, ?_⟩
  split at hv
  · cases hv
  · rename_i heq
    rcases q1 with e1 | ⟨a, ha, e1⟩ <;> rcases q2 with e2 | ⟨b, hb, e2⟩
    · exact Or.inl ⟨e1, e2⟩
    · rw [e1, e2] at heq; simp [valEq, Msg.val, pyEq] at heq
    · rw [e1, e2] at heq; simp [valEq, Msg.val, pyEq] at heq
    · rw [e1, e2] at heq
      exact Or.inr ⟨a, b, ha, hb, e1, e2, heq⟩
  · cases hv

private def nest (c : Cls) (slots : List Val) : Val :=
  .list [.bool false, .list [.list [.int c.typeId, .int 1500000000, .bool false], .bytes [], .list slots]]

private def verdict (a b : List Val) : Bytes :=
  frame .VerdictReportComputedTask 1500000000 (.list
    [.list [.str p!"force_report_computed_task",
      nest .ForceReportComputedTask [.list [.str p!"report_computed_task", nest .ReportComputedTask a]]],
     .list [.str p!"ack_report_computed_task",
      nest .AckReportComputedTask [.list [.str p!"report_computed_task", nest .ReportComputedTask b]]]])

private def wtct : Val := .list [.str p!"want_to_compute_task", nest .WantToComputeTask []]

private def ttcSlot (price : Int) : List Val :=
  [.list [.str p!"task_to_compute", nest .TaskToCompute [.list [.str p!"price", .int price], wtct]]]

/-- Two reports without any `TaskToCompute` make a loadable verdict. -/
theorem verdict_without_ttc :
    (ld (verdict [] [])).toOption.map Msg.cls = some .VerdictReportComputedTask := by decide +kernel

example : ld (verdict (ttcSlot 1) []) = .error .validationError ∧
    ld (verdict [] (ttcSlot 1)) = .error .validationError ∧
    ld (verdict (ttcSlot 2) (ttcSlot 1)) = .error .validationError ∧
    (ld (verdict (ttcSlot 1) (ttcSlot 1))).toOption.map Msg.cls = some .VerdictReportComputedTask := by
  decide +kernel

/-! ### C37: TaskToCompute -/

private theorem ecdsa_ok {E : Env} {k h : Bytes} {s : Val} (e : E.ecdsaVerify k s h = .ok ()) :
    k.length = 64 ∧ E.recover s (E.sha3 h) = some (4 :: k) := by
  unfold Env.ecdsaVerify at e
  split at e
  · cases e
  rename_i hl
  split at e
  · cases e
  rename_i pk hpk
  split at e
  · rename_i heq
    exact ⟨by simpa using hl, by rw [hpk, heq]⟩
  · cases e

private theorem id_ok {m : Msg} {key : PStr}
    (ht : getAttr m.attrs p!"compute_task_def" ≠ .none → ∃ d s,
      (getAttr m.attrs p!"compute_task_def").asDict = some d ∧ dictGet (.str key) d = some (.str s))
    (h : validateTaskIdKey m key = .ok ()) :
    ∃ d id seed, (getAttr m.attrs p!"compute_task_def").asDict = some d ∧
      dictGet (.str key) d = some (.str id) ∧
      decodeHex (getAttr m.attrs p!"requestor_id") = .ok seed ∧ SeededBy id seed := by
  unfold validateTaskIdKey at h
  split at h
  · cases h
  rename_i d hd
  obtain ⟨d', s, hd', hs⟩ := ht (by intro e; rw [e] at hd; cases hd)
  rw [hd] at hd'; injection hd' with hd'; subst hd'
  rw [hs] at h
  dsimp only at h
  split at h
  · cases h
  · rename_i hk
    unfold checkIdHexSeed at hk
    split at hk
    · rename_i seed hseed
      simp only [checkIdSeed, checkTextSeed] at hk
      split at hk
      · rename_i u hu
        refine ⟨d, s, seed, hd, hs, hseed, u, (parseUuid_iff _ _).mp hu, ?_⟩
        injection hk with hk
        simp only [beq_iff_eq, seedToNode, uuidNode, seedLen] at hk
        rw [← hk, bigEndian_eq]
      · cases hk
    · cases hk
  · cases h

/-- C37 for the loaded message itself: a loaded `TaskToCompute` contains a `WantToComputeTask`
that its `ethsig` signs with the requestor's ethereum key, and its task and subtask ids are
UUIDs whose node part comes from the requestor's id.  Partial: a `TaskToCompute` nested in the
loaded message is not checked, see `nested_ttc_refuted`. -/
theorem loaded_ttc_partial (E : Env) (dec : Bytes → Bytes → Res Bytes) (data : Bytes)
    (priv pub : Option Bytes) (ct : Bool) (now : Int) (m : Msg)
    (h : (load E dec (some data) priv pub ct now).2 = .ok m) (hc : m.cls = .TaskToCompute) :
    (∃ w : Msg, w.cls = .WantToComputeTask ∧ getAttr m.attrs p!"want_to_compute_task" = w.val ∧
      ∃ pk, decodeHex (getAttr m.attrs p!"requestor_ethereum_public_key") = .ok pk ∧
        SignedBy E w (getAttr m.attrs p!"ethsig") pk) ∧
    ∃ d tid sid seed, (getAttr m.attrs p!"compute_task_def").asDict = some d ∧
      dictGet (.str p!"task_id") d = some (.str tid) ∧
      dictGet (.str p!"subtask_id") d = some (.str sid) ∧
      decodeHex (getAttr m.attrs p!"requestor_id") = .ok seed ∧ SeededBy tid seed ∧
      SeededBy sid seed := by
  obtain ⟨hca, hk⟩ := carries_of_load h (by rw [hc]; decide)
  have hev := carries_slotsTyped hca
  unfold taskChecks isValid at hk
  rw [hc] at hk
  simp only [show Cls.isTask .TaskToCompute = true from rfl, if_true] at hk
  split at hk
  · cases hk
  rename_i hv
  split at hk
  · cases hk
  rename_i hid
  constructor
  · unfold Msg.val at hev
    cases hev with | mk _ _ _ _ _ _ here nested =>
    unfold verifyEthsig at hv
    split at hv
    · cases hv
    rename_i w hw
    have hs : (p!"want_to_compute_task", { cls := .WantToComputeTask : SlotDef }) ∈ m.cls.msgSlots := by
      rw [hc]; decide
    rcases typed_single here hs rfl with e1 | ⟨ty, ts, en, sg, as, e1⟩
    · rw [e1] at hw; cases hw
    rw [e1] at hw
    injection hw with hw
    refine ⟨w, by rw [← hw], by rw [e1, ← hw]; rfl, ?_⟩
    split at hv
    · cases hv
    rename_i pk hpk
    unfold verifySigWith at hv
    split at hv
    · cases hv
    rename_i hh hhash
    obtain ⟨hl, hrec⟩ := ecdsa_ok hv
    exact ⟨pk, hpk, hl, hh, hhash, hrec⟩
  · unfold validateTaskId at hid
    split at hid
    · cases hid
    rename_i h1
    obtain ⟨d, id, seed, hd, hi, hse, hs⟩ := id_ok (fun hn => carries_ids hca hc hn (Or.inl rfl)) h1
    obtain ⟨d', id', seed', hd', hi', hse', hs'⟩ := id_ok (fun hn => carries_ids hca hc hn (Or.inr rfl)) hid
    rw [hd] at hd'; injection hd' with hd'; subst hd'
    rw [hse] at hse'; injection hse' with hse'; subst hse'
    exact ⟨d, id, id', seed, hd, hi, hi', hse, hs, hs'⟩

private def offer : Msg :=
  ⟨.WantToComputeTask, .int 2001, .int 1500000000, .bool false, .bytes [],
    Cls.WantToComputeTask.payload.map fun n => (n, if n = p!"num_subtasks" then .int 1 else
      if n = p!"concent_enabled" then .bool false else .none)⟩

private def ethsig : Val :=
  .bytes ((toyEnv.sign (List.replicate 32 7)
    (toyEnv.sha3 ((shortHash toyEnv offer).toOption.getD []))).toOption.getD [])

private def good (sid : PStr) (key : UInt8) : Bytes :=
  frame .TaskToCompute 1500000000 (.list
    [wtct, .list [.str p!"requestor_id", .str (hexlify (List.replicate 64 9))],
     .list [.str p!"requestor_ethereum_public_key", .str (hexlify (List.replicate 64 key))],
     .list [.str p!"ethsig", ethsig],
     .list [.str p!"compute_task_def",
       .dict [(.str p!"task_id", .str (generateId 1 2 (List.replicate 64 9))),
         (.str p!"subtask_id", .str sid)]]])

example : (ld (good (generateId 3 4 (List.replicate 64 9)) 7)).toOption.map Msg.cls = some .TaskToCompute ∧
    ld (good (generateId 3 4 (List.replicate 64 9)) 8) = .error .invalidSignature ∧
    ld (good (generateId 3 4 (List.replicate 64 8)) 7) = .error (.fieldError p!"subtask_id") := by
  decide +kernel

private def bare : Bytes :=
  frame .ReportComputedTask 1500000000 (.list
    [.list [.str p!"task_to_compute", nest .TaskToCompute [.list [.str p!"price", .int 1]]]])

/-- C37 refuted for nested messages: a `ReportComputedTask` loads although the `TaskToCompute`
inside it has no ethereum signature and no ids. -/
theorem nested_ttc_refuted :
    ∃ (data : Bytes) (m t : Msg), ld data = .ok m ∧ At m.val [p!"task_to_compute"] t.val ∧
      t.cls = .TaskToCompute ∧ getAttr t.attrs p!"ethsig" = .none ∧ getAttr t.attrs p!"compute_task_def" = .none := by
  refine ⟨bare,
    (ld bare).toOption.getD ⟨.Ping, .none, .none, .none, .none, []⟩,
    ⟨.TaskToCompute, .int 2002, .int 1500000000, .bool false, .bytes [],
      (Cls.TaskToCompute.payload).map fun n => (n, if n = p!"price" then .int 1 else
        if n = p!"concent_enabled" then .bool false else .none)⟩, ?_, ?_, rfl, ?_, ?_⟩
  · decide +kernel
  · exact .step (by
      have : ∀ v w, v = w → At v [] w := by rintro v _ rfl; exact .here v
      exact this _ _ (by decide +kernel))
  all_goals decide +kernel

end Verif.Props
