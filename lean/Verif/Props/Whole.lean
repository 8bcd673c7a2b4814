import Verif.Lemmas.Halfway
import Verif.Spec.Whole
import Verif.Props.Meaning
import Verif.Props.Validity
/-!
# C107, C108: which messages the four classes with a check of their own accept

Together with `Props/Accept.lean` and `Props/Meaning.lean` this decides `load` for every byte string.
-/

namespace Verif.Props

open Verif Spec

private theorem carried_time {E : Env} {dec : Bytes → Bytes → Res Bytes} {data : Bytes} {priv pub : Option Bytes}
    {ct : Bool} {now : Int} {m : Msg} (h : Carries E dec data priv pub ct now m) :
    1 < frameTime data ∧ frameTime data < 2 ^ 35 := by
  obtain ⟨_, h1, h2, _⟩ := h
  have h3 : maxTimestamp < 2 ^ 35 := by decide +kernel
  have h4 : 1 < minTimestamp := by decide +kernel
  omega

/-- C34, C107: a frame with a `SubtaskResultsAccepted` is accepted exactly if its payment timestamp is in
the window. -/
theorem payment_decision (E : Env) (dec : Bytes → Bytes → Res Bytes) (data : Bytes) (priv pub : Option Bytes)
    (ct : Bool) (now : Int) (m : Msg) (h : Carries E dec data priv pub ct now m)
    (hc : m.cls = .SubtaskResultsAccepted) :
    (load E dec (some data) priv pub ct now).2 = .ok m ↔
      PaymentOk (getAttr m.attrs p!"payment_ts") (frameTime data) := by
  obtain ⟨t0, t1⟩ := carried_time h
  have key : (load E dec (some data) priv pub ct now).2 = .ok m ↔
      paymentValid (getAttr m.attrs p!"payment_ts") (frameTime data) = .ok () := by
    rw [load_carries h]
    obtain ⟨_, hts, _⟩ := carries_header h
    unfold taskChecks isValid
    rw [hc]
    simp only [show Cls.isTask .SubtaskResultsAccepted = true from rfl, if_true, hts, reduceCtorEq, if_false]
    cases paymentValid (getAttr m.attrs p!"payment_ts") (frameTime data) <;> simp
  rw [key]
  have int : ∀ i : Int, (getAttr m.attrs p!"payment_ts").structInt = some i →
      (paymentValid (getAttr m.attrs p!"payment_ts") (frameTime data) = .ok () ↔
        i ≤ frameTime data ∧ (frameTime data : Int) ≤ i + 900) := by
    intro i hi
    unfold paymentValid
    rw [hi]
    dsimp only
    by_cases h1 : i > frameTime data
    · rw [if_pos h1]
      exact ⟨fun e => (by cases e), fun e => (by omega)⟩
    · rw [if_neg h1, intAdd900Lt_exact (by omega) (by omega) (by omega)]
      by_cases ho : intOverflowsFloat i = true
      · rw [if_pos ho]
        unfold intOverflowsFloat at ho
        have hk : 2 ^ 36 < 2 ^ 1024 - 2 ^ 970 := by decide +kernel
        generalize 2 ^ 1024 - 2 ^ 970 = k at *
        have := of_decide_eq_true ho
        exact ⟨fun e => (by cases e), fun e => (by omega)⟩
      · rw [if_neg ho]
        by_cases h2 : i + 900 < frameTime data
        · rw [decide_eq_true h2, if_pos rfl]
          exact ⟨fun e => (by cases e), fun e => (by omega)⟩
        · rw [decide_eq_false h2, if_neg (by simp)]
          exact ⟨fun _ => (by omega), fun _ => rfl⟩
  unfold PaymentOk
  generalize getAttr m.attrs p!"payment_ts" = p at *
  cases p with
  | int i => rw [int i rfl]; simp
  | bool b => rw [int b.toInt (by cases b <;> rfl)]; simp
  | float f =>
    simp only [reduceCtorEq, false_and, exists_const, or_self, false_or, Val.float.injEq,
      exists_eq_left', paymentValid, Val.structInt]
    unfold floatGt floatAdd900Lt paymentTolerance
    rcases float_cases f with ⟨x, hx⟩ | hx | hx
    · have hcls := floatClass_double hx
      rw [hcls]
      dsimp only
      rw [show floatOne = 2 ^ 1074 from rfl]
      have hr := round_below (z := x + 900 * 2 ^ 1074) t0 (by omega : frameTime data < 2 ^ 52)
      have inner : (∃ y, IsDouble f y ∧ y ≤ (frameTime data : Int) * 2 ^ 1074 ∧
          RoundsUpTo (y + 900 * 2 ^ 1074) (frameTime data * 2 ^ 1074)) ↔
          x ≤ (frameTime data : Int) * 2 ^ 1074 ∧ ¬ roundFloat (x + 900 * 2 ^ 1074) < frameTime data * 2 ^ 1074 := by
        rw [hr]
        have : ∀ y, IsDouble f y → y = x := by
          intro y hy
          have := (floatClass_double hy).symm.trans hcls
          injection this
        constructor
        · rintro ⟨y, hy, h1, h2⟩
          rw [this y hy] at h1 h2
          refine ⟨h1, ?_⟩
          rintro ⟨g, z, a, b, c⟩
          have := h2 g z a b
          omega
        · rintro ⟨h1, h2⟩
          refine ⟨x, hx, h1, fun g z a b => ?_⟩
          exact Int.not_lt.mp fun c => h2 ⟨g, z, a, b, c⟩
      rw [inner]
      have hnan : ¬ IsNan f := by
        intro hn
        rw [floatClass_nan hn] at hcls
        cases hcls
      simp only [hnan, false_or]
      generalize (2 : Int) ^ 1074 = U at *
      by_cases h1 : x > (frameTime data : Int) * U
      · rw [if_pos (decide_eq_true h1)]
        exact ⟨fun e => (by cases e), fun e => (by omega)⟩
      · rw [if_neg (by simpa using h1)]
        by_cases h2 : roundFloat (x + 900 * U) < frameTime data * U
        · rw [if_pos (decide_eq_true h2)]
          exact ⟨fun e => (by cases e), fun e => absurd h2 e.2⟩
        · rw [if_neg (by simpa using h2)]
          exact ⟨fun _ => ⟨by omega, h2⟩, fun _ => rfl⟩
    · rw [floatClass_nan hx]
      simp [hx]
    · obtain ⟨neg, hn⟩ := floatClass_inf hx
      have hnan : ¬ IsNan f := by
        intro h
        rw [floatClass_nan h] at hn
        cases hn
      have hd : ∀ x, ¬ IsDouble f x := by
        intro x h
        rw [floatClass_double h] at hn
        cases hn
      rw [hn]
      cases neg <;> simp [hnan, hd]
  | _ => simp [paymentValid, Val.structInt]

/-- C36, C107: a frame with a `VerdictReportComputedTask` is accepted exactly if its reports are there and
concern an equal task. -/
theorem verdict_decision (E : Env) (dec : Bytes → Bytes → Res Bytes) (data : Bytes) (priv pub : Option Bytes)
    (ct : Bool) (now : Int) (m : Msg) (h : Carries E dec data priv pub ct now m)
    (hc : m.cls = .VerdictReportComputedTask) :
    (load E dec (some data) priv pub ct now).2 = .ok m ↔ VerdictOk m := by
  refine ⟨fun hl => verdict_consistent E dec data priv pub ct now m hl hc, ?_⟩
  rintro ⟨t1, t2, p1, p2, heq⟩
  have chain : ∀ {n1 n2 n3 : PStr} {t : Val}, At m.val [n1, n2, n3] t → ∃ r,
      attrOf (getAttr m.attrs n1) n2 = .ok r ∧ attrOf r n3 = .ok t := by
    intro n1 n2 n3 t hp
    unfold Msg.val at hp
    cases hp with | step hp =>
    generalize getAttr m.attrs n1 = a at *
    cases hp with | step hp =>
    rename_i as1
    generalize hb : getAttr as1 n2 = b at *
    cases hp with | step hp =>
    rename_i as2
    generalize hd : getAttr as2 n3 = d at *
    cases hp
    exact ⟨_, rfl, by rw [hb]; simp [attrOf, hd]⟩
  obtain ⟨r1, a1, b1⟩ := chain p1
  obtain ⟨r2, a2, b2⟩ := chain p2
  have hv : verdictValid m = .ok () := by
    unfold verdictValid
    rw [a1]
    dsimp only
    rw [b1]
    dsimp only
    rw [a2]
    dsimp only
    rw [b2]
    dsimp only
    have : valEq t2 t1 = .ok true := by
      rcases heq with ⟨rfl, rfl⟩ | ⟨a, b, _, _, rfl, rfl, e⟩
      · rfl
      · exact e
    rw [this]
  rw [load_carries h]
  unfold taskChecks isValid
  rw [hc]
  simp only [show Cls.isTask .VerdictReportComputedTask = true from rfl, if_true, hv, reduceCtorEq, if_false]

private theorem seeded {m : Msg} {key id : PStr} {d : List (Val × Val)} {seed : Bytes}
    (h1 : (getAttr m.attrs p!"compute_task_def").asDict = some d) (h2 : dictGet (.str key) d = some (.str id))
    (h3 : decodeHex (getAttr m.attrs p!"requestor_id") = .ok seed) (h4 : SeededBy id seed) :
    validateTaskIdKey m key = .ok () := by
  obtain ⟨u, hu, e⟩ := h4
  unfold validateTaskIdKey
  rw [h1]
  dsimp only
  rw [h2]
  dsimp only
  unfold checkIdHexSeed
  rw [h3]
  simp only [checkIdSeed, checkTextSeed]
  rw [(parseUuid_iff _ _).mpr hu]
  have : (seedToNode seed == uuidNode u) = true := by
    simp only [beq_iff_eq, seedToNode, uuidNode, seedLen]
    rw [e, bigEndian_eq]
  dsimp only
  rw [this]

/-- C37, C107: a frame with a `TaskToCompute` is accepted exactly if the offer in it is signed for payment
and its ids are the requestor's. -/
theorem task_decision (E : Env) (dec : Bytes → Bytes → Res Bytes) (data : Bytes) (priv pub : Option Bytes)
    (ct : Bool) (now : Int) (m : Msg) (h : Carries E dec data priv pub ct now m) (hc : m.cls = .TaskToCompute) :
    (load E dec (some data) priv pub ct now).2 = .ok m ↔ TaskOk E m := by
  refine ⟨fun hl => loaded_ttc_partial E dec data priv pub ct now m hl hc, ?_⟩
  rintro ⟨⟨w, _, hw, pk, hpk, hlen, x, hx, hrec⟩, d, tid, sid, seed, h1, h2, h3, h4, h5, h6⟩
  have hv : verifyEthsig E m = .ok () := by
    unfold verifyEthsig
    rw [hw]
    show (match decodeHex _ with | .error e => Except.error e | .ok pk => verifySigWith E w _ pk) = _
    rw [hpk]
    dsimp only
    unfold verifySigWith
    rw [hx]
    exact (ecdsa_verify_decision E pk x _).1.mpr ⟨hlen, hrec⟩
  have hi : validateTaskId m = .ok () := by
    unfold validateTaskId
    rw [seeded h1 h2 h4 h5]
    exact seeded h1 h3 h4 h6
  rw [load_carries h]
  unfold taskChecks isValid
  rw [hc]
  simp only [show Cls.isTask .TaskToCompute = true from rfl, if_true, hv, hi]

/-- C107, C108: `load` gives a message exactly if the frame reads as it and it passes the check of its
class, for every class. -/
theorem load_decision (E : Env) (dec : Bytes → Bytes → Res Bytes) (data : Bytes) (priv pub : Option Bytes)
    (ct : Bool) (now : Int) (m : Msg) :
    (load E dec (some data) priv pub ct now).2 = .ok m ↔
      ReadsFrame E dec data priv pub ct now m ∧ WholeOk E m := by
  by_cases hm : m.cls ∈ checkedClasses
  · rw [read_iff_carried E dec data priv pub ct now m hm]
    have fwd : (load E dec (some data) priv pub ct now).2 = .ok m → Carries E dec data priv pub ct now m := fun h =>
      (read_iff_carried E dec data priv pub ct now m hm).mp (loaded_as_read E dec data priv pub ct now m h)
    have key : Carries E dec data priv pub ct now m →
        ((load E dec (some data) priv pub ct now).2 = .ok m ↔ WholeOk E m) := by
      intro hca
      obtain ⟨_, hts, _⟩ := carries_header hca
      unfold WholeOk
      simp only [checkedClasses, List.mem_cons, List.mem_nil_iff, or_false] at hm
      rcases hm with hm | hm | hm | hm <;> rw [hm]
      · exact task_decision E dec data priv pub ct now m hca hm
      · rw [payment_decision E dec data priv pub ct now m hca hm, hts]
        simp
      · obtain ⟨a, b⟩ := rejection_load E dec data priv pub ct now m hca hm
        refine ⟨fun hl => Classical.byContradiction fun hn => ?_, a⟩
        rw [b hn] at hl
        cases hl
      · exact verdict_decision E dec data priv pub ct now m hca hm
    exact ⟨fun h => ⟨fwd h, (key (fwd h)).mp h⟩, fun h => (key h.1).mpr h.2⟩
  · rw [load_iff_read E dec data priv pub ct now m hm]
    have : WholeOk E m := by
      unfold WholeOk
      split <;> first | trivial | (rename_i e; rw [e] at hm; exact absurd (by decide) hm)
    exact ⟨fun h => ⟨h, this⟩, fun h => h.1⟩

private def acceptedFrame (p : Val) : Bytes :=
  ((packHeader 2010 (.int 1500000000) (.bool false)).toOption.getD [] ++ List.replicate 65 0) ++
    (dumps (.dict [(.str p!"payment_ts", p)])).toOption.getD []

/-- An accepted `SubtaskResultsAccepted`: it reads as a message, and that passes. -/
example : ∃ m, m.cls = .SubtaskResultsAccepted ∧ WholeOk toyEnv m ∧
    ReadsFrame toyEnv (fun _ _ => .error .decryptionError) (acceptedFrame (.int 1499999100)) none none false 0 m := by
  have h : ∃ m, m.cls = .SubtaskResultsAccepted ∧ (load toyEnv (fun _ _ => .error .decryptionError)
      (some (acceptedFrame (.int 1499999100))) none none false 0).2 = .ok m := by
    refine ⟨((load toyEnv (fun _ _ => .error .decryptionError)
      (some (acceptedFrame (.int 1499999100))) none none false 0).2).toOption.getD ⟨.Ping, .none, .none, .none, .none, []⟩,
      ?_, ?_⟩
    · decide +kernel
    · decide +kernel
  obtain ⟨m, hc, hm⟩ := h
  obtain ⟨a, b⟩ := (load_decision _ _ _ _ _ _ _ m).mp hm
  exact ⟨m, hc, b, a⟩

example : PaymentOk (.int 1499999100) 1500000000 ∧ ¬ PaymentOk (.int 1499999099) 1500000000 ∧
    ¬ PaymentOk .none 1500000000 := by
  refine ⟨.inl ⟨_, .inl rfl, by omega, by omega⟩, ?_, ?_⟩
  · rintro (⟨i, h | ⟨b, h, _⟩, _⟩ | ⟨f, h, _⟩)
    · injection h with h; omega
    · cases h
    · cases h
  · rintro (⟨i, h | ⟨b, h, _⟩, _⟩ | ⟨f, h, _⟩) <;> cases h

/-- A sum that reaches the second rounds up to it; one that a smaller double equals does not. -/
example : RoundsUpTo (5 * 2 ^ 1074) (5 * 2 ^ 1074) ∧ ¬ RoundsUpTo 0 (5 * 2 ^ 1074) := by
  refine ⟨fun g y _ _ => by omega, fun h => ?_⟩
  have := h 0 0 ⟨0, 0, 0, by decide, by decide, by decide, by decide, by simp⟩ (by decide +kernel)
  exact absurd this (by decide +kernel)

end Verif.Props
