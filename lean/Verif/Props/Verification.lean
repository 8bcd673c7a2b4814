import Verif.Lemmas.Verification
import Verif.Lemmas.ContRoundTrip
import Verif.Props.Helpers
/-!
# C52, C106: the time for verification of a report (`helpers.py:7-19`)
-/

set_option linter.unusedSimpArgs false

namespace Verif.Props

open Verif Spec

private theorem mkDelta_ok {us : Int} (h : us.natAbs < 10 ^ 19) : mkDelta us = .ok us := by
  unfold mkDelta
  rw [if_pos (by omega)]

private theorem ok_bind {α β : Type} (a : α) (f : α → Res β) : ((Except.ok a : Res α) >>= f) = f a := rfl

private theorem error_bind {α β : Type} (e : Exc) (f : α → Res β) : ((Except.error e : Res α) >>= f) = .error e := rfl

/-- The download time of a size the division is exact for. -/
private theorem downloadTime_nat (size : Nat) (hs : size < 2 ^ 53) :
    ∃ n : Nat, size ≤ n * (48 * 1024) ∧ (∀ k, size ≤ k * (48 * 1024) → n ≤ k) ∧ n ≤ 183251937963 ∧
      downloadTime (.int size) = .ok ((60 + n) * 1000000) := by
  obtain ⟨n, e, h1, h2⟩ := download_time_partial size 48 hs (by decide) (by decide +kernel)
  have hn : n ≤ 183251937963 := by
    apply Classical.byContradiction
    intro hlt
    have := h2 (n - 1)
    omega
  refine ⟨n, h1, h2, hn, ?_⟩
  have hq : sizeSeconds (.int size) = .ok n := by
    unfold sizeSeconds sizeSeconds.quotient
    dsimp only
    unfold maximumDownloadTime at e
    rw [if_neg (by decide)] at e
    rw [show 1 * defaultUploadRate <<< 10 = 48 <<< 10 from rfl, Int.natAbs_natCast]
    cases ht : trueDiv size (48 <<< 10) with
    | error x => rw [ht] at e; cases e
    | ok q =>
      rw [ht] at e
      dsimp only at e ⊢
      split at e
      · cases e
      · injection e with e
        rw [if_neg (by omega)]
        congr 1
        omega
  unfold downloadTime
  rw [hq, ok_bind, mkDelta_ok (by omega), ok_bind, mkDelta_ok (by omega)]
  exact congrArg Except.ok (by omega)

private theorem start_ok {start : Int} (h : InCalendar (start * 2 ^ 1074)) :
    utcFromTimestamp (.int start) = .ok (start * 1000000) := utcChecked_ok h (micro_int start)

private theorem msg_asMsg (t : Msg) : t.val.asMsg = some t := rfl

/-- The steps of a report whose size can be divided. -/
private theorem report_steps {m : Msg} {size deadline : Val} {start mdt : Int} (h : Reports m size deadline start)
    (hd : downloadTime size = .ok mdt) :
    subtaskVerificationTime m = (do
      let a ← utcFromTimestamp (.int start)
      let b ← utcFromTimestamp deadline
      let three ← mkDelta (3 * mdt)
      let sum ← mkDelta (4 * cmt * 1000000 + three)
      mkDelta (sum + roundHalfEven (b - a) 2)) := by
  obtain ⟨h1, t, h2, h3, items, h4, h5⟩ := h
  unfold subtaskVerificationTime
  have hi : itemOf (getAttr t.attrs p!"compute_task_def") p!"deadline" = .ok deadline := by
    rw [h4]
    unfold itemOf Val.asDict
    dsimp only
    rw [dictGet_textKeys, h5]
  rw [h1, hd, h2, msg_asMsg, ok_bind]
  dsimp only
  rw [h3, hi]
  rfl

/-- C106, C52: sixteen minutes, three download times at 48 KiB per second and half of the time from
the task to its deadline, to the microsecond, for every deadline that is an integer, a bool or a
float.  Missing for the full claim: sizes that are negative, of `2^53` bytes and more, or no
integers. -/
theorem verification_time_partial (m : Msg) (size : Nat) (deadline : Val) (start x : Int)
    (h : Reports m (.int size) deadline start) (hs : size < 2 ^ 53)
    (hstart : InCalendar (start * 2 ^ 1074)) (hx : Num deadline x) (hc : InCalendar x) :
    ∃ n : Nat, size ≤ n * (48 * 1024) ∧ (∀ k, size ≤ k * (48 * 1024) → n ≤ k) ∧
      ∃ stop, Microseconds x stop ∧ ∃ half, Half (stop - start * 1000000) half ∧
        subtaskVerificationTime m = .ok ((16 * 60 + 3 * (60 + n)) * 1000000 + half) := by
  obtain ⟨n, n1, n2, n3, hd⟩ := downloadTime_nat size hs
  obtain ⟨stop, e, hm⟩ := utc_num hx hc
  refine ⟨n, n1, n2, stop, hm, _, roundHalfEven_half _, ?_⟩
  have b0 : utcChecked stop = .ok stop := utcChecked_ok hc hm
  have b1 : utcChecked (start * 1000000) = .ok (start * 1000000) := utcChecked_ok hstart (micro_int start)
  have bound : ∀ us, utcChecked us = .ok us → us.natAbs < 10 ^ 18 := by
    intro us hu
    unfold utcChecked at hu
    dsimp only at hu
    repeat' split at hu
    all_goals first | cases hu; done | omega
  have hb0 := bound _ b0
  have hb1 := bound _ b1
  rw [report_steps h hd, start_ok hstart, e, ok_bind, ok_bind]
  have hh := roundHalfEven_half (stop - start * 1000000)
  unfold Half at hh
  generalize roundHalfEven (stop - start * 1000000) 2 = half at *
  rw [mkDelta_ok (by omega), ok_bind]
  unfold cmt
  rw [mkDelta_ok (by omega), ok_bind, mkDelta_ok (by omega)]
  exact congrArg Except.ok (by omega)

/-- C106: with a deadline that is not before the task, the requestor has at least nineteen minutes. -/
theorem verification_time_enough (m : Msg) (size : Nat) (deadline : Val) (start x : Int)
    (h : Reports m (.int size) deadline start) (hs : size < 2 ^ 53)
    (hstart : InCalendar (start * 2 ^ 1074)) (hx : Num deadline x) (hc : InCalendar x)
    (hle : start * 2 ^ 1074 ≤ x) :
    ∃ us, subtaskVerificationTime m = .ok us ∧ 19 * 60 * 1000000 ≤ us := by
  obtain ⟨n, _, _, stop, ⟨m1, m2, m3⟩, half, hh, e⟩ := verification_time_partial m size deadline start x h hs hstart hx hc
  refine ⟨_, e, ?_⟩
  have hge : start * 1000000 ≤ stop := by
    have hp : (0 : Int) < 2 ^ 1074 := floatOne_pos
    generalize (2 ^ 1074 : Int) = one at *
    have h1 : (start * 1000000 - 1) * one < stop * one := by
      rw [Int.sub_mul, Int.mul_right_comm]
      generalize start * one = y at *
      omega
    have := Int.lt_of_mul_lt_mul_right h1 (by omega)
    omega
  unfold Half at hh
  omega

/-- C52: the longest download time is that of a `timedelta`; sizes that take longer are an
`OverflowError`.  For whole numbers of seconds the time is exact up to that limit. -/
theorem download_time_limit (n rate : Nat) (hr : 0 < rate) (hn : n < 2 ^ 53) :
    (Span ((60 + n) * 1000000) → maximumDownloadTime (n * (rate * 1024)) rate = .ok (60 + n)) ∧
    (¬ Span ((60 + n) * 1000000) → maximumDownloadTime (n * (rate * 1024)) rate = .error .overflowError) := by
  obtain ⟨q, e, hq, _⟩ := trueDiv_multiple n (show 0 < rate * 1024 by omega) hn
  unfold maximumDownloadTime
  rw [if_neg (by omega), show rate <<< 10 = rate * 1024 by rw [Nat.shiftLeft_eq], e]
  dsimp only
  rw [hq]
  unfold maxDelta Span
  constructor
  · intro h; rw [if_neg (by omega)]
  · intro h; rw [if_pos (by omega)]

private theorem seconds_whole (k : Int) (hk : k.natAbs < 2 ^ 53) : sizeSeconds (.int (k * 49152)) = .ok k := by
  obtain ⟨q, e, h1, h2⟩ := trueDiv_multiple k.natAbs (show 0 < 49152 by omega) hk
  unfold sizeSeconds sizeSeconds.quotient
  dsimp only
  rw [show 1 * defaultUploadRate <<< 10 = 49152 from rfl, Int.natAbs_mul, show (49152 : Int).natAbs = 49152 from rfl, e]
  dsimp only
  rw [h1, h2]
  split <;> exact congrArg Except.ok (by omega)

/-- The time for verification, given the seconds of the download. -/
theorem times_of_seconds (m : Msg) (size : Val) (k : Int) (deadline : Val) (start x : Int)
    (h : Reports m size deadline start) (hk : sizeSeconds size = .ok k)
    (hstart : InCalendar (start * 2 ^ 1074)) (hx : Num deadline x) (hc : InCalendar x) :
    ∃ stop, Microseconds x stop ∧ ∃ half, Half (stop - start * 1000000) half ∧
      let times := [k * 1000000, (60 + k) * 1000000, 3 * (60 + k) * 1000000, (960 + 3 * (60 + k)) * 1000000,
        (960 + 3 * (60 + k)) * 1000000 + half]
      ((∀ t ∈ times, Span t) → subtaskVerificationTime m = .ok ((960 + 3 * (60 + k)) * 1000000 + half)) ∧
      (¬ (∀ t ∈ times, Span t) → subtaskVerificationTime m = .error .overflowError) := by
  obtain ⟨stop, e, hm⟩ := utc_num hx hc
  refine ⟨stop, hm, _, roundHalfEven_half _, ?_⟩
  dsimp only
  have hsz : getAttr m.attrs p!"size" = size := h.size
  have fail : ∀ {e'}, downloadTime size = .error e' → subtaskVerificationTime m = .error e' := by
    intro e' h'
    unfold subtaskVerificationTime
    rw [hsz, h']
    rfl
  have hd0 : downloadTime size =
      (do let d ← mkDelta (k * 1000000); mkDelta (60 * 1000000 + d)) := by
    unfold downloadTime
    rw [hk]
    rfl
  by_cases s1 : Span (k * 1000000)
  · rw [(mkDelta_span _).1 s1, ok_bind] at hd0
    rw [show 60 * 1000000 + k * 1000000 = (60 + k) * 1000000 by omega] at hd0
    by_cases s2 : Span ((60 + k) * 1000000)
    · rw [(mkDelta_span _).1 s2] at hd0
      rw [report_steps h hd0, start_ok hstart, e, ok_bind, ok_bind]
      rw [show 3 * ((60 + k) * 1000000) = 3 * (60 + k) * 1000000 by omega]
      generalize roundHalfEven (stop - start * 1000000) 2 = half
      by_cases s3 : Span (3 * (60 + k) * 1000000)
      · rw [(mkDelta_span _).1 s3, ok_bind]
        rw [show 4 * (cmt : Int) * 1000000 + 3 * (60 + k) * 1000000 = (960 + 3 * (60 + k)) * 1000000 by
          unfold cmt; omega]
        by_cases s4 : Span ((960 + 3 * (60 + k)) * 1000000)
        · rw [(mkDelta_span _).1 s4, ok_bind]
          by_cases s5 : Span ((960 + 3 * (60 + k)) * 1000000 + half)
          · refine ⟨fun _ => (mkDelta_span _).1 s5, fun hn => absurd ?_ hn⟩
            simp [s1, s2, s3, s4, s5]
          · exact ⟨fun hall => absurd (hall _ (by simp)) s5, fun _ => (mkDelta_span _).2 s5⟩
        · rw [(mkDelta_span _).2 s4, error_bind]
          exact ⟨fun hall => absurd (hall _ (by simp)) s4, fun _ => rfl⟩
      · rw [(mkDelta_span _).2 s3, error_bind]
        exact ⟨fun hall => absurd (hall _ (by simp)) s3, fun _ => rfl⟩
    · rw [(mkDelta_span _).2 s2] at hd0
      rw [fail hd0]
      exact ⟨fun hall => absurd (hall _ (by simp)) s2, fun _ => rfl⟩
  · rw [(mkDelta_span _).2 s1, error_bind] at hd0
    rw [fail hd0]
    exact ⟨fun hall => absurd (hall _ (by simp)) s1, fun _ => rfl⟩

/-- C106: sizes that take a whole number of seconds, also negative ones: the time is exact, or an
`OverflowError` if one of the times it is the sum of is too long for a `timedelta`. -/
theorem verification_time_whole (m : Msg) (k : Int) (deadline : Val) (start x : Int)
    (h : Reports m (.int (k * 49152)) deadline start) (hk : k.natAbs < 2 ^ 53)
    (hstart : InCalendar (start * 2 ^ 1074)) (hx : Num deadline x) (hc : InCalendar x) :
    ∃ stop, Microseconds x stop ∧ ∃ half, Half (stop - start * 1000000) half ∧
      let times := [k * 1000000, (60 + k) * 1000000, 3 * (60 + k) * 1000000, (960 + 3 * (60 + k)) * 1000000,
        (960 + 3 * (60 + k)) * 1000000 + half]
      ((∀ t ∈ times, Span t) → subtaskVerificationTime m = .ok ((960 + 3 * (60 + k)) * 1000000 + half)) ∧
      (¬ (∀ t ∈ times, Span t) → subtaskVerificationTime m = .error .overflowError) :=
  times_of_seconds m _ k deadline start x h (seconds_whole k hk) hstart hx hc

/-- C106: a report without a usable size or deadline has no time for verification, but an error
(`otherError` is `OSError` here). -/
theorem verification_time_raises (m : Msg) (size deadline : Val) (start : Int) (h : Reports m size deadline start) :
    (NoNumber size → subtaskVerificationTime m = .error .typeError) ∧
    (∀ e, NotFinite size e → subtaskVerificationTime m = .error e) ∧
    (∀ k : Nat, size = .int k → k < 2 ^ 53 → InCalendar (start * 2 ^ 1074) →
      (NoNumber deadline → subtaskVerificationTime m = .error .typeError) ∧
      (∀ e, NotFinite deadline e → subtaskVerificationTime m = .error e) ∧
      (∀ x, Num deadline x → x ≤ -62135596801 * 2 ^ 1074 ∨ 253402300800 * 2 ^ 1074 ≤ x →
        ∃ e, subtaskVerificationTime m = .error e ∧ (e = .valueError ∨ e = .overflowError ∨ e = .otherError))) := by
  have hsz : getAttr m.attrs p!"size" = size := h.size
  refine ⟨fun hn => ?_, fun e hn => ?_, fun k hk hk' hstart => ?_⟩
  · unfold subtaskVerificationTime downloadTime
    rw [hsz, seconds_noNumber hn]
    rfl
  · unfold subtaskVerificationTime downloadTime
    rw [hsz, seconds_notFinite hn]
    rfl
  · subst hk
    obtain ⟨n, _, _, _, hd⟩ := downloadTime_nat k hk'
    rw [report_steps h hd, start_ok hstart, ok_bind]
    refine ⟨fun hn => ?_, fun e hn => ?_, fun x hx ho => ?_⟩
    · rw [utc_noNumber hn, error_bind]
    · rw [utc_notFinite hn, error_bind]
    · obtain ⟨e, he, hk⟩ := utc_outside hx ho
      rw [he]
      exact ⟨e, rfl, hk⟩

/-- C106: a report without a task, or whose task has no definition or one without a deadline. -/
theorem verification_time_incomplete (m : Msg) (size : Nat) (hs : size < 2 ^ 53)
    (h : getAttr m.attrs p!"size" = .int size) :
    ((∀ t : Msg, getAttr m.attrs p!"task_to_compute" ≠ t.val) →
      subtaskVerificationTime m = .error .attributeError) ∧
    ∀ (t : Msg) (start : Int), getAttr m.attrs p!"task_to_compute" = t.val → t.ts = .int start →
      InCalendar (start * 2 ^ 1074) →
      (getAttr t.attrs p!"compute_task_def" = .none → subtaskVerificationTime m = .error .typeError) ∧
      (∀ d : Attrs, getAttr t.attrs p!"compute_task_def" = .dict (d.map fun p => (.str p.1, p.2)) →
        p!"deadline" ∉ d.map Prod.fst → subtaskVerificationTime m = .error .keyError) := by
  obtain ⟨n, _, _, _, hd⟩ := downloadTime_nat size hs
  unfold subtaskVerificationTime
  rw [h, hd, ok_bind]
  refine ⟨fun hn => ?_, fun t start h2 h3 hstart => ?_⟩
  · have : (getAttr m.attrs p!"task_to_compute").asMsg = none := by
      revert hn
      cases getAttr m.attrs p!"task_to_compute" <;> intro hn <;> first | rfl | exact absurd rfl (hn ⟨_, _, _, _, _, _⟩)
    rw [this]
  · rw [h2, msg_asMsg]
    dsimp only
    rw [h3, start_ok hstart, ok_bind]
    refine ⟨fun h4 => by rw [h4]; rfl, fun d h4 h5 => ?_⟩
    have : itemOf (getAttr t.attrs p!"compute_task_def") p!"deadline" = .error .keyError := by
      rw [h4]
      unfold itemOf Val.asDict
      dsimp only
      rw [dictGet_textKeys, (lookupName_none _ _).mpr h5]
    rw [this]
    rfl

private def deadlineOf (m : Msg) : Option (Val × Val) :=
  match (getAttr m.attrs p!"task_to_compute") with
  | .msg _ _ ts _ _ attrs =>
    (match getAttr attrs p!"compute_task_def" with
    | .fdict .computeTaskDef items => (lookupName p!"deadline" items).map fun d => (ts, d)
    | _ => none)
  | _ => none

private theorem deadlineOf_spec {m : Msg} {start : Int} {d : Val} (h : deadlineOf m = some (.int start, d)) :
    Reports m (getAttr m.attrs p!"size") d start := by
  refine ⟨rfl, ?_⟩
  unfold deadlineOf at h
  split at h
  · rename_i c ty ts enc sig attrs e
    split at h
    · rename_i items e'
      cases hl : lookupName p!"deadline" items with
      | none => rw [hl] at h; cases h
      | some x =>
        rw [hl] at h
        injection h with h
        injection h with h1 h2
        subst h1 h2
        exact ⟨⟨c, ty, .int start, enc, sig, attrs⟩, e, rfl, items, e', hl⟩
    · cases h
  · cases h

private def exReport : Msg where
  cls := .ReportComputedTask
  ty := .int 2004
  ts := .int 1500000060
  enc := .bool false
  sig := .none
  attrs := [(p!"size", .int 100000000), (p!"task_to_compute", .msg .TaskToCompute (.int 2002) (.int 1500000000) (.bool false)
    .none [(p!"compute_task_def", .fdict .computeTaskDef [(p!"deadline", .float 0x41d65a0c74200000)])])]

/-- A report of a hundred megabytes whose deadline is half a second past twelve minutes (a double
with a fraction), as the theorems want it, and its time. -/
example : Reports exReport (.int (100000000 : Nat)) (.float 0x41d65a0c74200000) 1500000000 ∧
    InCalendar (1500000000 * 2 ^ 1074) ∧
    (∃ x, Num (.float 0x41d65a0c74200000) x ∧ InCalendar x ∧ 1500000000 * 2 ^ 1074 ≤ x) ∧
    subtaskVerificationTime exReport = .ok ((16 * 60 + 3 * (60 + 2035)) * 1000000 + 360250000) := by
  refine ⟨deadlineOf_spec (by decide +kernel), by unfold InCalendar; decide +kernel,
    ⟨3000001441 * 2 ^ 1073, .float _ _ ⟨0, 0x41d, 0x65a0c74200000, ?_⟩, ?_⟩, ?_⟩
  · decide +kernel
  · unfold InCalendar; decide +kernel
  · decide +kernel

/-- A report of two seconds less than nothing, whose time is that of the rest. -/
example : Reports { exReport with attrs := setName p!"size" (.int (-2 * 49152)) exReport.attrs } (.int (-2 * 49152))
      (.float 0x41d65a0c74200000) 1500000000 ∧
    subtaskVerificationTime { exReport with attrs := setName p!"size" (.int (-2 * 49152)) exReport.attrs } =
      .ok ((960 + 3 * (60 + -2)) * 1000000 + 360250000) :=
  ⟨deadlineOf_spec (by decide +kernel), by decide +kernel⟩

private def without (d : Val) : Msg :=
  { exReport with attrs := setName p!"task_to_compute" (.msg .TaskToCompute (.int 2002) (.int 1500000000) (.bool false)
    .none [(p!"compute_task_def", d)]) exReport.attrs }

/-- Reports whose task lacks the deadline or the definition. -/
example : subtaskVerificationTime (without (.dict [(.str p!"task_id", .str p!"t")])) = .error .keyError ∧
    subtaskVerificationTime (without .none) = .error .typeError := by decide +kernel

/-- The longest download, and one second more. -/
example : maximumDownloadTime (86399999999939 * 1024) 1 = .ok 86399999999999 ∧
    maximumDownloadTime (86399999999940 * 1024) 1 = .error .overflowError :=
  ⟨(download_time_limit 86399999999939 1 (by decide) (by decide)).1 (by unfold Span; omega),
    (download_time_limit 86399999999940 1 (by decide) (by decide)).2 (by unfold Span; omega)⟩

/-- Sizes and deadlines that raise. -/
example : NoNumber .none ∧ NotFinite (.float 0x7ff8000000000000) .valueError ∧
    NotFinite (.float 0xfff0000000000000) .overflowError ∧ Num (.int (10 ^ 12)) (10 ^ 12 * 2 ^ 1074) :=
  ⟨trivial, .nan _ ⟨0, 2 ^ 51, by decide +kernel⟩, .inf _ ⟨1, by decide +kernel⟩, .int _⟩

end Verif.Props
