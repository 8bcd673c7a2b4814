import Verif.Lemmas.Frame
/-!
# C09, C10, C11: what `load` refuses before it looks at the payload

`load E decrypt data privkey pubkey checkTime now` returns the list of byte strings the
decryption function was applied to, and the outcome.
-/

set_option linter.unusedSimpArgs false

namespace Verif.Props

open Verif Spec

/-- C09: every input of at most 76 bytes, and `None`, is refused with `MessageError`
without any decryption. -/
theorem load_short (E : Env) (dec : Bytes → Bytes → Res Bytes) (data : Option Bytes)
    (h : ∀ b, data = some b → b.length ≤ 76) (priv pub : Option Bytes) (ct : Bool) (now : Int) :
    load E dec data priv pub ct now = ([], .error .messageError) := by
  unfold load deserialize
  cases data with
  | none => rfl
  | some b =>
    have := h b rfl
    simp only
    rw [if_pos (by simpa [hdrLen, sigLen] using this)]

/-- C09 (the bound is exact): there is an input of 77 bytes that `load` does not refuse
as too short (it gets as far as the header check). -/
theorem load_77 (E : Env) (dec : Bytes → Bytes → Res Bytes) (priv pub : Option Bytes) (ct : Bool)
    (now : Int) :
    load E dec (some (List.replicate 77 0)) priv pub ct now = ([], .error .headerError) := by
  unfold load
  apply deserialize_badHeader
  · simp
  · rintro ⟨h, _⟩
    revert h
    have : frameTime (List.replicate 77 0) = 0 := by
      simp [frameTime, bigEndian]
    rw [this]; simp

/-- 2010-01-01 as the number of seconds since 1970-01-01. -/
theorem min_is_2010 : minTimestamp = newYear 40 := by decide

/-- 3010-01-01 as the number of seconds since 1970-01-01. -/
theorem max_is_3010 : maxTimestamp = newYear 1040 := by
  have step : ∀ n, newYear (n + 1) = newYear n + (if leap (1970 + n) then 366 else 365) * 86400 :=
    fun _ => rfl
  have gen : ∀ n, newYear (n + 400) = newYear n + 146097 * 86400 := by
    intro n
    induction n with
    | zero => decide +kernel
    | succ n ih =>
      have e : n + 1 + 400 = (n + 400) + 1 := by omega
      have l : leap (1970 + (n + 400)) = leap (1970 + n) := by
        unfold leap
        have a : (1970 + (n + 400)) % 4 = (1970 + n) % 4 := by omega
        have b : (1970 + (n + 400)) % 100 = (1970 + n) % 100 := by omega
        have c : (1970 + (n + 400)) % 400 = (1970 + n) % 400 := by omega
        rw [a, b, c]
      rw [e, step, ih, l, step]
      omega
  have h1 : newYear 1040 = newYear 640 + 146097 * 86400 := gen 640
  have h2 : newYear 640 = newYear 240 + 146097 * 86400 := gen 240
  have h3 : newYear 240 = 7573651200 := by decide +kernel
  rw [h1, h2, h3]; rfl

/-- C10 (gate): a long enough input whose timestamp is not strictly between 2010-01-01
and 3010-01-01, or whose type number is not registered, is refused with `HeaderError`
and the decryption function is not called. -/
theorem load_header_gate (E : Env) (dec : Bytes → Bytes → Res Bytes) (data : Bytes)
    (hl : 76 < data.length)
    (hb : ¬ (newYear 40 < frameTime data ∧ frameTime data < newYear 1040
      ∧ Registered (frameType data)))
    (priv pub : Option Bytes) (ct : Bool) (now : Int) :
    load E dec (some data) priv pub ct now = ([], .error .headerError) := by
  unfold load
  apply deserialize_badHeader _ _ _ _ _ _ hl
  rw [min_is_2010, max_is_3010]
  exact hb

/-- C10 (contrapositive form): if the decryption function was called, or a message was
returned, the frame has more than 76 bytes, a timestamp in the window and a
registered type; and decryption was called on the bytes after the signature (for
`Hello` without the trailing version field). -/
theorem load_worked_gate (E : Env) (dec : Bytes → Bytes → Res Bytes) (data : Bytes)
    (priv pub : Option Bytes) (ct : Bool) (now : Int)
    (h : (load E dec (some data) priv pub ct now).1 ≠ [] ∨
      ∃ m, (load E dec (some data) priv pub ct now).2 = .ok m) :
    76 < data.length ∧ newYear 40 < frameTime data ∧ frameTime data < newYear 1040 ∧
      Registered (frameType data) := by
  by_cases hl : 76 < data.length
  · refine ⟨hl, ?_⟩
    refine Classical.byContradiction fun hb => ?_
    rw [load_header_gate E dec data hl hb] at h
    rcases h with h | ⟨m, h⟩
    · exact h rfl
    · cases h
  · rw [load_short E dec (some data) (by rintro b ⟨rfl⟩; omega)] at h
    rcases h with h | ⟨m, h⟩
    · exact absurd rfl h
    · cases h

/-- C10 (decryption log): `load` calls the decryption function at most once, only if
the frame's flag is set, and then on exactly the bytes after the signature (for
`Hello` without the 32-byte version field). -/
theorem load_decrypt_calls (E : Env) (dec : Bytes → Bytes → Res Bytes) (data : Bytes)
    (priv pub : Option Bytes) (ct : Bool) (now : Int) :
    (load E dec (some data) priv pub ct now).1 = [] ∨
      (frameFlag data = true ∧
        (load E dec (some data) priv pub ct now).1 = [frameBody (unversioned data)]) := by
  have log : ∀ c h d f s v, (dwhBase E c h d f s v).1 =
      if h.encrypted then [d.drop sigLen] else [] := by
    intro c h d f s v
    unfold dwhBase decryptStep Logged.andThen
    by_cases he : h.encrypted <;> simp [he]
  by_cases hl : 76 < data.length
  · by_cases hb : minTimestamp < frameTime data ∧ frameTime data < maxTimestamp ∧
        Registered (frameType data)
    · obtain ⟨h1, h2, c, hc⟩ := hb
      have h3 : Cls.ofType (frameType data) = some c := by rw [← hc]; exact ofType_typeId c
      unfold load
      rw [deserialize_frame E data _ ct now pub hl c h1 h2 h3]
      cases timeGate ct now ⟨frameType data, frameTime data, frameFlag data⟩ with
      | error e => left; rfl
      | ok u =>
        simp only
        unfold dwh
        by_cases hh : c = .Hello
        · rw [if_pos hh]
          split
          · left; rfl
          · split
            · left; rfl
            · rw [log]
              by_cases hf : frameFlag data
              · right
                have ht : frameType data = 0 := by rw [← hc, hh]; rfl
                refine ⟨hf, ?_⟩
                simp only [hf, if_true, sigLen, versionLen, hdrLen, unversioned, ht, frameBody]
                congr 1
                rw [List.length_drop, List.take_drop, List.drop_drop]
                congr 2
                omega
              · left; simp [hf]
        · rw [if_neg hh]
          simp only [Logged.andThen]
          rw [log]
          by_cases hf : frameFlag data
          · right
            have ht : frameType data ≠ 0 := by
              intro h0
              rw [h0] at h3
              exact hh (Option.some.inj (h3.symm.trans rfl))
            refine ⟨hf, ?_⟩
            simp [hf, frameBody, unversioned, ht, List.drop_drop, hdrLen, sigLen]
          · left; simp [hf]
    · left
      unfold load
      rw [deserialize_badHeader _ _ _ _ _ _ hl hb]
  · left
    rw [load_short E dec (some data) (by rintro b ⟨rfl⟩; omega)]

/-! ### C11 -/

/-- C11 (no influence without `check_time`). -/
theorem load_ignores_clock (E : Env) (dec : Bytes → Bytes → Res Bytes) (data : Option Bytes)
    (priv pub : Option Bytes) (now now' : Int) :
    load E dec data priv pub false now = load E dec data priv pub false now' := by
  unfold load deserialize
  cases data <;> simp [timeGate]

/-- C11 (window): for a frame past the header gate and a clock reading of `now`
microseconds, `load` with `check_time` refuses it as too old exactly when it is more
than 10 minutes behind, as coming from the future exactly when it is more than 5
minutes ahead (in both cases without decryption), and otherwise behaves as without
`check_time`. -/
theorem load_freshness (E : Env) (dec : Bytes → Bytes → Res Bytes) (data : Bytes)
    (hl : 76 < data.length) (h1 : newYear 40 < frameTime data) (h2 : frameTime data < newYear 1040)
    (h3 : Registered (frameType data)) (priv pub : Option Bytes) (now : Int) :
    load E dec (some data) priv pub true now =
      if (frameTime data : Int) * 1000000 + 10 * 60 * 1000000 < now then
        ([], .error .messageTooOld)
      else if now + 5 * 60 * 1000000 < (frameTime data : Int) * 1000000 then
        ([], .error .messageFromFuture)
      else load E dec (some data) priv pub false now := by
  rw [← min_is_2010] at h1
  rw [← max_is_3010] at h2
  obtain ⟨c, hc⟩ := h3
  have h3 : Cls.ofType (frameType data) = some c := by rw [← hc]; exact ofType_typeId c
  unfold load
  rw [deserialize_frame E data _ true now pub hl c h1 h2 h3,
    deserialize_frame E data _ false now pub hl c h1 h2 h3]
  have vt : verifyTime now (frameTime data) =
      if (frameTime data : Int) * 1000000 + 10 * 60 * 1000000 < now then .error .messageTooOld
      else if now + 5 * 60 * 1000000 < (frameTime data : Int) * 1000000 then
        .error .messageFromFuture
      else .ok () := by
    unfold verifyTime msgTtl futureTolerance
    unfold maxTimestamp at h2
    rw [if_neg (by simp; omega)]
    congr 1
    · exact propext ⟨fun h => by omega, fun h => by omega⟩
    · congr 1
      exact propext ⟨fun h => by omega, fun h => by omega⟩
  simp only [timeGate, if_true]
  rw [vt]
  by_cases a : (frameTime data : Int) * 1000000 + 10 * 60 * 1000000 < now
  · simp only [if_pos a]
  · simp only [if_neg a]
    by_cases b : now + 5 * 60 * 1000000 < (frameTime data : Int) * 1000000
    · simp only [if_pos b]
    · simp only [if_neg b]
      rfl

/-- A frame of a `Ping` (type 1001) sent at `1500000000`: meets the hypotheses of the
theorems above. -/
def pingFrame : Bytes :=
  [3, 233, 0, 0, 0, 0, 89, 104, 47, 0, 0] ++ List.replicate 65 0 ++ [128]

example : 76 < pingFrame.length ∧ newYear 40 < frameTime pingFrame ∧
    frameTime pingFrame < newYear 1040 ∧ Registered (frameType pingFrame) :=
  ⟨by decide, by rw [← min_is_2010]; decide, by rw [← max_is_3010]; decide, .Ping, by decide⟩

/-- Boundary of the window: exactly 10 minutes old passes, one microsecond more does not. -/
example : verifyTime ((1500000000 + 600) * 1000000) 1500000000 = .ok () ∧
    verifyTime ((1500000000 + 600) * 1000000 + 1) 1500000000 = .error .messageTooOld := by
  constructor <;> rfl

end Verif.Props
