import Verif.Lemmas.Carried
/-!
# The steps of loading a frame that passed the header
-/

namespace Verif

open Spec

/-- The version a `Hello` is constructed with. -/
def frameVersion (c : Cls) (data : Bytes) : Option PStr :=
  if c = .Hello then some (asciiDecodeReplace (fieldVersion (versionField data))) else none

/-- Loading a frame of a known type, in time, is: the version of a `Hello`, deciphering, parsing, and the
checks of the class. -/
theorem load_steps (E : Env) (dec : Bytes → Bytes → Res Bytes) (data : Bytes) (priv pub : Option Bytes)
    (ct : Bool) (now : Int) (c : Cls) (hl : 76 < data.length) (h1 : minTimestamp < frameTime data)
    (h2 : frameTime data < maxTimestamp) (h3 : Cls.ofType (frameType data) = some c)
    (ht : timeGate ct now ⟨frameType data, frameTime data, frameFlag data⟩ = .ok ()) :
    load E dec (some data) priv pub ct now =
      match (if c = .Hello then
          verifyVersion E.version (asciiDecodeReplace (fieldVersion (versionField data))) else .ok ()) with
      | .error e => ([], .error e)
      | .ok _ =>
        ((decryptStep (frameFlag data) (loadDecrypt dec priv) (frameBody (unversioned data))).andThen
          (parsePayload E c ⟨frameType data, frameTime data, frameFlag data⟩ (frameSig (unversioned data))
            (frameVersion c data) pub)).andThen
          (if c = .Hello then Except.ok else taskChecks E) := by
  have hc := typeId_of_ofType h3
  unfold load
  rw [deserialize_frame E data _ ct now pub hl c h1 h2 h3, ht]
  dsimp only
  unfold dwh
  by_cases hh : c = .Hello
  · have ht0 : frameType data = 0 := by rw [← hc, hh]; rfl
    simp only [if_pos hh]
    have hl2 : (data.drop hdrLen).drop ((data.drop hdrLen).length - versionLen) =
        data.drop (data.length - versionLen) := by
      rw [List.drop_drop, List.length_drop]
      congr 1
      simp [hdrLen, versionLen]; omega
    rw [hl2, unpackPascal_eq data (by omega)]
    dsimp only
    cases verifyVersion E.version (asciiDecodeReplace (fieldVersion (versionField data))) with
    | error e => rfl
    | ok u =>
      dsimp only
      have hd : (data.drop hdrLen).take ((data.drop hdrLen).length - versionLen) =
          (unversioned data).drop hdrLen := by
        unfold unversioned
        rw [if_pos ht0, List.take_drop, List.length_drop]
        congr 2
        simp [hdrLen, versionLen]; omega
      have e1 : ((unversioned data).drop hdrLen).drop sigLen = frameBody (unversioned data) := by
        simp [frameBody, hdrLen, sigLen, List.drop_drop]
      have e2 : ((unversioned data).drop hdrLen).take sigLen = frameSig (unversioned data) := by
        simp [frameSig, hdrLen, sigLen]
      rw [hd]
      unfold dwhBase
      rw [e1, e2, frameVersion, if_pos hh]
      unfold Logged.andThen
      dsimp only
      congr 1
      split <;> rename_i heq
      · rfl
      · split <;> simp_all
  · have ht0 : frameType data ≠ 0 := by rw [← hc]; exact typeId_ne_hello hh
    have hu : unversioned data = data := by unfold unversioned; rw [if_neg ht0]
    simp only [if_neg hh]
    have e1 : (data.drop hdrLen).drop sigLen = frameBody data := by
      simp [frameBody, hdrLen, sigLen, List.drop_drop]
    have e2 : (data.drop hdrLen).take sigLen = frameSig data := by simp [frameSig, hdrLen, sigLen]
    unfold dwhBase
    rw [e1, e2, hu, frameVersion, if_neg hh]

/-- A frame gets that far, or the answer depends on nothing but the frame and the clock. -/
theorem load_gates (data : Bytes) (ct : Bool) (now : Int) :
    (76 < data.length ∧ minTimestamp < frameTime data ∧ frameTime data < maxTimestamp ∧
      (∃ c, Cls.ofType (frameType data) = some c) ∧
      timeGate ct now ⟨frameType data, frameTime data, frameFlag data⟩ = .ok ()) ∨
    ∃ r, ∀ E dec priv pub, load E dec (some data) priv pub ct now = r := by
  by_cases hl : 76 < data.length
  · by_cases hb : minTimestamp < frameTime data ∧ frameTime data < maxTimestamp ∧ Registered (frameType data)
    · obtain ⟨h1, h2, c, hc⟩ := hb
      have h3 : Cls.ofType (frameType data) = some c := by rw [← hc]; exact ofType_typeId c
      cases ht : timeGate ct now ⟨frameType data, frameTime data, frameFlag data⟩ with
      | ok u => exact .inl ⟨hl, h1, h2, ⟨c, h3⟩, rfl⟩
      | error e =>
        refine .inr ⟨([], .error e), fun E dec priv pub => ?_⟩
        unfold load
        rw [deserialize_frame E data _ ct now pub hl c h1 h2 h3, ht]
    · refine .inr ⟨([], .error .headerError), fun E dec priv pub => ?_⟩
      unfold load
      rw [deserialize_badHeader _ _ _ _ _ _ hl hb]
  · refine .inr ⟨([], .error .messageError), fun E dec priv pub => ?_⟩
    unfold load deserialize
    have : data.length ≤ hdrLen + sigLen := by simp [hdrLen, sigLen]; omega
    simp only [if_pos this]

end Verif
