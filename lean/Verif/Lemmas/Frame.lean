import Verif.Model.Frame
import Verif.Spec.Frame
import Verif.Lemmas.Bytes
/-! # Lemmas about frames -/

set_option linter.unusedSimpArgs false

namespace Verif

open Spec

theorem bigEndian_eq (b : Bytes) : bigEndian b = ofBE b := by
  induction b with
  | nil => rfl
  | cons x xs ih => rw [bigEndian, ih, ofBE_cons]

theorem ofType_typeId (c : Cls) : Cls.ofType c.typeId = some c := by cases c <;> rfl

theorem typeId_of_ofType {t : Nat} {c : Cls} (h : Cls.ofType t = some c) : c.typeId = t := by
  have := List.find?_some h
  simpa using this

theorem ofType_isSome {t : Nat} : (Cls.ofType t).isSome = true ↔ Registered t := by
  constructor
  · intro h
    obtain ⟨c, hc⟩ := Option.isSome_iff_exists.mp h
    exact ⟨c, typeId_of_ofType hc⟩
  · rintro ⟨c, rfl⟩
    rw [ofType_typeId]; rfl

theorem typeId_inj {c d : Cls} (h : c.typeId = d.typeId) : c = d := by
  have := ofType_typeId c
  rw [h, ofType_typeId] at this
  exact (Option.some.inj this).symm

theorem typeId_lt (c : Cls) : c.typeId < 2 ^ 16 := by cases c <;> decide

theorem flag_eq (msg : Bytes) (h : 11 ≤ msg.length) :
    (List.drop 10 (List.take 11 msg) != [0]) = frameFlag msg := by
  have hd : List.drop 10 (List.take 11 msg) = (msg.drop 10).take 1 := by
    rw [List.drop_take]
  rw [hd]
  unfold frameFlag
  cases hm : msg.drop 10 with
  | nil =>
    have := congrArg List.length hm
    simp at this; omega
  | cons x xs =>
    by_cases hx : x = 0 <;> simp [hx]

theorem unpackHeader_frame (msg : Bytes) (h : 76 < msg.length) :
    unpackHeader (msg.take hdrLen) =
      .ok ⟨frameType msg, frameTime msg, frameFlag msg⟩ := by
  have hl : (msg.take hdrLen).length = hdrLen := by simp [hdrLen]; omega
  unfold unpackHeader
  rw [if_neg (by simp [hl])]
  congr 1
  congr 1
  · rw [frameType, bigEndian_eq]; simp [hdrLen, List.take_take]
  · rw [frameTime, bigEndian_eq]; congr 1; simp [hdrLen, List.drop_take, List.take_take]
  · exact flag_eq msg (by omega)

/-- The header gate in terms of the frame layout. -/
theorem deserializeHeader_frame (msg : Bytes) (h : 76 < msg.length) :
    deserializeHeader (msg.take hdrLen) =
      if minTimestamp < frameTime msg ∧ frameTime msg < maxTimestamp ∧
          (Cls.ofType (frameType msg)).isSome
      then .ok ⟨frameType msg, frameTime msg, frameFlag msg⟩ else .error .headerError := by
  unfold deserializeHeader
  rw [unpackHeader_frame msg h]
  simp only
  by_cases h1 : minTimestamp < frameTime msg ∧ frameTime msg < maxTimestamp
  · by_cases h2 : (Cls.ofType (frameType msg)).isSome
    · simp [h1, h2]
    · simp [h1, h2]
  · have h3 : ¬ (minTimestamp < frameTime msg ∧ frameTime msg < maxTimestamp ∧
        (Cls.ofType (frameType msg)).isSome) := fun ⟨a, b, _⟩ => h1 ⟨a, b⟩
    rw [if_neg h1, if_neg h3]

/-- `deserialize` of a long enough frame with a good header. -/
theorem deserialize_frame (E : Env) (msg : Bytes) (decrypt : Bytes → Res Bytes) (ct : Bool)
    (now : Int) (sender : Option Bytes) (h : 76 < msg.length) (c : Cls)
    (h1 : minTimestamp < frameTime msg) (h2 : frameTime msg < maxTimestamp)
    (h3 : Cls.ofType (frameType msg) = some c) :
    deserialize E (some msg) decrypt ct now sender =
      match timeGate ct now ⟨frameType msg, frameTime msg, frameFlag msg⟩ with
      | .error e => ([], .error e)
      | .ok _ =>
        dwh E c ⟨frameType msg, frameTime msg, frameFlag msg⟩ (msg.drop hdrLen) decrypt sender := by
  have hl : ¬ msg.length ≤ hdrLen + sigLen := by simp [hdrLen, sigLen]; omega
  unfold deserialize
  simp only [if_neg hl]
  rw [deserializeHeader_frame msg h, if_pos ⟨h1, h2, by rw [h3]; rfl⟩]
  simp only [h3]
  cases timeGate ct now ⟨frameType msg, frameTime msg, frameFlag msg⟩ <;> rfl

theorem deserialize_badHeader (E : Env) (msg : Bytes) (decrypt : Bytes → Res Bytes) (ct : Bool)
    (now : Int) (sender : Option Bytes) (h : 76 < msg.length)
    (hb : ¬ (minTimestamp < frameTime msg ∧ frameTime msg < maxTimestamp ∧
      Registered (frameType msg))) :
    deserialize E (some msg) decrypt ct now sender = ([], .error .headerError) := by
  have hl : ¬ msg.length ≤ hdrLen + sigLen := by simp [hdrLen, sigLen]; omega
  unfold deserialize
  simp only [if_neg hl]
  rw [deserializeHeader_frame msg h, if_neg (by rw [ofType_isSome]; exact hb)]

end Verif
