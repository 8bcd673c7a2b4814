import Verif.Lemmas.Volume
import Verif.Lemmas.Toy
import Verif.Props.Ecies
/-! # C84: received messages hold no more than a multiple of their frame -/

set_option linter.unusedSimpArgs false

namespace Verif.Props

open Verif Spec

private theorem decrypt_length {X : EciesEnv} {data priv shared p : Bytes}
    (h : eciesDecrypt X data priv shared = .ok p) : p.length ≤ data.length := by
  unfold eciesDecrypt at h
  split at h
  · cases h
  split at h
  · cases h
  split at h
  · cases h
  split at h
  · cases h
  dsimp only at h
  split at h
  · cases h
  split at h
  · cases h
  split at h
  · cases h
  split at h
  · cases h
  split at h
  · cases h
  rename_i hl
  injection h with h
  subst h
  rw [Decidable.not_not.mp hl]
  simp only [List.length_drop, List.length_take]
  omega

private theorem volumeF_append : ∀ (as bs : Attrs), volumeF (as ++ bs) = volumeF as + volumeF bs
  | [], bs => by simp [volumeF]
  | (k, v) :: rest, bs => by
    simp only [List.cons_append, volumeF, volumeF_append rest bs]; omega

/-- C84: whatever arrives, and whoever sent it, the message that `load` returns - all its fields,
attachments at any depth, numbers, texts and defaults together - holds at most 17 times as much as
its frame has bytes: 16 is the largest number of fields that a container fills with defaults. -/
theorem load_volume {E : Env} {X : EciesEnv} {data : Bytes} {priv pub : Option Bytes} {ct : Bool}
    {now : Int} {m : Msg}
    (h : (load E (fun k c => eciesDecrypt X c k []) (some data) priv pub ct now).2 = .ok m) :
    volume m.val ≤ 17 * data.length := by
  obtain ⟨hlen, _, _, c, hct, _, p, version, hp, hver, hv, hparse, _⟩ := load_ok h
  obtain ⟨slots, hl, hcon, _⟩ := parsePayload_ok hparse
  obtain ⟨as, ha, hm⟩ := construct_ok hcon
  have h1 := volume_loadAttrs (volume_loadMsg E maxDepth) (alien_loads hl) ha
  have h2 := volume_loads hl
  have h3 : p.length + 76 ≤ data.length := by
    have hb : (frameBody (unversioned data)).length + 76 ≤ data.length := by
      have : (unversioned data).length ≤ data.length := by
        unfold unversioned; split
        · simp only [List.length_take]; omega
        · exact Nat.le_refl _
      unfold frameBody
      simp only [List.length_drop]; omega
    unfold Payload at hp
    split at hp
    · unfold loadDecrypt at hp
      split at hp
      · injection hp with hp; rw [← hp]; exact hb
      · have := decrypt_length hp; omega
    · rw [hp]; exact hb
  have h4 : (frameType data).log2 / 8 ≤ 2 := by
    unfold frameType
    rw [bigEndian_eq]
    refine Nat.le_trans (volume_ofBE _) ?_
    simp only [List.length_take]; omega
  have h5 : (frameTime data).log2 / 8 ≤ 8 := by
    unfold frameTime
    rw [bigEndian_eq]
    refine Nat.le_trans (volume_ofBE _) ?_
    simp only [List.length_take]; omega
  have h6 : (frameSig (unversioned data)).length ≤ 65 := by
    unfold frameSig
    simp only [List.length_take]; omega
  have h7 : volumeF (versionAttr version) ≤ 32 := by
    have hf : ∀ b, (fieldVersion b).length ≤ 31 := by
      intro b
      cases b with
      | nil => simp [fieldVersion]
      | cons n rest => simp only [fieldVersion, List.length_take]; omega
    have := hf (versionField data)
    rw [hver]
    split
    · simp only [versionAttr, volumeF, volume, asciiDecodeReplace, List.length_map]; omega
    · simp [versionAttr, volumeF]
  subst hm
  simp only [Msg.val, volume, volumeF_append, Int.natAbs_natCast]
  omega

/-- The factor is needed: forty empty file descriptions, a byte each, become objects with four
fields. -/
private def many : Bytes :=
  [15, 165] ++ [0, 0, 0, 0, 0x5a, 0, 0, 0, 0] ++ List.replicate 65 1 ++
    [0xa1, 0x65, 0x66, 0x69, 0x6c, 0x65, 0x73, 0x98, 40] ++ List.replicate 40 0xa0

example : many.length = 125 ∧
    ((load toyEnv (fun k c => eciesDecrypt toyX c k []) (some many) none none false 0).2.toOption.map
      fun m => volume m.val) = some 280 := by
  decide +kernel

end Verif.Props
