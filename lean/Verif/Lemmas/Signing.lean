import Verif.Spec.Origin
/-! # What the digests of messages and task headers are made of -/

namespace Verif

open Spec

theorem digest_form {E : Env} {m : Msg} {p h : Bytes} (e : shortHashOf E m p = .ok h) :
    ∃ hd, dumps (.list [m.ty, m.ts]) = .ok hd ∧ h = E.sha1 (hd ++ p) ++ helloVersion m := by
  unfold shortHashOf hashInput at e
  split at e
  · cases e
  rename_i x hx
  split at hx
  · cases hx
  rename_i hd hhd
  injection hx with hx
  subst hx
  refine ⟨hd, hhd, ?_⟩
  unfold helloVersion
  split at e
  · rename_i hc
    rw [if_pos hc]
    split at e
    · rename_i v hv
      injection e with e
      rw [hv, ← e]
    · cases e
  · rename_i hc
    injection e with e
    rw [if_neg hc, ← e, List.append_nil]

theorem short_form {E : Env} {m : Msg} {h : Bytes} (e : shortHash E m = .ok h) :
    ∃ x t, (Signing.message m).Covers x t ∧ h = E.sha1 x ++ t := by
  unfold shortHash at e
  split at e
  · cases e
  rename_i s hs
  split at e
  · cases e
  rename_i p hp
  obtain ⟨hd, h1, h2⟩ := digest_form e
  exact ⟨_, _, ⟨hd, s, p, h1, hs, hp, rfl, rfl⟩, h2⟩

theorem header_form {E : Env} {fs : Attrs} {h : Bytes} (e : headerHash E fs = .ok h) :
    ∃ x t, (Signing.header fs).Covers x t ∧ h = E.sha1 x ++ t := by
  unfold headerHash at e
  split at e
  · cases e
  rename_i d hd
  split at e
  · cases e
  rename_i b hb
  injection e with e
  exact ⟨b, [], ⟨d, hd, hb, rfl⟩, by rw [List.append_nil, e]⟩

end Verif
