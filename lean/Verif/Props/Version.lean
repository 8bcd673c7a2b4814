import Verif.Lemmas.Version
/-!
# C22: version compatibility

`verify_version` (`message/base.py:56-79`).  The grammar and the text of versions are
those of `Spec.Version`; our own version is any well-formed one.
-/

set_option linter.unusedSimpArgs false

namespace Verif.Props

open Verif Spec

/-- The parser reads exactly the texts of well-formed versions, optionally followed by
one newline. -/
theorem version_grammar (s : PStr) (v : Ver) :
    parseVersion s = some ⟨v.major, v.minor, v.patch, v.pre, v.build⟩ ↔
      v.Wf ∧ (v.Said s ∨ ∃ t, s = t ++ ['\n'] ∧ v.Said t) := by
  constructor
  · intro h
    obtain ⟨hw, ht⟩ := parse_sound h
    refine ⟨hw, ?_⟩
    have ht' : v.Said (stripNl s) := ht
    unfold stripNl at ht'
    split at ht'
    · right
      rename_i hl
      have hne : s ≠ [] := by rintro rfl; simp at hl
      have hl' : s.getLast hne = '\n' := by
        rw [List.getLast?_eq_some_getLast hne] at hl; injection hl
      have hd := List.dropLast_concat_getLast hne
      rw [hl'] at hd
      exact ⟨_, hd.symm, ht'⟩
    · left; exact ht'
  · rintro ⟨hw, hs | ⟨t, rfl, hs⟩⟩
    · exact parse_said hw hs
    · exact parse_core v hw _ (by rw [stripNl_nl]; exact hs)

/-- The text of a version says it, no other version, and it is the only ASCII text that does. -/
theorem version_text_said (v w : Ver) (s : PStr) (hv : v.Wf) (hw : w.Wf) :
    v.Said v.text ∧ (v.Said s → w.Said s → v = w) ∧
    (v.Said s → (∀ c ∈ s, c.toNat < 127) → s = v.text) := by
  refine ⟨text_said v, fun h1 h2 => ?_, said_ascii⟩
  have e := parse_said hv h1
  rw [parse_said hw h2] at e
  injection e with e
  injection e with e1 e2 e3 e4 e5
  cases v; cases w
  simp only at e1 e2 e3 e4 e5
  subst e1 e2 e3 e4 e5
  rfl

/-- `verify_version` with our version `o` accepts a text exactly if it is that of a
version with our major and minor number that is not a pre-release of the `.0` release
(optionally followed by a newline) — unless we are ourselves such a pre-release, in which
case it accepts nothing.  Everything else is a `VersionMismatchError`. -/
theorem verify_version_decision (o : Ver) (ho : o.Wf) (s : PStr) :
    (verifyVersion o.text s = .ok () ↔
      ¬ (o.patch = 0 ∧ o.pre ≠ []) ∧
      ∃ t : Ver, t.Wf ∧ (t.Said s ∨ ∃ r, s = r ++ ['\n'] ∧ t.Said r) ∧
        t.major = o.major ∧ t.minor = o.minor ∧ ¬ (t.patch = 0 ∧ t.pre ≠ [])) ∧
    (verifyVersion o.text s ≠ .ok () → verifyVersion o.text s = .error .versionMismatch) := by
  have ho' := parse_text o ho
  unfold verifyVersion
  cases ht : parseVersion s with
  | none =>
    refine ⟨Iff.intro (fun h => by cases h) ?_, fun _ => rfl⟩
    rintro ⟨_, t, hw, hs, _⟩
    have := (version_grammar s t).mpr ⟨hw, hs⟩
    rw [ht] at this; cases this
  | some t =>
    obtain ⟨hw, hs⟩ := (version_grammar s t.ver).mp ht
    simp only
    rw [ho']
    simp only
    refine ⟨?_, ?_⟩
    · have key : (t.geRelease (o.major, o.minor, 0)
          && t.ltRelease (Version.nextMinor ⟨o.major, o.minor, o.patch, o.pre, o.build⟩)) = true ↔
          ¬ (o.patch = 0 ∧ o.pre ≠ []) ∧ t.major = o.major ∧ t.minor = o.minor ∧
          ¬ (t.patch = 0 ∧ t.pre ≠ []) := by
        cases hp : o.pre <;> cases htp : t.pre <;>
        by_cases h0 : o.patch = 0 <;> by_cases hm : t.patch = 0 <;>
        by_cases m1 : t.major = o.major <;> by_cases m2 : t.minor = o.minor <;>
        simp [Version.geRelease, Version.ltRelease, Version.nextMinor, tripleLt, Version.triple,
          htp, h0, hm, m1, m2, eq_comm (a := o.major), eq_comm (a := o.minor)] <;>
        (try intro hlt; try replace hlt := of_decide_eq_true hlt) <;> try omega
      constructor
      · intro h
        split at h
        · rename_i hk
          obtain ⟨a, b, c, d⟩ := key.mp hk
          exact ⟨a, t.ver, hw, hs, b, c, d⟩
        · cases h
      · rintro ⟨a, t', hw', hs', b, c, d⟩
        have := (version_grammar s t').mpr ⟨hw', hs'⟩
        rw [ht] at this
        injection this with this
        subst this
        rw [if_pos (key.mpr ⟨a, b, c, d⟩)]
    · intro h
      split
      · rename_i hk; rw [if_pos hk] at h; exact absurd rfl h
      · rfl

/-- Refutation of the unrestricted claim: an alpha of a `.0` release refuses its own
version, although major and minor number agree. -/
theorem version_rejects_itself :
    ∃ o : Ver, o.Wf ∧ verifyVersion o.text o.text = .error .versionMismatch := by
  have hw : Ver.Wf ⟨2, 17, 0, [p!"alpha"], []⟩ := by
    constructor
    · intro i hi
      simp at hi
      subst hi
      refine ⟨by simp, by simp [IdChar], ?_⟩
      rintro ⟨_, r, h, _⟩
      cases h
    · simp
  refine ⟨_, hw, (verify_version_decision _ hw _).2 ?_⟩
  intro h
  exact ((verify_version_decision _ hw _).1.mp h).1 ⟨rfl, by simp⟩

/-- Non-vacuity: `2.17.1` accepts `2.17.3-rc.1+x5` and refuses `2.18.0`. -/
example : verifyVersion p!"2.17.1" p!"2.17.3-rc.1+x5" = .ok () ∧
    verifyVersion p!"2.17.1" p!"2.18.0" = .error .versionMismatch ∧
    verifyVersion p!"2.17.1" p!"2.17.0-rc" = .error .versionMismatch ∧
    verifyVersion p!"2.17.1" p!"2.017.0" = .error .versionMismatch := by decide +kernel

/-- The digits of other scripts are taken too, and a zero of theirs may lead. -/
example : verifyVersion p!"2.17.1" p!"٢.٠١٧.३" = .ok () := by decide +kernel

example : Ver.text ⟨2, 17, 3, [p!"rc", p!"1"], [p!"x5"]⟩ = p!"2.17.3-rc.1+x5" := by
  simp [Ver.text, decimal, digit, dotted]

end Verif.Props
