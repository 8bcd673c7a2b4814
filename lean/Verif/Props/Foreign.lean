import Verif.Spec.Foreign
import Verif.Props.Refusal
import Verif.Props.Errors
/-!
# C12, continued: exactly when `load` raises something that is no `MessageError`
-/

namespace Verif.Props

open Verif Spec

private theorem notHex_foreign {v : Val} {e : Exc} (h : NotHex v e) :
    e = .typeError ∨ e = .valueError ∨ e = .binasciiError := by
  cases h <;> simp

private theorem foreign_kind {E : Env} {m : Msg} {e : Exc} (h : Foreign E m e) :
    e ∈ [Exc.typeError, .overflowError, .attributeError, .valueError, .binasciiError] := by
  cases h with
  | key _ _ h => rcases notHex_foreign h with rfl | rfl | rfl <;> simp
  | requestor _ _ _ h => rcases notHex_foreign h with rfl | rfl | rfl <;> simp
  | _ => simp

/-- Whatever is blamed for a payload is a `FieldError` or a `MessageError`. -/
private theorem blames_message {E : Env} {c : Cls} {v : Val} {e : Exc} (hd : Data v) (h : Blames E c v e) :
    e.isMessageError = true := by
  obtain ⟨c', he, rfl⟩ := listed_cls c
  have := (construct_gives (h := ⟨0, 0, false⟩) (sig := []) (version := none) hd e).mpr h
  unfold construct at this
  cases hl : loadAttrs E (loadMsg E maxDepth) c'.cls v with
  | ok as => rw [hl] at this; cases this
  | error x =>
    rw [hl] at this
    injection this with this
    subst this
    unfold loadAttrs at hl
    generalize loadSlots E (loadMsg E maxDepth) c'.cls (dictOf v) c'.cls.payload = r at hl
    rcases r with y | y
    · cases y <;> simp [wrapLoad] at hl <;> subst hl <;> rfl
    · simp [wrapLoad] at hl

/-- C12: `load` raises an exception that is no `MessageError` exactly if its own version is no version and the
frame greets it with one, or the frame reads as a message that the check of its class cannot read; and
then it raises the exception of that reason. -/
theorem foreign_iff (E : Env) (dec : Bytes → Bytes → Res Bytes) (data : Bytes) (priv pub : Option Bytes)
    (ct : Bool) (now : Int) (e : Exc) :
    ((load E dec (some data) priv pub ct now).2 = .error e ∧ e.isMessageError = false) ↔
      (e = .valueError ∧ VersionlessGreeting E data ct now) ∨
      ∃ m, ReadsFrame E dec data priv pub ct now m ∧ Foreign E m e := by
  constructor
  · rintro ⟨h, hf⟩
    have no : ¬ e.isMessageError = true := by rw [hf]; simp
    have hr := (refused_iff E dec data priv pub ct now e).mp h
    cases hr with
    | short _ => cases hf
    | header _ _ => cases hf
    | old _ _ _ _ => cases hf
    | future _ _ _ _ => cases hf
    | version _ _ _ _ _ _ => cases hf
    | ownVersion he hh ht h0 ho hb => exact .inl ⟨rfl, _, he, hh, ht, h0, ho, hb⟩
    | cipher _ _ _ _ _ _ =>
      split at no
      · rename_i hx; exact absurd hx no
      · exact absurd rfl no
    | codec _ _ _ _ => cases hf
    | field _ _ _ hp hi hb =>
      exact absurd (blames_message (loads_data ((payload_grammar _ _).mpr ⟨_, _, hp, hi⟩)) hb) no
    | senderKey _ _ _ _ _ _ _ _ _ _ => cases hf
    | sender _ _ _ _ _ _ _ _ _ _ => cases hf
    | whole hm ho =>
      rename_i m
      refine .inr ⟨m, hm, ?_⟩
      have carried : m.cls ∈ checkedClasses → Carries E dec data priv pub ct now m :=
        fun hc => (read_iff_carried E dec data priv pub ct now m hc).mp hm
      cases ho with
      | paymentType a b c d => exact .paymentType a b c d
      | paymentHuge a b c => exact .paymentHuge a b c
      | payment _ _ _ _ _ => cases hf
      | rejection _ _ => cases hf
      | verdictGap a b => exact .verdictGap a b
      | verdictHalf _ _ _ _ => cases hf
      | verdict _ _ _ _ => cases hf
      | verdictUnequal a b c d =>
        have hca := carried (by rw [a]; decide)
        rw [load_carries hca] at h
        refine absurd (checks_err hca ⟨?_, ?_, ?_⟩ h) no
        · intro hc; rw [a] at hc; cases hc
        · exact fun _ => ⟨⟨_, b⟩, _, c⟩
        · intro hc; rw [a] at hc; cases hc
      | noOffer a b => exact .noOffer a b
      | key a b c => exact .key a b c
      | digest a b c d => exact absurd (offer_err (carried (by rw [a]; decide)) a b.1 b.2 d) no
      | keyLength _ _ _ _ _ => cases hf
      | unsigned _ _ _ _ _ _ => cases hf
      | noDefinition a b c => exact .noDefinition a b c
      | requestor a b c d => exact .requestor a b c d
      | taskId _ _ _ _ _ _ => cases hf
      | subtaskId _ _ _ _ _ _ _ _ => cases hf
  · rintro (⟨rfl, c, he, hh, ht, h0, ho, hb⟩ | ⟨m, hm, hf⟩)
    · exact ⟨(refused_iff E dec data priv pub ct now _).mpr (.ownVersion he hh ht h0 ho hb), rfl⟩
    · refine ⟨(refused_iff E dec data priv pub ct now _).mpr (.whole hm ?_), ?_⟩
      · cases hf with
        | paymentType a b c d => exact .paymentType a b c d
        | paymentHuge a b c => exact .paymentHuge a b c
        | verdictGap a b => exact .verdictGap a b
        | noOffer a b => exact .noOffer a b
        | key a b c => exact .key a b c
        | noDefinition a b c => exact .noDefinition a b c
        | requestor a b c d => exact .requestor a b c d
      · have := foreign_kind hf
        revert this
        cases e <;> simp [Exc.isMessageError]

/-- C12: and only five exceptions of Python can leave it. -/
theorem foreign_kinds (E : Env) (dec : Bytes → Bytes → Res Bytes) (data : Bytes) (priv pub : Option Bytes)
    (ct : Bool) (now : Int) (e : Exc) (h : (load E dec (some data) priv pub ct now).2 = .error e) :
    e.isMessageError = true ∨ e ∈ [Exc.typeError, .overflowError, .attributeError, .valueError, .binasciiError] := by
  cases hf : e.isMessageError with
  | true => exact .inl rfl
  | false =>
    rcases (foreign_iff E dec data priv pub ct now e).mp ⟨h, hf⟩ with ⟨rfl, _⟩ | ⟨m, _, hm⟩
    · simp
    · exact .inr (foreign_kind hm)

/-- A verdict without acknowledgement. -/
private def bareVerdict : Bytes :=
  ((packHeader 4004 (.int 1500000000) (.bool false)).toOption.getD [] ++ List.replicate 65 0) ++
    (dumps (.list [])).toOption.getD []

example : ∃ m, ReadsFrame toyEnv (fun _ d => .ok d) bareVerdict none none false 0 m ∧
    Foreign toyEnv m .attributeError := by
  rcases (foreign_iff toyEnv (fun _ d => .ok d) bareVerdict none none false 0 .attributeError).mp
    ⟨by decide +kernel, rfl⟩ with ⟨h, _⟩ | h
  · cases h
  · exact h

end Verif.Props
