import Verif.Spec.Errors
import Verif.Lemmas.Errors
import Verif.Lemmas.Raw
import Verif.Lemmas.Toy
import Verif.Props.Hex
import Verif.Props.Version
/-!
# C12: the exceptions `load` raises
-/

set_option linter.unusedSimpArgs false

namespace Verif.Props

open Verif Spec

private theorem hex_ok {v : Val} (h : HexField v) : ∃ b, decodeHex v = .ok b := by
  obtain ⟨b, ⟨s, rfl, h⟩ | ⟨bs, rfl, h⟩⟩ := h
  · exact ⟨b, (decode_hex_decision s b).1.mpr h⟩
  · refine ⟨b, ?_⟩
    have h1 := (decode_hex_decision _ b).1.mpr h
    simp only [decodeHex] at h1 ⊢
    split at h1
    · exact h1
    · cases h1

private theorem fieldError_isMessage {e : Exc} (h : e.isFieldError = true) : e.isMessageError = true := by
  cases e <;> first | rfl | cases h

private theorem hashInput_err {ty ts : Val} {p : Bytes} {e : Exc} (h : hashInput ty ts p = .error e) :
    e.isMessageError = true := by
  unfold hashInput at h
  split at h
  · rename_i e' he
    unfold dumps at he
    split at he
    · cases he
    · injection h with h; injection he with he; subst he h; rfl
  · cases h

private theorem shortHashOf_err {E : Env} {m : Msg} {p : Bytes} {e : Exc}
    (hv : m.cls = .Hello → ∃ v, getAttr m.attrs p!"_version" = .str v)
    (h : shortHashOf E m p = .error e) : e.isMessageError = true := by
  unfold shortHashOf at h
  split at h
  · rename_i e' he
    injection h with h; subst h
    exact hashInput_err he
  · split at h
    · rename_i hc
      obtain ⟨v, hv⟩ := hv hc
      rw [hv] at h; cases h
    · cases h

private theorem ecdsa_err {E : Env} {k h : Bytes} {s : Val} {e : Exc}
    (he : E.ecdsaVerify k s h = .error e) : e.isMessageError = true := by
  unfold Env.ecdsaVerify at he
  repeat' split at he
  all_goals cases he
  all_goals rfl

private theorem loadAttrs_err {E : Env} {rec : Loader} {c : Cls} {slots : Val} {e : Exc}
    (h : loadAttrs E rec c slots = .error e) : e.isMessageError = true := by
  unfold loadAttrs at h
  split at h
  · rename_i e' he
    unfold wrapLoad at he
    injection h with h; subst h
    split at he <;> cases he <;> rfl
  · cases h

private theorem parsePayload_err {E : Env} {c : Cls} {h : Header} {sig : Bytes} {version : Option PStr}
    {sender : Option Bytes} {payload : Bytes} {e : Exc} (hv : c = .Hello → version ≠ none)
    (he : parsePayload E c h sig version sender payload = .error e) : e.isMessageError = true := by
  unfold parsePayload at he
  split at he
  · rename_i e' hl
    injection he with he; subst he
    unfold loads at hl
    split at hl <;> cases hl
    rfl
  · rename_i slots hl
    split at he
    · rename_i e' hc
      injection he with he; subst he
      unfold construct at hc
      split at hc
      · rename_i e' ha; injection hc with hc; subst hc; exact loadAttrs_err ha
      · cases hc
    · rename_i m hc
      split at he
      · cases he
      · split at he
        · rename_i e' hs
          injection he with he; subst he
          refine shortHashOf_err ?_ hs
          intro hh
          obtain ⟨as, ha, hm⟩ := construct_ok hc
          have hcc : c = .Hello := by rw [hm] at hh; exact hh
          cases hve : version with
          | none => exact absurd hve (hv hcc)
          | some v =>
            subst hve
            rw [hm]
            exact ⟨v, version_attr v ha⟩
        · split at he
          · rename_i e' hx
            injection he with he; subst he
            exact ecdsa_err hx
          · cases he

private theorem dwhBase_err {E : Env} {c : Cls} {h : Header} {d : Bytes} {decrypt : Bytes → Res Bytes}
    {sender : Option Bytes} {version : Option PStr} {e : Exc} (hv : c = .Hello → version ≠ none)
    (he : (dwhBase E c h d decrypt sender version).2 = .error e) : e.isMessageError = true := by
  unfold dwhBase Logged.andThen at he
  simp only at he
  split at he
  · rename_i e' hx
    injection he with he; subst he
    unfold decryptStep at hx
    split at hx
    · simp only at hx
      split at hx
      · cases hx
      · split at hx
        · rename_i hm; injection hx with hx; subst hx; exact hm
        · injection hx with hx; subst hx; rfl
    · cases hx
  · exact parsePayload_err hv he

private theorem attrOf_path {v : Val} {name : PStr} {path : List PStr} {t : Val}
    (h : At v (name :: path) t) : ∃ w, attrOf v name = .ok w ∧ At w path t := by
  cases h with
  | step h => exact ⟨_, rfl, h⟩

private theorem slots_err {E : Env} {c : Cls} {slots : Val} {as : Attrs} {n : Nat} {m : Msg} {e : Exc}
    (ha : loadAttrs E (loadMsg E n) c slots = .ok as) (hc : m.cls = c) (hm : m.attrs = as)
    (h : m.slots = .error e) : e.isMessageError = true := by
  unfold Msg.slots at h
  rw [hc, hm] at h
  split at h
  · rename_i e' he
    injection h with h; subst h
    exact fieldError_isMessage (loaded_fieldOnly E _ _ _ _ _ ha he)
  · cases h

private theorem shortHash_err {E : Env} {c : Cls} {slots : Val} {as : Attrs} {n : Nat} {m : Msg} {e : Exc}
    (ha : loadAttrs E (loadMsg E n) c slots = .ok as) (hc : m.cls = c) (hm : m.attrs = as)
    (hne : c ≠ .Hello) (h : shortHash E m = .error e) : e.isMessageError = true := by
  unfold shortHash at h
  split at h
  · rename_i e' he; injection h with h; subst h; exact slots_err ha hc hm he
  · split at h
    · rename_i e' he
      injection h with h; subst h
      unfold dumps at he
      split at he <;> cases he
      rfl
    · exact shortHashOf_err (fun hh => absurd (hc ▸ hh) hne) h

/-- Attributes that come from loading some slots. -/
private def LoadedAttrs (E : Env) (c : Cls) (as : Attrs) : Prop :=
  ∃ n slots, loadAttrs E (loadMsg E n) c slots = .ok as

private theorem eq_err {E : Env} {a b : Msg} {e : Exc} (ha : LoadedAttrs E a.cls a.attrs)
    (hb : LoadedAttrs E b.cls b.attrs) (h : a.eq b = .error e) : e.isMessageError = true := by
  obtain ⟨n, s, ha⟩ := ha
  obtain ⟨n', s', hb⟩ := hb
  unfold Msg.eq at h
  repeat (split at h; · cases h)
  split at h
  · rename_i e' he; injection h with h; subst h; exact slots_err ha rfl rfl he
  · split at h
    · rename_i e' he; injection h with h; subst h; exact slots_err hb rfl rfl he
    · cases h

private theorem valEq_err {E : Env} {a b : Val} {e : Exc}
    (ha : Everywhere (LoadedAttrs E) a ∨ a = .none)
    (hb : Everywhere (LoadedAttrs E) b ∨ b = .none) (h : valEq a b = .error e) :
    e.isMessageError = true := by
  rcases ha with ha | rfl
  · rcases hb with hb | rfl
    · cases ha; cases hb
      rename_i h1 _ _ _ _ _ _ _ h2 _
      exact eq_err (a := ⟨_, _, _, _, _, _⟩) (b := ⟨_, _, _, _, _, _⟩) h1 h2 h
    · cases ha; cases h
  · unfold valEq at h
    split at h
    · rename_i heq; cases heq
    · cases h

private theorem verdict_err {E : Env} {m : Msg} {e : Exc} (hc : m.cls = .VerdictReportComputedTask)
    (hev : Everywhere (LoadedAttrs E) m.val)
    (h1 : ∃ t, At m.val [p!"ack_report_computed_task", p!"report_computed_task", p!"task_to_compute"] t)
    (h2 : ∃ t, At m.val [p!"force_report_computed_task", p!"report_computed_task", p!"task_to_compute"] t)
    (h : verdictValid m = .error e) : e.isMessageError = true := by
  have path : ∀ (name : PStr) (c' : Cls), (name, { cls := c' : SlotDef }) ∈ m.cls.msgSlots →
      (p!"report_computed_task", { cls := .ReportComputedTask : SlotDef }) ∈ c'.msgSlots →
      (∃ t, At m.val [name, p!"report_computed_task", p!"task_to_compute"] t) →
      ∃ r t, attrOf (getAttr m.attrs name) p!"report_computed_task" = .ok r ∧
        attrOf r p!"task_to_compute" = .ok t ∧ (Everywhere (LoadedAttrs E) t ∨ t = .none) := by
    rintro name c' hs1 hs2 ⟨t, ht⟩
    unfold Msg.val at ht hev
    obtain ⟨w, hw, ht⟩ := attrOf_path ht
    simp only [attrOf, Except.ok.injEq] at hw
    subst hw
    obtain ⟨r, hr, ht⟩ := attrOf_path ht
    obtain ⟨t', ht', ht⟩ := attrOf_path ht
    refine ⟨r, t', hr, ht', ?_⟩
    cases hev with | mk _ _ _ _ _ _ here nested =>
    obtain ⟨_, _, here⟩ := here
    rcases typed_single (loadAttrs_slotsTyped here) hs1 rfl with e1 | ⟨ty1, ts1, en1, sg1, as1, e1⟩
    · rw [e1] at hr; cases hr
    have n1 := nested name _ (.msg c' ty1 ts1 en1 sg1 as1) hs1 (by rw [e1]; simp [members])
    rw [e1] at hr
    simp only [attrOf, Except.ok.injEq] at hr
    cases n1 with | mk _ _ _ _ _ _ here1 nested1 =>
    obtain ⟨_, _, here1⟩ := here1
    rcases typed_single (loadAttrs_slotsTyped here1) hs2 rfl with e2 | ⟨ty2, ts2, en2, sg2, as2, e2⟩
    · rw [← hr, e2] at ht'; cases ht'
    have n2 := nested1 p!"report_computed_task" _ (.msg .ReportComputedTask ty2 ts2 en2 sg2 as2) hs2
      (by rw [e2]; simp [members])
    rw [← hr, e2] at ht'
    simp only [attrOf, Except.ok.injEq] at ht'
    cases n2 with | mk _ _ _ _ _ _ here2 nested2 =>
    obtain ⟨_, _, here2⟩ := here2
    have hs3 : (p!"task_to_compute", { cls := .TaskToCompute : SlotDef }) ∈
      Cls.msgSlots .ReportComputedTask := by decide
    rcases typed_single (loadAttrs_slotsTyped here2) hs3 rfl with e3 | ⟨ty3, ts3, en3, sg3, as3, e3⟩
    · right; rw [← ht', e3]
    · left
      rw [← ht', e3]
      exact nested2 _ _ _ hs3 (by rw [e3]; simp [members])
  obtain ⟨r1, t1, hr1, ht1, q1⟩ := path _ .AckReportComputedTask (by rw [hc]; decide) (by decide) h1
  obtain ⟨r2, t2, hr2, ht2, q2⟩ := path _ .ForceReportComputedTask (by rw [hc]; decide) (by decide) h2
  unfold verdictValid at h
  rw [hr1] at h
  dsimp only at h
  rw [ht1] at h
  dsimp only at h
  rw [hr2] at h
  dsimp only at h
  rw [ht2] at h
  dsimp only at h
  split at h
  · rename_i e' he
    injection h with h; subst h
    exact valEq_err q2 q1 he
  · cases h
  · injection h with h; subst h; rfl

private theorem ids_err {m : Msg} {key : PStr} {e : Exc}
    (ht : ∃ d s, (getAttr m.attrs p!"compute_task_def").asDict = some d ∧
      dictGet (.str key) d = some (.str s))
    (hh : HexField (getAttr m.attrs p!"requestor_id"))
    (h : validateTaskIdKey m key = .error e) : e.isMessageError = true := by
  obtain ⟨d, s, hd, hs⟩ := ht
  obtain ⟨b, hb⟩ := hex_ok hh
  unfold validateTaskIdKey at h
  rw [hd] at h
  dsimp only at h
  rw [hs] at h
  dsimp only at h
  unfold checkIdHexSeed at h
  rw [hb] at h
  simp only [checkIdSeed] at h
  split at h
  · rename_i he; cases he
  · cases h
  · injection h with h; subst h; rfl

/-- The checks of a class applied to a message they can read raise only `MessageError`s. -/
theorem checks_err {E : Env} {dec : Bytes → Bytes → Res Bytes} {data : Bytes}
    {priv pub : Option Bytes} {ct : Bool} {now : Int} {m : Msg} {e : Exc}
    (h : Carries E dec data priv pub ct now m) (hr : Readable m)
    (he : taskChecks E m = .error e) : e.isMessageError = true := by
  have hev : Everywhere (LoadedAttrs E) m.val :=
    carries_everywhere (fun n c slots as ha => ⟨n, slots, ha⟩) h
  obtain ⟨hty, hts, _, _, slots, ha⟩ := carries_header h
  obtain ⟨r1, r2, r3⟩ := hr
  unfold taskChecks at he
  split at he
  · split at he
    · rename_i e' hv
      injection he with he; subst he
      unfold isValid at hv
      split at hv
      · rename_i hc
        rw [hts] at hv
        dsimp only at hv
        unfold paymentValid at hv
        split at hv
        · rename_i i hi
          split at hv
          · injection hv with hv; subst hv; rfl
          split at hv
          · rename_i hov
            rcases r1 hc with ⟨b, hb⟩ | ⟨f, hf⟩ | ⟨j, hj, hlt⟩
            · rw [hb] at hi
              exfalso
              cases b <;> simp [Val.structInt] at hi <;> subst hi <;>
                exact absurd hov (by decide +kernel)
            · rw [hf] at hi; cases hi
            · rw [hj] at hi
              simp only [Val.structInt, Option.some.injEq] at hi
              rw [← hi] at hov
              exfalso
              unfold intOverflowsFloat at hov
              exact Nat.not_lt.mpr (of_decide_eq_true hov) hlt
          split at hv
          · injection hv with hv; subst hv; rfl
          · cases hv
        · rename_i hi
          rcases r1 hc with ⟨b, hb⟩ | ⟨f, hf⟩ | ⟨j, hj, _⟩
          · rw [hb] at hi; cases hi
          · rw [hf] at hv
            dsimp only at hv
            repeat' split at hv
            all_goals cases hv
            all_goals rfl
          · rw [hj] at hi; cases hi
      · unfold rejectedValid at hv
        dsimp only at hv
        repeat' split at hv
        all_goals cases hv
        all_goals rfl
      · rename_i hc
        exact verdict_err hc hev (r2 hc).1 (r2 hc).2 hv
      · cases hv
    · split at he
      · rename_i hc
        obtain ⟨q1, q2, q3, q4⟩ := r3 hc
        split at he
        · rename_i e' hv
          injection he with he; subst he
          unfold verifyEthsig at hv
          have hs : (p!"want_to_compute_task", { cls := .WantToComputeTask : SlotDef }) ∈ m.cls.msgSlots := by
            rw [hc]; decide
          unfold Msg.val at hev
          cases hev with | mk _ _ _ _ _ _ here nested =>
          rcases typed_single (loadAttrs_slotsTyped ha) hs rfl with e1 | ⟨ty, ts, en, sg, as, e1⟩
          · exact absurd e1 q1
          have n1 := nested _ _ (.msg .WantToComputeTask ty ts en sg as) hs (by rw [e1]; simp [members])
          obtain ⟨b, hb⟩ := hex_ok q3
          rw [e1] at hv
          simp only [Val.asMsg] at hv
          rw [hb] at hv
          dsimp only at hv
          cases n1 with | mk _ _ _ _ _ _ here1 nested1 =>
          obtain ⟨n, sl, ha1⟩ := here1
          unfold verifySigWith at hv
          split at hv
          · rename_i e' hx
            injection hv with hv; subst hv
            exact shortHash_err ha1 rfl rfl (by decide) hx
          · exact ecdsa_err hv
        · split at he
          · rename_i e' hv
            injection he with he; subst he
            unfold validateTaskId at hv
            split at hv
            · rename_i e' hx
              injection hv with hv; subst hv
              exact ids_err (carries_ids h hc q2 (Or.inl rfl)) q4 hx
            · exact ids_err (carries_ids h hc q2 (Or.inr rfl)) q4 hv
          · cases he
      · cases he
  · cases he

/-- The digest of the offer of a carried task raises only `MessageError`s. -/
theorem offer_err {E : Env} {dec : Bytes → Bytes → Res Bytes} {data : Bytes}
    {priv pub : Option Bytes} {ct : Bool} {now : Int} {m w : Msg} {e : Exc}
    (h : Carries E dec data priv pub ct now m) (hc : m.cls = .TaskToCompute) (hw : w.cls = .WantToComputeTask)
    (ho : getAttr m.attrs p!"want_to_compute_task" = w.val) (he : shortHash E w = .error e) :
    e.isMessageError = true := by
  have hev : Everywhere (LoadedAttrs E) m.val :=
    carries_everywhere (fun n c slots as ha => ⟨n, slots, ha⟩) h
  have hs : (p!"want_to_compute_task", { cls := .WantToComputeTask : SlotDef }) ∈ m.cls.msgSlots := by
    rw [hc]; decide
  unfold Msg.val at hev
  cases hev with | mk _ _ _ _ _ _ here nested =>
  have n1 := nested _ _ w.val hs (by rw [ho]; simp [members, Msg.val])
  unfold Msg.val at n1
  cases n1 with | mk _ _ _ _ _ _ here1 nested1 =>
  obtain ⟨n, sl, ha1⟩ := here1
  exact shortHash_err ha1 rfl rfl (by rw [hw]; decide) he

/-- C12: whatever is given to `load`, an exception is a `MessageError`, unless the frame
carries a message whose own class's checks cannot read their fields.  Partial: in that case the
claim is false, see the `refuted` theorems below.  (The library's own version is assumed to be
a version.) -/
theorem load_errors_partial (E : Env) (dec : Bytes → Bytes → Res Bytes) (data : Option Bytes)
    (priv pub : Option Bytes) (ct : Bool) (now : Int) (own : Ver) (hw : own.Wf)
    (hown : E.version = own.text) (e : Exc)
    (h : (load E dec data priv pub ct now).2 = .error e) :
    e.isMessageError = true ∨
      ∃ d m, data = some d ∧ Carries E dec d priv pub ct now m ∧ ¬ Readable m := by
  cases data with
  | none =>
    unfold load deserialize at h
    injection h with h; subst h; exact Or.inl rfl
  | some data =>
    by_cases hl : 76 < data.length
    · by_cases hb : minTimestamp < frameTime data ∧ frameTime data < maxTimestamp ∧
          Registered (frameType data)
      · obtain ⟨h1, h2, c, hc⟩ := hb
        have h3 : Cls.ofType (frameType data) = some c := by rw [← hc]; exact ofType_typeId c
        have h0 := h
        unfold load at h
        rw [deserialize_frame E data _ ct now pub hl c h1 h2 h3] at h
        cases ht : timeGate ct now ⟨frameType data, frameTime data, frameFlag data⟩ with
        | error e' =>
          rw [ht] at h
          injection h with h; subst h
          left
          unfold timeGate verifyTime at ht
          repeat' split at ht
          all_goals cases ht
          all_goals rfl
        | ok u =>
          rw [ht] at h
          simp only at h
          unfold dwh at h
          by_cases hh : c = .Hello
          · rw [if_pos hh] at h
            left
            split at h
            · injection h with h; subst h; rfl
            · split at h
              · rename_i raw _ e' hv
                injection h with h; subst h
                rw [hown] at hv
                rw [(verify_version_decision own hw _).2 (by rw [hv]; simp)] at hv
                injection hv with hv; subst hv; rfl
              · exact dwhBase_err (fun _ => by simp) h
          · rw [if_neg hh] at h
            simp only [Logged.andThen] at h
            split at h
            · rename_i e' hx
              injection h with h; subst h
              exact Or.inl (dwhBase_err (fun e => absurd e hh) hx)
            · rename_i m hx
              have hca : Carries E dec data priv pub ct now m := by
                have ht0 : frameType data ≠ 0 := by rw [← hc]; exact typeId_ne_hello hh
                have hu : unversioned data = data := by unfold unversioned; rw [if_neg ht0]
                have hparse : ∃ payload, Payload (loadDecrypt dec priv) data payload ∧
                    parsePayload E c ⟨frameType data, frameTime data, frameFlag data⟩ (frameSig data)
                      none pub payload = .ok m := by
                  unfold dwhBase Logged.andThen at hx
                  unfold decryptStep at hx
                  unfold Payload
                  rw [hu]
                  have e1 : (data.drop hdrLen).drop sigLen = frameBody data := by
                    simp [frameBody, hdrLen, sigLen]
                  have e2 : (data.drop hdrLen).take sigLen = frameSig data := by
                    simp [frameSig, hdrLen, sigLen]
                  rw [e1, e2] at hx
                  cases hf : frameFlag data with
                  | true =>
                    simp only [hf, if_true] at hx ⊢
                    cases hy : loadDecrypt dec priv (frameBody data) with
                    | error e =>
                      rw [hy] at hx
                      simp only at hx
                      split at hx <;> rename_i hz
                      · cases hx
                      · split at hz <;> cases hz
                    | ok p =>
                      rw [hy] at hx
                      exact ⟨p, rfl, hx⟩
                  | false =>
                    simp only [hf, Bool.false_eq_true, if_false] at hx ⊢
                    exact ⟨_, rfl, hx⟩
                obtain ⟨p, hp, hparse⟩ := hparse
                have hcls := parsePayload_cls hparse
                subst hcls
                exact ⟨hl, h1, h2, hh, hc, ht, p, hp, hparse⟩
              by_cases hr : Readable m
              · exact Or.inl (checks_err hca hr h)
              · exact Or.inr ⟨data, m, rfl, hca, hr⟩
      · unfold load at h
        rw [deserialize_badHeader _ _ _ _ _ _ hl hb] at h
        injection h with h; subst h; exact Or.inl rfl
    · unfold load deserialize at h
      simp only at h
      rw [if_pos (by simp [hdrLen, sigLen]; omega)] at h
      injection h with h; subst h; exact Or.inl rfl

/-- C12 holds without exception for frames of all other types. -/
theorem load_errors (E : Env) (dec : Bytes → Bytes → Res Bytes) (data : Bytes)
    (priv pub : Option Bytes) (ct : Bool) (now : Int) (own : Ver) (hw : own.Wf)
    (hown : E.version = own.text) (e : Exc)
    (h : (load E dec (some data) priv pub ct now).2 = .error e)
    (h1 : frameType data ≠ Cls.typeId .SubtaskResultsAccepted)
    (h2 : frameType data ≠ Cls.typeId .VerdictReportComputedTask)
    (h3 : frameType data ≠ Cls.typeId .TaskToCompute) : e.isMessageError = true := by
  rcases load_errors_partial E dec (some data) priv pub ct now own hw hown e h with h | ⟨d, m, hd, hca, hr⟩
  · exact h
  · injection hd with hd; subst hd
    exfalso
    obtain ⟨_, _, _, _, hc, _⟩ := hca
    refine hr ⟨fun e => ?_, fun e => ?_, fun e => ?_⟩ <;> rw [e] at hc
    · exact absurd hc.symm h1
    · exact absurd hc.symm h2
    · exact absurd hc.symm h3

/-- `slots()` of a loaded message raises nothing but `FieldError`; so does the digest of a
nested message up to the codec. -/
theorem loaded_slots_errors (E : Env) (dec : Bytes → Bytes → Res Bytes) (data : Bytes)
    (priv pub : Option Bytes) (ct : Bool) (now : Int) (m : Msg) (e : Exc)
    (h : (load E dec (some data) priv pub ct now).2 = .ok m) (he : m.slots = .error e) :
    e.isFieldError = true := by
  obtain ⟨p, slots, as, _, _, ha, hm⟩ := load_construct h
  have hser : ∀ o, serAttrs m.cls (as ++ versionAttr o) = serAttrs m.cls as := by
    intro o
    cases o with
    | none => simp [versionAttr]
    | some v =>
      have hv : m.cls.validSlot p!"_version" = false := by
        cases hx : m.cls.validSlot p!"_version" with
        | false => rfl
        | true => exact absurd (List.contains_iff_mem.mp hx) (payload_no_version m.cls)
      clear ha hm
      induction as with
      | nil => simp [versionAttr, serAttrs, hv]
      | cons kv rest ih =>
        obtain ⟨k, x⟩ := kv
        rw [List.cons_append]
        unfold serAttrs
        rw [ih]
  unfold Msg.slots at he
  rw [hm, hser] at he
  split at he
  · rename_i e' hx
    injection he with he; subst he
    exact loaded_fieldOnly E _ _ _ _ _ ha hx
  · cases he

/-! ### Frames of the three classes -/

/-- A frame with the given class, time and payload (flag 0, signature of zeros). -/
private def frame (c : Cls) (ts : Nat) (slots : Val) : Bytes :=
  ((packHeader c.typeId (.int ts) (.bool false)).toOption.getD [] ++ List.replicate 65 0) ++
    (dumps slots).toOption.getD []

private def ld (data : Bytes) : Res Msg :=
  (load toyEnv (fun _ d => .ok d) (some data) none none false 0).2

private def nest (c : Cls) (slots : List Val) : Val :=
  .list [.bool false, .list [.list [.int c.typeId, .int 1500000000, .bool false], .bytes [], .list slots]]

/-- C12 refuted: a `VerdictReportComputedTask` without acknowledgement, or whose
acknowledgement has no report, ends in an `AttributeError`. -/
theorem verdict_error_refuted :
    ld (frame .VerdictReportComputedTask 1500000000 (.list [])) = .error .attributeError ∧
    ld (frame .VerdictReportComputedTask 1500000000 (.list [.list [.str p!"ack_report_computed_task",
      nest .AckReportComputedTask []]])) = .error .attributeError := by
  decide +kernel

private def ttc (slots : List Val) : Bytes := frame .TaskToCompute 1500000000 (.list slots)

private def offer : Msg :=
  ⟨.WantToComputeTask, .int 2001, .int 1500000000, .bool false, .bytes [],
    Cls.WantToComputeTask.payload.map fun n => (n, if n = p!"num_subtasks" then .int 1 else
      if n = p!"concent_enabled" then .bool false else .none)⟩

private def ethsig : Val :=
  .bytes ((toyEnv.sign (List.replicate 32 7)
    (toyEnv.sha3 ((shortHash toyEnv offer).toOption.getD []))).toOption.getD [])

private def wtct : Val := .list [.str p!"want_to_compute_task", nest .WantToComputeTask []]

private def key : Val :=
  .list [.str p!"requestor_ethereum_public_key", .str (hexlify (List.replicate 64 7))]

/-- C12 refuted: a `TaskToCompute` without offer ends in an `AttributeError`, without ethereum
key in a `TypeError`, with a key that is not hexadecimal in a `binascii.Error`; correctly
signed but without task definition in a `TypeError`, with a requestor id that is not
hexadecimal in a `binascii.Error`. -/
theorem ttc_error_refuted :
    ld (ttc []) = .error .attributeError ∧
    ld (ttc [wtct]) = .error .typeError ∧
    ld (ttc [wtct, .list [.str p!"requestor_ethereum_public_key", .str p!"xy"]]) =
      .error .binasciiError ∧
    ld (ttc [wtct, key, .list [.str p!"ethsig", ethsig]]) = .error .typeError ∧
    ld (ttc [wtct, key, .list [.str p!"ethsig", ethsig],
      .list [.str p!"compute_task_def", .dict []], .list [.str p!"requestor_id", .str p!"xy"]]) =
      .error .binasciiError := by
  decide +kernel

/-- A frame that meets all conditions and still is refused, with a `MessageError`: the ids do
not match the requestor. -/
example : ld (ttc [wtct, key, .list [.str p!"ethsig", ethsig],
      .list [.str p!"compute_task_def", .dict []],
      .list [.str p!"requestor_id", .str (hexlify (List.replicate 64 9))]]) =
    .error (.fieldError p!"task_id") := by decide +kernel

/-- The version assumption holds of the toy environment. -/
example : ∃ own : Ver, own.Wf ∧ toyEnv.version = own.text :=
  ⟨⟨1, 2, 3, [], []⟩, ⟨by simp, by simp⟩, by simp [toyEnv, Ver.text, decimal, digit]⟩

end Verif.Props
