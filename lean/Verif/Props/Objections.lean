import Verif.Spec.Refusal
import Verif.Props.Whole
/-!
# C110: which exception a message gets that does not pass the check of its class
-/

set_option linter.unusedSimpArgs false

namespace Verif.Props

open Verif Spec

private theorem unhexlify_error {s : PStr} {e : Exc} (h : unhexlify s = .error e) : e = .binasciiError := by
  induction s using unhexlify.induct with
  | case1 => cases h
  | case2 => injection h with h; exact h.symm
  | case3 a b rest x y hx hy r hr ih =>
    simp only [unhexlify, hx, hy, hr] at h
    cases h
  | case4 a b rest x y hx hy e' hr ih =>
    simp only [unhexlify, hx, hy, hr] at h
    exact ih (by rw [hr]; exact h)
  | case5 a b rest hn =>
    unfold unhexlify at h
    split at h
    · rename_i x y hx hy
      exact absurd hy (hn x y hx)
    · injection h with h; exact h.symm

private theorem not_hex {v : Val} {e : Exc} (h : ∀ x s, v ≠ .enum x s) : decodeHex v = .error e ↔ NotHex v e := by
  constructor
  · intro he
    cases v with
    | str s =>
      simp only [decodeHex] at he
      split at he
      · rename_i ha
        have : e = .binasciiError := by
          cases hu : unhexlify s with
          | ok b => rw [hu] at he; cases he
          | error x =>
            rw [hu] at he
            injection he with he
            rw [← he]
            exact unhexlify_error hu
        subst this
        refine .text (by simpa using ha) fun b hb => ?_
        rw [(unhexlify_iff s b).mpr hb] at he
        cases he
      · rename_i ha
        injection he with he
        rw [← he]
        refine .foreign ?_
        simpa using ha
    | bytes bs =>
      simp only [decodeHex] at he
      have : e = .binasciiError := unhexlify_error he
      subst this
      refine .bytes fun b hb => ?_
      rw [(unhexlify_iff _ b).mpr hb] at he
      cases he
    | enum x s => exact absurd rfl (h x s)
    | _ =>
      simp only [decodeHex] at he
      injection he with he
      rw [← he]
      exact .type (fun _ e => by cases e) (fun _ e => by cases e)
  · intro hn
    cases hn with
    | type h1 h2 =>
      cases v with
      | str s => exact absurd rfl (h1 s)
      | bytes s => exact absurd rfl (h2 s)
      | enum x s => exact absurd rfl (h x s)
      | _ => rfl
    | foreign hc =>
      simp only [decodeHex]
      rw [if_neg (by simpa using hc)]
    | text ha hb =>
      rename_i s
      simp only [decodeHex]
      rw [if_pos (by simpa using ha)]
      cases hu : unhexlify s with
      | ok b => exact absurd ((unhexlify_iff s b).mp hu) (hb b)
      | error x => rw [unhexlify_error hu]
    | bytes hb =>
      rename_i bs
      simp only [decodeHex]
      cases hu : unhexlify (bs.map fun x => Char.ofNat x.toNat) with
      | ok b => exact absurd ((unhexlify_iff _ b).mp hu) (hb b)
      | error x => rw [unhexlify_error hu]

private theorem seed_iff {id : PStr} {seed : Bytes} : checkTextSeed id seed = true ↔ SeededBy id seed := by
  unfold checkTextSeed SeededBy
  constructor
  · intro h
    split at h
    · rename_i u hu
      refine ⟨u, (parseUuid_iff _ _).mp hu, ?_⟩
      simp only [beq_iff_eq, seedToNode, uuidNode, seedLen] at h
      rw [← h, bigEndian_eq]
    · cases h
  · rintro ⟨u, hu, e⟩
    rw [(parseUuid_iff _ _).mpr hu]
    simp only [beq_iff_eq, seedToNode, uuidNode, seedLen]
    rw [e, bigEndian_eq]

private theorem getAttr_map {f : PStr × Kind → Val} {n : PStr} {kind : Kind} :
    ∀ {fields : List (PStr × Kind)}, lookupName n fields = some kind →
      getAttr (fields.map fun p => (p.1, f p)) n = f (n, kind)
  | [], h => by cases h
  | (k, w) :: rest, h => by
    unfold getAttr
    unfold lookupName at h
    rw [List.map_cons, lookupName]
    by_cases hk : k = n
    · rw [if_pos hk] at h
      rw [if_pos hk]
      injection h with h
      subst hk h
      rfl
    · rw [if_neg hk] at h
      rw [if_neg hk]
      exact getAttr_map (f := f) h

private theorem reads_inv {E : Env} {c : Cls} {v : Val} {as : Attrs} (h : Reads E c v as) :
    ∃ e ∈ catalogue, e.cls = c ∧ ∃ read : PStr → Val,
      (∀ name kind, (name, kind) ∈ e.fields → Unread e.cls name ∨ (∀ w, ¬ Given v name w) →
        read name = .none) ∧
      (∀ name kind w, (name, kind) ∈ e.fields → ¬ Unread e.cls name → Given v name w →
        ReadsField E e.cls name kind w (read name)) ∧
      as = e.fields.map fun p => (p.1, defaulted c p.1 (read p.1)) := by
  cases h with
  | mk read h1 h2 h3 => exact ⟨_, h1, rfl, read, h2, h3, rfl⟩

/-- The two hexadecimal fields of a task are as the payload gives them. -/
private theorem hex_plain {E : Env} {dec : Bytes → Bytes → Res Bytes} {data : Bytes} {priv pub : Option Bytes}
    {ct : Bool} {now : Int} {m : Msg} (h : ReadsFrame E dec data priv pub ct now m) (hc : m.cls = .TaskToCompute)
    {n : PStr} (hn : n = p!"requestor_ethereum_public_key" ∨ n = p!"requestor_id") :
    ∀ x s, getAttr m.attrs n ≠ .enum x s := by
  obtain ⟨e, he, hleg, payload, item, rest, v, attrs, _, hp, hi, hr, rfl⟩ := h
  dsimp only at hc ⊢
  have hv : Data v := loads_data ((payload_grammar _ _).mpr ⟨item, rest, hp, hi⟩)
  have hnum : e.number ≠ 0 := by
    rw [← (frame_tables e he).1, hc]
    decide
  rw [if_neg hnum]
  obtain ⟨e', he', hcc, read, habs, hgiv, rfl⟩ := reads_inv hr
  have hk : lookupName n e'.fields = some .plain := by
    have : ∀ e ∈ catalogue, e.cls = .TaskToCompute →
        lookupName p!"requestor_ethereum_public_key" e.fields = some .plain ∧
        lookupName p!"requestor_id" e.fields = some .plain := by decide +kernel
    obtain ⟨h1, h2⟩ := this e' he' (hcc.trans hc)
    rcases hn with rfl | rfl
    · exact h1
    · exact h2
  rw [getAttr_map (f := fun p => defaulted e.cls p.1 (read p.1)) hk]
  have hd : defaulted e.cls n (read n) = read n := by
    rw [hc]
    unfold defaulted
    rcases hn with rfl | rfl
    all_goals rw [if_neg (by decide), if_neg (by decide), if_neg (by decide), if_neg (by decide)]
  rw [hd]
  have hu : ¬ Unread e'.cls n := by
    unfold Unread
    rw [hcc, hc]
    simp
  have hfr : fieldRule E e'.cls n = none := by
    rw [hcc, hc]
    rcases hn with rfl | rfl <;> simp [fieldRule]
  by_cases hg : ∃ w, Given v n w
  · obtain ⟨w, hw⟩ := hg
    have hd := given_data hv hw
    have := hgiv n .plain w (mem_of_lookupName hk) hu hw
    cases this with
    | ruled a _ _ => rw [hfr] at a; cases a
    | plain _ =>
      intro x s e
      rw [e] at hd
      cases hd
  · rw [habs n .plain (mem_of_lookupName hk) (.inr fun w hw => hg ⟨w, hw⟩)]
    intro x s e
    cases e

/-! ### The payment -/

private theorem payment_objection {E : Env} {dec : Bytes → Bytes → Res Bytes} {data : Bytes} {priv pub : Option Bytes}
    {ct : Bool} {now : Int} {m : Msg} {e : Exc} (h : Carries E dec data priv pub ct now m)
    (hc : m.cls = .SubtaskResultsAccepted) : taskChecks E m = .error e ↔ Objection E m e := by
  have dec := payment_decision E dec data priv pub ct now m h hc
  rw [load_carries h] at dec
  obtain ⟨_, hts, _⟩ := carries_header h
  have t1 : 0 ≤ (frameTime data : Int) ∧ (frameTime data : Int) < 2 ^ 1024 - 2 ^ 970 := by
    obtain ⟨_, _, h2, _⟩ := h
    have h3 : maxTimestamp < 2 ^ 35 := by decide +kernel
    have h4 : (2 : Int) ^ 35 < 2 ^ 1024 - 2 ^ 970 := by decide +kernel
    omega
  have key : taskChecks E m = .error e ↔
      paymentValid (getAttr m.attrs p!"payment_ts") (frameTime data) = .error e := by
    unfold taskChecks isValid
    rw [hc]
    simp only [show Cls.isTask .SubtaskResultsAccepted = true from rfl, if_true, hts, reduceCtorEq, if_false]
    cases paymentValid (getAttr m.attrs p!"payment_ts") (frameTime data) <;> simp
  have key' : taskChecks E m = .ok m ↔
      paymentValid (getAttr m.attrs p!"payment_ts") (frameTime data) = .ok () := by
    unfold taskChecks isValid
    rw [hc]
    simp only [show Cls.isTask .SubtaskResultsAccepted = true from rfl, if_true, hts, reduceCtorEq, if_false]
    cases paymentValid (getAttr m.attrs p!"payment_ts") (frameTime data) <;> simp
  have over : ∀ i : Int, i ≤ frameTime data → (intOverflowsFloat i = true ↔ i ≤ -(2 ^ 1024 - 2 ^ 970)) := by
    intro i hi
    unfold intOverflowsFloat
    have hk : ((2 ^ 1024 - 2 ^ 970 : Nat) : Int) = 2 ^ 1024 - 2 ^ 970 := by decide +kernel
    generalize (2 ^ 1024 - 2 ^ 970 : Nat) = k at *
    rw [decide_eq_true_iff]
    generalize (2 : Int) ^ 1024 - 2 ^ 970 = k' at *
    omega
  rw [key'] at dec
  rw [key]
  generalize hp : getAttr m.attrs p!"payment_ts" = p at *
  have only : (∀ i, p ≠ .int i) → ((∃ b, p = .bool b) ∨ ∃ f, p = .float f) →
      (∀ e', paymentValid p (frameTime data) = .error e' → e' = .validationError) →
      (paymentValid p (frameTime data) = .error e ↔
        (e = .typeError ∧ (∀ i, p ≠ .int i) ∧ (∀ b, p ≠ .bool b) ∧ ∀ f, p ≠ .float f) ∨
        (e = .overflowError ∧ ∃ i, p = .int i ∧ i ≤ -(2 ^ 1024 - 2 ^ 970)) ∨
        (e = .validationError ∧ (∀ i, p = .int i → -(2 ^ 1024 - 2 ^ 970) < i) ∧
          ((∃ i, p = .int i) ∨ (∃ b, p = .bool b) ∨ ∃ f, p = .float f) ∧
          paymentValid p (frameTime data) ≠ .ok ())) := by
    intro hni hbf hv
    constructor
    · intro he
      refine .inr (.inr ⟨hv _ he, fun i hi => absurd hi (hni i), .inr hbf, ?_⟩)
      rw [he]
      exact fun h => by cases h
    · rintro (⟨_, _, hb, hf⟩ | ⟨_, i, hi, _⟩ | ⟨rfl, _, _, hne⟩)
      · rcases hbf with ⟨b, hb'⟩ | ⟨f, hf'⟩
        · exact absurd hb' (hb b)
        · exact absurd hf' (hf f)
      · exact absurd hi (hni i)
      · cases hx : paymentValid p (frameTime data) with
        | ok u => exact absurd hx hne
        | error x => rw [hv x hx]
  have kinds : paymentValid p (frameTime data) = .error e ↔
      (e = .typeError ∧ (∀ i, p ≠ .int i) ∧ (∀ b, p ≠ .bool b) ∧ ∀ f, p ≠ .float f) ∨
      (e = .overflowError ∧ ∃ i, p = .int i ∧ i ≤ -(2 ^ 1024 - 2 ^ 970)) ∨
      (e = .validationError ∧ (∀ i, p = .int i → -(2 ^ 1024 - 2 ^ 970) < i) ∧
        ((∃ i, p = .int i) ∨ (∃ b, p = .bool b) ∨ ∃ f, p = .float f) ∧
        paymentValid p (frameTime data) ≠ .ok ()) := by
    cases p with
    | int i =>
      have ov := over i
      simp only [paymentValid, Val.structInt, reduceCtorEq, not_false_eq_true, implies_true, true_and,
        Val.int.injEq, forall_eq', ne_eq, exists_eq_left', exists_eq', true_or, exists_const, or_self, and_true,
        not_true_eq_false, forall_const, false_and, and_false, false_or, exists_eq_left]
      by_cases h1 : i > frameTime data
      · rw [if_pos h1]
        generalize (2 : Int) ^ 1024 - 2 ^ 970 = k at *
        constructor
        · intro he; injection he with he; right; exact ⟨he.symm, by omega, by simp⟩
        · rintro (⟨_, h⟩ | ⟨he, _⟩)
          · omega
          · rw [he]
      · rw [if_neg h1]
        have ov := ov (by omega)
        generalize (2 : Int) ^ 1024 - 2 ^ 970 = k at *
        by_cases h2 : intOverflowsFloat i = true
        · rw [if_pos h2]
          have := ov.mp h2
          constructor
          · intro he; injection he with he; left; exact ⟨he.symm, this⟩
          · rintro (⟨he, h⟩ | ⟨_, h, _⟩)
            · rw [he]
            · omega
        · rw [if_neg h2]
          have : ¬ i ≤ -k := fun h => h2 (ov.mpr h)
          by_cases h3 : intAdd900Lt i (frameTime data) = true
          · rw [if_pos h3]
            constructor
            · intro he; injection he with he; right; exact ⟨he.symm, by omega, by simp⟩
            · rintro (⟨_, h⟩ | ⟨he, _⟩)
              · exact absurd h this
              · rw [he]
          · rw [if_neg h3]
            constructor
            · intro he; cases he
            · rintro (⟨_, h⟩ | ⟨he, _, h⟩)
              · exact absurd h this
              · exact absurd rfl h
    | bool b =>
      refine only (fun i e => by cases e) (.inl ⟨b, rfl⟩) fun e' he' => ?_
      have hno : intOverflowsFloat (if b = true then 1 else 0) = false := by cases b <;> decide +kernel
      simp only [paymentValid, Val.structInt] at he'
      generalize (if b = true then (1 : Int) else 0) = i at he' hno
      rw [hno, if_neg (c := false = true) (by simp)] at he'
      by_cases h1 : i > frameTime data
      · rw [if_pos h1] at he'
        exact (Except.error.inj he').symm
      · rw [if_neg h1] at he'
        by_cases h2 : intAdd900Lt i (frameTime data) = true
        · rw [if_pos h2] at he'
          exact (Except.error.inj he').symm
        · rw [if_neg h2] at he'
          cases he'
    | float f =>
      refine only (fun i e => by cases e) (.inr ⟨f, rfl⟩) fun e' he' => ?_
      simp only [paymentValid, Val.structInt] at he'
      repeat' split at he'
      all_goals first | (injection he' with he'; exact he'.symm) | cases he'
    | _ =>
      simp only [paymentValid, Val.structInt]
      simp [eq_comm]
  rw [kinds]
  constructor
  · rintro (⟨rfl, a, b, c⟩ | ⟨rfl, i, a, b⟩ | ⟨rfl, a, b, c⟩)
    · exact .paymentType hc (by rw [hp]; exact a) (by rw [hp]; exact b) (by rw [hp]; exact c)
    · exact .paymentHuge hc (by rw [hp]; exact a) b
    · exact .payment hc hts (by rw [hp]; exact a) (by rw [hp]; exact b) (by rw [hp]; exact fun h => c (dec.mpr h))
  · intro ho
    cases ho with
    | paymentType _ a b c => rw [hp] at a b c; exact .inl ⟨rfl, a, b, c⟩
    | paymentHuge _ a b => rw [hp] at a; exact .inr (.inl ⟨rfl, _, a, b⟩)
    | payment _ ht a b c =>
      rw [hp] at a b c
      rw [hts] at ht
      injection ht with ht
      subst ht
      exact .inr (.inr ⟨rfl, a, b, fun h => c (dec.mp h)⟩)
    | rejection h => rw [hc] at h; cases h
    | verdictGap h => rw [hc] at h; cases h
    | verdictHalf h => rw [hc] at h; cases h
    | verdict h => rw [hc] at h; cases h
    | verdictUnequal h => rw [hc] at h; cases h
    | noOffer h => rw [hc] at h; cases h
    | key h => rw [hc] at h; cases h
    | digest h => rw [hc] at h; cases h
    | keyLength h => rw [hc] at h; cases h
    | unsigned h => rw [hc] at h; cases h
    | noDefinition h => rw [hc] at h; cases h
    | requestor h => rw [hc] at h; cases h
    | taskId h => rw [hc] at h; cases h
    | subtaskId h => rw [hc] at h; cases h

/-! ### The verdict -/

private theorem verdict_objection {E : Env} {dec : Bytes → Bytes → Res Bytes} {data : Bytes} {priv pub : Option Bytes}
    {ct : Bool} {now : Int} {m : Msg} {e : Exc} (h : Carries E dec data priv pub ct now m)
    (hc : m.cls = .VerdictReportComputedTask) : taskChecks E m = .error e ↔ Objection E m e := by
  have hev := carries_slotsTyped h
  have key : taskChecks E m = .error e ↔ verdictValid m = .error e := by
    unfold taskChecks isValid
    rw [hc]
    simp only [show Cls.isTask .VerdictReportComputedTask = true from rfl, if_true, reduceCtorEq, if_false]
    cases verdictValid m <;> simp
  rw [key]
  have path : ∀ (name : PStr) (c' : Cls), (name, { cls := c' : SlotDef }) ∈ m.cls.msgSlots →
      (p!"report_computed_task", { cls := .ReportComputedTask : SlotDef }) ∈ c'.msgSlots →
      ((attrOf (getAttr m.attrs name) p!"report_computed_task" = .error .attributeError ∨
        ∃ r, attrOf (getAttr m.attrs name) p!"report_computed_task" = .ok r ∧
          attrOf r p!"task_to_compute" = .error .attributeError) ∧
        ∀ t, ¬ At m.val [name, p!"report_computed_task", p!"task_to_compute"] t) ∨
      ∃ r t, attrOf (getAttr m.attrs name) p!"report_computed_task" = .ok r ∧
        attrOf r p!"task_to_compute" = .ok t ∧
        (∀ t', At m.val [name, p!"report_computed_task", p!"task_to_compute"] t' ↔ t' = t) ∧
        (t = .none ∨ ∃ a : Msg, t = a.val) := by
    intro name c' hs1 hs2
    unfold Msg.val at hev
    cases hev with | mk _ _ _ _ _ _ here nested =>
    rcases typed_single here hs1 rfl with e1 | ⟨ty1, ts1, en1, sg1, as1, e1⟩
    · left
      rw [e1]
      refine ⟨.inl rfl, ?_⟩
      intro t ht
      unfold Msg.val at ht
      cases ht with | step ht =>
      rw [e1] at ht
      cases ht
    have n1 := nested name _ (.msg c' ty1 ts1 en1 sg1 as1) hs1 (by rw [e1]; simp [members])
    cases n1 with | mk _ _ _ _ _ _ here1 nested1 =>
    rcases typed_single here1 hs2 rfl with e2 | ⟨ty2, ts2, en2, sg2, as2, e2⟩
    · left
      rw [e1]
      refine ⟨.inr ⟨_, rfl, by rw [e2]; rfl⟩, ?_⟩
      intro t ht
      unfold Msg.val at ht
      cases ht with | step ht =>
      rw [e1] at ht
      cases ht with | step ht =>
      rw [e2] at ht
      cases ht
    have n2 := nested1 p!"report_computed_task" _ (.msg .ReportComputedTask ty2 ts2 en2 sg2 as2) hs2
      (by rw [e2]; simp [members])
    cases n2 with | mk _ _ _ _ _ _ here2 nested2 =>
    right
    refine ⟨_, getAttr as2 p!"task_to_compute", by rw [e1]; rfl, by rw [e2]; rfl, ?_, ?_⟩
    · intro t'
      unfold Msg.val
      constructor
      · intro ht
        cases ht with | step ht =>
        rw [e1] at ht
        cases ht with | step ht =>
        rw [e2] at ht
        cases ht with | step ht =>
        generalize getAttr as2 p!"task_to_compute" = u at ht
        cases ht
        rfl
      · rintro rfl
        refine .step ?_
        rw [e1]
        refine .step ?_
        rw [e2]
        refine .step ?_
        exact .here _
    · rcases typed_single (sd := { cls := .TaskToCompute }) here2 (by decide : (p!"task_to_compute", _) ∈ _)
        rfl with e3 | ⟨ty3, ts3, en3, sg3, as3, e3⟩
      · left; exact e3
      · right; exact ⟨⟨.TaskToCompute, ty3, ts3, en3, sg3, as3⟩, by rw [e3]; rfl⟩
  have p1 := path p!"ack_report_computed_task" .AckReportComputedTask (by rw [hc]; decide) (by decide)
  have p2 := path p!"force_report_computed_task" .ForceReportComputedTask (by rw [hc]; decide) (by decide)
  -- the classes decide which constructors remain
  have inv : Objection E m e ↔
      (e = .attributeError ∧
        ((∀ t, ¬ At m.val [p!"ack_report_computed_task", p!"report_computed_task", p!"task_to_compute"] t) ∨
          (∀ t, ¬ At m.val [p!"force_report_computed_task", p!"report_computed_task", p!"task_to_compute"] t))) ∨
      (∃ t1 t2, e = .validationError ∧
        At m.val [p!"ack_report_computed_task", p!"report_computed_task", p!"task_to_compute"] t1 ∧
        At m.val [p!"force_report_computed_task", p!"report_computed_task", p!"task_to_compute"] t2 ∧
        ((t1 = .none ∧ t2 ≠ .none) ∨ (t1 ≠ .none ∧ t2 = .none))) ∨
      ∃ a b : Msg, At m.val [p!"ack_report_computed_task", p!"report_computed_task", p!"task_to_compute"] a.val ∧
        At m.val [p!"force_report_computed_task", p!"report_computed_task", p!"task_to_compute"] b.val ∧
        ((e = .validationError ∧ b.eq a = .ok false) ∨ b.eq a = .error e) := by
    constructor
    · intro ho
      cases ho with
      | verdictGap _ a => exact .inl ⟨rfl, a⟩
      | verdictHalf _ a b c => exact .inr (.inl ⟨_, _, rfl, a, b, c⟩)
      | verdict _ a b c => exact .inr (.inr ⟨_, _, a, b, .inl ⟨rfl, c⟩⟩)
      | verdictUnequal _ a b c => exact .inr (.inr ⟨_, _, a, b, .inr c⟩)
      | paymentType h => rw [hc] at h; cases h
      | paymentHuge h => rw [hc] at h; cases h
      | payment h => rw [hc] at h; cases h
      | rejection h => rw [hc] at h; cases h
      | noOffer h => rw [hc] at h; cases h
      | key h => rw [hc] at h; cases h
      | digest h => rw [hc] at h; cases h
      | keyLength h => rw [hc] at h; cases h
      | unsigned h => rw [hc] at h; cases h
      | noDefinition h => rw [hc] at h; cases h
      | requestor h => rw [hc] at h; cases h
      | taskId h => rw [hc] at h; cases h
      | subtaskId h => rw [hc] at h; cases h
    · rintro (⟨rfl, a⟩ | ⟨t1, t2, rfl, a, b, c⟩ | ⟨x, y, a, b, ⟨rfl, c⟩ | c⟩)
      · exact .verdictGap hc a
      · exact .verdictHalf hc a b c
      · exact .verdict hc a b c
      · exact .verdictUnequal hc a b c
  rw [inv]
  unfold verdictValid
  rcases p1 with ⟨q1, n1⟩ | ⟨r1, t1, a1, b1, u1, k1⟩
  · refine Iff.trans (b := e = .attributeError) ?_ ⟨fun h => .inl ⟨h, .inl n1⟩, ?_⟩
    rotate_left
    · rintro (⟨h, _⟩ | ⟨t1, t2, _, a, _⟩ | ⟨x, y, a, _⟩)
      · exact h
      · exact absurd a (n1 _)
      · exact absurd a (n1 _)
    rcases q1 with q1 | ⟨r, q1, q2⟩
    · rw [q1]
      simp [eq_comm]
    · rw [q1]
      dsimp only
      rw [q2]
      simp [eq_comm]
  rw [a1]
  dsimp only
  rw [b1]
  dsimp only
  rcases p2 with ⟨q2, n2⟩ | ⟨r2, t2, a2, b2, u2, k2⟩
  · refine Iff.trans (b := e = .attributeError) ?_ ⟨fun h => .inl ⟨h, .inr n2⟩, ?_⟩
    rotate_left
    · rintro (⟨h, _⟩ | ⟨t1, t2, _, _, a, _⟩ | ⟨x, y, _, a, _⟩)
      · exact h
      · exact absurd a (n2 _)
      · exact absurd a (n2 _)
    rcases q2 with q1 | ⟨r, q1, q2⟩
    · rw [q1]
      simp [eq_comm]
    · rw [q1]
      dsimp only
      rw [q2]
      simp [eq_comm]
  rw [a2]
  dsimp only
  rw [b2]
  dsimp only
  have v1 := (u1 t1).mpr rfl
  have v2 := (u2 t2).mpr rfl
  have none_ne : ∀ a : Msg, a.val ≠ .none := fun a h => by cases h
  constructor
  · intro hx
    rcases k1 with rfl | ⟨a, rfl⟩
    · rcases k2 with rfl | ⟨b, rfl⟩
      · cases hx
      · refine .inr (.inl ⟨_, _, ?_, v1, v2, .inl ⟨rfl, none_ne b⟩⟩)
        injection hx with hx
        exact hx.symm
    · rcases k2 with rfl | ⟨b, rfl⟩
      · refine .inr (.inl ⟨_, _, ?_, v1, v2, .inr ⟨none_ne a, rfl⟩⟩)
        injection hx with hx
        exact hx.symm
      · refine .inr (.inr ⟨a, b, v1, v2, ?_⟩)
        change (match b.eq a with
          | .error e => (Except.error e : Res Unit)
          | .ok true => .ok ()
          | .ok false => .error .validationError) = .error e at hx
        split at hx
        · rename_i hb; injection hx with hx; rw [← hx]; exact .inr hb
        · cases hx
        · rename_i hb; injection hx with hx; exact .inl ⟨hx.symm, hb⟩
  · rintro (⟨_, ha | ha⟩ | ⟨x1, x2, rfl, w1, w2, ho⟩ | ⟨a, b, w1, w2, ho⟩)
    · exact absurd v1 (ha _)
    · exact absurd v2 (ha _)
    · have e1 := (u1 x1).mp w1
      have e2 := (u2 x2).mp w2
      subst e1 e2
      rcases ho with ⟨rfl, ho⟩ | ⟨ho, rfl⟩
      · rcases k2 with rfl | ⟨b, rfl⟩
        · exact absurd rfl ho
        · rfl
      · rcases k1 with rfl | ⟨b, rfl⟩
        · exact absurd rfl ho
        · rfl
    · have e1 := (u1 _).mp w1
      have e2 := (u2 _).mp w2
      subst e1 e2
      show (match b.eq a with
          | .error e => (Except.error e : Res Unit)
          | .ok true => .ok ()
          | .ok false => .error .validationError) = .error e
      rcases ho with ⟨rfl, ho⟩ | ho
      · rw [ho]
      · rw [ho]

/-! ### The task -/

private theorem task_objection {E : Env} {dec : Bytes → Bytes → Res Bytes} {data : Bytes} {priv pub : Option Bytes}
    {ct : Bool} {now : Int} {m : Msg} {e : Exc} (h : Carries E dec data priv pub ct now m)
    (hc : m.cls = .TaskToCompute) : taskChecks E m = .error e ↔ Objection E m e := by
  have hread := (read_iff_carried E dec data priv pub ct now m (by rw [hc]; decide)).mpr h
  have hpk := not_hex (e := e) (hex_plain hread hc (.inl rfl))
  have hid := not_hex (e := e) (hex_plain hread hc (.inr rfl))
  have ids := fun hn => carries_ids h hc hn (.inl rfl)
  have sids := fun hn => carries_ids h hc hn (.inr rfl)
  have offer : getAttr m.attrs p!"want_to_compute_task" = .none ∨ ∃ w : Msg, OfferOf m w := by
    obtain ⟨_, _, _, _, slots, ha⟩ := carries_header h
    rcases typed_single (sd := { cls := .WantToComputeTask }) (loadAttrs_slotsTyped ha)
      (by rw [hc]; decide : (p!"want_to_compute_task", _) ∈ _) rfl with e1 | ⟨ty, ts, en, sg, as, e1⟩
    · exact .inl e1
    · exact .inr ⟨⟨_, ty, ts, en, sg, as⟩, rfl, e1⟩
  have step : taskChecks E m = .error e ↔ verifyEthsig E m = .error e ∨
      (verifyEthsig E m = .ok () ∧ validateTaskId m = .error e) := by
    unfold taskChecks isValid
    rw [hc]
    simp only [show Cls.isTask .TaskToCompute = true from rfl, if_true]
    cases verifyEthsig E m with
    | error x => simp
    | ok u => cases validateTaskId m <;> simp
  -- the offer determines its message
  have offer_unique : ∀ {w w' : Msg}, OfferOf m w → OfferOf m w' → w = w' := by
    rintro ⟨_, _, _, _, _, _⟩ ⟨_, _, _, _, _, _⟩ ⟨h1, h2⟩ ⟨h3, h4⟩
    rw [h2] at h4
    unfold Msg.val at h4
    injection h4 with a b c d e f
    subst a b c d e f
    rfl
  have eth : ∀ {w : Msg}, OfferOf m w → verifyEthsig E m =
      match decodeHex (getAttr m.attrs p!"requestor_ethereum_public_key") with
      | .error e => .error e
      | .ok pk => verifySigWith E w (getAttr m.attrs p!"ethsig") pk := by
    rintro w ⟨_, hw⟩
    unfold verifyEthsig
    rw [hw]
    rfl
  have promised : verifyEthsig E m = .ok () ↔ Promised E m := by
    unfold Promised PaymentKey
    rcases offer with hn | ⟨w, hw⟩
    · constructor
      · intro hv
        unfold verifyEthsig at hv
        rw [hn] at hv
        cases hv
      · rintro ⟨w, pk, ⟨_, hw⟩, _⟩
        rw [hn] at hw
        cases hw
    · rw [eth hw]
      constructor
      · intro hv
        split at hv
        · cases hv
        · rename_i pk hk
          unfold verifySigWith at hv
          split at hv
          · cases hv
          · rename_i x hx
            obtain ⟨k1, k2⟩ := (ecdsa_verify_decision E pk x _).1.mp hv
            exact ⟨w, pk, hw, hk, k1, x, hx, k2⟩
      · rintro ⟨w', pk, hw', hk, k1, x, hx, k2⟩
        have := offer_unique hw hw'
        subst this
        rw [hk]
        dsimp only
        unfold verifySigWith
        rw [hx]
        exact (ecdsa_verify_decision E pk x _).1.mpr ⟨k1, k2⟩
  have check : ∀ {key id : PStr} {d : List (Val × Val)}, (getAttr m.attrs p!"compute_task_def").asDict = some d →
      dictGet (.str key) d = some (.str id) → validateTaskIdKey m key =
        match decodeHex (getAttr m.attrs p!"requestor_id") with
        | .error e => .error e
        | .ok seed => if checkTextSeed id seed = true then .ok () else .error (.fieldError key) := by
    intro key id d hd hi
    unfold validateTaskIdKey
    rw [hd]
    dsimp only
    rw [hi]
    dsimp only
    unfold checkIdHexSeed
    cases decodeHex (getAttr m.attrs p!"requestor_id") with
    | error x => rfl
    | ok seed =>
      simp only [checkIdSeed]
      cases checkTextSeed id seed <;> rfl
  rw [step, promised]
  constructor
  · rintro (hv | ⟨hpr, hv⟩)
    · rcases offer with hn | ⟨w, hw⟩
      · unfold verifyEthsig at hv
        rw [hn] at hv
        injection hv with hv
        rw [← hv]
        exact .noOffer hc hn
      · rw [eth hw] at hv
        split at hv
        · rename_i x hx
          injection hv with hv
          subst hv
          exact .key hc hw (hpk.mp hx)
        · rename_i pk hk
          unfold verifySigWith at hv
          split at hv
          · rename_i x hx
            injection hv with hv
            subst hv
            exact .digest hc hw hk hx
          · rename_i x hx
            obtain ⟨d1, d2, d3⟩ := ecdsa_verify_decision E pk x (getAttr m.attrs p!"ethsig")
            by_cases hl : pk.length = 64
            · by_cases hr : E.recover (getAttr m.attrs p!"ethsig") (E.sha3 x) = some (4 :: pk)
              · rw [d1.mpr ⟨hl, hr⟩] at hv
                cases hv
              · rw [d3 hl hr] at hv
                injection hv with hv
                rw [← hv]
                refine .unsigned hc hw hk hx hl ?_
                rintro ⟨_, x', hx', hr'⟩
                rw [hx] at hx'
                injection hx' with hx'
                subst hx'
                exact hr hr'
            · rw [d2 hl] at hv
              injection hv with hv
              rw [← hv]
              exact .keyLength hc hw hk hx hl
    · by_cases hn : getAttr m.attrs p!"compute_task_def" = .none
      · unfold validateTaskId validateTaskIdKey at hv
        rw [hn] at hv
        injection hv with hv
        rw [← hv]
        exact .noDefinition hc hpr hn
      · obtain ⟨d, tid, hd, ht⟩ := ids hn
        obtain ⟨d', sid, hd', hs⟩ := sids hn
        rw [hd] at hd'
        injection hd' with hd'
        subst hd'
        unfold validateTaskId at hv
        rw [check hd ht] at hv
        cases hx : decodeHex (getAttr m.attrs p!"requestor_id") with
        | error x =>
          rw [hx] at hv
          injection hv with hv
          subst hv
          exact .requestor hc hpr hn (hid.mp hx)
        | ok seed =>
          rw [hx] at hv
          dsimp only at hv
          by_cases ht1 : checkTextSeed tid seed = true
          · rw [if_pos ht1] at hv
            dsimp only at hv
            rw [check hd hs, hx] at hv
            dsimp only at hv
            by_cases hs1 : checkTextSeed sid seed = true
            · rw [if_pos hs1] at hv
              cases hv
            · rw [if_neg hs1] at hv
              injection hv with hv
              rw [← hv]
              exact .subtaskId hc hpr hd ht hs hx (seed_iff.mp ht1) fun h => hs1 (seed_iff.mpr h)
          · rw [if_neg ht1] at hv
            injection hv with hv
            rw [← hv]
            exact .taskId hc hpr hd ht hx fun h => ht1 (seed_iff.mpr h)
  · intro ho
    cases ho with
    | noOffer _ hn =>
      left
      unfold verifyEthsig
      rw [hn]
      rfl
    | key _ hw hx =>
      left
      rw [eth hw, hpk.mpr hx]
    | digest _ hw hk hx =>
      left
      rw [eth hw, hk]
      dsimp only
      unfold verifySigWith
      rw [hx]
    | keyLength _ hw hk hx hl =>
      left
      rw [eth hw, hk]
      dsimp only
      unfold verifySigWith
      rw [hx]
      exact (ecdsa_verify_decision E _ _ _).2.1 hl
    | unsigned _ hw hk hx hl hns =>
      left
      rw [eth hw, hk]
      dsimp only
      unfold verifySigWith
      rw [hx]
      exact (ecdsa_verify_decision E _ _ _).2.2 hl fun hr => hns ⟨hl, _, hx, hr⟩
    | noDefinition _ hpr hn =>
      right
      refine ⟨hpr, ?_⟩
      unfold validateTaskId validateTaskIdKey
      rw [hn]
      rfl
    | requestor _ hpr hn hx =>
      right
      refine ⟨hpr, ?_⟩
      obtain ⟨d, tid, hd, ht⟩ := ids hn
      unfold validateTaskId
      rw [check hd ht, hid.mpr hx]
    | taskId _ hpr hd ht hx hns =>
      right
      refine ⟨hpr, ?_⟩
      unfold validateTaskId
      rw [check hd ht, hx]
      dsimp only
      rw [if_neg fun h => hns (seed_iff.mp h)]
    | subtaskId _ hpr hd ht hs hx hns hnt =>
      right
      refine ⟨hpr, ?_⟩
      unfold validateTaskId
      rw [check hd ht, hx]
      dsimp only
      rw [if_pos (seed_iff.mpr hns)]
      dsimp only
      rw [check hd hs, hx]
      dsimp only
      rw [if_neg fun h => hnt (seed_iff.mp h)]
    | paymentType h => rw [hc] at h; cases h
    | paymentHuge h => rw [hc] at h; cases h
    | payment h => rw [hc] at h; cases h
    | rejection h => rw [hc] at h; cases h
    | verdictGap h => rw [hc] at h; cases h
    | verdictHalf h => rw [hc] at h; cases h
    | verdict h => rw [hc] at h; cases h
    | verdictUnequal h => rw [hc] at h; cases h

private theorem rejection_objection {E : Env} {dec : Bytes → Bytes → Res Bytes} {data : Bytes} {priv pub : Option Bytes}
    {ct : Bool} {now : Int} {m : Msg} {e : Exc} (h : Carries E dec data priv pub ct now m)
    (hc : m.cls = .SubtaskResultsRejected) : taskChecks E m = .error e ↔ Objection E m e := by
  obtain ⟨a, b⟩ := rejection_load E dec data priv pub ct now m h hc
  rw [load_carries h] at a b
  constructor
  · intro he
    by_cases hr : RejectionOk m
    · rw [a hr] at he; cases he
    · rw [b hr] at he
      injection he with he
      rw [← he]
      exact .rejection hc hr
  · intro ho
    cases ho with
    | rejection _ hr => exact b hr
    | paymentType h => rw [hc] at h; cases h
    | paymentHuge h => rw [hc] at h; cases h
    | payment h => rw [hc] at h; cases h
    | verdictGap h => rw [hc] at h; cases h
    | verdictHalf h => rw [hc] at h; cases h
    | verdict h => rw [hc] at h; cases h
    | verdictUnequal h => rw [hc] at h; cases h
    | noOffer h => rw [hc] at h; cases h
    | key h => rw [hc] at h; cases h
    | digest h => rw [hc] at h; cases h
    | keyLength h => rw [hc] at h; cases h
    | unsigned h => rw [hc] at h; cases h
    | noDefinition h => rw [hc] at h; cases h
    | requestor h => rw [hc] at h; cases h
    | taskId h => rw [hc] at h; cases h
    | subtaskId h => rw [hc] at h; cases h

/-- C110 (the message as a whole): the exception that the check of a class raises for a message that was
read from a frame. -/
theorem objection_iff (E : Env) (dec : Bytes → Bytes → Res Bytes) (data : Bytes) (priv pub : Option Bytes)
    (ct : Bool) (now : Int) (m : Msg) (e : Exc) (h : ReadsFrame E dec data priv pub ct now m) :
    (load E dec (some data) priv pub ct now).2 = .error e ↔ Objection E m e := by
  by_cases hm : m.cls ∈ checkedClasses
  · have hca := (read_iff_carried E dec data priv pub ct now m hm).mp h
    rw [load_carries hca]
    simp only [checkedClasses, List.mem_cons, List.mem_nil_iff, or_false] at hm
    rcases hm with hm | hm | hm | hm
    · exact task_objection hca hm
    · exact payment_objection hca hm
    · exact rejection_objection hca hm
    · exact verdict_objection hca hm
  · rw [(load_iff_read E dec data priv pub ct now m hm).mpr h]
    constructor
    · intro he; cases he
    · intro ho
      exfalso
      apply hm
      cases ho with
      | paymentType h => rw [h]; decide
      | paymentHuge h => rw [h]; decide
      | payment h => rw [h]; decide
      | rejection h => rw [h]; decide
      | verdictGap h => rw [h]; decide
      | verdictHalf h => rw [h]; decide
      | verdict h => rw [h]; decide
      | verdictUnequal h => rw [h]; decide
      | noOffer h => rw [h]; decide
      | key h => rw [h]; decide
      | digest h => rw [h]; decide
      | keyLength h => rw [h]; decide
      | unsigned h => rw [h]; decide
      | noDefinition h => rw [h]; decide
      | requestor h => rw [h]; decide
      | taskId h => rw [h]; decide
      | subtaskId h => rw [h]; decide

/-- A verdict that gives nothing has no acknowledgement. -/
example : Objection toyEnv ⟨.VerdictReportComputedTask, .int 4004, .int 1500000000, .bool false, .bytes [],
    [(p!"ack_report_computed_task", .none), (p!"force_report_computed_task", .none)]⟩ .attributeError := by
  refine .verdictGap rfl (.inl fun t h => ?_)
  cases h with
  | step hr =>
    rw [show getAttr _ _ = Val.none from rfl] at hr
    cases hr

end Verif.Props
