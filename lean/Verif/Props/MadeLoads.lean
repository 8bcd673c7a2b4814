import Verif.Lemmas.MadeChecks
import Verif.Props.Makes
import Verif.Props.Sends
import Verif.Props.MadeTokens
import Verif.Props.FactoryMethods
import Verif.Spec.Sending
/-!
# What factories make passes the checks of its class and loads (C97)
-/

set_option linter.unusedSimpArgs false

namespace Verif.Props

open Verif Spec

/-! ### Messages made without a key are not signed -/

private theorem setDef_sig {E : Env} {m m' : Msg} {key : PStr} {v : Val} (h : setDef E m key v = .ok m') :
    m'.sig = m.sig := by
  unfold setDef at h
  repeat' split at h
  all_goals first
  | cases h; done
  | (injection h with h; subst h; rfl)

private theorem taskIdHook_sig {E : Env} {u : Nat} {kw : Attrs} {m m' : Msg} (h : taskIdHook E u kw m = .ok m') :
    m'.sig = m.sig := by
  unfold taskIdHook at h
  simp only [bind, Except.bind] at h
  by_cases h0 : getAttr m.attrs p!"compute_task_def" = .none
  · rw [if_pos h0] at h
    injection h with h
    subst h
    rfl
  · rw [if_neg h0] at h
    repeat' split at h
    all_goals first
    | cases h; done
    | exact setDef_sig h

private theorem subtaskIdHook_sig {E : Env} {u : Nat} {kw : Attrs} {m m' : Msg}
    (h : subtaskIdHook E u kw m = .ok m') : m'.sig = m.sig := by
  unfold subtaskIdHook at h
  simp only [bind, Except.bind] at h
  by_cases h0 : getAttr m.attrs p!"compute_task_def" = .none
  · rw [if_pos h0] at h
    injection h with h
    subst h
    rfl
  · rw [if_neg h0] at h
    repeat' split at h
    all_goals first
    | cases h; done
    | exact setDef_sig h

private theorem generateEthsig_sig {E : Env} {m m' : Msg} {k : Bytes} (h : generateEthsig E m k = .ok m') :
    m'.sig = m.sig := by
  unfold generateEthsig at h
  repeat' split at h
  all_goals first
  | cases h; done
  | (injection h with h; subst h; rfl)

private theorem ethsigHook_sig {E : Env} {eth : Bytes × Bytes} {kw : Attrs} {m m' : Msg}
    (h : ethsigHook E eth kw m = .ok m') : m'.sig = m.sig := by
  unfold ethsigHook at h
  simp only [bind, Except.bind] at h
  repeat' split at h
  all_goals first
  | cases h; done
  | (injection h with h; subst h; rfl)
  | (have := generateEthsig_sig h; exact this)

private theorem new_unsigned {E : Env} {G : Getter} {now : Int} {c : Cls} {kw : Attrs} {m : Msg}
    (h : newMessage E G now c none .none .none false kw = .ok m) : m.sig = .none := by
  obtain ⟨_, _, _, _, _, h, _⟩ := new_ok h
  exact h

private theorem task_unsigned {E : Env} {G : Getter} {keccak : Bytes → Bytes} {d : TaskDraw} {kw : Attrs} {m : Msg}
    (hk : subArgs p!"sign" kw = []) (h : taskFactory E G keccak d kw = .ok m) : m.sig = .none := by
  obtain ⟨keys, _, h⟩ := taskFactory_made h
  rw [task_body] at h
  simp only [bind, Except.bind] at h
  split at h
  · cases h
  rename_i m0 hm0
  rw [signHook_none hk] at h
  injection h with h
  subst h
  unfold taskBody at hm0
  simp only [bind, Except.bind] at hm0
  repeat' split at hm0
  all_goals try (cases hm0; done)
  rename_i h1 _ _ h2 _ _ h3
  rw [ethsigHook_sig hm0, subtaskIdHook_sig h3, taskIdHook_sig h2, new_unsigned h1]

private theorem offer_unsigned {E : Env} {G : Getter} {keccak : Bytes → Bytes} {d : OfferDraw} {kw : Attrs} {m : Msg}
    (hk : subArgs p!"sign" kw = []) (h : offerFactory E G keccak d kw = .ok m) : m.sig = .none := by
  rw [offer_body] at h
  simp only [bind, Except.bind] at h
  split at h
  · cases h
  rename_i m0 hm0
  rw [signHook_none hk] at h
  injection h with h
  subst h
  unfold offerBody at hm0
  simp only [bind, Except.bind] at hm0
  repeat' split at hm0
  all_goals try (cases hm0; done)
  exact new_unsigned hm0

/-- A message made without a key to sign is not signed. -/
theorem made_unsigned {E : Env} {G : Getter} {keccak : Bytes → Bytes} {d : Draws} {c : Cls} {kw : Attrs} {m : Msg}
    (hk : subArgs p!"sign" kw = []) (hnd : (kw.map Prod.fst).Nodup) (h : make E G keccak d c kw = .ok m) :
    m.sig = .none := by
  unfold make at h
  rw [show maxDepth = maxDepth - 1 + 1 from rfl] at h
  by_cases h1 : c = .TaskToCompute
  · subst h1
    exact task_unsigned (d := d.task []) hk h
  by_cases h2 : c = .WantToComputeTask
  · subst h2
    exact offer_unsigned (d := (d.task []).offer) hk h
  obtain ⟨f, fields, m1, _, _, _, hrun, _, _, _, _, hs⟩ := made_parts h1 h2 hnd h
  rw [(hooks_keep hrun).2.2.2.2.1]
  rcases hs with ⟨_, hs⟩ | ⟨priv, m0, hs, _⟩
  · exact hs
  · unfold signArg at hs
    rw [hk] at hs
    cases hs

/-! ### The checks of a class -/

private theorem checks_same {E : Env} {m m' : Msg} (h1 : m'.cls = m.cls) (h2 : m'.ts = m.ts)
    (h3 : m'.attrs = m.attrs) (h : taskChecks E m = .ok m) : taskChecks E m' = .ok m' := by
  obtain ⟨c, ty, ts, enc, sig, as⟩ := m
  obtain ⟨c', ty', ts', enc', sig', as'⟩ := m'
  dsimp only at h1 h2 h3
  subst h1 h2 h3
  unfold taskChecks at h ⊢
  have e1 : isValid ⟨c', ty', ts', enc', sig', as'⟩ = isValid ⟨c', ty, ts', enc, sig, as'⟩ := by
    cases c' <;> rfl
  have e2 : verifyEthsig E ⟨c', ty', ts', enc', sig', as'⟩ = verifyEthsig E ⟨c', ty, ts', enc, sig, as'⟩ := rfl
  have e3 : validateTaskId ⟨c', ty', ts', enc', sig', as'⟩ = validateTaskId ⟨c', ty, ts', enc, sig, as'⟩ := rfl
  rw [e1, e2, e3]
  dsimp only at h ⊢
  repeat' split at h
  all_goals first
  | cases h; done
  | simp_all

private theorem checks_none {E : Env} {m : Msg} (h1 : m.cls ≠ .TaskToCompute) (h2 : m.cls ≠ .SubtaskResultsAccepted)
    (h3 : m.cls ≠ .SubtaskResultsRejected) (h4 : m.cls ≠ .VerdictReportComputedTask) : taskChecks E m = .ok m := by
  unfold taskChecks
  split
  · have : isValid m = .ok () := by
      unfold isValid
      split <;> first | contradiction | rfl
    rw [this]
  · rfl

private theorem payment_ok {p : Int} {t : Nat} (h1 : p ≤ t) (h2 : (t : Int) ≤ p + 900) (ht : t < maxTimestamp)
    (hp : 0 ≤ p) : paymentValid (.int p) t = .ok () := by
  have h3 : (maxTimestamp : Int) < 2 ^ 53 := by decide +kernel
  have ho : intOverflowsFloat p = false := by
    have h4 : (2 ^ 53 : Int) < (2 ^ 1024 - 2 ^ 970 : Nat) := by decide +kernel
    unfold intOverflowsFloat
    generalize (2 ^ 1024 - 2 ^ 970 : Nat) = k at *
    generalize (2 ^ 53 : Int) = q at *
    simp only [decide_eq_false_iff_not]
    omega
  simp only [paymentValid, Val.structInt]
  rw [if_neg (by omega), ho]
  simp only [Bool.false_eq_true, if_false]
  rw [intAdd900Lt_exact (by omega) (by omega) (by omega), decide_eq_false (by omega), if_neg (by simp)]


/-- What was made well, and passes the checks of its class, is sent, arrives and loads. -/
private theorem fine_loads {E : Env} {c : Cls} {m : Msg} (hf : Fine E c m) (hw : WellTypedMsg E m)
    (hver : ∀ v, getAttr m.attrs p!"_version" = .str v → m.cls = .Hello → v = E.version)
    (hchk : taskChecks E m = .ok m) {encrypt dec : Bytes → Bytes → Res Bytes} {priv rpub rpriv : Option Bytes}
    {t : Nat} {now : Int} {own : Ver} (hts : m.ts = .int t)
    (T : Transmits E encrypt dec priv rpub rpriv t now own)
    (hsig : m.sig = .none ∨ priv = none) :
    ∃ b m', dump E encrypt m priv rpub = (.ok b, m') ∧
      (load E dec (some b) rpriv none true now).2 = .ok m' ∧
      m'.cls = c ∧ m'.ts = m.ts ∧ m'.attrs = m.attrs := by
  obtain ⟨b, m', h1, ⟨h2, _, h3, h4⟩, h5⟩ := sent_arrives E encrypt dec m priv rpub rpriv t true now hw hf.writable
    (by rw [hf.ty, hf.cls]) hts T.range (fun _ => by
      have hr := T.range
      have h1 := T.late
      have h2 := T.early
      unfold verifyTime
      unfold minTimestamp maxTimestamp at hr
      rw [if_neg (by simp; omega), if_neg (by simp only [msgTtl]; omega),
        if_neg (by simp only [futureTolerance]; omega)])
    (by
      rcases hf.sig with e | ⟨s, e, hl⟩
      · exact .inl e
      · rcases hsig with h | h
        · exact .inl h
        · exact .inr ⟨s, e, hl, .inl h⟩)
    T.signs (fun v hv hh => by
      rw [hver v hv hh, T.version]
      exact ⟨T.short, verText_ascii own T.wf, ((verify_version_decision own T.wf own.text).1).mpr
        ⟨T.release, own, T.wf, Or.inl (text_said own), rfl, rfl, T.release⟩⟩) T.decrypts
  refine ⟨b, m', h1, ?_, h2.trans hf.cls, h3, h4⟩
  rw [h5]
  exact checks_same h2 h3 h4 hchk

private theorem made_good {E : Env} {G : Getter} {keccak : Bytes → Bytes} {d : Draws} {c : Cls} {kw : Attrs} {m : Msg}
    (hw : World E keccak d) (hk : okCall maxDepth c none kw = true) (h : make E G keccak d c kw = .ok m) :
    Good E c kw m := by
  obtain ⟨m', h', hg⟩ := makes_total (G := G) hw maxDepth [] c none kw hk
  have h' : make E G keccak d c kw = .ok m' := h'
  rw [h] at h'
  injection h' with h'
  subst h'
  exact hg

private theorem made_checks {E : Env} {G : Getter} {keccak : Bytes → Bytes} {d : Draws} {c : Cls} {m : Msg} {t : Nat}
    (hw : World E keccak d) (ht : TaskDrawn E (d.task [])) (hc : c ∈ makeable)
    (hpay : c = .SubtaskResultsAccepted → d.now [p!"payment_ts"] ≤ t ∧ (t : Int) ≤ d.now [p!"payment_ts"] + 900)
    (hr : t < maxTimestamp) (hts : m.ts = .int t)
    (h : make E G keccak d c [] = .ok m) : taskChecks E m = .ok m := by
  have hcls : m.cls = c := made_cls h
  by_cases h1 : c = .TaskToCompute
  · subst h1
    exact task_checks (d := d.task []) (kw := []) (fun _ _ hm => nomatch hm) List.nodup_nil
      (hw.draws.task []).key (hw.draws.task []).offer.header.key ht.pair ht.taskId ht.subtaskId ht.header h
  by_cases h2 : c = .SubtaskResultsAccepted
  · subst h2
    obtain ⟨v, hv, hg⟩ := declared_value (n := p!"payment_ts") (dcl := .now) (kw := []) (by decide) (by decide) rfl (by simp)
      (by decide) (by simp) List.nodup_nil (by simp) h
    unfold Decl.value at hv
    injection hv with hv
    subst hv
    have hp := payment_ok (hpay rfl).1 (hpay rfl).2 hr (hw.draws.now _).1
    unfold taskChecks isValid
    rw [hcls]
    simp only [show Cls.isTask .SubtaskResultsAccepted = true from rfl, if_true, hts, hg]
    have hd : defaulted .SubtaskResultsAccepted p!"payment_ts" (.int (d.now [p!"payment_ts"])) =
      .int (d.now [p!"payment_ts"]) := rfl
    rw [hd, hp]
    rfl
  by_cases h3 : c = .SubtaskResultsRejected
  · subst h3
    have h6 := usual_values E G keccak d .SubtaskResultsRejected p!"reason"
      (.enum .subtaskResultsRejectedReason p!"Results verification negative") [] m (by simp [usual]) List.nodup_nil
      (by simp) h
    have h7 : getAttr m.attrs p!"force_get_task_result_failed" = .none := by
      unfold make at h
      rw [show maxDepth = maxDepth - 1 + 1 from rfl] at h
      obtain ⟨f, fields, m1, hf, _, hfields, hrun, _, _, _, hget, _⟩ :=
        made_parts (kw := []) (by decide) (by decide) List.nodup_nil h
      injection hf with hf
      subst hf
      rw [(hooks_keep hrun).2.2.2.2.2 _ (by simp), hget _ (by decide)]
      have hn := declared_names hfields
      rw [withFiles_names] at hn
      have : getAttr (fields ++ extraArgs [p!"report_computed_task", p!"reason"] []) p!"force_get_task_result_failed" =
          .none := by
        unfold getAttr
        rw [(lookupName_none _ _).mpr]
        rw [List.map_append, hn]
        decide
      exact congrArg (defaulted _ _) this
    unfold taskChecks isValid
    rw [hcls]
    simp only [show Cls.isTask .SubtaskResultsRejected = true from rfl, if_true, rejectedValid, h6, h7]
    rfl
  by_cases h4 : c = .VerdictReportComputedTask
  · subst h4
    have hg := (made_good hw (calls_good _ hc) h).2.2 rfl rfl
    unfold taskChecks isValid
    rw [hcls]
    simp only [show Cls.isTask .VerdictReportComputedTask = true from rfl, if_true, hg]
    rfl
  exact checks_none (hcls ▸ h1) (hcls ▸ h2) (hcls ▸ h3) (hcls ▸ h4)

/-! ### C97 -/

/-- C97: every message that a factory makes without arguments (payment claims apart, which claim
nothing) is sent, whether signed or not, encrypted or not, and arrives: the receiver loads it, with
all its fields - the checks of its class included. -/
theorem made_loads (E : Env) (G : Getter) (keccak : Bytes → Bytes) (d : Draws) (c : Cls) (m : Msg)
    (encrypt dec : Bytes → Bytes → Res Bytes) (priv rpub rpriv : Option Bytes) (t : Nat) (now : Int) (own : Ver)
    (hw : World E keccak d) (ht : TaskDrawn E (d.task []))
    (hc : c ∈ makeable) (h1 : c ≠ .ForcePayment) (h2 : c ≠ .ForcePaymentRejected)
    (h : make E G keccak d c [] = .ok m) (hts : m.ts = .int t)
    (hpay : c = .SubtaskResultsAccepted → d.now [p!"payment_ts"] ≤ t ∧ (t : Int) ≤ d.now [p!"payment_ts"] + 900)
    (T : Transmits E encrypt dec priv rpub rpriv t now own) :
    ∃ b m', dump E encrypt m priv rpub = (.ok b, m') ∧
      (load E dec (some b) rpriv none true now).2 = .ok m' ∧
      m'.cls = c ∧ m'.ts = m.ts ∧ m'.attrs = m.attrs := by
  have hcls : m.cls = c := made_cls h
  have hcl : Claims m := ⟨fun e => absurd (hcls.symm.trans e) h1, fun e => absurd (hcls.symm.trans e) h2⟩
  exact fine_loads (made_good hw (calls_good c hc) h).1
    (made_wellTyped E G keccak d c [] m hw.draws.member List.nodup_nil (args_nil E c) h hcl)
    (made_version hw.draws.member (kw := []) List.nodup_nil (args_nil E c) h hcl)
    (made_checks hw ht hc hpay T.range.2 hts h) hts T
    (.inl (made_unsigned (kw := []) rfl List.nodup_nil h))

/-- The fields that an argument means. -/
private def meant : Nat → Cls → PStr → List (Cls × PStr)
  | 0, _, _ => []
  | n + 1, c, key => (if c.payload.contains key then [(c, key)] else []) ++
    c.msgSlots.flatMap fun fs =>
      if (fs.1 ++ p!"__").isPrefixOf key then meant n fs.2.cls (key.drop (fs.1 ++ p!"__").length) else []

private theorem meant_all {c c' : Cls} {key n : PStr} (h : Means c key c' n) :
    ∀ k, key.length < k → (c', n) ∈ meant k c key := by
  induction h with
  | field h =>
    intro k hk
    cases k with
    | zero => omega
    | succ k =>
      unfold meant
      rw [if_pos (by simpa using h)]
      simp
  | @deeper c c' f key n sd slot rest ih =>
    intro k hk
    cases k with
    | zero => omega
    | succ k =>
      unfold meant
      rw [List.mem_append]
      right
      rw [List.mem_flatMap]
      refine ⟨(f, sd), slot, ?_⟩
      dsimp only
      rw [if_pos (by rw [List.isPrefixOf_iff_prefix]; exact List.prefix_append _ _), List.drop_left]
      refine ih k ?_
      simp only [List.length_append, List.length_cons] at hk
      omega

/-- An argument that may mean a file. -/
private def mayFile : Nat → Cls → PStr → Bool
  | 0, _, _ => true
  | n + 1, c, key => (c == .FileTransferToken && (p!"files__").isPrefixOf key) ||
    c.msgSlots.any fun fs =>
      (fs.1 ++ p!"__").isPrefixOf key && mayFile n fs.2.cls (key.drop (fs.1 ++ p!"__").length)

private theorem mayFile_all {c : Cls} {key part : PStr} (h : MeansFile c key part) : ∀ k, mayFile k c key = true := by
  induction h with
  | here i part =>
    intro k
    cases k with
    | zero => rfl
    | succ k =>
      unfold mayFile
      rw [List.append_assoc, show (p!"files__").isPrefixOf (p!"files__" ++ (Nat.toDigits 10 i ++ part)) = true from by
        rw [List.isPrefixOf_iff_prefix]; exact List.prefix_append _ _]
      rfl
  | @deeper c f key part sd slot rest ih =>
    intro k
    cases k with
    | zero => rfl
    | succ k =>
      unfold mayFile
      rw [Bool.or_eq_true]
      right
      rw [List.any_eq_true]
      refine ⟨(f, sd), slot, ?_⟩
      rw [Bool.and_eq_true]
      refine ⟨by rw [List.isPrefixOf_iff_prefix]; exact List.prefix_append _ _, ?_⟩
      dsimp only
      rw [List.drop_left]
      exact ih k

/-- A member for a field that declares it. -/
private def memberB (c : Cls) (n : PStr) (v : Val) : Bool :=
  !([.Peers, .Tasks, .WantToComputeTask, .TaskToCompute, .ReportComputedTask, .FileTransferToken,
      .StartSessionResponse].contains c) && !(c.nodeSlots.contains n) && (lookupName n c.msgSlots).isNone &&
  match lookupName n c.enumSlots, v with
  | some e, .enum e' s => e == e' && e.values.contains s
  | _, _ => false

private theorem member_ok {E : Env} {c : Cls} {n : PStr} {v : Val} (h : memberB c n v = true) : ValueOk E c n v := by
  unfold memberB at h
  simp only [Bool.and_eq_true, Bool.not_eq_true', List.contains_eq_mem, decide_eq_false_iff_not, List.mem_cons,
    List.not_mem_nil, or_false, not_or, Option.isNone_iff_eq_none] at h
  obtain ⟨⟨⟨⟨h1, h2, h3, h4, h5, h6, h7⟩, h8⟩, h9⟩, h⟩ := h
  unfold ValueOk
  rw [h9]
  dsimp only
  unfold FieldOk
  simp only [h1, h2, h3, h4, h5, h6, h7, h8, false_and, if_false]
  split at h
  · rename_i e e' s he
    rw [he]
    simp only [Bool.and_eq_true, beq_iff_eq, List.contains_iff_mem] at h
    obtain ⟨rfl, h⟩ := h
    exact .inr ⟨s, by simpa using h, rfl⟩
  · cases h

/-- Arguments that are members for fields that declare them, and numbers otherwise. -/
private def argsB (c : Cls) (kw : Attrs) : Bool :=
  kw.all (fun kv => (meant 100 c kv.1).all (fun cn => memberB cn.1 cn.2 kv.2) &&
    !mayFile 100 c kv.1 && decide (kv.1.length < 100) && (match kv.2 with
      | .bool _ | .int _ => true
      | .enum _ _ => c.payload.contains kv.1
      | _ => false)) && c != .VerdictReportComputedTask && c != .Hello

private theorem args_ok {E : Env} {c : Cls} {kw : Attrs} (h : argsB c kw = true) : ArgsOk E c kw := by
  unfold argsB at h
  simp only [Bool.and_eq_true, bne_iff_ne, ne_eq, List.all_eq_true] at h
  obtain ⟨⟨h1, h2⟩, h3⟩ := h
  constructor
  · intro k v c' n hm hmean
    obtain ⟨⟨⟨a, _⟩, b⟩, _⟩ := h1 _ hm
    exact member_ok (a _ (meant_all hmean 100 (by simpa using b)))
  · intro k v hm hf
    obtain ⟨⟨⟨_, a⟩, _⟩, _⟩ := h1 _ hm
    rw [mayFile_all hf 100] at a
    cases a
  · intro k v hm hn _ _
    obtain ⟨_, a⟩ := h1 _ hm
    dsimp only at a
    split at a
    · rfl
    · rfl
    · exact absurd (.field (by simpa using a)) (hn c k)
    · cases a
  · intro e; exact absurd e h2
  · intro e; exact absurd e h3

private theorem methods_args : ∀ v : Variant, (match v.args [] with
    | .ok kw => argsB v.cls kw && decide ((kw.map Prod.fst).Nodup) && (subArgs p!"sign" kw).isEmpty
    | .error _ => false) = true := by
  intro v; cases v <;> decide +kernel

/-- C97: so does every message that a class method of a factory makes - payment claims with accepted
tasks included. -/
theorem methods_load (E : Env) (G : Getter) (keccak : Bytes → Bytes) (d : Draws) (v : Variant) (m : Msg)
    (encrypt dec : Bytes → Bytes → Res Bytes) (priv rpub rpriv : Option Bytes) (t : Nat) (now : Int) (own : Ver)
    (hw : World E keccak d) (h : makeVariant E G keccak d v [] = .ok m) (hts : m.ts = .int t)
    (T : Transmits E encrypt dec priv rpub rpriv t now own) :
    ∃ b m', dump E encrypt m priv rpub = (.ok b, m') ∧
      (load E dec (some b) rpriv none true now).2 = .ok m' ∧
      m'.cls = v.cls ∧ m'.ts = m.ts ∧ m'.attrs = m.attrs := by
  have ha := methods_args v
  have hg := methods_good v
  have h0 := h
  unfold makeVariant at h
  cases hv : v.args [] with
  | error e => rw [hv] at ha; cases ha
  | ok kw =>
    rw [hv] at ha hg h
    dsimp only at ha hg h
    simp only [Bool.and_eq_true, decide_eq_true_eq, List.isEmpty_iff] at ha
    obtain ⟨⟨a1, a2⟩, a3⟩ := ha
    have hcls : m.cls = v.cls := made_cls h
    have hcl : Claims m := by
      refine ⟨fun e => ?_, fun e => ?_⟩
      · have : v = .withAcceptedTasks := by
          rw [hcls] at e
          cases v <;> first | rfl | cases e
        subst this
        obtain ⟨x, hx, _⟩ := method_payment E G keccak d [] m h0 rfl
        rw [hx]
        intro e; cases e
      · rw [hcls] at e
        cases v <;> cases e
    refine fine_loads (made_good hw hg h).1
      (made_wellTyped E G keccak d _ kw m hw.draws.member a2 (args_ok a1) h hcl)
      (made_version hw.draws.member a2 (args_ok a1) h hcl)
      (checks_none ?_ ?_ ?_ ?_) hts T (.inl (made_unsigned a3 a2 h))
    all_goals rw [hcls]; cases v <;> decide

private theorem task_loads {E : Env} {G : Getter} {keccak : Bytes → Bytes} {d : TaskDraw} {kw : Attrs} {m : Msg}
    {encrypt dec : Bytes → Bytes → Res Bytes} {priv rpub rpriv : Option Bytes} {t : Nat} {now : Int} {own : Ver}
    (hkec : ∀ b, (keccak b).length = 32) (hd : TaskInRange d) (hs : Signs E d.eth.1) (ht : TaskDrawn E d)
    (hk : TaskArgs E kw) (hnd : (kw.map Prod.fst).Nodup) (h : taskFactory E G keccak d kw = .ok m)
    (hts : m.ts = .int t) (T : Transmits E encrypt dec priv rpub rpriv t now own) (hsig : m.sig = .none ∨ priv = none) :
    ∃ b m', dump E encrypt m priv rpub = (.ok b, m') ∧
      (load E dec (some b) rpriv none true now).2 = .ok m' ∧
      m'.cls = .TaskToCompute ∧ m'.ts = m.ts ∧ m'.attrs = m.attrs := by
  obtain ⟨m', h', hf⟩ := task_total (G := G) hkec hd hs hk hnd
  rw [h] at h'
  injection h' with h'
  subst h'
  have hm : make E G keccak { toyDraws with task := fun _ => d } .TaskToCompute kw = .ok m := h
  have hcl : Claims m := ⟨fun e => absurd (hf.cls.symm.trans e) (by decide),
    fun e => absurd (hf.cls.symm.trans e) (by decide)⟩
  exact fine_loads hf (made_wellTyped E G keccak { toyDraws with task := fun _ => d } _ kw m toyDraws_members hnd (task_argsOk hk) hm hcl)
    (fun _ _ e => absurd (hf.cls.symm.trans e) (by decide))
    (task_checks hk hnd hd.key hd.offer.header.key ht.pair ht.taskId ht.subtaskId ht.header h) hts T hsig

/-- C97: and every task that `with_signed_nested_messages` makes, with any usable key pairs or
without. -/
theorem signed_task_loads (E : Env) (G : Getter) (keccak : Bytes → Bytes) (d : TaskDraw)
    (requestor provider : Option (Bytes × Bytes)) (m : Msg) (encrypt dec : Bytes → Bytes → Res Bytes)
    (rpub rpriv : Option Bytes) (t : Nat) (now : Int) (own : Ver)
    (hkec : ∀ b, (keccak b).length = 32) (hd : TaskInRange d)
    (hs : Signs E d.eth.1) (ht : TaskDrawn E d) (hr : ∀ kp, requestor = some kp → UsablePair E kp)
    (hp : ∀ kp, provider = some kp → UsablePair E kp)
    (h : signedTask E G keccak d requestor provider [] = .ok m) (hts : m.ts = .int t)
    (T : Transmits E encrypt dec none rpub rpriv t now own) :
    ∃ b m', dump E encrypt m none rpub = (.ok b, m') ∧
      (load E dec (some b) rpriv none true now).2 = .ok m' ∧
      m'.cls = .TaskToCompute ∧ m'.ts = m.ts ∧ m'.attrs = m.attrs := by
  obtain ⟨kw, h1, h2, h3⟩ := signedArgs_total (E := E) hr hp
  unfold signedTask at h
  rw [h1] at h
  exact task_loads hkec hd hs ht h2 h3 h hts T (.inr rfl)

/-- C97: and tasks past their deadline. -/
theorem past_deadline_loads (E : Env) (G : Getter) (keccak : Bytes → Bytes) (d : TaskDraw) (made : Int) (m : Msg)
    (encrypt dec : Bytes → Bytes → Res Bytes) (priv rpub rpriv : Option Bytes) (t : Nat) (now : Int) (own : Ver)
    (hkec : ∀ b, (keccak b).length = 32) (hd : TaskInRange d) (hs : Signs E d.eth.1) (ht : TaskDrawn E d)
    (hn : Clock made) (h : pastDeadlineTask E G keccak d made [] = .ok m) (hts : m.ts = .int t)
    (T : Transmits E encrypt dec priv rpub rpriv t now own) :
    ∃ b m', dump E encrypt m priv rpub = (.ok b, m') ∧
      (load E dec (some b) rpriv none true now).2 = .ok m' ∧
      m'.cls = .TaskToCompute ∧ m'.ts = m.ts ∧ m'.attrs = m.attrs := by
  unfold Clock at hn
  have h : taskFactory E G keccak d [(p!"compute_task_def__deadline", .int (made - 86400))] = .ok m := h
  refine task_loads hkec hd hs ht ?_ (by simp) h hts T (.inl (task_unsigned rfl h))
  intro k v hm
  simp only [List.mem_singleton, Prod.mk.injEq] at hm
  obtain ⟨rfl, rfl⟩ := hm
  exact .inr (.inr (.inl ⟨rfl, _, rfl, by omega⟩))

/-! ### Keys, draws and a transmission that meet the hypotheses -/

private def sureEnv : Env := { toyEnv with
  sign := fun k h => .ok ((k ++ List.replicate 32 0).take 32 ++ (h ++ List.replicate 33 0).take 33)
  recover := fun v h => match v with
    | .bytes s => if s.drop 32 = (h ++ List.replicate 33 0).take 33 then some (4 :: (s.take 32 ++ s.take 32)) else none
    | _ => none }

private def sureTask : TaskDraw where
  key := toyVk 8
  eth := (toySk 6, toyVk 6)
  offer := { key := toyVk 10, now := 1500000000, header := { toyTaskDraws.offer.header with
    mask := List.replicate 32 0, maxPrice := 10, budget := 10 } }
  definition := { taskId := List.replicate 36 'a', subtaskId := List.replicate 36 'b', resource := List.replicate 36 'c', now := 1500000000 }
  uuid1 := 1
  uuid2 := 2
  package := List.replicate 40 '0'
  size := 2000000
  price := 3000000
  now := 1500000000

private def sureDraws : Draws := { toyDraws with task := fun _ => sureTask }

private theorem sure_signs (k : Bytes) : Signs sureEnv k := fun h =>
  ⟨_, rfl, by simp only [List.length_take, List.length_append, List.length_replicate]; omega⟩

private theorem sure_pair (x : UInt8) : Spec.KeyPair sureEnv (toySk x) (toyVk x) where
  law y s hs := by
    injection hs with hs
    have hk : (toySk x ++ List.replicate 32 0).take 32 = toySk x := by
      rw [List.take_left' (by simp [toySk])]
    rw [hk] at hs
    have hl : (toySk x).length = 32 := by simp [toySk]
    subst hs
    refine ⟨by simp [hl], ?_⟩
    simp only [sureEnv]
    rw [List.drop_left' hl, if_pos rfl, List.take_left' hl]
    simp [toySk, toyVk]
  length := by simp [toyVk]
  given := by simp [toySk]

private theorem sure_clock : Clock 1500000000 := by unfold Clock; decide

private theorem sure_range : TaskInRange sureTask where
  key := by decide
  eth := by decide
  offer := { key := by decide, now := sure_clock, header :=
    { key := by decide, mask := by decide, now := sure_clock, nodeName := by decide, timeout := by decide
      version := by decide, memory := by decide, maxPrice := by decide, budget := by decide, count := by decide } }
  definition := { taskId := by decide, subtaskId := by decide, resource := by decide, now := sure_clock }
  package := by decide
  size := by decide
  price := by decide
  now := sure_clock

example : World sureEnv (fun b => (b ++ List.replicate 32 0).take 32) sureDraws where
  hash b := by simp
  version := by decide
  draws := {
    text := fun _ => (by decide : (p!"some text").length < 2 ^ 32)
    num := fun _ => (by decide : (42 : Int).natAbs < 2 ^ 64)
    bytes := fun _ => (by decide : (toyVk 3).length = 64)
    member := toyDraws_members
    task := fun _ => sure_range
    now := fun _ => sure_clock }
  signs _ := sure_signs _

example : TaskDrawn sureEnv sureTask := ⟨sure_pair 6, by decide, by decide, by decide⟩

/-- Signed and encrypted, loaded a minute later. -/
example : Transmits sureEnv (fun _ p => .ok (1 :: p)) (fun _ c => .ok c.tail) (some (toySk 7)) (some (toyVk 5))
    (some (toySk 5)) 1500000000 1500000060000000 ⟨1, 2, 3, [], []⟩ where
  signs k h _ _ := sure_signs k _
  decrypts k p _ _ := ⟨_, rfl, by simp, rfl⟩
  range := by decide
  late := by decide
  early := by decide
  version := by decide +kernel
  wf := ⟨fun _ h => (nomatch h), fun _ h => (nomatch h)⟩
  short := by decide +kernel
  release := by decide

private def sureMake (c : Cls) : Res Msg :=
  make sureEnv (fun _ _ _ => .ok .none) (fun b => (b ++ List.replicate 32 0).take 32) sureDraws c []

/-- As it goes. -/
example : ∀ c ∈ [Cls.Hello, .TaskToCompute, .SubtaskResultsAccepted, .SubtaskResultsRejected],
    (match sureMake c with
    | .ok m => (match dump sureEnv (fun _ p => .ok (1 :: p)) m (some (toySk 7)) (some (toyVk 5)) with
      | (.ok b, m') => decide (m.ts = .int 1500000000) &&
        (match (load sureEnv (fun _ c => .ok c.tail) (some b) (some (toySk 5)) none true 1500000060000000).2 with
        | .ok x => decide (x = m')
        | .error _ => false)
      | _ => false)
    | .error _ => false) = true := by decide +kernel

end Verif.Props
