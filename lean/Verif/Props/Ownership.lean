import Verif.Lemmas.Ownership
import Verif.Lemmas.Toy
/-!
# C29 – C33: ownership of task message chains
-/

set_option linter.unusedSimpArgs false

namespace Verif.Props

open Verif Spec

/-! ### C32: accessors -/

/-- C32: the accessors of a task message whose slots hold what is declared (as in every loaded
message) give the first non-empty value among the `TaskToCompute` messages found along the
declared provider slots, in order, at any depth.  For `task_to_compute` that is the first one.
For the other accessors, if the first `TaskToCompute` has an empty value a later one is used:
see `accessor_skips_refuted`. -/
theorem accessor_chain_partial (a : PStr) (ha : a ∈ accessors) (m : Msg)
    (hty : Everywhere SlotsTyped m.val) (ht : m.cls.isTask = true) (hne : m.cls ≠ .TaskToCompute) :
    ∃ l, Chain m.val l ∧
      taskGet a m.val = ((l.map (ttcField a)).find? holds).getD .none := by
  rw [holds_fun]
  obtain ⟨l, hl⟩ := chain_exists hty m.cls m.ty m.ts m.enc m.sig m.attrs rfl ht
  exact ⟨l, hl, (chain_accessor a ha hl (Or.inr hty)).2 _ _ _ _ _ _ rfl hne⟩

/-- C32: the value is that of the first `TaskToCompute` if that has one. -/
theorem accessor_first (a : PStr) (ha : a ∈ accessors) (m : Msg)
    (hty : Everywhere SlotsTyped m.val) (t : Val) (rest : List Val)
    (hl : Chain m.val (t :: rest)) (hv : holds (ttcField a t) = true) :
    taskGet a m.val = ttcField a t := by
  by_cases hne : m.cls = .TaskToCompute
  · obtain ⟨c, ty, ts, enc, sig, attrs⟩ := m
    simp only at hne
    subst hne
    simp only [Msg.val] at hl ⊢
    rw [taskGet_ttc]
    cases hl with
    | ttc => rfl
    | task _ _ _ _ _ h => exact absurd rfl h
  · rw [(chain_accessor a ha hl (Or.inr hty)).2 _ _ _ _ _ _ rfl hne]
    rw [holds_eq] at hv
    simp [pick, hv]

/-- The chain of a message is unique, so the statements above determine the accessors. -/
theorem chain_unique : ∀ {v : Val} {l l' : List Val}, Chain v l → Chain v l' → l = l' := by
  have key : ∀ {v : Val} {l : List Val}, Chain v l → ∀ l', Chain v l' → l = l' := by
    intro v l h
    induction h using Chain.rec (motive_2 := fun attrs names l _ =>
      ∀ l', ChainSlots attrs names l' → l = l') with
    | ttc =>
      intro l' h'
      cases h' with
      | ttc => rfl
      | task _ _ _ _ _ h => exact absurd rfl h
    | task _ _ _ _ _ hne _ ih =>
      intro l' h'
      cases h' with
      | ttc => exact absurd rfl hne
      | task _ _ _ _ _ _ h => exact ih _ h
    | none => intro l' h'; cases h'; rfl
    | nil => rename_i h'; cases h'; rfl
    | cons _ _ ih1 ih2 =>
      rename_i h'
      cases h' with | cons h1 h2 => rw [ih1 _ h1, ih2 _ h2]
  exact fun {_ _ _} h h' => key h _ h'

/-- C32 for `task_to_compute` without exception: it is the first `TaskToCompute` of the chain,
`None` if there is none. -/
theorem task_to_compute_first (m : Msg) (hty : Everywhere SlotsTyped m.val)
    (ht : m.cls.isTask = true) :
    ∃ l, Chain m.val l ∧ m.taskToCompute = l.head?.getD .none := by
  obtain ⟨l, hl⟩ := chain_exists hty m.cls m.ty m.ts m.enc m.sig m.attrs rfl ht
  refine ⟨l, hl, ?_⟩
  have hmem : ∀ {v : Val} {l : List Val}, Chain v l → ∀ t ∈ l,
      ∃ ty ts enc sig as, t = .msg .TaskToCompute ty ts enc sig as := by
    intro v l h
    induction h using Chain.rec (motive_2 := fun attrs names l _ => ∀ t ∈ l,
      ∃ ty ts enc sig as, t = .msg .TaskToCompute ty ts enc sig as) with
    | ttc ty ts enc sig as =>
      intro t h
      rw [List.mem_singleton] at h
      exact ⟨_, _, _, _, _, h⟩
    | task _ _ _ _ _ _ _ ih => exact ih
    | none => intro t h; cases h
    | nil => rename_i h; cases h
    | cons _ _ ih1 ih2 =>
      rename_i h
      rcases List.mem_append.mp h with h | h
      · exact ih1 _ h
      · exact ih2 _ h
  cases l with
  | nil =>
    by_cases hne : m.cls = .TaskToCompute
    · obtain ⟨c, ty, ts, enc, sig, attrs⟩ := m
      simp only at hne
      subst hne
      simp only [Msg.val] at hl
      cases hl with
      | task _ _ _ _ _ h => exact absurd rfl h
    · unfold Msg.taskToCompute
      rw [(chain_accessor _ (by decide) hl (Or.inr hty)).2 _ _ _ _ _ _ rfl hne]
      rfl
  | cons t rest =>
    obtain ⟨ty, ts, enc, sig, as, e⟩ := hmem hl t (by simp)
    have hf : ttcField p!"task_to_compute" t = t := by rw [e]; simp [ttcField]
    have := accessor_first p!"task_to_compute" (by decide) m hty t rest hl
      (by rw [hf, e]; rfl)
    unfold Msg.taskToCompute
    rw [this, hf]
    rfl

/-! ### C29: soundness -/

/-- C29: if `verify_owners` succeeds on a task message whose slots hold what is declared, every
task message occurring in it, at any depth, is signed over its own content by one of the parties
expected for its class, as named by the `TaskToCompute` belonging to that message; and the task
header of every `TaskToCompute` is signed by the requestor. -/
theorem ownership_sound (E : Env) (m : Msg) (provider requestor concent : Option Bytes)
    (hty : Everywhere SlotsTyped m.val) (ht : m.cls.isTask = true)
    (h : verifyOwners E m provider requestor concent = .ok ()) (w : Msg)
    (hw : Within m.val w.val) (hwt : w.cls.isTask = true) : Proper E concent w := by
  unfold verifyOwners at h
  split at h
  · cases h
  split at h
  · cases h
  exact validateOwnership_ok (chainV_ok E concent h w
    (inside_of_within hw hty _ _ _ _ _ _ rfl ht _ _ _ _ _ _ rfl hwt))

/-- C29 without assumptions on the slots: the same for every task message that is the value of
an attribute, and so on. -/
theorem ownership_sound_attrs (E : Env) (m : Msg) (provider requestor concent : Option Bytes)
    (h : verifyOwners E m provider requestor concent = .ok ()) (w : Msg)
    (hw : Inside m.val w.val) : Proper E concent w := by
  unfold verifyOwners at h
  split at h
  · cases h
  split at h
  · cases h
  exact validateOwnership_ok (chainV_ok E concent h w hw)

/-- C29, loaded messages satisfy the assumption. -/
theorem ownership_sound_loaded (E : Env) (dec : Bytes → Bytes → Res Bytes) (data : Bytes)
    (priv pub : Option Bytes) (ct : Bool) (now : Int) (m : Msg)
    (hl : (load E dec (some data) priv pub ct now).2 = .ok m) (ht : m.cls.isTask = true)
    (provider requestor concent : Option Bytes)
    (h : verifyOwners E m provider requestor concent = .ok ()) (w : Msg)
    (hw : Within m.val w.val) (hwt : w.cls.isTask = true) : Proper E concent w :=
  ownership_sound E m provider requestor concent
    (carries_slotsTyped (carries_of_load hl (by rintro e; rw [e] at ht; cases ht)).1) ht h w hw hwt

/-! ### C30: completeness -/

/-- C30: if the keys and digests of all task messages in a tree exist, the ownership check passes
exactly if every one of them is signed by an expected party and every task header by the
requestor; one that is not makes it raise `InvalidSignature`. -/
theorem ownership_complete (E : Env) (m : Msg) (concent : Option Bytes)
    (hk : ∀ w : Msg, Inside m.val w.val → Checkable E concent w) :
    ((∀ w : Msg, Inside m.val w.val → Proper E concent w) →
      verifyOwners E m none none concent = .ok ()) ∧
    ((∃ w : Msg, Inside m.val w.val ∧ ¬ Proper E concent w) →
      verifyOwners E m none none concent = .error .invalidSignature) := by
  have hv : verifyOwners E m none none concent = chainV E concent m.val := by
    unfold verifyOwners checkRole; rfl
  rw [hv]
  constructor
  · intro hp
    cases h : chainV E concent m.val with
    | ok u => rfl
    | error e =>
      obtain ⟨w, hw, he⟩ := chainV_total E concent h
      rw [(validateOwnership_decision (hk w hw)).1 (hp w hw)] at he
      cases he
  · rintro ⟨w, hw, hn⟩
    cases h : chainV E concent m.val with
    | ok u =>
      have := chainV_ok E concent h w hw
      rw [(validateOwnership_decision (hk w hw)).2 hn] at this
      cases this
    | error e =>
      obtain ⟨w', hw', he⟩ := chainV_total E concent h
      by_cases hp : Proper E concent w'
      · rw [(validateOwnership_decision (hk w' hw')).1 hp] at he; cases he
      · rw [(validateOwnership_decision (hk w' hw')).2 hp] at he
        exact congrArg _ (by injection he with he; exact he.symm)

/-! ### C31: role keys -/

private theorem checkRole_decision (k b : Bytes) (v : Val) (hk : k ≠ []) (hv : decodeHex v = .ok b) :
    checkRole (some k) (.ok v) = if k = b then .ok () else .error .ownershipMismatch := by
  unfold checkRole
  cases k with
  | nil => exact absurd rfl hk
  | cons x xs => simp only [hv]

private theorem provider_actual {concent : Option Bytes} {m : Msg} {b : Bytes}
    (hp : PartyKey concent m .provider b) :
    ∃ v, ttcProviderKey m.taskToCompute = .ok v ∧ decodeHex v = .ok b := by
  cases hp with | provider e1 e2 e3 =>
  refine ⟨_, ?_, e3⟩
  unfold ttcProviderKey
  rw [e1, attrOf_val, e2]
  exact attrOf_val _ _

private theorem requestor_actual {concent : Option Bytes} {m : Msg} {b : Bytes}
    (hp : PartyKey concent m .requestor b) :
    ∃ v, attrOf m.taskToCompute p!"requestor_public_key" = .ok v ∧ decodeHex v = .ok b := by
  cases hp with | requestor e1 e2 =>
  exact ⟨_, by rw [e1]; exact attrOf_val _ _, e2⟩

/-- C31: with a provider key that is not the one recorded, or, the provider's being right, with a
requestor key that is not the one recorded, the result is `OwnershipMismatch`, whatever the
signatures are (the environment `E` with its signature functions is arbitrary). -/
theorem role_mismatch (E : Env) (m : Msg) (provider requestor concent : Option Bytes)
    (p r : Bytes) (hp : PartyKey concent m .provider p) (hr : PartyKey concent m .requestor r) :
    (∀ k, provider = some k → k ≠ [] → k ≠ p →
      verifyOwners E m provider requestor concent = .error .ownershipMismatch) ∧
    (∀ k, requestor = some k → k ≠ [] → k ≠ r → (provider = none ∨ provider = some p) →
      verifyOwners E m provider requestor concent = .error .ownershipMismatch) := by
  obtain ⟨pv, hpv, hpd⟩ := provider_actual hp
  obtain ⟨rv, hrv, hrd⟩ := requestor_actual hr
  constructor
  · rintro k rfl hk hne
    unfold verifyOwners
    rw [hpv, checkRole_decision k p pv hk hpd, if_neg hne]
  · rintro k rfl hk hne hpro
    unfold verifyOwners
    rw [hpv, hrv, checkRole_decision k r rv hk hrd, if_neg hne]
    have : checkRole provider (.ok pv) = .ok () := by
      rcases hpro with rfl | rfl
      · rfl
      · by_cases he : p = []
        · subst he; rfl
        · rw [checkRole_decision p p pv he hpd, if_pos rfl]
    rw [this]

/-- C31: success with a (non-empty) provider or requestor key means that it is the recorded one. -/
theorem role_keys (E : Env) (m : Msg) (provider requestor concent : Option Bytes)
    (h : verifyOwners E m provider requestor concent = .ok ()) :
    (∀ k, provider = some k → k ≠ [] → PartyKey concent m .provider k) ∧
    (∀ k, requestor = some k → k ≠ [] → PartyKey concent m .requestor k) := by
  have role : ∀ {k : Bytes} {a : Res Val}, k ≠ [] → checkRole (some k) a = .ok () →
      ∃ v, a = .ok v ∧ decodeHex v = .ok k := by
    intro k a hk h
    unfold checkRole at h
    split at h
    · rename_i e; cases e
    · rename_i e; injection e with e; exact absurd e hk
    · rename_i e
      injection e with e
      subst e
      split at h
      · cases h
      rename_i v
      split at h
      · cases h
      rename_i b hb
      split at h
      · rename_i e; subst e; exact ⟨v, rfl, hb⟩
      · cases h
  unfold verifyOwners at h
  split at h
  · cases h
  rename_i h1
  split at h
  · cases h
  rename_i h2
  constructor
  · rintro k rfl hk
    obtain ⟨v, hv, hd⟩ := role hk h1
    unfold ttcProviderKey at hv
    split at hv
    · cases hv
    rename_i w hw
    obtain ⟨t, ht, hat⟩ := attrOf_ok hw
    obtain ⟨o, ho, hao⟩ := attrOf_ok hv
    exact .provider ht (hat.trans ho) (by rw [hao]; exact hd)
  · rintro k rfl hk
    obtain ⟨v, hv, hd⟩ := role hk h2
    obtain ⟨t, ht, hat⟩ := attrOf_ok hv
    exact .requestor ht (by rw [hat]; exact hd)

/-- With the recorded keys given, the outcome is that without keys. -/
theorem role_match (E : Env) (m : Msg) (concent : Option Bytes) (p r : Bytes)
    (hp : PartyKey concent m .provider p) (hr : PartyKey concent m .requestor r) :
    verifyOwners E m (some p) (some r) concent = verifyOwners E m none none concent := by
  obtain ⟨pv, hpv, hpd⟩ := provider_actual hp
  obtain ⟨rv, hrv, hrd⟩ := requestor_actual hr
  have : ∀ (k : Bytes) (v : Val), decodeHex v = .ok k → checkRole (some k) (.ok v) = .ok () := by
    intro k v hv
    by_cases he : k = []
    · subst he; rfl
    · rw [checkRole_decision k k v he hv, if_pos rfl]
  unfold verifyOwners
  rw [hpv, hrv, this p pv hpd, this r rv hrd]
  rfl

/-! ### Non-vacuity and counterexamples -/

private def blank (c : Cls) (given : Attrs) : Attrs :=
  c.payload.map fun n => (n, getAttr given n)

private def key (x : UInt8) : Bytes := List.replicate 64 x
private def priv (x : UInt8) : Bytes := List.replicate 32 x

private def headerFields : Attrs :=
  match mkCont toyEnv .taskHeader (.dict [(.str p!"task_id", .str p!"t1"),
      (.str p!"task_owner", .dict [(.str p!"key", .str p!"ab")]),
      (.str p!"subtasks_count", .int 3), (.str p!"min_version", .str p!"1.2.3"),
      (.str p!"timestamp", .int 5)]) with
  | .ok (.cont _ fs) => (headerSign toyEnv fs (priv 5)).toOption.getD []
  | _ => []

private def signed (x : UInt8) (m : Msg) : Msg := (m.signMessage toyEnv (priv x)).toOption.getD m

/-- An offer that nobody signed. -/
private def exOffer : Msg :=
  ⟨.WantToComputeTask, .int 2001, .int 1500000000, .bool false, .bytes [],
    blank .WantToComputeTask [(p!"provider_public_key", .str (hexlify (key 7))),
      (p!"task_header", .cont .taskHeader headerFields), (p!"num_subtasks", .int 1),
      (p!"concent_enabled", .bool false)]⟩

private def exTtc (provider_id : Val) : Msg :=
  signed 5 ⟨.TaskToCompute, .int 2002, .int 1500000000, .bool false, .none,
    blank .TaskToCompute [(p!"want_to_compute_task", exOffer.val),
      (p!"requestor_public_key", .str (hexlify (key 5))), (p!"provider_id", provider_id),
      (p!"price", .int 0), (p!"size", .int 0), (p!"concent_enabled", .bool false),
      (p!"compute_task_def", .fdict .computeTaskDef (setName p!"task_id" (.str p!"T")
        (setName p!"subtask_id" (.str p!"S") FDictId.computeTaskDef.items)))]⟩

private def exReport (x : UInt8) (ttc : Msg) : Msg :=
  signed x ⟨.ReportComputedTask, .int 2004, .int 1500000001, .bool false, .none,
    blank .ReportComputedTask [(p!"task_to_compute", ttc.val)]⟩

private def exAck (x y : UInt8) : Msg :=
  signed x ⟨.AckReportComputedTask, .int 2029, .int 1500000002, .bool false, .none,
    [(p!"report_computed_task", (exReport y (exTtc (.str p!"P"))).val)]⟩

/-- A three-level chain passes with the right keys, also if Concent signed the outer message;
a wrong signer, in whatever place, and a wrong role key are found. -/
example : verifyOwners toyEnv (exAck 5 7) (some (key 7)) (some (key 5)) none = .ok () ∧
    verifyOwners toyEnv (exAck 3 7) (some (key 7)) (some (key 5)) (some (key 3)) = .ok () ∧
    verifyOwners toyEnv (exAck 3 7) none none (some (key 2)) = .error .invalidSignature ∧
    verifyOwners toyEnv (exAck 5 5) none none (some (key 2)) = .error .invalidSignature ∧
    verifyOwners toyEnv (exAck 5 7) (some (key 5)) none none = .error .ownershipMismatch ∧
    verifyOwners toyEnv (exAck 5 7) none (some (key 7)) none = .error .ownershipMismatch := by
  decide +kernel

/-- That chain, for examples elsewhere. -/
def exampleChain : Msg := exAck 5 7

private def taskMsg : Val → Bool
  | .msg c .. => c.isTask
  | _ => false

private theorem inside_leaf {m w : Msg} (hl : m.attrs.all (fun p => !taskMsg p.2) = true)
    (h : Inside m.val w.val) : w = m := by
  generalize hw : w.val = u at h
  unfold Msg.val at h
  cases h with
  | refl => exact msg_val_inj hw
  | step _ hm hr =>
    have := List.all_eq_true.mp hl _ hm
    cases hr <;> simp_all [taskMsg]

/-- The hypothesis of `ownership_complete` holds of the `TaskToCompute` of that chain. -/
example : ∀ w : Msg, Inside (exTtc .none).val w.val → Checkable toyEnv none w := by
  intro w hw
  rw [inside_leaf (by decide +kernel) hw]
  have hp : PartyKey none (exTtc .none) .provider (key 7) :=
    .provider (t := exTtc .none) (w := exOffer) (by decide +kernel) (by decide +kernel) (by decide +kernel)
  have hr : PartyKey none (exTtc .none) .requestor (key 5) :=
    .requestor (t := exTtc .none) (by decide +kernel) (by decide +kernel)
  have hc : (exTtc .none).cls = .TaskToCompute := by decide +kernel
  have ex : ∀ {r : Res Bytes}, r.isOk = true → ∃ h, r = .ok h := by
    intro r h; cases r with
    | ok b => exact ⟨b, rfl⟩
    | error e => cases h
  refine ⟨⟨_, hp⟩, ⟨_, hr⟩, ?_, ex (by decide +kernel), fun _ => ⟨exOffer, by decide +kernel,
    headerFields, by decide +kernel, ⟨key 5, by decide +kernel, by decide⟩, ex (by decide +kernel)⟩⟩
  intro o ho
  rw [hc, show Cls.expectedOwners .TaskToCompute = [.requestor] from rfl, List.mem_singleton] at ho
  subst ho
  exact ⟨_, hr, by decide⟩

/-- The accessors of that chain. -/
example : taskGet p!"task_id" (exAck 5 7).val = .str p!"T" ∧
    taskGet p!"subtask_id" (exAck 5 7).val = .str p!"S" ∧
    taskGet p!"provider_id" (exAck 5 7).val = .str p!"P" ∧
    (exAck 5 7).taskToCompute = (exTtc (.str p!"P")).val := by decide +kernel

/-- C33 is false: `verify_owners` succeeds although the offer in the chain is not signed by the
provider it names (here it has an empty signature). -/
theorem offer_unsigned_refuted :
    ∃ m t w : Msg, verifyOwners toyEnv m (some (key 7)) (some (key 5)) none = .ok () ∧
      m.taskToCompute = t.val ∧ getAttr t.attrs p!"want_to_compute_task" = w.val ∧
      w.cls = .WantToComputeTask ∧
      decodeHex (getAttr w.attrs p!"provider_public_key") = .ok (key 7) ∧
      w.sig = .bytes [] ∧ w.verifySig toyEnv (key 7) = .error .invalidSignature :=
  ⟨exAck 5 7, exTtc (.str p!"P"), exOffer, by decide +kernel⟩

/-- What holds of C33: the offer is part of what the requestor signed.  If `verify_owners`
succeeds, the `TaskToCompute` belonging to the message is, if it occurs in the tree, signed by
the requestor it names, over a digest of its slots, the offer among them. -/
theorem offer_covered_partial (E : Env) (m t : Msg) (provider requestor concent : Option Bytes)
    (h : verifyOwners E m provider requestor concent = .ok ()) (ht : t.cls = .TaskToCompute)
    (hw : Inside m.val t.val) :
    ∃ k, decodeHex (getAttr t.attrs p!"requestor_public_key") = .ok k ∧ SignedBy E t t.sig k := by
  obtain ⟨⟨o, ho, k, hk, hs⟩, _⟩ := ownership_sound_attrs E m provider requestor concent h t hw
  rw [ht] at ho
  have : o = .requestor := by
    rw [show Cls.expectedOwners .TaskToCompute = [.requestor] from rfl] at ho
    simpa using ho
  subst this
  cases hk with | requestor e1 e2 =>
  have e3 : t.taskToCompute = t.val := by
    obtain ⟨c, ty, ts, enc, sig, attrs⟩ := t
    simp only at ht
    subst ht
    unfold Msg.taskToCompute Msg.val
    rw [taskGet_ttc]
    simp [ttcField]
  rename_i t'
  have : t' = t := msg_val_inj (e1.symm.trans e3)
  subst this
  exact ⟨k, e2, hs⟩

private def exVerdict : Msg :=
  ⟨.VerdictReportComputedTask, .int 4004, .int 1500000002, .bool false, .none,
    [(p!"force_report_computed_task", .msg .ForceReportComputedTask (.int 4002) (.int 1500000002)
       (.bool false) .none [(p!"report_computed_task", (exReport 7 (exTtc .none)).val),
         (p!"result_hash", .none)]),
     (p!"ack_report_computed_task", (exAck 5 7).val)]⟩

/-- C32 is false for a chain with two `TaskToCompute` messages of which the first names no
provider: the accessor gives the provider of the second. -/
theorem accessor_skips_refuted :
    ∃ m : Msg, m.taskToCompute = (exTtc .none).val ∧
      ttcField p!"provider_id" m.taskToCompute = .none ∧
      taskGet p!"provider_id" m.val = .str p!"P" := ⟨exVerdict, by decide +kernel⟩

end Verif.Props
