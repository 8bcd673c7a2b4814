import Verif.Spec.Exchange
import Verif.Props.Reload
import Verif.Props.Ownership
import Verif.Props.TaskHeader
import Verif.Props.Hex
/-!
# C76: what honest parties send each other is accepted, and stands as evidence
-/

set_option linter.unusedSimpArgs false

namespace Verif.Props

open Verif Spec

/-- The parties a `TaskToCompute` of the exchange names. -/
private def Named (P : Parties) (t : Msg) : Prop :=
  ∃ w : Msg, getAttr t.attrs p!"want_to_compute_task" = w.val ∧
    decodeHex (getAttr w.attrs p!"provider_public_key") = .ok P.provider.2 ∧
    decodeHex (getAttr t.attrs p!"requestor_public_key") = .ok P.requestor.2

/-- What is shown of everything inside the messages of an exchange. -/
private def Good (E : Env) (P : Parties) (w : Msg) : Prop :=
  Proper E (some P.concent.2) w ∧ Checkable E (some P.concent.2) w ∧
    (w.cls = .TaskToCompute → Named P w) ∧
    ∀ o, PartyKey (some P.concent.2) w o (P.pair o).2

private theorem spells_decodes {v : Val} {b : Bytes} (h : Spells v b) : decodeHex v = .ok b := by
  obtain ⟨s, rfl, h⟩ := h
  exact (decode_hex_decision s b).1.mpr h

/-- `is_valid` looks neither at the signature nor at the flag. -/
private theorem isValid_same {m m' : Msg} (hc : m'.cls = m.cls) (ht : m'.ts = m.ts)
    (ha : m'.attrs = m.attrs) : isValid m' = isValid m := by
  obtain ⟨c, ty, ts, enc, sig, as⟩ := m
  obtain ⟨c', ty', ts', enc', sig', as'⟩ := m'
  simp only at hc ht ha
  subst hc ht ha
  by_cases h : c' = .SubtaskResultsRejected
  · subst h
    unfold isValid rejectedValid Msg.val
    simp only
    unfold taskGet
    rfl
  · unfold isValid
    simp only
    cases c' <;> first | rfl | exact absurd rfl h

/-- The same for the `TaskToCompute` of another message. -/
private theorem ttc_same {m m' : Msg} (hc : m'.cls = m.cls) (ha : m'.attrs = m.attrs)
    (hne : m.cls ≠ .TaskToCompute) : m'.taskToCompute = m.taskToCompute := by
  obtain ⟨c, ty, ts, enc, sig, as⟩ := m
  obtain ⟨c', ty', ts', enc', sig', as'⟩ := m'
  simp only at hc ha hne
  subst hc ha
  unfold Msg.taskToCompute Msg.val taskGet
  rw [if_neg hne, if_neg hne]

private theorem ttc_self {t : Msg} (h : t.cls = .TaskToCompute) : t.taskToCompute = t.val := by
  obtain ⟨c, ty, ts, enc, sig, attrs⟩ := t
  simp only at h
  subst h
  unfold Msg.taskToCompute Msg.val
  rw [taskGet_ttc]
  simp [ttcField]

private theorem getAttr_mem {as : Attrs} {n : PStr} (h : getAttr as n ≠ .none) :
    (n, getAttr as n) ∈ as := by
  induction as with
  | nil => exact absurd rfl h
  | cons kv rest ih =>
    obtain ⟨k, v⟩ := kv
    unfold getAttr at h ih ⊢
    rw [lookupName_cons] at h ⊢
    by_cases hk : k = n
    · subst hk; simp
    · rw [if_neg hk] at h ⊢
      exact List.mem_cons_of_mem _ (ih h)

/-- The messages of a chain are inside the message. -/
private theorem chain_inside {v : Val} {l : List Val} (h : Chain v l) :
    ∀ t ∈ l, Inside v t ∧ ∃ x : Msg, x.cls = .TaskToCompute ∧ t = x.val := by
  induction h using Chain.rec (motive_2 := fun attrs names l _ => ∀ t ∈ l,
      ∃ n x, (n, x) ∈ attrs ∧ Inside x t ∧ ∃ x : Msg, x.cls = .TaskToCompute ∧ t = x.val) with
  | ttc ty ts enc sig as =>
    intro t h
    rw [List.mem_singleton] at h
    subst h
    exact ⟨.refl _ _ _ _ _ rfl, ⟨.TaskToCompute, ty, ts, enc, sig, as⟩, rfl, rfl⟩
  | task _ _ _ _ hc _ _ ih =>
    intro t h
    obtain ⟨n, x, h1, h2, h3⟩ := ih t h
    exact ⟨.step hc h1 h2, h3⟩
  | none => intro t h; cases h
  | nil => rename_i h; cases h
  | cons _ _ ih1 ih2 =>
    rename_i t h
    rcases List.mem_append.mp h with h | h
    · obtain ⟨h1, h2⟩ := ih1 _ h
      refine ⟨_, _, getAttr_mem ?_, h1, h2⟩
      intro e
      rw [e] at h1
      cases h1
    · exact ih2 _ h

/-- Everything about one transmission. -/
private theorem sends_loads {E : Env} {T : Delivery} {m m' : Msg} {b : Bytes} (hS : Sends E T m b m')
    (K : KeyPair E T.sender.1 T.sender.2) (hs : m.cls.sign = true) (hne : m.cls ≠ .Hello) :
    (m'.cls = m.cls ∧ m'.ty = m.ty ∧ m'.ts = m.ts ∧ m'.attrs = m.attrs) ∧
    (load E T.dec (some b) T.rpriv (some T.sender.2) T.ct T.now).2 = taskChecks E m' ∧
    (taskChecks E m' = .ok m' → SignedBy E m' m'.sig T.sender.2) := by
  obtain ⟨t, hts, h1, h2, htime⟩ := hS.time
  have hver : ∀ v, getAttr m.attrs p!"_version" = .str v → m.cls = .Hello →
      v.length ≤ 31 ∧ (∀ c ∈ v, c.toNat < 128) ∧ verifyVersion E.version v = .ok () := fun _ _ e => absurd e hne
  have hr := signed_roundtrip_partial E T.encrypt T.dec m m' T.sender.1 T.sender.2 T.rpub T.rpriv b t
    T.ct T.now K.law K.length K.given hS.dumped hS.typed hs hS.unsigned hS.type hts ⟨h1, h2⟩ htime
    hver hS.readable
  refine ⟨hr.1, hr.2, fun hk => ?_⟩
  have hv := dumped_reverifies E T.encrypt T.dec m m' m' T.sender.1 T.sender.2 T.rpub T.rpriv b t
    T.ct T.now K.law K.length K.given hS.dumped hS.typed hs hS.unsigned hS.type hts ⟨h1, h2⟩ htime
    hver hS.readable (hr.2.trans hk)
  unfold Msg.verifySig verifySigWith at hv
  split at hv
  · cases hv
  rename_i h hh
  obtain ⟨e1, e2⟩ := (ecdsa_verify_decision E T.sender.2 h m'.sig).1.mp hv
  exact ⟨e1, h, hh, e2⟩

private theorem either {p a b : Prop} [Decidable p] (h : if p then a else b) : a ∨ b := by
  by_cases hp : p
  · rw [if_pos hp] at h; exact Or.inl h
  · rw [if_neg hp] at h; exact Or.inr h

private theorem field_not_msg {E : Env} {c : Cls} {name : PStr} {v : Val} (h : FieldOk E c name v)
    (x : Msg) : v ≠ x.val := by
  rintro rfl
  have hd : ¬ Data x.val := by unfold Data Msg.val data; simp
  have hf : ∀ {c : ContId} {Q : PStr → Val → Prop}, ¬ Fields c Q x.val := by
    rintro c Q ⟨_, e, _⟩; cases e
  have hl : ∀ {Q : Val → Prop}, ¬ ListOf Q x.val := by rintro Q ⟨_, e, _⟩; cases e
  have hn : x.val ≠ .none := by intro e; cases e
  unfold FieldOk at h
  rcases either h with h | h
  · rcases h with h | h
    · exact hd h.1
    · exact hf h
  rcases either h with h | h
  · exact hl h
  rcases either h with h | h
  · exact hl h
  rcases either h with h | h
  · rcases h with h | h
    · exact hn h
    · exact hf h
  rcases either h with h | h
  · rcases h with h | ⟨_, e⟩
    · exact hn h
    · cases e
  rcases either h with h | h
  · obtain ⟨_, _, e⟩ := h; cases e
  rcases either h with h | h
  · obtain ⟨_, e, _⟩ := h; cases e
  rcases either h with h | h
  · obtain ⟨_, e⟩ := h; cases e
  rcases either h with h | h
  · rcases h with h | h
    · exact hn h
    · exact hf h
  rcases either h with h | h
  · exact hl h
  rcases either h with h | h
  · exact hn h
  split at h
  · rcases h with h | ⟨_, _, e⟩
    · exact hn h
    · cases e
  · exact hd h

/-- The task messages inside a message are the message and those inside its attributes. -/
private theorem inside_cases {m w : Msg} (h : Inside m.val w.val) :
    w = m ∨ ∃ name, ∃ x : Msg, (name, x.val) ∈ m.attrs ∧ x.cls.isTask = true ∧ Inside x.val w.val := by
  generalize hw : w.val = u at h
  unfold Msg.val at h
  cases h with
  | refl => exact Or.inl (msg_val_inj hw)
  | step _ hm hr =>
    right
    cases hr with
    | refl ty ts enc sig as hc =>
      exact ⟨_, ⟨_, ty, ts, enc, sig, as⟩, hm, hc, .refl _ _ _ _ _ hc⟩
    | step hc hm' hr' =>
      exact ⟨_, ⟨_, _, _, _, _, _⟩, hm, hc, .step hc hm' hr'⟩

private theorem inside_self {m : Msg} (h : m.cls.isTask = true) : Inside m.val m.val :=
  .refl _ _ _ _ _ h

/-- Keys of the parties, as named by the `TaskToCompute` of a message. -/
private theorem party_keys {P : Parties} {m t : Msg} (e : m.taskToCompute = t.val) (h : Named P t) (o : Owner) :
    PartyKey (some P.concent.2) m o (P.pair o).2 := by
  obtain ⟨w, h1, h2, h3⟩ := h
  cases o with
  | provider => exact .provider e h1 h2
  | requestor => exact .requestor e h3
  | concent => exact .concent rfl

private theorem task_sign {c : Cls} (h : c.isTask = true) : c.sign = true ∧ c ≠ .Hello := by
  cases c <;> first | exact ⟨rfl, by decide⟩ | cases h

private theorem ttc_owner {o : Owner} (h : o ∈ Cls.expectedOwners .TaskToCompute) : o = .requestor := by
  simpa [Cls.expectedOwners] using h

/-- What is shown by induction over the exchange. -/
private structure Inv (E : Env) (P : Parties) (T : Delivery) (b : Bytes) (m : Msg) : Prop where
  loads : (load E T.dec (some b) T.rpriv (some T.sender.2) T.ct T.now).2 = .ok m
  kind : m.cls = .WantToComputeTask ∨ m.cls.isTask = true
  offer : m.cls = .WantToComputeTask → (∃ h, shortHash E m = .ok h) ∧
    decodeHex (getAttr m.attrs p!"provider_public_key") = .ok P.provider.2 ∧
    ∃ fs, getAttr m.attrs p!"task_header" = .cont .taskHeader fs ∧
      headerVerifyF E fs P.requestor.2 = .ok ()
  good : ∀ w : Msg, Inside m.val w.val → Good E P w

private theorem exchange_inv {E : Env} {P : Parties} (hP : P.Sound E) {T : Delivery} {b : Bytes} {m : Msg}
    (h : Exchange E P T b m) : Inv E P T b m := by
  induction h with
  | @offer T b m m' fs0 fs hc hpk hsign hth hT hS =>
    have K : KeyPair E T.sender.1 T.sender.2 := by rw [hT]; exact hP.1 .provider
    obtain ⟨⟨e1, e2, e3, e4⟩, hl, hsg⟩ := sends_loads hS K (by rw [hc]; rfl) (by rw [hc]; decide)
    have hk : taskChecks E m' = .ok m' := by
      unfold taskChecks
      rw [e1, hc, if_neg (by decide)]
    obtain ⟨_, h, hh, _⟩ := hsg hk
    refine ⟨hl.trans hk, Or.inl (e1.trans hc), fun _ => ⟨⟨h, hh⟩, ?_, fs, ?_, ?_⟩, ?_⟩
    · rw [e4]; exact spells_decodes hpk
    · rw [e4]; exact hth
    · exact header_sign_verify E fs0 fs P.requestor.1 P.requestor.2
        (fun x s hx => ((hP.1 .requestor).law x s hx).2) (hP.1 .requestor).length hsign
    · intro w hw
      have hnt : ¬ m'.cls.isTask = true := by rw [e1, hc]; decide
      generalize hu : w.val = u at hw
      unfold Msg.val at hw
      cases hw with
      | refl _ _ _ _ _ h => exact absurd h hnt
      | step h => exact absurd h hnt
  | @assign T T0 b b0 w m0 m m' items seed i1 i2 j1 j2 _ hwc hc hw hrk hek hid hctd htid hsid hgen hT hS ih =>
    have K : KeyPair E T.sender.1 T.sender.2 := by rw [hT]; exact hP.1 .requestor
    obtain ⟨⟨e1, e2, e3, e4⟩, hl, hsg⟩ := sends_loads hS K (by rw [hc]; rfl) (by rw [hc]; decide)
    obtain ⟨⟨hx, hhx⟩, hpk, fs, hth, hver⟩ := ih.offer hwc
    -- the ethereum signature
    have heth : verifyEthsig E m' = .ok () := by
      unfold generateEthsig at hgen
      split at hgen
      · cases hgen
      split at hgen
      · cases hgen
      rename_i w0 hw0
      split at hgen
      · cases hgen
      rename_i h hh
      split at hgen
      · cases hgen
      rename_i s hs
      injection hgen with hgen
      have g : ∀ n, getAttr m.attrs n = if n = p!"ethsig" then .bytes s else getAttr m0.attrs n := by
        intro n; rw [← hgen]; exact getAttr_setName _ _ _ _
      have gw := g p!"want_to_compute_task"
      rw [if_neg (by decide)] at gw
      unfold verifyEthsig
      rw [e4, gw, hw0]
      simp only
      rw [spells_decodes hek]
      simp only
      unfold verifySigWith
      rw [hh]
      simp only
      rw [g p!"ethsig", if_pos rfl]
      exact (ecdsa_verify_decision E P.eth.2 h (.bytes s)).1.mpr
        ⟨hP.2.length, (hP.2.law _ _ hs).2⟩
    -- the ids
    have hids : ∀ (key : PStr) (i j : Nat), getAttr items key = .str (generateId i j seed) →
        validateTaskIdKey m' key = .ok () := by
      intro key i j hk
      unfold validateTaskIdKey
      rw [e4, hctd]
      simp only [Val.asDict]
      have : dictGet (.str key) (items.map fun kv => (Val.str kv.1, kv.2)) = some (.str (generateId i j seed)) := by
        rw [dictGet_find]
        clear hctd htid hsid
        induction items with
        | nil => cases hk
        | cons kv rest ih =>
          obtain ⟨k, v⟩ := kv
          unfold getAttr at hk ih
          rw [lookupName_cons] at hk
          by_cases hkk : k = key
          · rw [if_pos hkk] at hk
            simp only [Option.getD_some] at hk
            subst hkk hk
            simp
          · rw [if_neg hkk] at hk
            simp only [List.map_cons, List.find?_cons]
            have : decide (Val.str k = Val.str key) = false := by simp [hkk]
            rw [this]
            exact ih hk
      rw [this]
      simp only
      unfold checkIdHexSeed
      rw [spells_decodes hid]
      simp only
      rw [generated_id_checks]
      simp
    have hk : taskChecks E m' = .ok m' := by
      have hv : isValid m' = .ok () := by
        rw [isValid_same e1 e3 e4]
        unfold isValid
        rw [hc]
      unfold taskChecks validateTaskId
      rw [hv, heth, hids _ _ _ htid, hids _ _ _ hsid, e1, hc]
      rfl
    have hT' : m'.cls = .TaskToCompute := e1.trans hc
    obtain ⟨_, h, hh, hrec⟩ := hsg hk
    rw [hT] at hrec
    have hw' : getAttr m'.attrs p!"want_to_compute_task" = w.val := by rw [e4]; exact hw
    have hr' : decodeHex (getAttr m'.attrs p!"requestor_public_key") = .ok P.requestor.2 := by
      rw [e4]; exact spells_decodes hrk
    have hn : Named P m' := ⟨w, hw', hpk, hr'⟩
    have hkey := party_keys (ttc_self hT') hn
    have hlen := (hP.1 .requestor).length
    have hhv : ∃ hd, headerHash E fs = .ok hd := by
      unfold headerVerifyF at hver
      split at hver
      · cases hver
      split at hver
      · cases hver
      · exact ⟨_, by assumption⟩
    obtain ⟨hd, hhd⟩ := hhv
    obtain ⟨v1, v2, v3⟩ := ((header_verify_decision E fs P.requestor.2).2 hd hhd).mp hver
    refine ⟨hl.trans hk, Or.inr (by rw [hT']; rfl), fun e => (by rw [hT'] at e; cases e), ?_⟩
    intro x hx'
    have hxm : x = m' := by
      rcases inside_cases hx' with e | ⟨name, y, hy, hyt, _⟩
      · exact e
      · exfalso
        rw [e4] at hy
        have hwt := hS.typed
        unfold WellTypedMsg at hwt
        rw [if_neg (by rw [hc]; decide), hc] at hwt
        cases hwt with | mk _ _ _ fields slots _ _ =>
        cases hln : lookupName name (Cls.msgSlots .TaskToCompute) with
        | none => exact field_not_msg (fields _ _ hy hln).1 y rfl
        | some sd =>
          have hso := slots _ _ _ hy hln
          have hsd : sd.isList = false ∧ sd.cls = .WantToComputeTask := by
            have : (name, sd) ∈ Cls.msgSlots .TaskToCompute := mem_of_lookupName hln
            simp [Cls.msgSlots] at this
            rw [this.2]
            exact ⟨rfl, rfl⟩
          unfold SlotOk at hso
          rw [hsd.1, hsd.2] at hso
          simp only [Bool.false_eq_true, if_false, Msg.val, reduceCtorEq, false_and, false_or] at hso
          simp [isMsg] at hso
          rw [hso] at hyt
          cases hyt
    subst hxm
    refine ⟨⟨⟨.requestor, by rw [hT']; decide, P.requestor.2, hkey .requestor, hlen, h, hh, hrec⟩,
      fun _ => ⟨w, hw', fs, hth, _, hr', hlen, v1, hd, hhd, v3⟩⟩,
      ⟨⟨_, hkey .provider⟩, ⟨_, hkey .requestor⟩, fun o _ => ⟨_, hkey o, (hP.1 o).length⟩, ⟨h, hh⟩,
        fun _ => ⟨w, hw', fs, hth, ⟨_, hr', hlen⟩, hd, hhd⟩⟩, fun _ => hn, hkey⟩
  | @reply T b m m' o way frame ht hne ho _ httc hval hT hS ih =>
    have K : KeyPair E T.sender.1 T.sender.2 := by rw [hT]; exact hP.1 o
    obtain ⟨⟨e1, e2, e3, e4⟩, hl, hsg⟩ := sends_loads hS K (task_sign ht).1 (task_sign ht).2
    have hk : taskChecks E m' = .ok m' := by
      unfold taskChecks
      rw [e1, if_pos ht, isValid_same e1 e3 e4, hval]
      simp only
      rw [if_neg hne]
    have ht' : m'.cls.isTask = true := by rw [e1]; exact ht
    have hne' : m'.cls ≠ .TaskToCompute := by rw [e1]; exact hne
    have hload := hl.trans hk
    have hty := carries_slotsTyped (carries_of_load hload (task_sign ht').2).1
    obtain ⟨_, h, hh, hrec⟩ := hsg hk
    rw [hT] at hrec
    have inner : ∀ w : Msg, Inside m'.val w.val → w = m' ∨ Good E P w := by
      intro w hw
      rcases inside_cases hw with e | ⟨name, x, hx, hxt, hin⟩
      · exact Or.inl e
      · right
        rw [e4] at hx
        exact (ih name x hx hxt).good w hin
    -- the `TaskToCompute` of the message is one of the exchange
    obtain ⟨t, htt, hnamed⟩ : ∃ t : Msg, m'.taskToCompute = t.val ∧ Named P t := by
      obtain ⟨l, hch, he⟩ := task_to_compute_first m' hty ht'
      cases l with
      | nil =>
        rw [ttc_same e1 e4 hne] at he
        exact absurd he httc
      | cons t0 rest =>
        obtain ⟨hin, t, htc, rfl⟩ := chain_inside hch t0 (by simp)
        refine ⟨t, he, ?_⟩
        rcases inner t hin with e | hg
        · rw [e] at htc; exact absurd htc hne'
        · exact hg.2.2.1 htc
    have hkey := party_keys htt hnamed
    refine ⟨hload, Or.inr ht', fun e => (by rw [e] at ht'; cases ht'), ?_⟩
    intro w hw
    rcases inner w hw with rfl | hg
    · exact ⟨⟨⟨o, by rw [e1]; exact ho, _, hkey o, (hP.1 o).length, h, hh, hrec⟩,
          fun e => absurd e hne'⟩,
        ⟨⟨_, hkey .provider⟩, ⟨_, hkey .requestor⟩, fun o _ => ⟨_, hkey o, (hP.1 o).length⟩, ⟨h, hh⟩,
          fun e => absurd e hne'⟩, fun e => absurd e hne', hkey⟩
    · exact hg

private theorem inside_trans {a b c : Val} (h : Inside a b) (h' : Inside b c) : Inside a c := by
  induction h with
  | refl => exact h'
  | step hc hm _ ih => exact .step hc hm (ih h')

/-- C76: every frame of an exchange between honest parties, of any length, is accepted by its
receiver with the sender's key, as the very message the sender has. -/
theorem honest_accepted (E : Env) (P : Parties) (hP : P.Sound E) (T : Delivery) (b : Bytes) (m : Msg)
    (h : Exchange E P T b m) :
    (load E T.dec (some b) T.rpriv (some T.sender.2) T.ct T.now).2 = .ok m :=
  (exchange_inv hP h).loads

/-- C76: the task messages exchanged, and whatever task messages are inside them, stand as
evidence: `verify_owners` accepts them with the keys of the parties. -/
theorem honest_evidence (E : Env) (P : Parties) (hP : P.Sound E) (T : Delivery) (b : Bytes) (m w : Msg)
    (h : Exchange E P T b m) (hw : Inside m.val w.val) :
    verifyOwners E w (some P.provider.2) (some P.requestor.2) (some P.concent.2) = .ok () ∧
    verifyOwners E w none none (some P.concent.2) = .ok () := by
  have inv := exchange_inv hP h
  have good : ∀ x : Msg, Inside w.val x.val → Good E P x := fun x hx => inv.good x (inside_trans hw hx)
  have h0 := (ownership_complete E w (some P.concent.2) fun x hx => (good x hx).2.1).1
    fun x hx => (good x hx).1
  have hk := (inv.good w hw).2.2.2
  exact ⟨(role_match E w (some P.concent.2) _ _ (hk .provider) (hk .requestor)).trans h0, h0⟩

/-! ### A run -/

mutual
/-- No mandatory field is missing, checked recursively. -/
private def fullV (v : Val) : Bool :=
  match v with
  | .msg c _ _ _ _ as => c.payload.all (fun n => !mandatory c n || getAttr as n != .none) && fullA as
  | .list l => fullL l
  | _ => true
termination_by structural v
private def fullA (as : List (PStr × Val)) : Bool :=
  match as with
  | [] => true
  | (_, v) :: rest => fullV v && fullA rest
termination_by structural as
private def fullL (l : List Val) : Bool :=
  match l with
  | [] => true
  | v :: rest => fullV v && fullL rest
termination_by structural l
end

private theorem fullL_mem {l : List Val} (h : fullL l = true) : ∀ x ∈ l, fullV x = true := by
  induction l with
  | nil => intro x hx; cases hx
  | cons v rest ih =>
    rw [fullL, Bool.and_eq_true] at h
    intro x hx
    rcases List.mem_cons.mp hx with rfl | hx
    · exact h.1
    · exact ih h.2 x hx

private theorem fullA_get {as : Attrs} (h : fullA as = true) (n : PStr) : fullV (getAttr as n) = true := by
  induction as with
  | nil => rfl
  | cons kv rest ih =>
    obtain ⟨k, v⟩ := kv
    rw [fullA, Bool.and_eq_true] at h
    unfold getAttr at ih ⊢
    rw [lookupName_cons]
    by_cases hk : k = n
    · rw [if_pos hk]; exact h.1
    · rw [if_neg hk]; exact ih h.2

private theorem full_member {v x : Val} (h : fullV v = true) (hx : x ∈ members v) : fullV x = true := by
  cases v with
  | msg => rw [show x = _ from List.mem_singleton.mp hx]; exact h
  | list l => rw [fullV] at h; exact fullL_mem h x hx
  | _ => cases hx

private theorem full_msg {m : Msg} (h : fullV m.val = true) :
    (∀ name ∈ m.cls.payload, mandatory m.cls name = true → getAttr m.attrs name ≠ .none) ∧
      fullA m.attrs = true := by
  unfold Msg.val at h
  rw [fullV, Bool.and_eq_true, List.all_eq_true] at h
  refine ⟨fun name hn hm => ?_, h.2⟩
  have := h.1 name hn
  rw [hm] at this
  simpa using this

private theorem full_complete {m : Msg} (h : fullV m.val = true) : Complete m := by
  refine ⟨(full_msg h).1, ?_⟩
  have key : ∀ {path : List (PStr × Nat)} {as : Attrs} {x : Msg}, Sits path as x → fullA as = true →
      fullV x.val = true := by
    intro path as x hs
    induction hs with
    | here hh => exact fun hf => full_member (fullA_get hf _) (List.mem_of_getElem? hh)
    | deeper hh _ ih =>
      exact fun hf => ih (full_msg (full_member (fullA_get hf _) (List.mem_of_getElem? hh))).2
  intro path x hs
  exact (full_msg (key hs (full_msg h).2)).1

private def sk (x : UInt8) : Bytes := List.replicate 32 x
private def vk (x : UInt8) : Bytes := List.replicate 64 x

private theorem toy_pair (k : UInt8) : KeyPair toyEnv (sk k) (vk k) := by
  refine ⟨fun x s hs => ?_, by simp [vk], by simp [sk]⟩
  have hl : (toyEnv.sha3 x).length = 32 := by simp [toyEnv]
  generalize toyEnv.sha3 x = h at *
  simp only [toyEnv, sk] at hs ⊢
  injection hs with hs
  subst hs
  have e0 : List.take 32 (List.replicate 32 k) = List.replicate 32 k := by simp
  rw [e0]
  have e : (List.replicate 32 k ++ h ++
      List.replicate (65 - (List.replicate 32 k).length - h.length) 0).take 32
      = List.replicate 32 k := by
    rw [List.append_assoc, List.take_left' (by simp)]
  refine ⟨by simp [hl], ?_⟩
  rw [e, if_pos rfl]
  simp [vk, List.replicate_append_replicate]

private def toyParties : Parties := ⟨(sk 5, vk 5), (sk 7, vk 7), (sk 3, vk 3), (sk 6, vk 6)⟩

private theorem toyParties_sound : toyParties.Sound toyEnv :=
  ⟨fun o => by cases o <;> exact toy_pair _, toy_pair 6⟩

private def by' (x : UInt8) : Delivery :=
  ⟨(sk x, vk x), fun _ p => .ok p, fun _ p => .ok p, none, none, false, 0⟩

private def sent (x : UInt8) (m : Msg) : Bytes × Msg :=
  match dump toyEnv (fun _ p => .ok p) m (some (sk x)) none with
  | (.ok b, m') => (b, m')
  | _ => ([], m)

/-- A new message that loads with all its fields, and leaves none out, is sent. -/
private theorem toy_sends (x : UInt8) (m : Msg) (hne : m.cls ≠ .Hello)
    (h1 : (dump toyEnv (fun _ p => .ok p) m (some (sk x)) none).1 = .ok (sent x m).1)
    (h2 : (dump toyEnv (fun _ p => .ok p) m (some (sk x)) none).2 = (sent x m).2)
    (h3 : (load toyEnv (fun _ p => .ok p) (some (sent x m).1) none none false 0).2 = .ok (sent x m).2)
    (h4 : fullV (sent x m).2.val = true)
    (h5 : (sent x m).2.cls = m.cls ∧ (sent x m).2.attrs = m.attrs)
    (h6 : m.sig = .none ∧ m.ty = .int m.cls.typeId ∧ m.ts = .int (1500000000 : Nat)) :
    Sends toyEnv (by' x) m (sent x m).1 (sent x m).2 := by
  refine ⟨?_, h6.1, h6.2.1, ⟨1500000000, h6.2.2, by decide +kernel, by decide +kernel,
    fun h => (by cases h)⟩, fun _ _ _ h => (by cases h), Prod.ext h1 h2⟩
  have := loaded_wellTyped _ _ _ _ _ _ _ _ h3 (full_complete h4)
  unfold WellTypedMsg at this ⊢
  rw [if_neg hne]
  rw [h5.1, h5.2, if_neg hne] at this
  exact this

private def filled (c : Cls) (given : Attrs) : Msg :=
  ⟨c, .int c.typeId, .int (1500000000 : Nat), .bool false, .none,
    c.payload.map fun n => (n, getAttr given n)⟩

private def plainHeader : Attrs :=
  match mkCont toyEnv .taskHeader (.dict [(.str p!"task_id", .str p!"t1"),
      (.str p!"task_owner", .dict [(.str p!"key", .str p!"ab")]),
      (.str p!"subtasks_count", .int 3), (.str p!"min_version", .str p!"1.2.3"),
      (.str p!"timestamp", .int 5)]) with
  | .ok (.cont _ fs) => fs
  | _ => []

private def signedHeader : Attrs := (headerSign toyEnv plainHeader (sk 5)).toOption.getD []

private def runOffer : Msg :=
  filled .WantToComputeTask [(p!"provider_public_key", .str (hexlify (vk 7))),
      (p!"task_header", .cont .taskHeader signedHeader), (p!"num_subtasks", .int 1),
      (p!"concent_enabled", .bool false)]

private def runItems : Attrs :=
  setName p!"task_id" (.str (generateId 1 2 (vk 5)))
    (setName p!"subtask_id" (.str (generateId 3 4 (vk 5))) FDictId.computeTaskDef.items)

private def runTask0 : Msg :=
  filled .TaskToCompute [(p!"want_to_compute_task", (sent 7 runOffer).2.val),
      (p!"requestor_public_key", .str (hexlify (vk 5))),
      (p!"requestor_ethereum_public_key", .str (hexlify (vk 6))),
      (p!"requestor_id", .str (hexlify (vk 5))),
      (p!"price", .int 0), (p!"size", .int 0), (p!"concent_enabled", .bool false),
      (p!"compute_task_def", .fdict .computeTaskDef runItems)]

private def runTask : Msg := (generateEthsig toyEnv runTask0 (sk 6)).toOption.getD runTask0

private def runReport : Msg :=
  filled .ReportComputedTask [(p!"task_to_compute", (sent 5 runTask).2.val)]

private def runAck : Msg :=
  filled .AckReportComputedTask [(p!"report_computed_task", (sent 7 runReport).2.val)]

private theorem hexlify_spells (b : Bytes) : Spells (.str (hexlify b)) b := ⟨_, rfl, hexText_hexlify b⟩

private theorem runOffer_sent :
    Exchange toyEnv toyParties (by' 7) (sent 7 runOffer).1 (sent 7 runOffer).2 := by
  refine .offer (m := runOffer) (fs0 := plainHeader) (fs := signedHeader) rfl (hexlify_spells (vk 7))
    ?_ ?_ rfl (toy_sends 7 runOffer (by decide) ?_ ?_ ?_ ?_ ?_ ?_)
  all_goals decide +kernel

private theorem runTask_sent :
    Exchange toyEnv toyParties (by' 5) (sent 5 runTask).1 (sent 5 runTask).2 := by
  have e : ∀ n b, getAttr runTask.attrs n = .str (hexlify b) → Spells (getAttr runTask.attrs n) b := by
    intro n b h; rw [h]; exact hexlify_spells b
  refine .assign (m0 := runTask0) (m := runTask) (items := runItems) (seed := vk 5) (i1 := 1) (j1 := 2)
    (i2 := 3) (j2 := 4) runOffer_sent ?_ ?_ ?_ (e _ _ ?_) (e _ _ ?_) (e _ _ ?_) ?_ ?_ ?_ ?_ rfl
    (toy_sends 5 runTask ?_ ?_ ?_ ?_ ?_ ?_ ?_)
  all_goals decide +kernel

private theorem held {c : Cls} {k : PStr} {m : Msg} {name : PStr} {x : Msg}
    (h : (name, x.val) ∈ (filled c [(k, m.val)]).attrs) : x = m := by
  obtain ⟨n, _, e⟩ := List.mem_map.mp h
  injection e with e1 e2
  unfold getAttr at e2
  rw [lookupName_cons] at e2
  by_cases hk : k = n
  · rw [if_pos hk] at e2; exact msg_val_inj e2.symm
  · rw [if_neg hk] at e2; cases e2

private theorem runReport_sent :
    Exchange toyEnv toyParties (by' 7) (sent 7 runReport).1 (sent 7 runReport).2 := by
  refine .reply (m := runReport) (o := .provider) (fun _ => by' 5) (fun _ => (sent 5 runTask).1) ?_ ?_ ?_
    (fun name x h _ => by rw [held h]; exact runTask_sent) ?_ ?_ rfl
    (toy_sends 7 runReport ?_ ?_ ?_ ?_ ?_ ?_ ?_)
  all_goals decide +kernel

/-- A subtask is offered, assigned, reported and acknowledged. -/
example : Exchange toyEnv toyParties (by' 5) (sent 5 runAck).1 (sent 5 runAck).2 ∧
    toyParties.Sound toyEnv ∧
    verifyOwners toyEnv (sent 5 runAck).2 (some (vk 7)) (some (vk 5)) (some (vk 3)) = .ok () := by
  have h : Exchange toyEnv toyParties (by' 5) (sent 5 runAck).1 (sent 5 runAck).2 := by
    refine .reply (m := runAck) (o := .requestor) (fun _ => by' 7) (fun _ => (sent 7 runReport).1) ?_ ?_ ?_
      (fun name x h _ => by rw [held h]; exact runReport_sent) ?_ ?_ rfl
      (toy_sends 5 runAck ?_ ?_ ?_ ?_ ?_ ?_ ?_)
    all_goals decide +kernel
  exact ⟨h, toyParties_sound, (honest_evidence toyEnv toyParties toyParties_sound _ _ _ _ h
    (inside_self (by decide +kernel))).1⟩

end Verif.Props
