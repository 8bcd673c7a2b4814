import Verif.Lemmas.Arrived
import Verif.Props.RoundTrip
import Verif.Props.Gate
/-!
# C57, C58: messages that were received can be passed on and checked again
-/

set_option linter.unusedSimpArgs false

namespace Verif.Props

open Verif Spec

private theorem taskChecks_id {E : Env} {m m1 : Msg} (h : taskChecks E m = .ok m1) : m1 = m := by
  unfold taskChecks at h
  split at h
  · split at h
    · cases h
    split at h
    · split at h
      · cases h
      split at h
      · cases h
      injection h with h; exact h.symm
    · injection h with h; exact h.symm
  · injection h with h; exact h.symm

/-- The validation of a class does not look at the encrypted flag. -/
private theorem taskChecks_enc {E : Env} {m : Msg} (h : taskChecks E m = .ok m) (e : Val) :
    taskChecks E { m with enc := e } = .ok { m with enc := e } := by
  have hr : rejectedValid { m with enc := e } = rejectedValid m ∨ m.cls ≠ .SubtaskResultsRejected := by
    by_cases hc : m.cls = .SubtaskResultsRejected
    · left
      obtain ⟨c, ty, ts, enc, sig, as⟩ := m
      simp only at hc
      subst hc
      unfold rejectedValid Msg.val
      simp only
      unfold taskGet
      rfl
    · exact Or.inr hc
  have hv : isValid { m with enc := e } = isValid m := by
    rcases hr with hr | hr
    · unfold isValid
      rw [hr]
      rfl
    · obtain ⟨c, ty, ts, enc, sig, as⟩ := m
      simp only at hr
      unfold isValid
      simp only
      cases c <;> first | rfl | exact absurd rfl hr
  have he : verifyEthsig E { m with enc := e } = verifyEthsig E m := rfl
  have ht : validateTaskId { m with enc := e } = validateTaskId m := rfl
  unfold taskChecks at h ⊢
  rw [hv, he, ht]
  simp only
  by_cases h1 : m.cls.isTask = true
  · rw [if_pos h1] at h ⊢
    cases h2 : isValid m with
    | error e => rw [h2] at h; cases h
    | ok u =>
      rw [h2] at h
      simp only at h ⊢
      by_cases h3 : m.cls = .TaskToCompute
      · rw [if_pos h3] at h ⊢
        cases h4 : verifyEthsig E m with
        | error e => rw [h4] at h; cases h
        | ok u =>
          rw [h4] at h
          simp only at h ⊢
          cases h5 : validateTaskId m with
          | error e => rw [h5] at h; cases h
          | ok u => rfl
      · rw [if_neg h3]
  · rw [if_neg h1]

private theorem sits_append {as : Attrs} {p : PStr × Val} {path : List (PStr × Nat)} {x : Msg}
    (h : Sits path as x) : Sits path (as ++ [p]) x := by
  have key : ∀ {name : PStr} {i : Nat} {y : Val}, (members (getAttr as name))[i]? = some y →
      getAttr (as ++ [p]) name = getAttr as name := by
    intro name i y hy
    unfold getAttr at hy ⊢
    rw [lookupName_append]
    cases hl : lookupName name as with
    | none => rw [hl] at hy; simp [members] at hy
    | some v => rfl
  cases h with
  | here h => exact .here (by rw [key h]; exact h)
  | deeper h hx => exact .deeper (by rw [key h]; exact h) hx

/-- What `load` leaves behind. -/
theorem loaded_arrived {E : Env} {dec : Bytes → Bytes → Res Bytes} {data : Bytes}
    {priv pub : Option Bytes} {ct : Bool} {now : Int} {m : Msg}
    (h : (load E dec (some data) priv pub ct now).2 = .ok m) :
    ∃ (as : Attrs) (t : Nat), Arrived E m.cls as ∧ m.ty = .int m.cls.typeId ∧ m.ts = .int t ∧
      minTimestamp < t ∧ t < maxTimestamp ∧ m.sig = .bytes (frameSig (unversioned data)) ∧
      ((m.cls ≠ .Hello ∧ m.attrs = as ∧ taskChecks E m = .ok m) ∨
       (m.cls = .Hello ∧ ∃ v, m.attrs = as ++ [(p!"_version", .str v)] ∧ v.length ≤ 31 ∧
          (∀ c ∈ v, c.toNat < 128) ∧ verifyVersion E.version v = .ok ())) := by
  obtain ⟨_, t1, t2, c, hc, _, p, version, _, hver, hv, hparse, htask⟩ := load_ok h
  obtain ⟨slots, hl, hcon, _⟩ := parsePayload_ok hparse
  obtain ⟨as, ha, rfl⟩ := construct_ok hcon
  refine ⟨as, frameTime data, arrived_of_load _ (loads_data hl) ha, ?_, rfl, t1, t2, rfl, ?_⟩
  · simp only [hc]
  · by_cases hh : c = .Hello
    · right
      rw [if_pos hh] at hver
      subst hver
      refine ⟨hh, _, rfl, ?_, verifyVersion_ascii (hv hh), hv hh⟩
      unfold asciiDecodeReplace fieldVersion
      simp only [List.length_map]
      split <;> simp <;> omega
    · left
      rw [if_neg hh] at hver
      subst hver
      refine ⟨hh, by simp [versionAttr], ?_⟩
      exact htask hh

/-- C57: a received message without gaps holds what its class declares, at every depth. -/
theorem loaded_wellTyped (E : Env) (dec : Bytes → Bytes → Res Bytes) (data : Bytes)
    (priv pub : Option Bytes) (ct : Bool) (now : Int) (m : Msg)
    (h : (load E dec (some data) priv pub ct now).2 = .ok m) (hc : Complete m) : WellTypedMsg E m := by
  obtain ⟨as, t, ha, _, _, _, _, _, hs⟩ := loaded_arrived h
  obtain ⟨h1, h2⟩ := hc
  unfold WellTypedMsg
  rcases hs with ⟨hne, hattrs, _⟩ | ⟨heq, v, hattrs, _⟩
  · rw [if_neg hne, hattrs]
    rw [hattrs] at h1 h2
    exact arrived_wellTyped ha (fun name hm hp => h1 name hp hm)
      (fun path x hx name hm hp => h2 path x hx name hp hm)
  · rw [if_pos heq]
    refine ⟨as, v, hattrs, ?_⟩
    rw [← heq]
    rw [hattrs] at h2
    refine arrived_wellTyped ha (fun name hm hp => ?_)
      (fun path x hx name hm hp => h2 path x (sits_append hx) name hp hm)
    rw [heq] at hm
    have : mandatory .Hello name = false := by simp [mandatory, Cls.msgSlots, lookupName]
    rw [this] at hm
    cases hm

/-- The signature a received message carries. -/
private theorem frameSig_length {E : Env} {dec : Bytes → Bytes → Res Bytes} {data : Bytes}
    {priv pub : Option Bytes} {ct : Bool} {now : Int} {m : Msg}
    (h : (load E dec (some data) priv pub ct now).2 = .ok m)
    (hdec : ∀ k p, dec k [] ≠ .ok p) : (frameSig (unversioned data)).length = 65 := by
  obtain ⟨_, _, _, c, _, _, p, version, hp, _, _, hparse, _⟩ := load_ok h
  obtain ⟨slots, hl, _⟩ := parsePayload_ok hparse
  have hb : frameBody (unversioned data) ≠ [] := by
    intro he
    unfold Payload at hp
    rw [he] at hp
    have : loads [] = .error .serializationError := rfl
    split at hp
    · unfold loadDecrypt at hp
      split at hp
      · injection hp with hp
        subst hp
        rw [this] at hl; cases hl
      · exact hdec _ _ hp
    · subst hp
      rw [this] at hl; cases hl
  unfold frameBody at hb
  unfold frameSig
  have : 76 < (unversioned data).length := by
    apply Nat.lt_of_not_le
    intro hle
    exact hb (List.drop_eq_nil_of_le hle)
  simp only [List.length_take, List.length_drop]
  omega

private theorem forwarded_core (E : Env) (encrypt dec dec' : Bytes → Bytes → Res Bytes) (data b : Bytes)
    (priv pub priv' rpub rpriv : Option Bytes) (ct ct' : Bool) (now now' : Int) (m1 m2 : Msg)
    (hload : (load E dec (some data) priv pub ct now).2 = .ok m1) (hwt : WellTypedMsg E m1)
    (hdec0 : ∀ k p, dec k [] ≠ .ok p)
    (hdump : dump E encrypt m1 priv' rpub = (.ok b, m2))
    (htime : ct' = true → verifyTime now' (frameTime data) = .ok ())
    (hdec : ∀ k p c, rpub = some k → encrypt k p = .ok c →
      c ≠ [] ∧ loadDecrypt dec' rpriv c = .ok p) :
    (load E dec' (some b) rpriv none ct' now').2 = .ok m2 ∧ m2 = { m1 with enc := m2.enc } := by
  obtain ⟨as, t, ha, hty, hts, t1, t2, hsig, hs⟩ := loaded_arrived hload
  have hk : m2.cls = m1.cls ∧ m2.ty = m1.ty ∧ m2.ts = m1.ts ∧ m2.attrs = m1.attrs ∧
      (m1.sig ≠ .none → m2.sig = m1.sig) := by
    have := serialize_keeps E m1 priv' ((givenKey rpub).map encrypt)
    have hdump' : serialize E m1 priv' ((givenKey rpub).map encrypt) = (.ok b, m2) := hdump
    rw [hdump'] at this
    exact this
  have hsg2 : m2.sig = m1.sig := hk.2.2.2.2 (by rw [hsig]; simp)
  have ht : t = frameTime data := by
    obtain ⟨_, _, _, c, _, _, p, version, _, _, _, hparse, _⟩ := load_ok hload
    obtain ⟨slots, _, hcon, _⟩ := parsePayload_ok hparse
    obtain ⟨_, _, rfl⟩ := construct_ok hcon
    simp only [Val.int.injEq] at hts
    omega
  have hver : ∀ v, getAttr m1.attrs p!"_version" = .str v → m1.cls = .Hello →
      v.length ≤ 31 ∧ (∀ c ∈ v, c.toNat < 128) ∧ verifyVersion E.version v = .ok () := by
    intro v hv hc
    rcases hs with ⟨hne, _⟩ | ⟨_, v', hattrs, h1, h2⟩
    · exact absurd hc hne
    · have : getAttr m1.attrs p!"_version" = .str v' := by
        have hn : as.map Prod.fst = m1.cls.payload := by cases ha with | mk _ _ h => exact h
        have : lookupName p!"_version" as = none := by
          rw [lookupName_none, hn]; exact payload_no_version _
        rw [hattrs]
        unfold getAttr
        rw [lookupName_append, this]
        rfl
      rw [this] at hv
      injection hv with hv
      subst hv
      exact ⟨h1, h2⟩
  obtain ⟨_, hl⟩ := dump_load_roundtrip_partial E encrypt dec' m1 m2 priv' rpub rpriv b t ct' now' hdump
    hwt hty hts ⟨t1, t2⟩ (fun h => by rw [ht]; exact htime h)
    (fun s hs => by
      rw [hsg2, hsig] at hs
      injection hs with hs
      rw [← hs]
      exact frameSig_length hload hdec0) hver hdec
  have hm2 : m2 = { m1 with enc := m2.enc } := by
    obtain ⟨c, ty, ts, enc, sig, attrs⟩ := m2
    simp only at hk hsg2
    obtain ⟨rfl, rfl, rfl, rfl, _⟩ := hk
    subst hsg2
    rfl
  refine ⟨?_, hm2⟩
  rw [hl]
  rcases hs with ⟨hne, _, hch⟩ | ⟨heq, _⟩
  · have := taskChecks_enc hch m2.enc
    rw [← hm2] at this
    exact this
  · unfold taskChecks
    have : m2.cls.isTask = false := by rw [hk.1, heq]; rfl
    rw [this]
    rfl

/-- C57: a received message without gaps that is dumped again, for whatever recipient, is
accepted by the next receiver as the same message: class, timestamp, signature and all fields at
every depth.  (`hdec0`: decryption refuses the empty string; `hdec`: the next receiver can
decrypt.) -/
theorem forwarded_loads (E : Env) (encrypt dec dec' : Bytes → Bytes → Res Bytes) (data b : Bytes)
    (priv pub priv' rpub rpriv : Option Bytes) (ct ct' : Bool) (now now' : Int) (m1 m2 : Msg)
    (hload : (load E dec (some data) priv pub ct now).2 = .ok m1) (hfull : Complete m1)
    (hdec0 : ∀ k p, dec k [] ≠ .ok p)
    (hdump : dump E encrypt m1 priv' rpub = (.ok b, m2))
    (htime : ct' = true → verifyTime now' (frameTime data) = .ok ())
    (hdec : ∀ k p c, rpub = some k → encrypt k p = .ok c →
      c ≠ [] ∧ loadDecrypt dec' rpriv c = .ok p) :
    (load E dec' (some b) rpriv none ct' now').2 = .ok m2 ∧ m2 = { m1 with enc := m2.enc } := by
  exact forwarded_core E encrypt dec dec' data b priv pub priv' rpub rpriv ct ct' now now' m1 m2 hload
    (loaded_wellTyped E dec data priv pub ct now m1 hload hfull) hdec0 hdump htime hdec

/-- What is known of a received message besides its fields. -/
private theorem loaded_version {E : Env} {dec : Bytes → Bytes → Res Bytes} {data : Bytes}
    {priv pub : Option Bytes} {ct : Bool} {now : Int} {m : Msg}
    (h : (load E dec (some data) priv pub ct now).2 = .ok m) :
    ∀ v, getAttr m.attrs p!"_version" = .str v → m.cls = .Hello → v.length ≤ 31 := by
  obtain ⟨as, t, ha, _, _, _, _, _, hs⟩ := loaded_arrived h
  intro v hv hc
  rcases hs with ⟨hne, _⟩ | ⟨_, v', hattrs, h1, _⟩
  · exact absurd hc hne
  · have : getAttr m.attrs p!"_version" = .str v' := by
      have hn : as.map Prod.fst = m.cls.payload := by cases ha with | mk _ _ h => exact h
      have : lookupName p!"_version" as = none := by
        rw [lookupName_none, hn]; exact payload_no_version _
      rw [hattrs]
      unfold getAttr
      rw [lookupName_append, this]
      rfl
    rw [this] at hv
    injection hv with hv
    subst hv
    exact h1

/-- C57: whatever was received and dumped again, a next receiver that accepts it, with or without
the sender's key, has the same message, gaps or not. -/
theorem forwarded_same (E : Env) (encrypt dec dec' : Bytes → Bytes → Res Bytes) (data b : Bytes)
    (priv pub pub' priv' rpub rpriv : Option Bytes) (ct ct' : Bool) (now now' : Int) (m1 m2 m3 : Msg)
    (hload : (load E dec (some data) priv pub ct now).2 = .ok m1)
    (hdec0 : ∀ k p, dec k [] ≠ .ok p)
    (hdump : dump E encrypt m1 priv' rpub = (.ok b, m2))
    (hdec : ∀ k p c, rpub = some k → encrypt k p = .ok c →
      c ≠ [] ∧ loadDecrypt dec' rpriv c = .ok p)
    (hload2 : (load E dec' (some b) rpriv pub' ct' now').2 = .ok m3) :
    m3 = m2 ∧ m2 = { m1 with enc := m2.enc } := by
  obtain ⟨as, t, ha, hty, hts, t1, t2, hsig, hs⟩ := loaded_arrived hload
  have hk := serialize_keeps E m1 priv' ((givenKey rpub).map encrypt)
  have hdump' : serialize E m1 priv' ((givenKey rpub).map encrypt) = (.ok b, m2) := hdump
  rw [hdump'] at hk
  have hsg2 : m2.sig = m1.sig := hk.2.2.2.2 (by rw [hsig]; simp)
  have hser : serAttrs m1.cls m1.attrs = serAttrs m1.cls as := by
    rcases hs with ⟨_, e, _⟩ | ⟨_, v, e, _⟩
    · rw [e]
    · rw [e, serAttrs_version]
  obtain ⟨p, sl, hft, hsl, hpl, hpay⟩ := dumped_payload (dec := dec') (rpriv := rpriv) (t := t) hdump (fun s hs => by
      rw [hsg2, hsig] at hs
      injection hs with hs
      rw [← hs]
      exact frameSig_length hload hdec0) hty hts (loaded_version hload)
      (fun k p c h1 h2 => (hdec k p c h1 h2).2)
  obtain ⟨hlen, hmin, hmax, c, hc, hgate, p', version, hp', _, _, hparse, _⟩ := load_ok hload2
  have hpe := hpay p' hp'
  subst hpe
  obtain ⟨slots', hl, hcon, _⟩ := parsePayload_ok hparse
  obtain ⟨as', has', _⟩ := construct_ok hcon
  have hcc : c = m1.cls := typeId_inj (by rw [hc, hft])
  subst hcc
  unfold Msg.slots at hsl
  rw [hser] at hsl
  cases hl1 : serAttrs m1.cls as with
  | error e => rw [hl1] at hsl; cases hsl
  | ok l =>
    rw [hl1] at hsl
    simp only [Except.ok.injEq] at hsl
    subst hsl
    obtain ⟨hok, hwell⟩ := arrived_again ha l hl1
    have hld := loads_dumps _ p' [] (by simpa only [Val.wireOk] using hok) hpl
    rw [List.append_nil, hl] at hld
    simp only [Val.wireNorm, Except.ok.injEq] at hld
    subst hld
    have hwt : WellTypedMsg E m1 := by
      have := hwell _ _ has'
      unfold WellTypedMsg
      rcases hs with ⟨hne, e, _⟩ | ⟨heq, v, e, _⟩
      · rw [if_neg hne, e]; exact this
      · rw [if_pos heq]; exact ⟨as, v, e, heq ▸ this⟩
    have hload3 := load_key_filters E dec' b rpriv pub' ct' now' m3 hload2
    have hload4 : (load E dec' (some b) rpriv none false now').2 = .ok m3 := by
      cases ct' with
      | false => exact hload3
      | true =>
        have hmin' : newYear 40 < frameTime b := by rw [← min_is_2010]; exact hmin
        have hmax' : frameTime b < newYear 1040 := by rw [← max_is_3010]; exact hmax
        rw [load_freshness E dec' b hlen hmin' hmax' ⟨_, hc⟩] at hload3
        split at hload3
        · cases hload3
        split at hload3
        · cases hload3
        exact hload3
    obtain ⟨h1, h2⟩ := forwarded_core E encrypt dec dec' data b priv pub priv' rpub rpriv ct false now now'
      m1 m2 hload hwt hdec0 hdump (by simp) hdec
    rw [hload4] at h1
    injection h1 with h1
    exact ⟨h1, h2⟩

/-- A container frame with an empty payload. -/
private def gapFrame : Bytes :=
  match packHeader Cls.RemoveTaskContainer.typeId (.int 1500000000) (.bool false), dumps (.list []) with
  | .ok hd, .ok p => hd ++ List.replicate 65 0 ++ p
  | _, _ => []

/-- Without `Complete` in `forwarded_loads` the claim is false: a message that lacks a mandatory
message slot is accepted by `load`, but cannot be dumped. -/
theorem gap_not_dumped :
    ∃ m, (load toyEnv (fun _ x => .ok x) (some gapFrame) none none false 0).2 = .ok m ∧
      (dump toyEnv (fun _ x => .ok x) m none none).1 = .error (.fieldError p!"remove_tasks") :=
  ⟨_, rfl, by decide +kernel⟩

/-! ### C58 -/

/-- C58 (partial): a message accepted with its sender's key passes `verify_signature` with that
key later on, if its payload was the encoding of the fields it is seen to have.  Missing, because
false: payloads with other content (`reverify_refuted`). -/
theorem accepted_reverifies_partial (E : Env) (dec : Bytes → Bytes → Res Bytes) (data key p : Bytes)
    (priv : Option Bytes) (ct : Bool) (now : Int) (m : Msg) (s : Val) (hk : key ≠ [])
    (h : (load E dec (some data) priv (some key) ct now).2 = .ok m) (hs : m.cls.sign = true)
    (hp : Payload (loadDecrypt dec priv) data p) (hslots : m.slots = .ok s) (henc : dumps s = .ok p) :
    m.verifySig E key = .ok () := by
  obtain ⟨_, _, _, c, hc, _, p', version, hp', _, _, hparse, _⟩ := load_ok h
  obtain ⟨slots, _, hcon, hver⟩ := parsePayload_ok hparse
  have hpe : p' = p := by
    unfold Payload at hp hp'
    split at hp
    · rename_i hf
      rw [if_pos hf, hp] at hp'
      injection hp' with hp'
      exact hp'.symm
    · rename_i hf
      rw [if_neg hf] at hp'
      rw [hp', hp]
  subst hpe
  have hmc : m.cls = c := by obtain ⟨_, _, rfl⟩ := construct_ok hcon; rfl
  have hgk : givenKey (some key) = some key := by
    cases key with
    | nil => exact absurd rfl hk
    | cons x xs => rfl
  obtain ⟨hash, h1, h2⟩ := hver key (by rw [← hmc, hs, hgk]; rfl)
  unfold Msg.verifySig verifySigWith shortHash
  rw [hslots]
  simp only [henc, h1, h2]

/-- C58 for honest senders: what a sender dumps from a well-typed message, signed with its key, is
accepted with the matching key and passes `verify_signature` afterwards. -/
theorem dumped_reverifies (E : Env) (encrypt dec : Bytes → Bytes → Res Bytes) (m m' m1 : Msg)
    (key pub : Bytes) (rpub rpriv : Option Bytes) (b : Bytes) (t : Nat) (ct : Bool) (now : Int)
    (law : ∀ x s, E.sign key (E.sha3 x) = .ok s →
      s.length = 65 ∧ E.recover (.bytes s) (E.sha3 x) = some (4 :: pub))
    (hpub : pub.length = 64) (hkey : key ≠ [])
    (hdump : dump E encrypt m (some key) rpub = (.ok b, m'))
    (hw : WellTypedMsg E m) (hs : m.cls.sign = true) (hsig : m.sig = .none)
    (hty : m.ty = .int m.cls.typeId) (hts : m.ts = .int t)
    (hrange : minTimestamp < t ∧ t < maxTimestamp)
    (htime : ct = true → verifyTime now t = .ok ())
    (hver : ∀ v, getAttr m.attrs p!"_version" = .str v → m.cls = .Hello →
      v.length ≤ 31 ∧ (∀ c ∈ v, c.toNat < 128) ∧ verifyVersion E.version v = .ok ())
    (hdec : ∀ k p c, rpub = some k → encrypt k p = .ok c →
      c ≠ [] ∧ loadDecrypt dec rpriv c = .ok p)
    (hload : (load E dec (some b) rpriv (some pub) ct now).2 = .ok m1) :
    m1.verifySig E pub = .ok () := by
  obtain ⟨⟨h1, h2, h3, h4⟩, h5⟩ := signed_roundtrip_partial E encrypt dec m m' key pub rpub rpriv b t ct now
    law hpub hkey hdump hw hs hsig hty hts hrange htime hver hdec
  rw [h5] at hload
  have := taskChecks_id hload
  subst this
  have hload' : (load E dec (some b) rpriv (some pub) ct now).2 = .ok m1 := by rw [h5]; exact hload
  have hsg : ∀ s, m1.sig = .bytes s → s.length = 65 := by
    intro s hms
    have hgk : givenKey (some key) = some key := by
      cases key with
      | nil => exact absurd rfl hkey
      | cons x xs => rfl
    have k0 : ∀ b0, Nonempty (Dumped E m (some key) ((givenKey rpub).map encrypt) b0 m1) →
        s.length = 65 := by
      rintro b0 ⟨⟨_, _, _, sg, _, _, _, hm, _, _, _, hsig'⟩⟩
      rw [hm] at hms
      simp only [Val.bytes.injEq] at hms
      subst hms
      rcases hsig' with ⟨a, _⟩ | ⟨_, ⟨_, k', x, a, hx, hsx⟩ | ⟨_, a⟩⟩
      · rw [hsig] at a; cases a
      · rw [hgk] at a; injection a with a; subst a; exact (law x _ hsx).1
      · rw [a]; simp [fakeSig, sigLen]
    have hd' : serialize E m (some key) ((givenKey rpub).map encrypt) = (.ok b, m1) := hdump
    rcases serialize_ok hd' with ⟨_, hd⟩ | ⟨_, b0, v, hd, _⟩
    · exact k0 _ hd
    · exact k0 _ hd
  obtain ⟨p, sl, _, hsl, hpl, hpay⟩ := dumped_payload (dec := dec) (rpriv := rpriv) (t := (t : Int)) hdump hsg
    hty hts (fun v a c => (hver v a c).1) (fun k p c a1 a2 => (hdec k p c a1 a2).2)
  obtain ⟨_, _, _, _, _, _, p', _, hp', _⟩ := load_ok hload'
  have hpe := hpay p' hp'
  subst hpe
  refine accepted_reverifies_partial E dec b pub p' rpriv ct now m1 sl ?_ hload' (by rw [h1]; exact hs) hp' ?_ hpl
  · rintro rfl; cases hpub
  · unfold Msg.slots at hsl ⊢
    rw [h1, h4]
    exact hsl

/-- A scheme in which digests depend on every byte. -/
private def addEnv : Env :=
  { toyEnv with
    sha1 := fun b => [b.foldl (· + ·) 0]
    sha3 := fun b => List.replicate 32 (b.foldl (· + ·) 0) }

/-- A `Ping` whose payload has a field `Ping` does not know, signed by its sender. -/
private def strangePing : Bytes :=
  let m : Msg := ⟨.Ping, .int Cls.Ping.typeId, .int 1500000000, .bool false, .none, []⟩
  match dumps (.list [.list [.str p!"speed", .int 3]]) with
  | .error _ => []
  | .ok p =>
    match shortHashOf addEnv m p with
    | .error _ => []
    | .ok h =>
      match addEnv.ecdsaSign (List.replicate 32 7) h, packHeader Cls.Ping.typeId (.int 1500000000) (.bool false) with
      | .ok s, .ok hd => hd ++ s ++ p
      | _, _ => []

/-- C58 is false for a payload with an unknown field: `load` checks the signature over the bytes
received and ignores the field, `verify_signature` encodes the known fields only. -/
theorem reverify_refuted :
    ∃ m, (load addEnv (fun _ x => .ok x) (some strangePing) none (some (List.replicate 64 7)) false 0).2 = .ok m ∧
      m.verifySig addEnv (List.replicate 64 7) = .error .invalidSignature := by
  refine ⟨_, rfl, ?_⟩
  decide +kernel

/-! ### Examples -/

/-- A container with one task removal. -/
private def exBox : Msg :=
  ⟨.RemoveTaskContainer, .int Cls.RemoveTaskContainer.typeId, .int 1500000000, .bool false, .none,
    [(p!"remove_tasks", .list [.msg .RemoveTask (.int 1007) (.int 1500000000) (.bool false) .none
      [(p!"task_id", .str p!"t")]])]⟩

private def exBoxFrame : Bytes :=
  match (dump toyEnv (fun _ x => .ok x) exBox (some (List.replicate 32 7)) none).1 with
  | .ok b => b
  | .error _ => []

private def exBoxLoaded : Res Msg :=
  (load toyEnv (fun _ x => if x = [] then .error .decryptionError else .ok x) (some exBoxFrame) none
    (some (List.replicate 64 7)) false 0).2

/-- The container as received. -/
private def exBoxGot : Msg := { exBox with sig := .bytes (frameSig exBoxFrame) }

/-- The hypotheses of `forwarded_loads` and `forwarded_same` hold together: received, without
gaps, dumped for another recipient. -/
example : ∃ m1 b m2, exBoxLoaded = .ok m1 ∧ Complete m1 ∧ m1.attrs = exBox.attrs ∧
    dump toyEnv (fun _ x => .ok x) m1 none (some [1]) = (.ok b, m2) := by
  refine ⟨exBoxGot, _, _, by decide +kernel, ?_, rfl, rfl⟩
  have hb : ∀ path x, ¬ Sits path [(p!"task_id", Val.str p!"t")] x := by
    have key : ∀ {name : PStr} {i : Nat} {y : Val},
        ¬ (members (getAttr [(p!"task_id", Val.str p!"t")] name))[i]? = some y := by
      intro name i y h
      unfold getAttr lookupName at h
      split at h
      · rename_i w hw
        split at hw
        · injection hw with hw; subst hw; simp [members] at h
        · cases hw
      · simp [members] at h
    intro path x h
    cases h with
    | here h => exact key h
    | deeper h _ => exact key h
  have ha : ∀ {name : PStr} {i : Nat} {y : Msg},
      (members (getAttr exBox.attrs name))[i]? = some y.val →
      y = ⟨.RemoveTask, .int 1007, .int 1500000000, .bool false, .none, [(p!"task_id", .str p!"t")]⟩ := by
    intro name i y h
    rw [show exBox.attrs = [(p!"remove_tasks", .list [.msg .RemoveTask (.int 1007) (.int 1500000000)
      (.bool false) .none [(p!"task_id", .str p!"t")]])] from rfl] at h
    unfold getAttr lookupName at h
    split at h
    · rename_i w hw
      split at hw
      · injection hw with hw
        subst hw
        simp only [members] at h
        cases i with
        | zero =>
          simp only [List.getElem?_cons_zero, Option.some.injEq] at h
          obtain ⟨c, ty, ts, enc, sig, as⟩ := y
          simp only [Msg.val, Val.msg.injEq] at h
          obtain ⟨rfl, rfl, rfl, rfl, rfl, rfl⟩ := h
          rfl
        | succ i => simp at h
      · cases hw
    · simp [members] at h
  refine ⟨by decide +kernel, ?_⟩
  intro path x hx
  have hx' : x = ⟨.RemoveTask, .int 1007, .int 1500000000, .bool false, .none, [(p!"task_id", .str p!"t")]⟩ := by
    cases hx with
    | here h => exact ha h
    | deeper h hx =>
      have := ha h
      subst this
      exact absurd hx (hb _ _)
  subst hx'
  decide +kernel

/-- The hypotheses of `accepted_reverifies_partial` hold together. -/
example : ∃ m s p, exBoxLoaded = .ok m ∧ m.cls.sign = true ∧ m.slots = .ok s ∧ dumps s = .ok p ∧
    p = frameBody (unversioned exBoxFrame) := by
  refine ⟨exBoxGot, _, _, by decide +kernel, rfl, rfl, rfl, ?_⟩
  decide +kernel

end Verif.Props
