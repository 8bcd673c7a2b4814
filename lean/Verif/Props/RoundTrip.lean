import Verif.Lemmas.WireSlots
import Verif.Lemmas.Serialize
import Verif.Props.Auth
/-!
# C02, C03, C16, C17: messages survive dump and load
-/

set_option linter.unusedSimpArgs false

namespace Verif.Props

open Verif Spec

/-! ### C02 -/

theorem serAttrs_version (c : Cls) (as : Attrs) (v : Val) :
    serAttrs c (as ++ [(p!"_version", v)]) = serAttrs c as := by
  induction as with
  | nil =>
    have : c.validSlot p!"_version" = false := by cases c <;> rfl
    simp only [List.nil_append]
    unfold serAttrs
    rw [if_neg (by simp [this])]
    unfold serAttrs
    rfl
  | cons p rest ih =>
    obtain ⟨k, w⟩ := p
    simp only [List.cons_append]
    unfold serAttrs
    rw [ih]

/-- The payload attributes, and the `Hello` version. -/
theorem wellTyped_split {E : Env} {m : Msg} (h : WellTypedMsg E m) :
    ∃ as, WellTyped E m.cls as ∧ serAttrs m.cls m.attrs = serAttrs m.cls as ∧
      ((m.cls ≠ .Hello ∧ m.attrs = as) ∨
       (m.cls = .Hello ∧ ∃ v, m.attrs = as ++ [(p!"_version", .str v)] ∧
          getAttr m.attrs p!"_version" = .str v)) := by
  unfold WellTypedMsg at h
  split at h
  · rename_i hc
    obtain ⟨as, v, ha, hw⟩ := h
    refine ⟨as, hc ▸ hw, by rw [ha, serAttrs_version], Or.inr ⟨hc, v, ha, ?_⟩⟩
    have hn : as.map Prod.fst = Cls.Hello.payload := by cases hw with | mk _ _ h => exact h
    have : lookupName p!"_version" as = none := by
      rw [lookupName_none, hn]; exact payload_no_version .Hello
    rw [ha]
    unfold getAttr
    rw [lookupName_append, this]
    rfl
  · rename_i hc
    exact ⟨m.attrs, h, rfl, Or.inl ⟨hc, rfl⟩⟩

/-- Reading the payload of a well-typed message. -/
theorem parse_wellTyped {E : Env} {m : Msg} {as : Attrs} {sl : Val} {pl : Bytes}
    (hw : WellTyped E m.cls as) (hs : serAttrs m.cls m.attrs = serAttrs m.cls as)
    (hsl : m.slots = .ok sl) (hpl : dumps sl = .ok pl) (h : Header) (sig : Bytes) (ver : Option PStr) :
    parsePayload E m.cls h sig ver none pl =
      .ok ⟨m.cls, .int h.type, .int h.timestamp, .bool h.encrypted, .bytes sig, as ++ versionAttr ver⟩ := by
  obtain ⟨l, h1, h2, h3⟩ := wellTyped_nested hw
  unfold Msg.slots at hsl
  rw [hs, h1] at hsl
  simp only [Except.ok.injEq] at hsl
  subst hsl
  have hld := loads_dumps _ pl [] (by simpa only [Val.wireOk] using h2) hpl
  rw [List.append_nil] at hld
  unfold parsePayload
  rw [hld]
  simp only [Val.wireNorm]
  unfold construct
  rw [h3 maxDepth (Nat.le_trans (rank_le m.cls) (by decide))]
  simp only [givenKey, ite_self]
  cases ver with
  | none => simp [versionAttr]
  | some v => simp [versionAttr]

/-- C02 (partial): a message that holds what its class declares, dumped with or without keys, comes back
from `load` as it was left by `dump` (same class, timestamp, signature and fields, at every
depth), unless the validation of its class refuses it.  Missing, because false: `conn_id` of
`StartSessionResponse` (`conn_id_refuted`) and empty lists of messages (`empty_list_refuted`),
which well-typed messages do not have. -/
theorem dump_load_roundtrip_partial (E : Env) (encrypt dec : Bytes → Bytes → Res Bytes) (m m' : Msg)
    (priv rpub rpriv : Option Bytes) (b : Bytes) (t : Nat) (ct : Bool) (now : Int)
    (hdump : dump E encrypt m priv rpub = (.ok b, m'))
    (hw : WellTypedMsg E m)
    (hty : m.ty = .int m.cls.typeId) (hts : m.ts = .int t)
    (hrange : minTimestamp < t ∧ t < maxTimestamp)
    (htime : ct = true → verifyTime now t = .ok ())
    (hsg : ∀ s, m'.sig = .bytes s → s.length = 65)
    (hver : ∀ v, getAttr m.attrs p!"_version" = .str v → m.cls = .Hello →
      v.length ≤ 31 ∧ (∀ c ∈ v, c.toNat < 128) ∧ verifyVersion E.version v = .ok ())
    (hdec : ∀ k p c, rpub = some k → encrypt k p = .ok c →
      c ≠ [] ∧ loadDecrypt dec rpriv c = .ok p) :
    (m'.cls = m.cls ∧ m'.ty = m.ty ∧ m'.ts = m.ts ∧ m'.attrs = m.attrs ∧
      (m.sig ≠ .none → m'.sig = m.sig)) ∧
    (load E dec (some b) rpriv none ct now).2 = taskChecks E m' := by
  have hk := serialize_keeps E m priv ((givenKey rpub).map encrypt)
  have hdump' : serialize E m priv ((givenKey rpub).map encrypt) = (.ok b, m') := hdump
  rw [hdump'] at hk
  refine ⟨hk, ?_⟩
  have gk : ∀ {g}, Option.map encrypt (givenKey rpub) = some g → ∃ k, rpub = some k ∧ g = encrypt k := by
    intro g hg
    cases hk : givenKey rpub with
    | none => rw [hk] at hg; cases hg
    | some k =>
      rw [hk] at hg
      simp only [Option.map_some, Option.some.injEq] at hg
      refine ⟨k, ?_, hg.symm⟩
      cases rpub with
      | none => cases hk
      | some k' =>
        cases k' with
        | nil => cases hk
        | cons x xs => simp only [givenKey] at hk; exact hk
  have hgate : ∀ ty fl, timeGate ct now ⟨ty, t, fl⟩ = .ok () := by
    intro ty fl
    unfold timeGate
    cases ct with
    | false => rfl
    | true => exact htime rfl
  obtain ⟨as, hwt, hser, hshape⟩ := wellTyped_split hw
  -- the payload behind the body
  have body : ∀ {sl : Val} {pl body : Bytes}, m.slots = .ok sl → dumps sl = .ok pl →
      ((m.cls.encrypt = true ∧ ∃ g, Option.map encrypt (givenKey rpub) = some g ∧ g pl = .ok body) ∨
        ((m.cls.encrypt && (Option.map encrypt (givenKey rpub)).isSome) = false ∧ body = pl)) →
      body ≠ [] ∧ (decryptStep (m.cls.encrypt && (Option.map encrypt (givenKey rpub)).isSome)
        (loadDecrypt dec rpriv) body).2 = .ok pl := by
    intro sl pl body hsl hpl hb
    rcases hb with ⟨he, g, hg, hgp⟩ | ⟨he, rfl⟩
    · obtain ⟨k, hk', rfl⟩ := gk hg
      obtain ⟨h1, h2⟩ := hdec k pl body hk' hgp
      refine ⟨h1, ?_⟩
      rw [he, hg]
      unfold decryptStep
      simp only [Option.isSome_some, Bool.and_self, if_true, h2]
    · refine ⟨?_, ?_⟩
      · rintro rfl
        have := parse_wellTyped hwt hser hsl hpl ⟨0, 0, false⟩ [] none
        unfold parsePayload at this
        rw [show loads [] = .error .serializationError from rfl] at this
        cases this
      · rw [he]; rfl
  rcases serialize_ok hdump' with ⟨hne, ⟨⟨sl, pl, hd, sg, bd, hsl, hpl, hm, hhd, hb, hbody, hsig⟩⟩⟩ |
    ⟨heq, b0, v, ⟨⟨sl, pl, hd, sg, bd, hsl, hpl, hm, hhd, hb0, hbody, hsig⟩⟩, hv, hb⟩
  · have hl := hsg sg (by rw [hm])
    obtain ⟨p1, p2, p3, p4, p5, p6⟩ := frame_parts hhd sg bd hl
    rw [← hb] at p1 p2 p3 p4 p5 p6
    obtain ⟨hbne, hstep⟩ := body hsl hpl hbody
    have hlen : 76 < b.length := by
      have := List.length_pos_iff.mpr hbne
      omega
    have htf : frameTime b = t := by
      rw [hts] at p2; simp only [Val.structInt, Option.some.injEq] at p2; omega
    unfold load
    rw [deserialize_frame E b _ ct now none hlen m.cls (by rw [htf]; exact hrange.1)
      (by rw [htf]; exact hrange.2) (by rw [p1]; exact ofType_typeId m.cls), p1, htf, p3, hgate]
    simp only [Val.truthy]
    unfold dwh
    rw [if_neg hne]
    have hdw : (dwhBase E m.cls ⟨m.cls.typeId, t,
        m.cls.encrypt && (Option.map encrypt (givenKey rpub)).isSome⟩ (b.drop hdrLen)
        (loadDecrypt dec rpriv) none none).2 = .ok m' := by
      unfold dwhBase Logged.andThen
      rw [List.drop_drop, show hdrLen + sigLen = 76 from rfl]
      have e1 : b.drop 76 = bd := p5
      have e2 : (b.drop hdrLen).take sigLen = sg := p4
      rw [e1, e2]
      simp only [hstep]
      rw [parse_wellTyped hwt hser hsl hpl]
      rcases hshape with ⟨_, ha⟩ | ⟨hc, _⟩
      · rw [hm, hty, hts, ha]; simp [versionAttr]
      · exact absurd hc hne
    unfold Logged.andThen
    simp only [hdw]
  · obtain ⟨hvl, hasc, hvv⟩ := hver v hv heq
    have hpl32 := packPascal_length (asciiReplace v)
    have hl := hsg sg (by rw [hm])
    have hb' : b = hd ++ sg ++ (bd ++ packPascal (asciiReplace v)) := by
      rw [hb, hb0]; simp only [List.append_assoc]
    obtain ⟨p1, p2, p3, p4, p5, p6⟩ := frame_parts hhd sg (bd ++ packPascal (asciiReplace v)) hl
    rw [← hb'] at p1 p2 p3 p4 p5 p6
    obtain ⟨hbne, hstep⟩ := body hsl hpl hbody
    have hlen : 76 < b.length := by
      have := List.length_pos_iff.mpr hbne
      simp only [List.length_append] at p6
      omega
    have htf : frameTime b = t := by
      rw [hts] at p2; simp only [Val.structInt, Option.some.injEq] at p2; omega
    unfold load
    rw [deserialize_frame E b _ ct now none hlen m.cls (by rw [htf]; exact hrange.1)
      (by rw [htf]; exact hrange.2) (by rw [p1]; exact ofType_typeId m.cls), p1, htf, p3, hgate]
    simp only [Val.truthy]
    have hhdl : hd.length = 11 := (packHeader_ok hhd).elim fun _ h => h.2.2.2.1
    have hdata : b.drop hdrLen = (sg ++ bd) ++ packPascal (asciiReplace v) := by
      rw [hb', List.append_assoc, List.drop_left' (by rw [hhdl]; rfl)]
      simp only [List.append_assoc]
    unfold dwh
    rw [if_pos heq, hdata]
    have hcut : (sg ++ bd ++ packPascal (asciiReplace v)).length - versionLen = (sg ++ bd).length := by
      rw [List.length_append (as := sg ++ bd), hpl32]; simp [versionLen]
    rw [hcut, List.drop_left, List.take_left]
    have hun : unpackPascal (packPascal (asciiReplace v)) = some (asciiReplace v) := by
      have := unpackPascal_eq (packPascal (asciiReplace v)) (by rw [hpl32]; decide)
      rw [hpl32] at this
      simpa [versionLen, versionField, hpl32,
        fieldVersion_pack (asciiReplace v) (by simpa [asciiReplace] using hvl)] using this
    rw [hun]
    simp only [asciiDecode_replace v hasc, hvv]
    have hch : taskChecks E m' = .ok m' := by
      unfold taskChecks
      rw [hk.1, heq]
      rfl
    rw [hch]
    unfold dwhBase Logged.andThen
    rw [show sigLen = sg.length from hl.symm, List.drop_left, List.take_left]
    simp only [hstep]
    rw [parse_wellTyped hwt hser hsl hpl]
    rcases hshape with ⟨hc, _⟩ | ⟨_, v', ha, hv'⟩
    · exact absurd heq hc
    · rw [hv] at hv'
      injection hv' with hv'
      subst hv'
      rw [hm, hty, hts, ha]; simp [versionAttr]

/-- C02 for a message signed by `dump`, checked with the sender's key: `law` is what the
signature scheme promises for the key pair. -/
theorem signed_roundtrip_partial (E : Env) (encrypt dec : Bytes → Bytes → Res Bytes) (m m' : Msg)
    (key pub : Bytes) (rpub rpriv : Option Bytes) (b : Bytes) (t : Nat) (ct : Bool) (now : Int)
    (law : ∀ x s, E.sign key (E.sha3 x) = .ok s →
      s.length = 65 ∧ E.recover (.bytes s) (E.sha3 x) = some (4 :: pub))
    (hpub : pub.length = 64) (hkey : key ≠ [])
    (hdump : dump E encrypt m (some key) rpub = (.ok b, m'))
    (hw : WellTypedMsg E m) (hs : m.cls.sign = true) (hsig : m.sig = .none)
    (hty : m.ty = .int m.cls.typeId) (hts : m.ts = .int t)
    (hrange : minTimestamp < t ∧ t < maxTimestamp)
    (htime : ct = true → verifyTime now t = .ok ())
    (hver : ∀ v, getAttr m.attrs p!"_version" = .str v → m.cls = .Hello →
      v.length ≤ 31 ∧ (∀ c ∈ v, c.toNat < 128) ∧ verifyVersion E.version v = .ok ())
    (hdec : ∀ k p c, rpub = some k → encrypt k p = .ok c →
      c ≠ [] ∧ loadDecrypt dec rpriv c = .ok p) :
    (m'.cls = m.cls ∧ m'.ty = m.ty ∧ m'.ts = m.ts ∧ m'.attrs = m.attrs) ∧
    (load E dec (some b) rpriv (some pub) ct now).2 = taskChecks E m' := by
  have hgk : givenKey (some key) = some key := by
    cases key with
    | nil => exact absurd rfl hkey
    | cons x xs => rfl
  have hsg : ∀ s, m'.sig = .bytes s → s.length = 65 := by
    intro s hms
    have k0 : ∀ b0, Nonempty (Dumped E m (some key) ((givenKey rpub).map encrypt) b0 m') →
        s.length = 65 := by
      rintro b0 ⟨⟨_, _, _, sg, _, _, _, hm, _, _, _, hsig'⟩⟩
      rw [hm] at hms
      simp only [Val.bytes.injEq] at hms
      subst hms
      rcases hsig' with ⟨a, _⟩ | ⟨_, ⟨_, k', x, a, hx, hsx⟩ | ⟨_, a⟩⟩
      · rw [hsig] at a; cases a
      · rw [hgk] at a; injection a with a; subst a; exact (law x _ hsx).1
      · rw [a]; simp [fakeSig, sigLen]
    have hd' : serialize E m (some key) ((givenKey rpub).map encrypt) = (.ok b, m') := hdump
    rcases serialize_ok hd' with ⟨_, hd⟩ | ⟨_, b0, v, hd, _⟩
    · exact k0 _ hd
    · exact k0 _ hd
  obtain ⟨hk, hl⟩ := dump_load_roundtrip_partial E encrypt dec m m' (some key) rpub rpriv b t ct now hdump hw
    hty hts hrange htime hsg hver hdec
  refine ⟨⟨hk.1, hk.2.1, hk.2.2.1, hk.2.2.2.1⟩, ?_⟩
  rw [signed_dump_verifies E encrypt dec m m' key pub rpub rpriv b t ct now law hpub hkey
    (fun k p c h1 h2 => (hdec k p c h1 h2).2) hs hsig hty hts (fun v h1 h2 => (hver v h1 h2).1) hdump]
  exact hl

/-- C02: the slots of a well-typed message can always be written. -/
theorem wellTyped_slots (E : Env) (m : Msg) (hw : WellTypedMsg E m) : ∃ s, m.slots = .ok s := by
  obtain ⟨as, hwt, hser, _⟩ := wellTyped_split hw
  obtain ⟨l, h1, _⟩ := wellTyped_nested hwt
  exact ⟨.list l, by unfold Msg.slots; rw [hser, h1]⟩

/-- The validation of a class lets a message pass unchanged or refuses it. -/
private theorem taskChecks_same {E : Env} {m m1 : Msg} (h : taskChecks E m = .ok m1) : m1 = m := by
  unfold taskChecks at h
  split at h
  · split at h
    · cases h
    split at h
    · split at h
      · cases h
      split at h
      · cases h
      injection h with h; exact h.symm
    · injection h with h; exact h.symm
  · injection h with h; exact h.symm

/-- C16, C17 (partial): whatever a well-typed message holds in a declared field, plain value or
(non-empty) list of messages, is what the loaded message holds.  Missing: `conn_id` of
`StartSessionResponse`, which well-typed messages leave empty (`conn_id_refuted`), and the empty
list (`empty_list_refuted`). -/
theorem fields_survive_partial (E : Env) (encrypt dec : Bytes → Bytes → Res Bytes) (m m' m1 : Msg)
    (priv rpub rpriv : Option Bytes) (b : Bytes) (t : Nat) (ct : Bool) (now : Int)
    (hdump : dump E encrypt m priv rpub = (.ok b, m'))
    (hw : WellTypedMsg E m)
    (hty : m.ty = .int m.cls.typeId) (hts : m.ts = .int t)
    (hrange : minTimestamp < t ∧ t < maxTimestamp)
    (htime : ct = true → verifyTime now t = .ok ())
    (hsg : ∀ s, m'.sig = .bytes s → s.length = 65)
    (hver : ∀ v, getAttr m.attrs p!"_version" = .str v → m.cls = .Hello →
      v.length ≤ 31 ∧ (∀ c ∈ v, c.toNat < 128) ∧ verifyVersion E.version v = .ok ())
    (hdec : ∀ k p c, rpub = some k → encrypt k p = .ok c →
      c ≠ [] ∧ loadDecrypt dec rpriv c = .ok p)
    (hload : (load E dec (some b) rpriv none ct now).2 = .ok m1) (name : PStr) :
    getAttr m1.attrs name = getAttr m.attrs name := by
  obtain ⟨hk, hl⟩ := dump_load_roundtrip_partial E encrypt dec m m' priv rpub rpriv b t ct now hdump hw
    hty hts hrange htime hsg hver hdec
  rw [hl] at hload
  rw [taskChecks_same hload, hk.2.2.2.1]

/-- C16 (partial): if the class has no validation of its own, a well-typed message that dumps
always loads. -/
theorem dumped_loads_partial (E : Env) (encrypt dec : Bytes → Bytes → Res Bytes) (m m' : Msg)
    (priv rpub rpriv : Option Bytes) (b : Bytes) (t : Nat) (ct : Bool) (now : Int)
    (hdump : dump E encrypt m priv rpub = (.ok b, m'))
    (hw : WellTypedMsg E m) (hc : m.cls.isTask = false)
    (hty : m.ty = .int m.cls.typeId) (hts : m.ts = .int t)
    (hrange : minTimestamp < t ∧ t < maxTimestamp)
    (htime : ct = true → verifyTime now t = .ok ())
    (hsg : ∀ s, m'.sig = .bytes s → s.length = 65)
    (hver : ∀ v, getAttr m.attrs p!"_version" = .str v → m.cls = .Hello →
      v.length ≤ 31 ∧ (∀ c ∈ v, c.toNat < 128) ∧ verifyVersion E.version v = .ok ())
    (hdec : ∀ k p c, rpub = some k → encrypt k p = .ok c →
      c ≠ [] ∧ loadDecrypt dec rpriv c = .ok p) :
    (load E dec (some b) rpriv none ct now).2 = .ok m' := by
  obtain ⟨hk, hl⟩ := dump_load_roundtrip_partial E encrypt dec m m' priv rpub rpriv b t ct now hdump hw
    hty hts hrange htime hsg hver hdec
  rw [hl]
  unfold taskChecks
  rw [if_neg (by rw [hk.1, hc]; simp)]

/-! ### C03 -/

/-- C03 (partial): in a well-typed tree, every message at every depth is found at the same place
of the loaded message, with the same signed digest and the same outcome of every signature
check.  Missing: trees with values of other kinds, see `nested_digest_refuted`. -/
theorem nested_digest_partial (E : Env) (encrypt dec : Bytes → Bytes → Res Bytes) (m m' m1 : Msg)
    (priv rpub rpriv : Option Bytes) (b : Bytes) (t : Nat) (ct : Bool) (now : Int)
    (hdump : dump E encrypt m priv rpub = (.ok b, m'))
    (hw : WellTypedMsg E m)
    (hty : m.ty = .int m.cls.typeId) (hts : m.ts = .int t)
    (hrange : minTimestamp < t ∧ t < maxTimestamp)
    (htime : ct = true → verifyTime now t = .ok ())
    (hsg : ∀ s, m'.sig = .bytes s → s.length = 65)
    (hver : ∀ v, getAttr m.attrs p!"_version" = .str v → m.cls = .Hello →
      v.length ≤ 31 ∧ (∀ c ∈ v, c.toNat < 128) ∧ verifyVersion E.version v = .ok ())
    (hdec : ∀ k p c, rpub = some k → encrypt k p = .ok c →
      c ≠ [] ∧ loadDecrypt dec rpriv c = .ok p)
    (hload : (load E dec (some b) rpriv none ct now).2 = .ok m1)
    (path : List (PStr × Nat)) (x : Msg) (hx : Sits path m.attrs x) :
    ∃ y, Sits path m1.attrs y ∧ y.cls = x.cls ∧ y.sig = x.sig ∧ shortHash E y = shortHash E x ∧
      ∀ pub, y.verifySig E pub = x.verifySig E pub := by
  obtain ⟨hk, hl⟩ := dump_load_roundtrip_partial E encrypt dec m m' priv rpub rpriv b t ct now hdump hw
    hty hts hrange htime hsg hver hdec
  rw [hl] at hload
  refine ⟨x, ?_, rfl, rfl, rfl, fun _ => rfl⟩
  rw [taskChecks_same hload, hk.2.2.2.1]
  exact hx

/-! ### Examples and counterexamples -/

/-- A scheme in which digests depend on every byte. -/
private def sumEnv : Env :=
  { toyEnv with
    sha1 := fun b => [b.foldl (· + ·) 0]
    sha3 := fun b => List.replicate 32 (b.foldl (· + ·) 0) }

private def exOffer : Msg :=
  ⟨.WantToComputeTask, .int 2001, .int 1500000000, .bool false, .none,
    Cls.WantToComputeTask.payload.map fun n => (n,
      if n = p!"num_subtasks" then .int 1 else if n = p!"concent_enabled" then .bool false
      else .none)⟩

/-- The fields of a task with the given definition. -/
private def exTaskAttrs (d : Val) : Attrs :=
  Cls.TaskToCompute.payload.map fun n => (n,
    if n = p!"want_to_compute_task" then exOffer.val else if n = p!"compute_task_def" then d
    else if n = p!"price" ∨ n = p!"size" then .int 5
    else if n = p!"concent_enabled" then .bool false else .none)

/-- A task with the given definition, signed. -/
private def exTask (d : Val) : Res Msg :=
  Msg.signMessage sumEnv ⟨.TaskToCompute, .int 2002, .int 1500000000, .bool false, .none, exTaskAttrs d⟩
    (List.replicate 32 7)

/-- A refusal that carries it. -/
private def exRefusal (d : Val) : Msg :=
  ⟨.ServiceRefused, .int 4000, .int 1500000000, .bool false, .none,
    [(p!"task_to_compute", match exTask d with
      | .ok t => t.val
      | .error _ => .none), (p!"reason", .enum .serviceRefusedReason p!"DUPLICATE_REQUEST")]⟩

private def exFrame (d : Val) : Bytes :=
  match (dump sumEnv (fun _ x => .ok x) (exRefusal d) none none).1 with
  | .ok b => b
  | .error _ => []

/-- The outcome of checking the signature of the carried task after the trip. -/
private def exCheck (d : Val) : Option (Res Unit) :=
  match (load sumEnv (fun _ x => .ok x) (some (exFrame d)) none none false 0).2 with
  | .error _ => none
  | .ok m =>
    match getAttr m.attrs p!"task_to_compute" with
    | .msg c ty ts enc sig as => some ((⟨c, ty, ts, enc, sig, as⟩ : Msg).verifySig sumEnv (List.replicate 64 7))
    | _ => none

/-- C03 is false for a task whose definition is a plain dictionary that leaves out keys (the
constructor keeps keyword arguments as they are): it is signed and travels, the receiver fills
in the missing keys, and the signature no longer verifies. -/
theorem nested_digest_refuted :
    ∃ (d : Val) (t : Msg), exTask d = .ok t ∧ t.verifySig sumEnv (List.replicate 64 7) = .ok () ∧
      exCheck d = some (.error .invalidSignature) := by
  refine ⟨.dict [(.str p!"task_id", .str p!"a")], _, rfl, ?_, ?_⟩
  · decide +kernel
  · decide +kernel

/-- A full task definition. -/
private def exDef : Val :=
  .fdict .computeTaskDef
    [(p!"task_id", .str p!"t1"), (p!"subtask_id", .str p!"s1"), (p!"deadline", .int 9),
     (p!"extra_data", .dict [(.str p!"a", .list [.int 1, .none])]),
     (p!"performance", .int 0), (p!"docker_images", .none), (p!"resources", .list [])]

private theorem exDef_ok : DictOk sumEnv .computeTaskDef exDef := by
  refine ⟨_, rfl, ⟨by decide +kernel, fun k => Iff.rfl⟩, ?_⟩
  intro k x h
  simp only [List.mem_cons, List.not_mem_nil, or_false, Prod.mk.injEq] at h
  rcases h with ⟨rfl, rfl⟩|⟨rfl, rfl⟩|⟨rfl, rfl⟩|⟨rfl, rfl⟩|⟨rfl, rfl⟩|⟨rfl, rfl⟩|⟨rfl, rfl⟩
  · exact ⟨fun _ => ⟨p!"t1", rfl, by decide⟩, by rfl⟩
  · exact ⟨fun _ => ⟨p!"s1", rfl, by decide⟩, by rfl⟩
  all_goals exact ⟨fun h => absurd h (by decide), by rfl⟩

private theorem exOffer_ok : WellTyped sumEnv .WantToComputeTask exOffer.attrs := by
  refine ⟨_, _, by decide +kernel, ?_, ?_, ?_, ?_⟩
  · intro name v h _
    simp only [exOffer, Cls.payload, List.map_cons, List.map_nil, List.mem_cons, List.not_mem_nil,
      or_false, Prod.mk.injEq] at h
    rcases h with ⟨rfl, rfl⟩|⟨rfl, rfl⟩|⟨rfl, rfl⟩|⟨rfl, rfl⟩|⟨rfl, rfl⟩|⟨rfl, rfl⟩|⟨rfl, rfl⟩|
      ⟨rfl, rfl⟩|⟨rfl, rfl⟩|⟨rfl, rfl⟩|⟨rfl, rfl⟩ <;>
    · refine ⟨?_, by rfl⟩
      simp [FieldOk, Cls.nodeSlots, Cls.enumSlots, lookupName, Data, data, dataL, dataD]
      try exact ⟨1, by decide, rfl⟩
  · intro name sd v _ h; cases h
  · intro name sd v _ _ _ _ _ _ h; cases h
  · intro name sd v _ _ _ _ _ _ h; cases h

private theorem exTask_ok : WellTyped sumEnv .TaskToCompute (exTaskAttrs exDef) := by
  have cases' : ∀ name v, (name, v) ∈ exTaskAttrs exDef →
      (name = p!"want_to_compute_task" ∧ v = exOffer.val) ∨
      (lookupName name Cls.TaskToCompute.msgSlots = none ∧
        FieldOk sumEnv .TaskToCompute name v ∧ defaulted .TaskToCompute name v = v) := by
    intro name v h
    simp only [exTaskAttrs, Cls.payload, List.map_cons, List.map_nil, List.mem_cons,
      List.not_mem_nil, or_false, Prod.mk.injEq] at h
    rcases h with ⟨rfl, rfl⟩|⟨rfl, rfl⟩|⟨rfl, rfl⟩|⟨rfl, rfl⟩|⟨rfl, rfl⟩|⟨rfl, rfl⟩|⟨rfl, rfl⟩|
      ⟨rfl, rfl⟩|⟨rfl, rfl⟩|⟨rfl, rfl⟩|⟨rfl, rfl⟩|⟨rfl, rfl⟩|⟨rfl, rfl⟩|⟨rfl, rfl⟩ <;>
    first
    | exact Or.inl ⟨rfl, rfl⟩
    | refine Or.inr ⟨by rfl, ?_, by rfl⟩
      simp [FieldOk, Cls.nodeSlots, Cls.enumSlots, lookupName, Data, data, dataL, dataD, exDef_ok]
  refine ⟨_, _, by decide +kernel, ?_, ?_, ?_, ?_⟩
  · intro name v h hn
    rcases cases' name v h with ⟨rfl, _⟩ | h
    · exact absurd hn (by decide)
    · exact h.2
  · intro name sd v h hs
    rcases cases' name v h with ⟨rfl, rfl⟩ | h
    · cases hs; exact Or.inr rfl
    · rw [h.1] at hs; cases hs
  · intro name sd v ty ts enc sig as h hs hm
    rcases cases' name v h with ⟨rfl, rfl⟩ | h
    · cases hs
      simp only [Msg.val, exOffer, members, List.mem_singleton] at hm
      cases hm
      exact ⟨by rfl, by rfl, by rfl, by rfl⟩
    · rw [h.1] at hs; cases hs
  · intro name sd v ty ts enc sig as h hs hm
    rcases cases' name v h with ⟨rfl, rfl⟩ | h
    · cases hs
      simp only [Msg.val, exOffer, members, List.mem_singleton] at hm
      cases hm
      exact exOffer_ok
    · rw [h.1] at hs; cases hs

private theorem exRefusal_ok : WellTypedMsg sumEnv (exRefusal exDef) := by
  have cases' : ∀ name v, (name, v) ∈ (exRefusal exDef).attrs →
      (name = p!"task_to_compute" ∧ ∃ s, v = .msg .TaskToCompute (.int 2002) (.int 1500000000)
        (.bool false) (.bytes s) (exTaskAttrs exDef)) ∨
      (name = p!"reason" ∧ v = .enum .serviceRefusedReason p!"DUPLICATE_REQUEST") := by
    intro name v h
    simp only [exRefusal, List.mem_cons, List.not_mem_nil, or_false, Prod.mk.injEq] at h
    rcases h with ⟨rfl, rfl⟩ | ⟨rfl, rfl⟩
    · exact Or.inl ⟨rfl, _, rfl⟩
    · exact Or.inr ⟨rfl, rfl⟩
  unfold WellTypedMsg
  rw [if_neg (by decide)]
  refine ⟨_, _, by decide +kernel, ?_, ?_, ?_, ?_⟩
  · intro name v h hn
    rcases cases' name v h with ⟨rfl, _⟩ | ⟨rfl, rfl⟩
    · exact absurd hn (by decide)
    · exact ⟨by simp [FieldOk, Cls.nodeSlots, exRefusal, Cls.enumSlots, lookupName, EnumId.values], by rfl⟩
  · intro name sd v h hs
    rcases cases' name v h with ⟨rfl, s, rfl⟩ | ⟨rfl, rfl⟩
    · cases hs; exact Or.inr rfl
    · cases hs
  · intro name sd v ty ts enc sig as h hs hm
    rcases cases' name v h with ⟨rfl, s, rfl⟩ | ⟨rfl, rfl⟩
    · cases hs
      simp only [members, List.mem_singleton] at hm
      cases hm
      exact ⟨by rfl, by rfl, by rfl, by rfl⟩
    · cases hs
  · intro name sd v ty ts enc sig as h hs hm
    rcases cases' name v h with ⟨rfl, s, rfl⟩ | ⟨rfl, rfl⟩
    · cases hs
      simp only [members, List.mem_singleton] at hm
      cases hm
      exact exTask_ok
    · cases hs

/-- The hypotheses can be met: a refusal that carries a signed task that carries an offer dumps
and loads as it was, and the task's signature verifies before and after. -/
example : ∃ b m', dump sumEnv (fun _ x => .ok x) (exRefusal exDef) none none = (.ok b, m') ∧
    (load sumEnv (fun _ x => .ok x) (some b) none none false 0).2 = .ok m' := by
  have hd : ∃ b, (dump sumEnv (fun _ x => .ok x) (exRefusal exDef) none none).1 = .ok b := by
    have : ((dump sumEnv (fun _ x => .ok x) (exRefusal exDef) none none).1).isOk = true := by
      decide +kernel
    revert this
    cases (dump sumEnv (fun _ x => .ok x) (exRefusal exDef) none none).1 with
    | ok b => exact fun _ => ⟨b, rfl⟩
    | error _ => exact fun h => by cases h
  obtain ⟨b, hb⟩ := hd
  have hdump : dump sumEnv (fun _ x => .ok x) (exRefusal exDef) none none = (.ok b, _) :=
    Prod.ext hb rfl
  refine ⟨b, _, hdump, ?_⟩
  obtain ⟨_, hl⟩ := dump_load_roundtrip_partial sumEnv (fun _ x => .ok x) (fun _ x => .ok x) _ _ none none
    none b 1500000000 false 0 hdump exRefusal_ok rfl rfl (by decide) (by simp)
    (by intro s hs
        have : (dump sumEnv (fun _ x => .ok x) (exRefusal exDef) none none).2.sig =
            .bytes fakeSig := by decide +kernel
        rw [this] at hs; cases hs; decide)
    (by intro v _ h; cases h) (by intro k p c h; cases h)
  rw [hl]
  have : (match taskChecks sumEnv (dump sumEnv (fun _ x => .ok x) (exRefusal exDef) none none).2 with
    | .ok _ => true
    | .error _ => false) = true := by decide +kernel
  revert this
  cases e : taskChecks sumEnv (dump sumEnv (fun _ x => .ok x) (exRefusal exDef) none none).2 with
  | ok m => intro _; rw [taskChecks_same e]
  | error _ => intro h; cases h

example : exCheck exDef = some (.ok ()) := by decide +kernel

example : Sits [(p!"task_to_compute", 0), (p!"want_to_compute_task", 0)] (exRefusal exDef).attrs exOffer :=
  .deeper (y := ⟨.TaskToCompute, .int 2002, .int 1500000000, .bool false, _, exTaskAttrs exDef⟩) rfl (.here rfl)

/-- Well-typed tasks exist (for examples elsewhere): one with a definition and an offer. -/
theorem some_task : ∃ (E : Env) (as : Attrs), WellTyped E .TaskToCompute as ∧
    ∃ w : Msg, w.cls = .WantToComputeTask ∧ getAttr as p!"want_to_compute_task" = w.val :=
  ⟨_, _, exTask_ok, exOffer, rfl, by rfl⟩

end Verif.Props
