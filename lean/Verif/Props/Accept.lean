import Verif.Lemmas.AcceptSlots
import Verif.Lemmas.Carried
import Verif.Lemmas.Toy
import Verif.Props.Auth
import Verif.Props.Gate
import Verif.Props.CborGrammar
import Verif.Props.Version
/-!
# C107: which frames are accepted

`Spec.LegibleFrame` says from the protocol description which frames can be read.  `load` gives a message
for exactly those, except that four classes look at the message as a whole afterwards.
-/

set_option linter.unusedSimpArgs false
set_option linter.unusedVariables false

namespace Verif.Props

open Verif Spec

theorem frame_tables : ∀ e ∈ catalogue, e.cls.typeId = e.number ∧ e.cls.sign = e.signed := by decide +kernel

theorem frame_opened {dec : Bytes → Bytes → Res Bytes} {priv : Option Bytes} {data payload : Bytes} :
    Payload (loadDecrypt dec priv) data payload ↔ Opened dec priv data payload := by
  unfold Payload Opened loadDecrypt
  cases hf : frameFlag data <;> rcases priv with _ | (_ | ⟨x, xs⟩) <;> simp [givenKey, eq_comm]

theorem version_ascii_same : ∀ {raw : Bytes}, (∀ b ∈ raw, b.toNat < 128) →
    asciiDecodeReplace raw = raw.map fun b => Char.ofNat b.toNat := by
  intro raw h
  unfold asciiDecodeReplace
  refine List.map_congr_left fun b hb => ?_
  rw [if_pos (h b hb)]

private theorem ascii_of {raw : Bytes} (h : ∀ c ∈ asciiDecodeReplace raw, c.toNat < 128) :
    ∀ b ∈ raw, b.toNat < 128 := by
  intro b hb
  have := h _ (by unfold asciiDecodeReplace; exact List.mem_map.mpr ⟨b, hb, rfl⟩)
  split at this
  · assumption
  · exact absurd this (by decide)

theorem frame_version {ours : PStr} {raw : Bytes} :
    verifyVersion ours (asciiDecodeReplace raw) = .ok () ↔ PeerVersion ours raw := by
  have other : ∀ {o : Ver}, o.Wf → SaidLine o ours → ∀ s, verifyVersion ours s = verifyVersion o.text s := by
    intro o ho hs s
    have h1 := (version_grammar ours o).mpr ⟨ho, hs⟩
    have h2 := (version_grammar o.text o).mpr ⟨ho, .inl (version_text_said o o [] ho ho).1⟩
    unfold verifyVersion
    rw [h1, h2]
  constructor
  · intro h
    have ha := ascii_of (verifyVersion_ascii h)
    have : ∃ o : Ver, o.Wf ∧ SaidLine o ours := by
      unfold verifyVersion at h
      split at h
      · cases h
      split at h
      · cases h
      rename_i v hv
      exact ⟨⟨v.major, v.minor, v.patch, v.pre, v.build⟩, (version_grammar ours _).mp hv⟩
    obtain ⟨o, ho, hs⟩ := this
    rw [other ho hs] at h
    obtain ⟨h1, t, ht, hts, h2, h3, h4⟩ := (verify_version_decision o ho _).1.mp h
    rw [version_ascii_same ha] at hts
    exact ⟨o, t, ho, ht, hs, ha, hts, h2, h3, h4, h1⟩
  · rintro ⟨o, t, ho, ht, hs, ha, hts, h2, h3, h4, h1⟩
    rw [other ho hs, (verify_version_decision o ho _).1, version_ascii_same ha]
    exact ⟨h1, t, ht, hts, h2, h3, h4⟩

private theorem fresh_iff {ct : Bool} {now : Int} {data : Bytes} (h2 : frameTime data < newYear 1040) :
    timeGate ct now ⟨frameType data, frameTime data, frameFlag data⟩ = .ok () ↔
      (ct = true → now ≤ (frameTime data : Int) * 1000000 + 10 * 60 * 1000000 ∧
        (frameTime data : Int) * 1000000 ≤ now + 5 * 60 * 1000000) := by
  rw [← max_is_3010] at h2
  unfold timeGate
  cases ct with
  | false => simp
  | true =>
    simp only [if_true, forall_const]
    unfold verifyTime msgTtl futureTolerance
    unfold maxTimestamp at h2
    rw [if_neg (by simp; omega)]
    split
    · exact ⟨fun e => (by cases e), fun e => (by omega)⟩
    split
    · exact ⟨fun e => (by cases e), fun e => (by omega)⟩
    · exact ⟨fun _ => (by omega), fun _ => rfl⟩

private theorem parse_iff {E : Env} {e : Entry} (he : e ∈ catalogue) {data payload : Bytes} {pub : Option Bytes}
    (hn : e.number = frameType data)
    (hv : e.cls = .Hello → verifyVersion E.version (asciiDecodeReplace (fieldVersion (versionField data))) = .ok ()) :
    (∃ m, parsePayload E e.cls ⟨frameType data, frameTime data, frameFlag data⟩ (frameSig (unversioned data))
      (if e.cls = .Hello then some (asciiDecodeReplace (fieldVersion (versionField data))) else none)
      pub payload = .ok m) ↔
    ∃ item rest v, payload = item ++ rest ∧ Item item v ∧ Legible E e.cls v ∧
      (e.signed = true → SenderOk E data pub payload) := by
  have hc : e.cls.typeId = frameType data := by rw [(frame_tables e he).1, hn]
  rw [← (frame_tables e he).2]
  constructor
  · rintro ⟨m, hm⟩
    obtain ⟨slots, hl, hcon, hk⟩ := parsePayload_ok hm
    obtain ⟨item, rest, e1, e2⟩ := (payload_grammar _ _).mp hl
    refine ⟨item, rest, slots, e1, e2, (construct_iff (loads_data hl)).mp ⟨m, hcon⟩, ?_⟩
    intro hs key hp hne
    have hg : givenKey pub = some key := by
      subst hp
      cases key with
      | nil => exact absurd rfl hne
      | cons => rfl
    obtain ⟨x, hx, hve⟩ := hk key (by rw [if_pos hs, hg])
    obtain ⟨_, _, _, e4, _, hd, hdm, e5⟩ := loaded_digest hc hv hcon hx
    obtain ⟨k1, k2⟩ := (ecdsa_verify_decision E key x m.sig).1.mp hve
    exact ⟨k1, hd, hdm, by rw [← e5, ← e4]; exact k2⟩
  · rintro ⟨item, rest, v, e1, e2, hleg, hs⟩
    have hl := (payload_grammar payload v).mpr ⟨item, rest, e1, e2⟩
    obtain ⟨m, hcon⟩ := (construct_iff (h := ⟨frameType data, frameTime data, frameFlag data⟩)
      (sig := frameSig (unversioned data))
      (version := if e.cls = .Hello then some (asciiDecodeReplace (fieldVersion (versionField data))) else none)
      (loads_data hl)).mpr hleg
    refine ⟨m, ?_⟩
    unfold parsePayload
    rw [hl]
    dsimp only
    rw [hcon]
    dsimp only
    cases hg : (if e.cls.sign = true then givenKey pub else none) with
    | none => rfl
    | some key =>
      dsimp only
      by_cases hsg : e.cls.sign = true
      · rw [if_pos hsg] at hg
        obtain ⟨rfl, hne⟩ : pub = some key ∧ key ≠ [] := by
          rcases pub with _ | (_ | ⟨x, xs⟩)
          · cases hg
          · cases hg
          · simp only [givenKey, Option.some.injEq] at hg
            subst hg
            exact ⟨rfl, by simp⟩
        obtain ⟨k1, hd, hdm, k2⟩ := hs hsg key rfl hne
        have hx : ∃ x, shortHashOf E m payload = .ok x := by
          obtain ⟨as, ha, hm⟩ := construct_ok hcon
          subst hm
          unfold shortHashOf hashInput
          dsimp only
          rw [hdm]
          dsimp only
          by_cases h0 : e.cls = .Hello
          · rw [if_pos h0, if_pos h0, version_attr _ ha]
            exact ⟨_, rfl⟩
          · rw [if_neg h0]
            exact ⟨_, rfl⟩
        obtain ⟨x, hx⟩ := hx
        obtain ⟨_, _, _, e4, _, hd', hdm', e5⟩ := loaded_digest hc hv hcon hx
        rw [hdm] at hdm'
        injection hdm' with hdm'
        subst hdm'
        rw [hx]
        dsimp only
        rw [(ecdsa_verify_decision E key x m.sig).1.mpr ⟨k1, by rw [e5, e4]; exact k2⟩]
      · rw [if_neg hsg] at hg
        cases hg

/-- Everything `load` does before the checks on the message as a whole. -/
def FrameBase (E : Env) (dec : Bytes → Bytes → Res Bytes) (data : Bytes) (priv pub : Option Bytes)
    (ct : Bool) (now : Int) (c : Cls) (m : Msg) : Prop :=
  76 < data.length ∧ minTimestamp < frameTime data ∧ frameTime data < maxTimestamp ∧
    c.typeId = frameType data ∧
    timeGate ct now ⟨frameType data, frameTime data, frameFlag data⟩ = .ok () ∧
    (c = .Hello → verifyVersion E.version
      (asciiDecodeReplace (fieldVersion (versionField data))) = .ok ()) ∧
    ∃ payload, Payload (loadDecrypt dec priv) data payload ∧
      parsePayload E c ⟨frameType data, frameTime data, frameFlag data⟩ (frameSig (unversioned data))
        (if c = .Hello then some (asciiDecodeReplace (fieldVersion (versionField data))) else none)
        pub payload = .ok m

theorem frame_base {E : Env} {dec : Bytes → Bytes → Res Bytes} {data : Bytes} {priv pub : Option Bytes}
    {ct : Bool} {now : Int} {e : Entry} (he : e ∈ catalogue) :
    (∃ m, FrameBase E dec data priv pub ct now e.cls m) ↔ LegibleFrame E dec data priv pub ct now e := by
  have hnum : e.cls = .Hello ↔ e.number = 0 := by
    rw [← (frame_tables e he).1]
    exact ⟨fun h => by rw [h]; rfl, fun h => typeId_inj (by rw [h]; rfl)⟩
  constructor
  · rintro ⟨m, hl, h1, h2, hc, ht, hv, payload, hp, hm⟩
    rw [min_is_2010] at h1
    rw [max_is_3010] at h2
    have hn : e.number = frameType data := by rw [← hc, (frame_tables e he).1]
    obtain ⟨item, rest, v, a, b, c, d⟩ := (parse_iff he hn hv).mp ⟨m, hm⟩
    exact ⟨hl, h1, h2, hn, (fresh_iff h2).mp ht, fun h => frame_version.mp (hv (hnum.mpr h)),
      payload, item, rest, v, frame_opened.mp hp, a, b, c, d⟩
  · rintro ⟨hl, h1, h2, hn, ht, hv, payload, item, rest, v, hp, a, b, c, d⟩
    have hv := fun h => frame_version.mpr (hv (hnum.mp h))
    obtain ⟨m, hm⟩ := (parse_iff he hn hv).mpr ⟨item, rest, v, a, b, c, d⟩
    refine ⟨m, hl, by rwa [min_is_2010], by rwa [max_is_3010], by rw [(frame_tables e he).1, hn], (fresh_iff h2).mpr ht,
      hv, payload, frame_opened.mpr hp, hm⟩

theorem frame_carries {E : Env} {dec : Bytes → Bytes → Res Bytes} {data : Bytes} {priv pub : Option Bytes}
    {ct : Bool} {now : Int} {c : Cls} {m : Msg} (hne : c ≠ .Hello) :
    FrameBase E dec data priv pub ct now c m ↔ Carries E dec data priv pub ct now m ∧ m.cls = c := by
  have hu : c.typeId = frameType data → unversioned data = data := fun h => by
    unfold unversioned; rw [if_neg (by rw [← h]; exact typeId_ne_hello hne)]
  constructor
  · rintro ⟨hl, h1, h2, hc, ht, _, payload, hp, hm⟩
    have hmc := parsePayload_cls hm
    rw [if_neg hne, hu hc] at hm
    subst hmc
    exact ⟨⟨hl, h1, h2, hne, hc, ht, payload, hp, hm⟩, rfl⟩
  · rintro ⟨⟨hl, h1, h2, _, hc, ht, payload, hp, hm⟩, rfl⟩
    refine ⟨hl, h1, h2, hc, ht, fun h => absurd h hne, payload, hp, ?_⟩
    rw [if_neg hne, hu hc]
    exact hm

/-- A `Hello` is checked by the base class only. -/
theorem frame_hello {E : Env} {dec : Bytes → Bytes → Res Bytes} {data : Bytes} {priv pub : Option Bytes}
    {ct : Bool} {now : Int} {m : Msg} (h : FrameBase E dec data priv pub ct now .Hello m) :
    (load E dec (some data) priv pub ct now).2 = .ok m := by
  obtain ⟨hl, h1, h2, hc, ht, hv, p, hp, hm⟩ := h
  have h3 : Cls.ofType (frameType data) = some .Hello := by rw [← hc]; exact ofType_typeId .Hello
  have ht0 : frameType data = 0 := by rw [← hc]; rfl
  unfold load
  rw [deserialize_frame E data _ ct now pub hl .Hello h1 h2 h3, ht]
  dsimp only
  unfold dwh
  rw [if_pos rfl]
  have hl2 : (data.drop hdrLen).drop ((data.drop hdrLen).length - versionLen) =
      data.drop (data.length - versionLen) := by
    rw [List.drop_drop, List.length_drop]
    congr 1
    simp [hdrLen, versionLen]; omega
  rw [hl2, unpackPascal_eq data (by omega)]
  dsimp only
  rw [hv rfl]
  dsimp only
  have hd : (data.drop hdrLen).take ((data.drop hdrLen).length - versionLen) =
      (unversioned data).drop hdrLen := by
    unfold unversioned
    rw [if_pos ht0, List.take_drop, List.length_drop]
    congr 2
    simp [hdrLen, versionLen]; omega
  rw [hd]
  unfold dwhBase Logged.andThen
  have e1 : ((unversioned data).drop hdrLen).drop sigLen = frameBody (unversioned data) := by
    simp [frameBody, hdrLen, sigLen, List.drop_drop]
  have e2 : ((unversioned data).drop hdrLen).take sigLen = frameSig (unversioned data) := by
    simp [frameSig, hdrLen, sigLen]
  rw [e1, e2]
  have hdec : (decryptStep (frameFlag data) (loadDecrypt dec priv) (frameBody (unversioned data))).2 = .ok p := by
    unfold Payload at hp
    unfold decryptStep
    cases hf : frameFlag data with
    | true => simp only [hf, if_true] at hp ⊢; rw [hp]
    | false => simp only [hf, Bool.false_eq_true, if_false] at hp ⊢; rw [hp]
  dsimp only
  rw [hdec]
  rw [if_pos rfl] at hm
  exact hm

theorem frame_unchecked {E : Env} {m : Msg} (h : m.cls ∉ checkedClasses) : taskChecks E m = .ok m := by
  simp only [checkedClasses, List.mem_cons, List.mem_nil_iff, or_false, not_or] at h
  obtain ⟨a, b, c, d⟩ := h
  unfold taskChecks
  split
  · have : isValid m = .ok () := by
      unfold isValid
      split <;> first | contradiction | rfl
    simp only [this, if_neg a]
  · rfl

/-- C107 (all classes): a frame that cannot be read as the catalogue says is refused. -/
theorem illegible_refused (E : Env) (dec : Bytes → Bytes → Res Bytes) (data : Bytes) (priv pub : Option Bytes)
    (ct : Bool) (now : Int) (m : Msg) (h : (load E dec (some data) priv pub ct now).2 = .ok m) :
    ∃ e ∈ catalogue, e.cls = m.cls ∧ LegibleFrame E dec data priv pub ct now e := by
  obtain ⟨hl, h1, h2, c, hct, ht, p, version, hp, hver, hv, hparse, hk⟩ := load_ok h
  subst hver
  have hc := parsePayload_cls hparse
  obtain ⟨e, he, rfl⟩ := listed_cls c
  exact ⟨e, he, hc.symm, (frame_base he).mp ⟨m, hl, h1, h2, hct, ht, hv, p, hp, hparse⟩⟩

/-- C107: a frame is accepted exactly if it can be read as the catalogue says, for every class but the
four that check the message as a whole. -/
theorem accepted_iff_legible (E : Env) (dec : Bytes → Bytes → Res Bytes) (data : Bytes) (priv pub : Option Bytes)
    (ct : Bool) (now : Int) (h : ∀ e ∈ catalogue, e.number = frameType data → e.cls ∉ checkedClasses) :
    (∃ m, (load E dec (some data) priv pub ct now).2 = .ok m) ↔
      ∃ e ∈ catalogue, LegibleFrame E dec data priv pub ct now e := by
  constructor
  · rintro ⟨m, hm⟩
    obtain ⟨e, he, _, hf⟩ := illegible_refused E dec data priv pub ct now m hm
    exact ⟨e, he, hf⟩
  · rintro ⟨e, he, hf⟩
    obtain ⟨m, hb⟩ := (frame_base he).mpr hf
    refine ⟨m, ?_⟩
    by_cases hh : e.cls = .Hello
    · rw [hh] at hb
      exact frame_hello hb
    · obtain ⟨hca, hc⟩ := (frame_carries hh).mp hb
      rw [load_carries hca]
      exact frame_unchecked (by rw [hc]; exact h e he hf.number)

/-- C107 (the four classes): a frame can be read exactly if it carries a message; that message is what
`load` gives or refuses; `load_decision` says which. -/
theorem legible_carries (E : Env) (dec : Bytes → Bytes → Res Bytes) (data : Bytes) (priv pub : Option Bytes)
    (ct : Bool) (now : Int) (e : Entry) (he : e ∈ catalogue) (hc : e.cls ∈ checkedClasses) :
    (LegibleFrame E dec data priv pub ct now e ↔ ∃ m, Carries E dec data priv pub ct now m ∧ m.cls = e.cls) ∧
    ∀ m, Carries E dec data priv pub ct now m → m.cls = e.cls → ∀ m',
      (load E dec (some data) priv pub ct now).2 = .ok m' → m' = m := by
  have hne : e.cls ≠ .Hello := by
    intro h
    rw [h] at hc
    exact absurd hc (by decide)
  refine ⟨?_, ?_⟩
  · rw [← frame_base he]
    exact ⟨fun ⟨m, hm⟩ => ⟨m, (frame_carries hne).mp hm⟩, fun ⟨m, hm⟩ => ⟨m, (frame_carries hne).mpr hm⟩⟩
  · intro m hm hmc m' hm'
    rw [load_carries hm] at hm'
    unfold taskChecks at hm'
    split at hm'
    · split at hm'
      · cases hm'
      split at hm'
      · split at hm'
        · cases hm'
        split at hm'
        · cases hm'
        · injection hm' with hm'; exact hm'.symm
      · injection hm' with hm'; exact hm'.symm
    · injection hm' with hm'; exact hm'.symm

/-- A frame that can be read: the `Ping` of C09 (its payload is an empty list). -/
example : LegibleFrame toyEnv (fun _ _ => .error .decryptionError) pingFrame none none false 0
    { cls := .Ping, number := 1001, signed := false, encrypted := true, fields := [] } where
  long := by decide
  past := by rw [← min_is_2010]; decide
  future := by rw [← max_is_3010]; decide
  number := by decide
  fresh := by intro h; cases h
  version := by intro h; cases h
  payload := ⟨[128], [128], [], .list [], .inl ⟨by decide, .inl (by decide)⟩, rfl,
    .array (h := [128]) [] (.short (n := 0) (by omega)) (by simp),
    .mk (e := { cls := .Ping, number := 1001, signed := false, encrypted := true, fields := [] })
      (by simp [catalogue]) (fun _ _ _ h => by cases h), by intro h; cases h⟩

example : ∀ e ∈ catalogue, e.number = frameType pingFrame → e.cls ∉ checkedClasses := by decide +kernel

/-- A nested message that can be read: a `RemoveTask` without signature. -/
example (E : Env) : LegibleMessage E .RemoveTask
    (.list [.list [.int 1007, .int 5, .bool false], .none, .dict [(.str p!"task_id", .int 7)]]) := by
  refine .mk (.list _) (.list _) (.mk (e :=
    { cls := .RemoveTask, number := 1007, signed := true, encrypted := true, fields := [(p!"task_id", .plain)] }) (by simp [catalogue]) ?_)
  intro name kind w hf _ _
  simp only [List.mem_cons, Prod.mk.injEq, List.mem_nil_iff, or_false] at hf
  obtain ⟨rfl, rfl⟩ := hf
  exact .plain rfl

/-- What cannot be read: a choice that is not one of the texts. -/
example (E : Env) : ¬ LegibleField E .Disconnect p!"reason" (.choice [p!"refresh"]) (.int 7) := by
  intro h
  cases h with
  | ruled a _ => simp [fieldRule] at a
  | choice _ b =>
    rcases b with b | ⟨_, _, b⟩ <;> cases b

end Verif.Props
