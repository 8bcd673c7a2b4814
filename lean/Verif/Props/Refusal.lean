import Verif.Lemmas.Refusal
import Verif.Lemmas.Writable
import Verif.Props.Objections
/-!
# C110: why a frame is refused

`Spec.Refusal` says from the protocol description what is wrong with a frame and which exception that gives.
`load` raises an exception exactly if something is wrong that gives it.
-/

set_option linter.unusedSimpArgs false

namespace Verif.Props

open Verif Spec

/-- `load` in stages, for a frame with the header of a class. -/
private theorem load_stages {E : Env} {dec : Bytes → Bytes → Res Bytes} {data : Bytes} {priv pub : Option Bytes}
    {ct : Bool} {now : Int} {e : Entry} (he : e ∈ catalogue) (hh : Headed data e) :
    (load E dec (some data) priv pub ct now).2 =
      match timeGate ct now ⟨frameType data, frameTime data, frameFlag data⟩ with
      | .error x => .error x
      | .ok _ =>
        match (if e.cls = .Hello then
            verifyVersion E.version (asciiDecodeReplace (fieldVersion (versionField data))) else .ok ()) with
        | .error x => .error x
        | .ok _ =>
          match (decryptStep (frameFlag data) (loadDecrypt dec priv) (frameBody (unversioned data))).2 with
          | .error x => .error x
          | .ok p =>
            match parsePayload E e.cls ⟨frameType data, frameTime data, frameFlag data⟩ (frameSig (unversioned data))
                (if e.cls = .Hello then some (asciiDecodeReplace (fieldVersion (versionField data))) else none)
                pub p with
            | .error x => .error x
            | .ok m => taskChecks E m := by
  obtain ⟨hl, h1, h2, hn⟩ := hh
  rw [← min_is_2010] at h1
  rw [← max_is_3010] at h2
  have hc : e.cls.typeId = frameType data := by rw [(frame_tables e he).1, hn]
  have h3 : Cls.ofType (frameType data) = some e.cls := by rw [← hc]; exact ofType_typeId e.cls
  unfold load
  rw [deserialize_frame E data _ ct now pub hl e.cls h1 h2 h3]
  cases timeGate ct now ⟨frameType data, frameTime data, frameFlag data⟩ with
  | error x => rfl
  | ok u =>
    dsimp only
    unfold dwh
    have e1 : ((unversioned data).drop hdrLen).drop sigLen = frameBody (unversioned data) := by
      simp [frameBody, hdrLen, sigLen, List.drop_drop]
    have e2 : ((unversioned data).drop hdrLen).take sigLen = frameSig (unversioned data) := by
      simp [frameSig, hdrLen, sigLen]
    by_cases h0 : e.cls = .Hello
    · rw [if_pos h0, if_pos h0, if_pos h0]
      have ht0 : frameType data = 0 := by rw [← hc, h0]; rfl
      have hl2 : (data.drop hdrLen).drop ((data.drop hdrLen).length - versionLen) =
          data.drop (data.length - versionLen) := by
        rw [List.drop_drop, List.length_drop]
        congr 1
        simp [hdrLen, versionLen]; omega
      rw [hl2, unpackPascal_eq data (by omega)]
      dsimp only
      cases verifyVersion E.version (asciiDecodeReplace (fieldVersion (versionField data))) with
      | error x => rfl
      | ok u =>
        dsimp only
        have hd : (data.drop hdrLen).take ((data.drop hdrLen).length - versionLen) =
            (unversioned data).drop hdrLen := by
          unfold unversioned
          rw [if_pos ht0, List.take_drop, List.length_drop]
          congr 2
          simp [hdrLen, versionLen]; omega
        rw [hd]
        unfold dwhBase Logged.andThen
        rw [e1, e2]
        dsimp only
        cases (decryptStep (frameFlag data) (loadDecrypt dec priv) (frameBody (unversioned data))).2 with
        | error x => rfl
        | ok p =>
          dsimp only
          generalize hm : parsePayload E e.cls _ _ _ _ _ = r
          cases r with
          | error x => rfl
          | ok m =>
            dsimp only
            have hcm := parsePayload_cls hm
            unfold taskChecks
            rw [if_neg (by rw [hcm, h0]; decide)]
    · rw [if_neg h0, if_neg h0, if_neg h0]
      have hu : unversioned data = data := by
        unfold unversioned; rw [if_neg (by rw [← hc]; exact typeId_ne_hello h0)]
      rw [hu] at e1 e2 ⊢
      unfold dwhBase Logged.andThen
      rw [e1, e2]
      dsimp only
      cases (decryptStep (frameFlag data) (loadDecrypt dec priv) (frameBody data)).2 with
      | error x => rfl
      | ok p =>
        dsimp only
        cases parsePayload E e.cls ⟨frameType data, frameTime data, frameFlag data⟩ (frameSig data) none pub p <;> rfl

private theorem cls_hello {e : Entry} (he : e ∈ catalogue) : e.cls = .Hello ↔ e.number = 0 := by
  rw [← (frame_tables e he).1]
  exact ⟨fun h => by rw [h]; rfl, fun h => typeId_inj (by rw [h]; rfl)⟩

private theorem gate_ok {ct : Bool} {now : Int} {data : Bytes} (h2 : frameTime data < newYear 1040)
    (h : Timely data ct now) : timeGate ct now ⟨frameType data, frameTime data, frameFlag data⟩ = .ok () := by
  rw [← max_is_3010] at h2
  unfold Timely at h
  unfold timeGate
  cases ct with
  | false => rfl
  | true =>
    have h := h rfl
    simp only [if_true]
    unfold verifyTime msgTtl futureTolerance
    unfold maxTimestamp at h2
    rw [if_neg (by simp; omega), if_neg (by omega), if_neg (by omega)]

private theorem gate_old {now : Int} {data : Bytes} (h2 : frameTime data < newYear 1040)
    (h : (frameTime data : Int) * 1000000 + 10 * 60 * 1000000 < now) :
    timeGate true now ⟨frameType data, frameTime data, frameFlag data⟩ = .error .messageTooOld := by
  rw [← max_is_3010] at h2
  unfold timeGate
  simp only [if_true]
  unfold verifyTime msgTtl futureTolerance
  unfold maxTimestamp at h2
  rw [if_neg (by simp; omega), if_pos (by omega)]

private theorem gate_future {now : Int} {data : Bytes} (h2 : frameTime data < newYear 1040)
    (h : now + 5 * 60 * 1000000 < (frameTime data : Int) * 1000000) :
    timeGate true now ⟨frameType data, frameTime data, frameFlag data⟩ = .error .messageFromFuture := by
  rw [← max_is_3010] at h2
  unfold timeGate
  simp only [if_true]
  unfold verifyTime msgTtl futureTolerance
  unfold maxTimestamp at h2
  rw [if_neg (by simp; omega), if_neg (by omega), if_pos (by omega)]

/-- The text of the bytes parses exactly if it is a version. -/
private theorem version_bytes {raw : Bytes} : (∃ v, parseVersion (asciiDecodeReplace raw) = some v) ↔
    VersionBytes raw := by
  constructor
  · rintro ⟨v, hv⟩
    obtain ⟨hw, hs⟩ := (version_grammar _ ⟨v.major, v.minor, v.patch, v.pre, v.build⟩).mp hv
    have hchars : ∀ c ∈ asciiDecodeReplace raw, (∃ d, Decimal c d) ∨ IdChar c ∨ c = '.' ∨ c = '+' ∨ c = '\n' := by
      have hsaid : ∀ r, Ver.Said ⟨v.major, v.minor, v.patch, v.pre, v.build⟩ r → ∀ c ∈ r,
          (∃ d, Decimal c d) ∨ IdChar c ∨ c = '.' ∨ c = '+' ∨ c = '\n' := by
        intro r hr c hc
        rcases said_chars hw hr c hc with h | h | h | h
        · exact .inl h
        · exact .inr (.inl h)
        · exact .inr (.inr (.inl h))
        · exact .inr (.inr (.inr (.inl h)))
      intro c hc
      rcases hs with e | ⟨r, hr, e⟩
      · exact hsaid _ e c hc
      · rw [hr] at hc
        rcases List.mem_append.mp hc with hc | hc
        · exact hsaid _ e c hc
        · simp at hc; subst hc; simp
    have ha : ∀ b ∈ raw, b.toNat < 128 := by
      intro b hb
      have hk := hchars _ (by unfold asciiDecodeReplace; exact List.mem_map.mpr ⟨b, hb, rfl⟩)
      split at hk
      · assumption
      · exfalso
        rcases hk with h | h | h | h | h
        · exact absurd ((isDec_iff _).mpr h) (by decide +kernel)
        · exact absurd (idChar_ascii h) (by decide)
        · exact absurd h (by decide)
        · exact absurd h (by decide)
        · exact absurd h (by decide)
    refine ⟨ha, _, hw, ?_⟩
    rw [← version_ascii_same ha]
    exact hs
  · rintro ⟨ha, v, hw, hs⟩
    rw [version_ascii_same ha]
    exact ⟨_, (version_grammar _ v).mpr ⟨hw, hs⟩⟩

private theorem own_version {ours : PStr} : (∃ v, parseVersion ours = some v) ↔ OwnVersion ours := by
  constructor
  · rintro ⟨v, hv⟩
    exact ⟨_, (version_grammar _ ⟨v.major, v.minor, v.patch, v.pre, v.build⟩).mp hv⟩
  · rintro ⟨v, hw, hs⟩
    exact ⟨_, (version_grammar _ v).mpr ⟨hw, hs⟩⟩

private theorem version_refused {ours : PStr} {raw : Bytes} (h : ¬ PeerVersion ours raw) :
    (OwnVersion ours ∨ ¬ VersionBytes raw →
      verifyVersion ours (asciiDecodeReplace raw) = .error .versionMismatch) ∧
    (¬ OwnVersion ours → VersionBytes raw →
      verifyVersion ours (asciiDecodeReplace raw) = .error .valueError) := by
  have := mt frame_version.mp h
  rw [← own_version, ← version_bytes]
  unfold verifyVersion at this ⊢
  cases hp : parseVersion (asciiDecodeReplace raw) with
  | none => simp
  | some t =>
    rw [hp] at this
    cases ho : parseVersion ours with
    | none => simp
    | some o =>
      rw [ho] at this
      dsimp only at this ⊢
      refine ⟨fun _ => ?_, fun h => absurd ⟨_, rfl⟩ h⟩
      split
      · rename_i hc
        rw [if_pos hc] at this
        exact absurd rfl this
      · rfl

private theorem opened_step {dec : Bytes → Bytes → Res Bytes} {priv : Option Bytes} {data payload : Bytes} :
    (decryptStep (frameFlag data) (loadDecrypt dec priv) (frameBody (unversioned data))).2 = .ok payload ↔
      Opened dec priv data payload := by
  rw [← frame_opened]
  unfold Payload decryptStep
  cases hf : frameFlag data with
  | true =>
    simp only [if_true]
    cases loadDecrypt dec priv (frameBody (unversioned data)) with
    | ok p => simp
    | error x =>
      dsimp only
      split <;> simp
  | false => simp [eq_comm]

/-- `load` of a frame whose opening is in order. -/
private theorem load_opening {E : Env} {dec : Bytes → Bytes → Res Bytes} {data : Bytes} {priv pub : Option Bytes}
    {ct : Bool} {now : Int} {e : Entry} (he : e ∈ catalogue) (ho : Opening E data ct now e) :
    (e.cls = .Hello → verifyVersion E.version (asciiDecodeReplace (fieldVersion (versionField data))) = .ok ()) ∧
    (load E dec (some data) priv pub ct now).2 =
      match (decryptStep (frameFlag data) (loadDecrypt dec priv) (frameBody (unversioned data))).2 with
      | .error x => .error x
      | .ok p =>
        match parsePayload E e.cls ⟨frameType data, frameTime data, frameFlag data⟩ (frameSig (unversioned data))
            (if e.cls = .Hello then some (asciiDecodeReplace (fieldVersion (versionField data))) else none)
            pub p with
        | .error x => .error x
        | .ok m => taskChecks E m := by
  have hv : e.cls = .Hello → verifyVersion E.version (asciiDecodeReplace (fieldVersion (versionField data))) = .ok () :=
    fun h => frame_version.mpr (ho.version ((cls_hello he).mp h))
  refine ⟨hv, ?_⟩
  rw [load_stages he ho.headed, gate_ok ho.headed.future ho.timely]
  dsimp only
  by_cases h0 : e.cls = .Hello
  · rw [if_pos h0, if_pos h0, hv h0]
  · rw [if_neg h0, if_neg h0]

private theorem loads_error {payload : Bytes} (h : ∀ item rest v, payload = item ++ rest → ¬ Item item v) :
    loads payload = .error .serializationError := by
  cases hl : loads payload with
  | ok v =>
    obtain ⟨item, rest, a, b⟩ := (payload_grammar _ _).mp hl
    exact absurd b (h item rest v a)
  | error x =>
    unfold loads at hl
    split at hl
    · cases hl
    · injection hl with hl
      rw [hl]

private theorem stamp_dumps {t s : Nat} (ht : t < 2 ^ 64) (hs : s < 2 ^ 64) :
    ∃ b, dumps (.list [.int t, .int s]) = .ok b := by
  have fits : ∀ n : Nat, n < 2 ^ 64 → Writable (.int n) := by
    intro n hn
    simp only [Writable, Int.natAbs_natCast]
    exact Nat.lt_of_lt_of_le hn (Nat.pow_le_pow_right (n := 256) (i := 8) (j := 2 ^ 64 - 1) (by decide) (by decide))
  exact dumps_fits rfl ⟨by simp, fits t ht, fits s hs, trivial⟩

private theorem legible_reads {E : Env} {dec : Bytes → Bytes → Res Bytes} {data : Bytes} {priv pub : Option Bytes}
    {ct : Bool} {now : Int} {e : Entry} (he : e ∈ catalogue) (h : LegibleFrame E dec data priv pub ct now e) :
    ∃ m, ReadsFrame E dec data priv pub ct now m := by
  obtain ⟨m, hb⟩ := (frame_base he).mpr h
  refine ⟨m, ?_⟩
  by_cases hh : e.cls = .Hello
  · rw [hh] at hb
    exact loaded_as_read E dec data priv pub ct now m (frame_hello hb)
  · obtain ⟨hca, hc⟩ := (frame_carries hh).mp hb
    by_cases hm : m.cls ∈ checkedClasses
    · exact (read_iff_carried E dec data priv pub ct now m hm).mpr hca
    · refine loaded_as_read E dec data priv pub ct now m ?_
      rw [load_carries hca]
      exact frame_unchecked hm

/-- The signature of a message that was constructed. -/
private theorem sender_decision {E : Env} {e : Entry} (he : e ∈ catalogue) {data payload item rest key : Bytes}
    {v : Val} (hn : e.number = frameType data) (ht : frameTime data < newYear 1040)
    (hv : e.cls = .Hello → verifyVersion E.version (asciiDecodeReplace (fieldVersion (versionField data))) = .ok ())
    (hp : payload = item ++ rest) (hi : Item item v) (hleg : Legible E e.cls v) (hs : e.signed = true)
    (hne : key ≠ []) :
    (key.length ≠ 64 → parsePayload E e.cls ⟨frameType data, frameTime data, frameFlag data⟩
      (frameSig (unversioned data))
      (if e.cls = .Hello then some (asciiDecodeReplace (fieldVersion (versionField data))) else none)
      (some key) payload = .error .invalidKeys) ∧
    (key.length = 64 → ¬ SenderOk E data (some key) payload →
      parsePayload E e.cls ⟨frameType data, frameTime data, frameFlag data⟩
      (frameSig (unversioned data))
      (if e.cls = .Hello then some (asciiDecodeReplace (fieldVersion (versionField data))) else none)
      (some key) payload = .error .invalidSignature) := by
  have hc : e.cls.typeId = frameType data := by rw [(frame_tables e he).1, hn]
  have hl := (payload_grammar payload v).mpr ⟨item, rest, hp, hi⟩
  obtain ⟨m, hcon⟩ := (construct_iff (h := ⟨frameType data, frameTime data, frameFlag data⟩)
    (sig := frameSig (unversioned data))
    (version := if e.cls = .Hello then some (asciiDecodeReplace (fieldVersion (versionField data))) else none)
    (loads_data hl)).mpr hleg
  have hg : (if e.cls.sign = true then givenKey (some key) else none) = some key := by
    rw [(frame_tables e he).2, if_pos hs]
    cases key with
    | nil => exact absurd rfl hne
    | cons => rfl
  have small : maxTimestamp < 2 ^ 64 := by decide +kernel
  rw [← max_is_3010] at ht
  have hty : frameType data < 2 ^ 64 := by
    have : ∀ e ∈ catalogue, e.number < 2 ^ 64 := by decide +kernel
    rw [← hn]
    exact this e he
  obtain ⟨hd, hdm⟩ := stamp_dumps hty (show frameTime data < 2 ^ 64 by omega)
  have hx : ∃ x, shortHashOf E m payload = .ok x := by
    obtain ⟨as, ha, hm⟩ := construct_ok hcon
    subst hm
    unfold shortHashOf hashInput
    dsimp only
    rw [hdm]
    dsimp only
    by_cases h0 : e.cls = .Hello
    · rw [if_pos h0, if_pos h0, version_attr _ ha]
      exact ⟨_, rfl⟩
    · rw [if_neg h0]
      exact ⟨_, rfl⟩
  obtain ⟨x, hx⟩ := hx
  obtain ⟨_, _, _, e4, _, hd', hdm', e5⟩ := loaded_digest hc hv hcon hx
  rw [hdm] at hdm'
  injection hdm' with hdm'
  subst hdm'
  have eqn : parsePayload E e.cls ⟨frameType data, frameTime data, frameFlag data⟩
      (frameSig (unversioned data))
      (if e.cls = .Hello then some (asciiDecodeReplace (fieldVersion (versionField data))) else none)
      (some key) payload =
      match E.ecdsaVerify key m.sig x with
      | .error e => .error e
      | .ok _ => .ok m := by
    unfold parsePayload
    rw [hl]
    dsimp only
    rw [hcon]
    dsimp only
    rw [hg]
    dsimp only
    rw [hx]
    dsimp only
    cases E.ecdsaVerify key m.sig x <;> rfl
  obtain ⟨_, d2, d3⟩ := ecdsa_verify_decision E key x m.sig
  rw [eqn]
  constructor
  · intro h64
    rw [d2 h64]
  · intro h64 hno
    rw [d3 h64 fun hr => hno fun key' hk _ => ?_]
    injection hk with hk
    subst hk
    exact ⟨h64, hd, hdm, by rw [← e5, ← e4]; exact hr⟩

/-- Whatever is wrong with a frame makes `load` raise the exception that this gives. -/
private theorem refusal_raises (E : Env) (dec : Bytes → Bytes → Res Bytes) (data : Bytes) (priv pub : Option Bytes)
    (ct : Bool) (now : Int) (e : Exc) (h : Refusal E dec data priv pub ct now e) :
    (load E dec (some data) priv pub ct now).2 = .error e := by
  cases h with
  | short hl =>
    unfold load deserialize
    dsimp only
    rw [if_pos (by simp [hdrLen, sigLen]; omega)]
  | header hl hno =>
    unfold load
    rw [deserialize_badHeader _ _ _ _ _ _ hl]
    rintro ⟨h1, h2, c, hc⟩
    obtain ⟨e, he, rfl⟩ := listed_cls c
    refine hno e he ⟨hl, ?_, ?_, ?_⟩
    · rw [← min_is_2010]; exact h1
    · rw [← max_is_3010]; exact h2
    · rw [← (frame_tables e he).1]; exact hc
  | old he hh hct ho =>
    subst hct
    rw [load_stages he hh, gate_old hh.future ho]
  | future he hh hct ho =>
    subst hct
    rw [load_stages he hh, gate_future hh.future ho]
  | version he hh ht h0 hv hr =>
    rw [load_stages he hh, gate_ok hh.future ht]
    dsimp only
    rw [if_pos ((cls_hello he).mpr h0), (version_refused hv).1 hr]
  | ownVersion he hh ht h0 ho hb =>
    have hv : ¬ PeerVersion E.version (fieldVersion (versionField data)) := by
      rintro ⟨o, t, h1, _, h2, _⟩
      exact ho ⟨o, h1, h2⟩
    rw [load_stages he hh, gate_ok hh.future ht]
    dsimp only
    rw [if_pos ((cls_hello he).mpr h0), (version_refused hv).2 ho hb]
  | cipher he ho hf hp hne hd =>
    rename_i e key x
    rw [(load_opening he ho).2]
    subst hp
    unfold decryptStep loadDecrypt
    have hg : givenKey (some key) = some key := by
      cases key with
      | nil => exact absurd rfl hne
      | cons => rfl
    rw [hf, if_pos rfl, hg]
    dsimp only
    rw [hd]
    dsimp only
    cases hx : x.isMessageError <;> simp
  | codec he ho hp hno =>
    rw [(load_opening he ho).2, opened_step.mpr hp]
    dsimp only
    unfold parsePayload
    rw [loads_error hno]
  | field he ho hp hpl hi hb =>
    rw [(load_opening he ho).2, opened_step.mpr hp]
    have hl := (payload_grammar _ _).mpr ⟨_, _, hpl, hi⟩
    dsimp only
    unfold parsePayload
    rw [hl]
    dsimp only
    rw [(construct_gives (loads_data hl) _).mpr hb]
  | senderKey he ho hp hpl hi hleg hs hk hne h64 =>
    obtain ⟨hv, eqn⟩ := load_opening (dec := dec) (priv := priv) (pub := pub) he ho
    rw [eqn, opened_step.mpr hp]
    dsimp only
    subst hk
    rw [(sender_decision he ho.headed.number ho.headed.future hv hpl hi hleg hs hne).1 h64]
  | sender he ho hp hpl hi hleg hs hk h64 hno =>
    obtain ⟨hv, eqn⟩ := load_opening (dec := dec) (priv := priv) (pub := pub) he ho
    rw [eqn, opened_step.mpr hp]
    dsimp only
    subst hk
    rw [(sender_decision he ho.headed.number ho.headed.future hv hpl hi hleg hs (by rintro rfl; cases h64)).2 h64 hno]
  | whole hm ho => exact (objection_iff E dec data priv pub ct now _ _ hm).mpr ho

/-- C110: `load` raises an exception exactly if something is wrong with the frame that gives it. -/
theorem refused_iff (E : Env) (dec : Bytes → Bytes → Res Bytes) (data : Bytes) (priv pub : Option Bytes)
    (ct : Bool) (now : Int) (e : Exc) :
    (load E dec (some data) priv pub ct now).2 = .error e ↔ Refusal E dec data priv pub ct now e := by
  refine ⟨fun h => ?_, refusal_raises E dec data priv pub ct now e⟩
  -- it is enough to find something
  suffices hf : ∃ x, Refusal E dec data priv pub ct now x by
    obtain ⟨x, hx⟩ := hf
    have he := refusal_raises E dec data priv pub ct now x hx
    rw [h] at he
    injection he with he
    subst he
    exact hx
  by_cases hl : 76 < data.length
  · by_cases hh : ∃ c ∈ catalogue, Headed data c
    · obtain ⟨c, hc, hh⟩ := hh
      by_cases ht : Timely data ct now
      · by_cases hv : c.number = 0 → PeerVersion E.version (fieldVersion (versionField data))
        · have ho : Opening E data ct now c := ⟨hh, ht, hv⟩
          by_cases hp : ∃ payload, Opened dec priv data payload
          · obtain ⟨payload, hp⟩ := hp
            by_cases hi : ∃ item rest v, payload = item ++ rest ∧ Item item v
            · obtain ⟨item, rest, v, hpl, hi⟩ := hi
              have hl := (payload_grammar _ _).mpr ⟨_, _, hpl, hi⟩
              by_cases hleg : Legible E c.cls v
              · by_cases hs : c.signed = true → SenderOk E data pub payload
                · have hlf : LegibleFrame E dec data priv pub ct now c :=
                    ⟨hh.long, hh.past, hh.future, hh.number, ht, hv, payload, item, rest, v, hp, hpl, hi, hleg, hs⟩
                  obtain ⟨m, hm⟩ := legible_reads hc hlf
                  exact ⟨_, .whole hm ((objection_iff E dec data priv pub ct now m e hm).mp h)⟩
                · obtain ⟨hs, hno⟩ := Classical.not_imp.mp hs
                  have : ∃ key, pub = some key ∧ key ≠ [] := by
                    apply Classical.byContradiction
                    intro hn
                    exact hno fun key hk hne => absurd ⟨key, hk, hne⟩ hn
                  obtain ⟨key, hk, hne⟩ := this
                  by_cases h64 : key.length = 64
                  · exact ⟨_, .sender hc ho hp hpl hi hleg hs hk h64 hno⟩
                  · exact ⟨_, .senderKey hc ho hp hpl hi hleg hs hk hne h64⟩
              · have : ∃ x, construct E c.cls ⟨frameType data, frameTime data, frameFlag data⟩
                    (frameSig (unversioned data)) none v = .error x := by
                  apply no_ok.mp
                  rintro ⟨m, hm⟩
                  exact hleg ((construct_iff (loads_data hl)).mp ⟨m, hm⟩)
                obtain ⟨x, hx⟩ := this
                exact ⟨x, .field hc ho hp hpl hi ((construct_gives (loads_data hl) x).mp hx)⟩
            · exact ⟨_, .codec hc ho hp fun item rest v a b => hi ⟨item, rest, v, a, b⟩⟩
          · cases hf : frameFlag data with
            | false => exact absurd ⟨_, .inl ⟨rfl, .inl hf⟩⟩ hp
            | true =>
              rcases priv with _ | key
              · exact absurd ⟨_, .inl ⟨rfl, .inr (.inl rfl)⟩⟩ hp
              · by_cases hne : key = []
                · subst hne
                  exact absurd ⟨_, .inl ⟨rfl, .inr (.inr rfl)⟩⟩ hp
                · cases hd : dec key (frameBody (unversioned data)) with
                  | ok p => exact absurd ⟨p, .inr ⟨key, rfl, hne, hf, hd⟩⟩ hp
                  | error x => exact ⟨_, .cipher hc ho hf rfl hne hd⟩
        · obtain ⟨h0, hv⟩ := Classical.not_imp.mp hv
          by_cases hown : OwnVersion E.version
          · exact ⟨_, .version hc hh ht h0 hv (.inl hown)⟩
          · by_cases hb : VersionBytes (fieldVersion (versionField data))
            · exact ⟨_, .ownVersion hc hh ht h0 hown hb⟩
            · exact ⟨_, .version hc hh ht h0 hv (.inr hb)⟩
      · unfold Timely at ht
        obtain ⟨hct, ht⟩ := Classical.not_imp.mp ht
        by_cases ho : (frameTime data : Int) * 1000000 + 10 * 60 * 1000000 < now
        · exact ⟨_, .old hc hh hct ho⟩
        · exact ⟨_, .future hc hh hct (by omega)⟩
    · exact ⟨_, .header hl fun c hc h => hh ⟨c, hc, h⟩⟩
  · exact ⟨_, .short (by omega)⟩

/-! ### Refused frames -/

/-- Nothing is not a frame. -/
example : (load toyEnv (fun _ d => .ok d) (some []) none none false 0).2 = .error .messageError := by
  exact (refused_iff toyEnv (fun _ d => .ok d) [] none none false 0 _).mpr (.short (by decide))

/-- 77 zeros are long enough, but they come from 1970. -/
example : Refusal toyEnv (fun _ d => .ok d) (List.replicate 77 0) none none false 0 .headerError :=
  .header (by decide) fun _ _ h => absurd h.past (by decide +kernel)

/-- A reason that is none of the reasons to disconnect is the fault of that field. -/
example : Blames toyEnv .Disconnect (.list [.list [.str p!"reason", .str p!"bored"]])
    (.fieldError p!"reason") := by
  have h : 2 < catalogue.length := by decide
  refine Blames.mk (e := catalogue[2]'h) (before := []) (w := .str p!"bored") (List.getElem_mem h) rfl
    (fun _ _ _ hn => absurd hn (by simp)) (fun hu => Cls.noConfusion hu.1)
    ⟨[(.str p!"reason", .str p!"bored")], ?_, by simp [scalar], rfl⟩ (.choice rfl ?_)
  · exact .pairs (fun _ => by simp) (.list _) (.cons (.list _) .nil)
  · rintro (hn | ⟨x, hx, hn⟩)
    · cases hn
    · injection hn with hn; subst hn; revert hx; decide

/-- The frame with that reason, and what becomes of it. -/
private def bored : Bytes :=
  ((packHeader 2 (.int 1500000000) (.bool false)).toOption.getD [] ++ List.replicate 65 0) ++
    (dumps (.list [.list [.str p!"reason", .str p!"bored"]])).toOption.getD []

example : Refusal toyEnv (fun _ d => .ok d) bored none none false 0 (.fieldError p!"reason") :=
  (refused_iff toyEnv _ bored none none false 0 _).mp (by decide +kernel)

/-- And a message that can be read and is refused as a whole: a verdict without acknowledgement. -/
private def verdict : Bytes :=
  ((packHeader 4004 (.int 1500000000) (.bool false)).toOption.getD [] ++ List.replicate 65 0) ++
    (dumps (.list [])).toOption.getD []

example : Refusal toyEnv (fun _ d => .ok d) verdict none none false 0 .attributeError :=
  (refused_iff toyEnv _ verdict none none false 0 _).mp (by decide +kernel)

end Verif.Props
