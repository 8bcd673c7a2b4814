import Verif.Lemmas.Frame
import Verif.Lemmas.Version
import Verif.Lemmas.Attrs
import Verif.Props.Version
/-! # Lemmas about `load` -/

set_option linter.unusedSimpArgs false

namespace Verif

open Spec

theorem verText_ascii (v : Ver) (hw : v.Wf) : ∀ c ∈ v.text, c.toNat < 128 := by
  have hdec : ∀ n, ∀ c ∈ decimal n, c.toNat < 128 := by
    intro n c hc
    have := (isDig_nat c).mp (decimal_digits n c hc)
    omega
  have hdot : ∀ l : List PStr, (∀ i ∈ l, ∀ c ∈ i, IdChar c) → ∀ c ∈ dotted l, c.toNat < 128 := by
    intro l h
    exact dotted_chars l (fun c => c.toNat < 128) (by decide)
      (fun i hi c hc => by have := idChar_ascii (h i hi c hc); omega)
  intro c hc
  unfold Ver.text at hc
  simp only [List.mem_append, List.mem_cons] at hc
  rcases hc with h | h | h | h | h | h | h
  · exact hdec _ c h
  · rw [h]; decide
  · exact hdec _ c h
  · rw [h]; decide
  · exact hdec _ c h
  · split at h
    · cases h
    · rcases List.mem_cons.mp h with h | h
      · rw [h]; decide
      · exact hdot _ (fun i hi => (hw.pre i hi).2.1) c h
  · split at h
    · cases h
    · rcases List.mem_cons.mp h with h | h
      · rw [h]; decide
      · exact hdot _ (fun i hi => (hw.build i hi).2) c h

/-- Characters of an accepted version. -/
theorem verifyVersion_chars {ours s : PStr} (h : verifyVersion ours s = .ok ()) :
    ∀ c ∈ s, (∃ d, Decimal c d) ∨ IdChar c ∨ c = '.' ∨ c = '+' ∨ c = '\n' := by
  unfold verifyVersion at h
  split at h
  · cases h
  rename_i t ht
  obtain ⟨hw, ht'⟩ := (Props.version_grammar s ⟨t.major, t.minor, t.patch, t.pre, t.build⟩).mp ht
  have hs : ∀ r, Ver.Said ⟨t.major, t.minor, t.patch, t.pre, t.build⟩ r → ∀ c ∈ r,
      (∃ d, Decimal c d) ∨ IdChar c ∨ c = '.' ∨ c = '+' ∨ c = '\n' := by
    intro r hr c hc
    rcases said_chars hw hr c hc with h | h | h | h
    · exact Or.inl h
    · exact Or.inr (Or.inl h)
    · exact Or.inr (Or.inr (Or.inl h))
    · exact Or.inr (Or.inr (Or.inr (Or.inl h)))
  intro c hc
  rcases ht' with e | ⟨r, rfl, e⟩
  · exact hs _ e c hc
  · rcases List.mem_append.mp hc with hc | hc
    · exact hs _ e c hc
    · simp at hc; subst hc; simp

/-- Every accepted version that was decoded from ASCII is ASCII text. -/
theorem verifyVersion_ascii {ours : PStr} {raw : Bytes}
    (h : verifyVersion ours (asciiDecodeReplace raw) = .ok ()) :
    ∀ c ∈ asciiDecodeReplace raw, c.toNat < 128 := by
  intro c hc
  have hk := verifyVersion_chars h c hc
  unfold asciiDecodeReplace at hc
  obtain ⟨x, _, rfl⟩ := List.mem_map.mp hc
  split at hk
  · rename_i hx
    rw [if_pos hx]
    have hv : x.toNat.isValidChar := by left; omega
    simp [Char.ofNat, hv, Char.toNat, Char.ofNatAux]
    omega
  · exfalso
    rcases hk with h | h | h | h | h
    · exact absurd ((isDec_iff _).mpr h) (by decide +kernel)
    · exact absurd (idChar_ascii h) (by decide)
    · exact absurd h (by decide)
    · exact absurd h (by decide)
    · exact absurd h (by decide)

theorem asciiReplace_decode (raw : Bytes) (h : ∀ c ∈ asciiDecodeReplace raw, c.toNat < 128) :
    asciiReplace (asciiDecodeReplace raw) = raw := by
  induction raw with
  | nil => rfl
  | cons x xs ih =>
    unfold asciiDecodeReplace at h
    simp only [List.map_cons, List.mem_cons] at h
    have hx := h _ (Or.inl rfl)
    have hxs := ih (fun c hc => h c (Or.inr hc))
    unfold asciiReplace asciiDecodeReplace at hxs ⊢
    simp only [List.map_cons]
    rw [hxs]
    congr 1
    by_cases hlt : x.toNat < 128
    · rw [if_pos hlt] at hx ⊢
      rw [if_pos hx]
      have : (Char.ofNat x.toNat).toNat = x.toNat := by
        have hv : x.toNat.isValidChar := by left; omega
        simp [Char.ofNat, hv, Char.toNat, Char.ofNatAux]
      rw [this]
      simp
    · rw [if_neg hlt] at hx
      exact absurd hx (by decide)

theorem asciiDecode_replace (s : PStr) (h : ∀ c ∈ s, c.toNat < 128) :
    asciiDecodeReplace (asciiReplace s) = s := by
  induction s with
  | nil => rfl
  | cons c cs ih =>
    have hc := h c (by simp)
    have hcs := ih (fun d hd => h d (by simp [hd]))
    unfold asciiReplace asciiDecodeReplace at hcs ⊢
    simp only [List.map_cons]
    rw [hcs]
    congr 1
    rw [if_pos hc]
    have : (UInt8.ofNat c.toNat).toNat = c.toNat := by
      simp [UInt8.toNat_ofNat', Nat.mod_eq_of_lt (show c.toNat < 256 by omega)]
    rw [this, if_pos hc, Char.ofNat_toNat]

theorem unpackPascal_eq (data : Bytes) (h : 32 ≤ data.length) :
    unpackPascal (data.drop (data.length - versionLen)) = some (fieldVersion (versionField data)) := by
  have hl : (data.drop (data.length - 32)).length = 32 := by simp; omega
  unfold unpackPascal versionField versionLen
  rw [if_neg (by rw [hl]; simp)]
  cases hd : data.drop (data.length - 32) with
  | nil => rw [hd] at hl; simp at hl
  | cons n rest => rfl

/-- What a successful `load` has checked. -/
theorem load_ok {E : Env} {dec : Bytes → Bytes → Res Bytes} {data : Bytes}
    {priv pub : Option Bytes} {ct : Bool} {now : Int} {m : Msg}
    (h : (load E dec (some data) priv pub ct now).2 = .ok m) :
    76 < data.length ∧ minTimestamp < frameTime data ∧ frameTime data < maxTimestamp ∧
    ∃ c : Cls, c.typeId = frameType data ∧
      timeGate ct now ⟨frameType data, frameTime data, frameFlag data⟩ = .ok () ∧
      ∃ payload version, Payload (loadDecrypt dec priv) data payload ∧
        (version = if c = .Hello then some (asciiDecodeReplace (fieldVersion (versionField data)))
          else none) ∧
        (c = .Hello → verifyVersion E.version
          (asciiDecodeReplace (fieldVersion (versionField data))) = .ok ()) ∧
        parsePayload E c ⟨frameType data, frameTime data, frameFlag data⟩
          (frameSig (unversioned data)) version pub payload = .ok m ∧
        (c ≠ .Hello → taskChecks E m = .ok m) := by
  by_cases hl : 76 < data.length
  · by_cases hb : minTimestamp < frameTime data ∧ frameTime data < maxTimestamp ∧
        Registered (frameType data)
    · obtain ⟨h1, h2, c, hc⟩ := hb
      refine ⟨hl, h1, h2, c, hc, ?_⟩
      have h3 : Cls.ofType (frameType data) = some c := by rw [← hc]; exact ofType_typeId c
      unfold load at h
      rw [deserialize_frame E data _ ct now pub hl c h1 h2 h3] at h
      cases ht : timeGate ct now ⟨frameType data, frameTime data, frameFlag data⟩ with
      | error e => rw [ht] at h; cases h
      | ok u =>
        rw [ht] at h
        simp only at h
        refine ⟨rfl, ?_⟩
        have step : ∀ d version, (dwhBase E c ⟨frameType data, frameTime data, frameFlag data⟩ d
              (loadDecrypt dec priv) pub version).2 = .ok m → d.drop sigLen = frameBody (unversioned data) →
            d.take sigLen = frameSig (unversioned data) →
            ∃ payload, Payload (loadDecrypt dec priv) data payload ∧
              parsePayload E c ⟨frameType data, frameTime data, frameFlag data⟩
                (frameSig (unversioned data)) version pub payload = .ok m := by
          intro d version hd e1 e2
          unfold dwhBase Logged.andThen at hd
          rw [e1, e2] at hd
          unfold decryptStep at hd
          unfold Payload
          cases hf : frameFlag data with
          | true =>
            simp only [hf, if_true] at hd ⊢
            cases hx : loadDecrypt dec priv (frameBody (unversioned data)) with
            | error e =>
              rw [hx] at hd
              simp only at hd
              split at hd <;> rename_i hy
              · cases hd
              · split at hy <;> cases hy
            | ok p =>
              rw [hx] at hd
              exact ⟨p, rfl, hd⟩
          | false =>
            simp only [hf, Bool.false_eq_true, if_false] at hd ⊢
            exact ⟨_, rfl, hd⟩
        unfold dwh at h
        by_cases hh : c = .Hello
        · subst hh
          have ht0 : frameType data = 0 := by rw [← hc]; rfl
          rw [if_pos rfl] at h
          have hl2 : (data.drop hdrLen).drop ((data.drop hdrLen).length - versionLen) =
              data.drop (data.length - versionLen) := by
            rw [List.drop_drop, List.length_drop]
            congr 1
            simp [hdrLen, versionLen]; omega
          rw [hl2, unpackPascal_eq data (by omega)] at h
          simp only at h
          cases hv : verifyVersion E.version
              (asciiDecodeReplace (fieldVersion (versionField data))) with
          | error e => rw [hv] at h; cases h
          | ok u =>
            rw [hv] at h
            simp only at h
            have hd : (data.drop hdrLen).take ((data.drop hdrLen).length - versionLen) =
                (unversioned data).drop hdrLen := by
              unfold unversioned
              rw [if_pos ht0, List.take_drop, List.length_drop]
              congr 2
              simp [hdrLen, versionLen]; omega
            rw [hd] at h
            obtain ⟨p, hp, hq⟩ := step _ _ h (by simp [frameBody, hdrLen, sigLen])
              (by simp [frameSig, hdrLen, sigLen])
            exact ⟨p, _, hp, by simp, fun _ => rfl, hq, fun hne => absurd rfl hne⟩
        · rw [if_neg hh] at h
          have ht0 : frameType data ≠ 0 := by
            intro e
            apply hh
            apply typeId_inj
            rw [hc, e]; rfl
          have hu : unversioned data = data := by unfold unversioned; rw [if_neg ht0]
          simp only [Logged.andThen] at h
          cases hx : (dwhBase E c ⟨frameType data, frameTime data, frameFlag data⟩ (data.drop hdrLen)
              (loadDecrypt dec priv) pub none).2 with
          | error e => rw [hx] at h; cases h
          | ok m1 =>
            rw [hx] at h
            simp only at h
            have hm : m1 = m := by
              unfold taskChecks at h
              split at h
              · split at h
                · cases h
                split at h
                · split at h
                  · cases h
                  split at h
                  · cases h
                  · injection h
                · injection h
              · injection h
            subst hm
            obtain ⟨p, hp, hq⟩ := step _ _ hx (by rw [hu]; simp [frameBody, hdrLen, sigLen])
              (by rw [hu]; simp [frameSig, hdrLen, sigLen])
            exact ⟨p, _, hp, by simp [hh], fun e => absurd e hh, hq, fun _ => h⟩
    · unfold load at h
      rw [deserialize_badHeader _ _ _ _ _ _ hl hb] at h
      cases h
  · unfold load deserialize at h
    simp only at h
    rw [if_pos (by simp [hdrLen, sigLen]; omega)] at h
    cases h

/-- The analysis of `parsePayload`. -/
theorem parsePayload_ok {E : Env} {c : Cls} {h : Header} {sig : Bytes} {version : Option PStr}
    {sender : Option Bytes} {payload : Bytes} {m : Msg}
    (e : parsePayload E c h sig version sender payload = .ok m) :
    ∃ slots, loads payload = .ok slots ∧ construct E c h sig version slots = .ok m ∧
      ∀ k, (if c.sign then givenKey sender else none) = some k →
        ∃ hash, shortHashOf E m payload = .ok hash ∧ E.ecdsaVerify k m.sig hash = .ok () := by
  unfold parsePayload at e
  split at e
  · cases e
  rename_i slots hs
  split at e
  · cases e
  rename_i m1 hm
  split at e
  · rename_i hk
    injection e with e
    subst e
    exact ⟨slots, hs, hm, fun k hk' => by rw [hk] at hk'; cases hk'⟩
  · rename_i k hk
    split at e
    · cases e
    rename_i hash hh
    split at e
    · cases e
    rename_i u hv
    injection e with e
    subst e
    exact ⟨slots, hs, hm, fun k' hk' => by rw [hk] at hk'; injection hk' with e; subst e; exact ⟨hash, hh, hv⟩⟩

/-- The attribute a `Hello` gets in addition. -/
def versionAttr : Option PStr → Attrs
  | some v => [(p!"_version", .str v)]
  | none => []

theorem construct_ok {E : Env} {c : Cls} {h : Header} {sig : Bytes} {version : Option PStr}
    {slots : Val} {m : Msg} (e : construct E c h sig version slots = .ok m) :
    ∃ as, loadAttrs E (loadMsg E maxDepth) c slots = .ok as ∧
      m = ⟨c, .int h.type, .int h.timestamp, .bool h.encrypted, .bytes sig,
        as ++ versionAttr version⟩ := by
  unfold construct at e
  split at e
  · cases e
  rename_i as ha
  injection e with e
  refine ⟨as, ha, ?_⟩
  rw [← e]
  cases version <;> simp [versionAttr]

/-! ### Names of loaded attributes -/

theorem modifyName_names (n : PStr) (f : Val → Val) (as : Attrs) :
    (modifyName n f as).map Prod.fst = as.map Prod.fst := by
  induction as with
  | nil => rfl
  | cons kv rest ih =>
    obtain ⟨k, v⟩ := kv
    unfold modifyName
    split
    · rfl
    · simp [ih]

theorem postInit_names (c : Cls) (as : Attrs) : (postInit c as).map Prod.fst = as.map Prod.fst := by
  unfold postInit
  split <;> simp only [modifyName_names]

theorem loadSlots_names {E : Env} {rec : Loader} {c : Cls} {d : List (Val × Val)} :
    ∀ {names : List PStr} {as : Attrs}, loadSlots E rec c d names = .ok as → as.map Prod.fst = names
  | [], as, h => by unfold loadSlots at h; injection h with h; subst h; rfl
  | n :: rest, as, h => by
    unfold loadSlots at h
    split at h
    · cases h
    split at h
    · cases h
    rename_i r hr
    injection h with h
    subst h
    simp [loadSlots_names hr]

theorem wrapLoad_ok {α : Type _} {r : Res α} {a : α} (h : wrapLoad r = .ok a) : r = .ok a := by
  unfold wrapLoad at h
  split at h
  · exact h
  · cases h
  · cases h

theorem loadAttrs_names {E : Env} {rec : Loader} {c : Cls} {slots : Val} {as : Attrs}
    (h : loadAttrs E rec c slots = .ok as) : as.map Prod.fst = c.payload := by
  unfold loadAttrs at h
  split at h
  · cases h
  rename_i as' ha
  injection h with h
  subst h
  rw [postInit_names]
  exact loadSlots_names (wrapLoad_ok ha)

theorem payload_no_version (c : Cls) : p!"_version" ∉ c.payload := by
  cases c <;> decide

/-- The version of a loaded `Hello` is the one given. -/
theorem version_attr {E : Env} {rec : Loader} {c : Cls} {slots : Val} {as : Attrs} (v : PStr)
    (h : loadAttrs E rec c slots = .ok as) :
    getAttr (as ++ versionAttr (some v)) p!"_version" = .str v := by
  have hn : lookupName p!"_version" as = none := by
    rw [lookupName_none, loadAttrs_names h]
    exact payload_no_version c
  unfold getAttr
  rw [lookupName_append, hn]
  rfl

/-! ### Comparing two loads of the same frame -/

/-- Two loads of the same frame that differ only in the sender key are related if the final
step is. -/
theorem load_rel (R : Res Msg → Res Msg → Prop) {E : Env} {dec : Bytes → Bytes → Res Bytes}
    {data : Bytes} {priv pub1 pub2 : Option Bytes} {ct : Bool} {now : Int}
    (hR : ∀ e, R (.error e) (.error e))
    (hT : ∀ x y, R x y → R (Logged.andThen ([], x) (taskChecks E)).2
      (Logged.andThen ([], y) (taskChecks E)).2)
    (hp : ∀ c payload, c.typeId = frameType data → Payload (loadDecrypt dec priv) data payload →
      let h : Header := ⟨frameType data, frameTime data, frameFlag data⟩
      let version := if c = .Hello then
        some (asciiDecodeReplace (fieldVersion (versionField data))) else none
      R (parsePayload E c h (frameSig (unversioned data)) version pub1 payload)
        (parsePayload E c h (frameSig (unversioned data)) version pub2 payload)) :
    (load E dec (some data) priv pub1 ct now).1 = (load E dec (some data) priv pub2 ct now).1 ∧
    R (load E dec (some data) priv pub1 ct now).2 (load E dec (some data) priv pub2 ct now).2 := by
  by_cases hl : 76 < data.length
  · by_cases hb : minTimestamp < frameTime data ∧ frameTime data < maxTimestamp ∧
        Registered (frameType data)
    · obtain ⟨h1, h2, c, hc⟩ := hb
      have h3 : Cls.ofType (frameType data) = some c := by rw [← hc]; exact ofType_typeId c
      unfold load
      rw [deserialize_frame E data _ ct now pub1 hl c h1 h2 h3,
        deserialize_frame E data _ ct now pub2 hl c h1 h2 h3]
      cases ht : timeGate ct now ⟨frameType data, frameTime data, frameFlag data⟩ with
      | error e => exact ⟨rfl, hR e⟩
      | ok u =>
        simp only
        have step : ∀ d, d.drop sigLen = frameBody (unversioned data) →
            d.take sigLen = frameSig (unversioned data) →
            let h : Header := ⟨frameType data, frameTime data, frameFlag data⟩
            let version := if c = .Hello then
              some (asciiDecodeReplace (fieldVersion (versionField data))) else none
            let x := dwhBase E c h d (loadDecrypt dec priv) pub1 version
            let y := dwhBase E c h d (loadDecrypt dec priv) pub2 version
            x.1 = y.1 ∧ R x.2 y.2 := by
          intro d e1 e2
          dsimp only
          unfold dwhBase Logged.andThen
          rw [e1, e2]
          refine ⟨rfl, ?_⟩
          dsimp only
          cases hx : (decryptStep (frameFlag data) (loadDecrypt dec priv)
              (frameBody (unversioned data))).2 with
          | error e => exact hR e
          | ok p =>
            refine hp c p hc ?_
            unfold decryptStep at hx
            unfold Payload
            cases hf : frameFlag data with
            | true =>
              simp only [hf, if_true] at hx ⊢
              split at hx
              · rename_i p' hp'; injection hx with hx; subst hx; exact hp'
              · split at hx <;> cases hx
            | false =>
              simp only [hf, Bool.false_eq_true, if_false] at hx ⊢
              injection hx with hx
              exact hx.symm
        unfold dwh
        by_cases hh : c = .Hello
        · subst hh
          have ht0 : frameType data = 0 := by rw [← hc]; rfl
          simp only [if_true]
          have hl2 : (data.drop hdrLen).drop ((data.drop hdrLen).length - versionLen) =
              data.drop (data.length - versionLen) := by
            rw [List.drop_drop, List.length_drop]
            congr 1
            simp [hdrLen, versionLen]; omega
          rw [hl2, unpackPascal_eq data (by omega)]
          simp only
          cases hv : verifyVersion E.version
              (asciiDecodeReplace (fieldVersion (versionField data))) with
          | error e => exact ⟨rfl, hR e⟩
          | ok u =>
            simp only
            have hd : (data.drop hdrLen).take ((data.drop hdrLen).length - versionLen) =
                (unversioned data).drop hdrLen := by
              unfold unversioned
              rw [if_pos ht0, List.take_drop, List.length_drop]
              congr 2
              simp [hdrLen, versionLen]; omega
            rw [hd]
            have := step ((unversioned data).drop hdrLen) (by simp [frameBody, hdrLen, sigLen])
              (by simp [frameSig, hdrLen, sigLen])
            simpa using this
        · have ht0 : frameType data ≠ 0 := by
            intro e
            apply hh
            apply typeId_inj
            rw [hc, e]; rfl
          have hu : unversioned data = data := by unfold unversioned; rw [if_neg ht0]
          simp only [if_neg hh]
          have := step (data.drop hdrLen) (by rw [hu]; simp [frameBody, hdrLen, sigLen])
            (by rw [hu]; simp [frameSig, hdrLen, sigLen])
          simp only [if_neg hh] at this
          exact ⟨this.1, hT _ _ this.2⟩
    · unfold load
      rw [deserialize_badHeader _ _ _ _ _ _ hl hb, deserialize_badHeader _ _ _ _ _ _ hl hb]
      exact ⟨rfl, hR _⟩
  · unfold load deserialize
    simp only
    have : data.length ≤ hdrLen + sigLen := by simp [hdrLen, sigLen]; omega
    rw [if_pos this, if_pos this]
    exact ⟨rfl, hR _⟩

theorem asciiReplace_ascii (v : PStr) :
    asciiReplace (asciiDecodeReplace (asciiReplace v)) = asciiReplace v := by
  apply asciiReplace_decode
  intro c hc
  unfold asciiDecodeReplace asciiReplace at hc
  simp only [List.map_map, List.mem_map, Function.comp] at hc
  obtain ⟨d, _, rfl⟩ := hc
  by_cases hd : d.toNat < 128
  · have : (UInt8.ofNat d.toNat).toNat = d.toNat := by
      simp [UInt8.toNat_ofNat', Nat.mod_eq_of_lt (show d.toNat < 256 by omega)]
    rw [if_pos hd, this, if_pos hd, Char.ofNat_toNat]
    exact hd
  · rw [if_neg hd]; decide

theorem fieldVersion_pack (r : Bytes) (h : r.length ≤ 31) :
    fieldVersion (packPascal r) = r := by
  unfold packPascal fieldVersion
  have hm : min r.length 31 = r.length := by omega
  have : (UInt8.ofNat r.length).toNat = r.length := by
    simp [UInt8.toNat_ofNat', Nat.mod_eq_of_lt (show r.length < 256 by omega)]
  rw [hm]
  simp only
  rw [this, hm, List.take_of_length_le h]
  simp

theorem packPascal_length (r : Bytes) : (packPascal r).length = 32 := by
  simp [packPascal]; omega

end Verif
