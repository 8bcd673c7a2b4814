import Verif.Lemmas.Slots
import Verif.Spec.Tasks
/-! # Frames up to the checks of the message's class -/

set_option linter.unusedSimpArgs false

namespace Verif

open Spec

theorem typeId_ne_hello {c : Cls} (h : c ≠ .Hello) : c.typeId ≠ 0 := by
  intro e; exact h (typeId_inj (by rw [e]; rfl))

/-- Loading is the base class's work followed by the class's checks. -/
theorem load_carries {E : Env} {dec : Bytes → Bytes → Res Bytes} {data : Bytes}
    {priv pub : Option Bytes} {ct : Bool} {now : Int} {m : Msg}
    (h : Carries E dec data priv pub ct now m) :
    (load E dec (some data) priv pub ct now).2 = taskChecks E m := by
  obtain ⟨hl, h1, h2, hne, hc, ht, p, hp, hparse⟩ := h
  have h3 : Cls.ofType (frameType data) = some m.cls := by rw [← hc]; exact ofType_typeId m.cls
  have hu : unversioned data = data := by
    unfold unversioned; rw [if_neg (by rw [← hc]; exact typeId_ne_hello hne)]
  unfold load
  rw [deserialize_frame E data _ ct now pub hl m.cls h1 h2 h3, ht]
  simp only
  unfold dwh
  rw [if_neg hne]
  unfold dwhBase Logged.andThen
  have e1 : (data.drop hdrLen).drop sigLen = frameBody data := by
    simp [frameBody, hdrLen, sigLen, List.drop_drop]
  have e2 : (data.drop hdrLen).take sigLen = frameSig data := by simp [frameSig, hdrLen, sigLen]
  rw [e1, e2]
  have hd : (decryptStep (frameFlag data) (loadDecrypt dec priv) (frameBody data)).2 = .ok p := by
    unfold Payload at hp
    rw [hu] at hp
    unfold decryptStep
    cases hf : frameFlag data with
    | true => simp only [hf, if_true] at hp ⊢; rw [hp]
    | false => simp only [hf, Bool.false_eq_true, if_false] at hp ⊢; rw [hp]
  dsimp only
  rw [hd]
  dsimp only
  rw [hparse]

theorem parsePayload_cls {E : Env} {c : Cls} {h : Header} {sig : Bytes} {version : Option PStr}
    {sender : Option Bytes} {payload : Bytes} {m : Msg}
    (e : parsePayload E c h sig version sender payload = .ok m) : m.cls = c := by
  obtain ⟨_, _, hc, _⟩ := parsePayload_ok e
  obtain ⟨_, _, hm⟩ := construct_ok hc
  rw [hm]

/-- Every loaded message that is not a `Hello` is carried by its frame and passed its checks. -/
theorem carries_of_load {E : Env} {dec : Bytes → Bytes → Res Bytes} {data : Bytes}
    {priv pub : Option Bytes} {ct : Bool} {now : Int} {m : Msg}
    (h : (load E dec (some data) priv pub ct now).2 = .ok m) (hne : m.cls ≠ .Hello) :
    Carries E dec data priv pub ct now m ∧ taskChecks E m = .ok m := by
  obtain ⟨hl, h1, h2, c, hct, ht, p, version, hp, hver, hv, hparse, hk⟩ := load_ok h
  have hc := parsePayload_cls hparse
  subst hc
  rw [if_neg hne] at hver
  subst hver
  have hu : unversioned data = data := by
    unfold unversioned; rw [if_neg (by rw [← hct]; exact typeId_ne_hello hne)]
  rw [hu] at hparse
  exact ⟨⟨hl, h1, h2, hne, hct, ht, p, hp, hparse⟩, hk hne⟩

theorem carries_header {E : Env} {dec : Bytes → Bytes → Res Bytes} {data : Bytes}
    {priv pub : Option Bytes} {ct : Bool} {now : Int} {m : Msg}
    (h : Carries E dec data priv pub ct now m) :
    m.ty = .int (frameType data) ∧ m.ts = .int (frameTime data) ∧
      m.enc = .bool (frameFlag data) ∧ m.sig = .bytes (frameSig data) ∧
      ∃ slots, loadAttrs E (loadMsg E maxDepth) m.cls slots = .ok m.attrs := by
  obtain ⟨_, _, _, _, _, _, p, hp, hparse⟩ := h
  obtain ⟨slots, _, hc, _⟩ := parsePayload_ok hparse
  obtain ⟨as, ha, hm⟩ := construct_ok hc
  simp only [versionAttr, List.append_nil] at hm
  have h2 : m.attrs = as := by rw [hm]
  rw [hm]
  exact ⟨rfl, rfl, rfl, rfl, slots, ha⟩

/-- What every constructor call establishes holds everywhere in a carried message. -/
theorem carries_everywhere {E : Env} {Q : Cls → Attrs → Prop}
    (hQ : ∀ n c slots as, loadAttrs E (loadMsg E n) c slots = .ok as → Q c as)
    {dec : Bytes → Bytes → Res Bytes} {data : Bytes}
    {priv pub : Option Bytes} {ct : Bool} {now : Int} {m : Msg}
    (h : Carries E dec data priv pub ct now m) : Everywhere Q m.val := by
  obtain ⟨_, _, _, _, slots, ha⟩ := carries_header h
  unfold Msg.val
  refine .mk _ _ _ _ _ _ (hQ _ _ _ _ ha) ?_
  intro name sd x hs hx
  refine (loadAttrs_typed (P := Everywhere Q) ?_ ha).2.2 name sd x hs hx
  intro c' ty ts enc sig slots x hx
  refine ⟨?_, loadMsg_everywhere hQ _ _ _ _ _ _ _ _ hx⟩
  obtain ⟨_, _, _, _, rfl⟩ := loadMsg_isMsg hx
  simp [isMsg]

theorem loadAttrs_slotsTyped {E : Env} {n : Nat} {c : Cls} {slots : Val} {as : Attrs}
    (ha : loadAttrs E (loadMsg E n) c slots = .ok as) : SlotsTyped c as := by
  intro name sd hs
  have := (loadAttrs_typed (P := fun _ => True) (fun c' ty ts enc sig sl x hx => ⟨by
    obtain ⟨_, _, _, _, rfl⟩ := loadMsg_isMsg hx
    simp [isMsg], trivial⟩) ha).1 name sd hs
  rcases this with ⟨a, _⟩ | a
  · exact Or.inl a
  · exact Or.inr a

theorem loadAttrs_enumsTyped {E : Env} {n : Nat} {c : Cls} {slots : Val} {as : Attrs}
    (ha : loadAttrs E (loadMsg E n) c slots = .ok as) : EnumsTyped c as := by
  intro name e hs
  exact (loadAttrs_typed (P := fun _ => True) (fun c' ty ts enc sig sl x hx => ⟨by
    obtain ⟨_, _, _, _, rfl⟩ := loadMsg_isMsg hx
    simp [isMsg], trivial⟩) ha).2.1 name e hs

theorem carries_slotsTyped {E : Env} {dec : Bytes → Bytes → Res Bytes} {data : Bytes}
    {priv pub : Option Bytes} {ct : Bool} {now : Int} {m : Msg}
    (h : Carries E dec data priv pub ct now m) : Everywhere SlotsTyped m.val :=
  carries_everywhere (fun _ _ _ _ ha => loadAttrs_slotsTyped ha) h

/-- A declared single message slot of a carried message holds `None` or a message of the
declared class. -/
theorem typed_single {c : Cls} {attrs : Attrs} {name : PStr} {sd : SlotDef}
    (h : SlotsTyped c attrs) (hs : (name, sd) ∈ c.msgSlots) (hl : sd.isList = false) :
    getAttr attrs name = .none ∨
      ∃ ty ts enc sig as, getAttr attrs name = .msg sd.cls ty ts enc sig as := by
  rcases h name sd hs with h | ⟨_, h⟩ | ⟨h, _⟩
  · exact Or.inl h
  · right
    cases hv : getAttr attrs name <;> rw [hv] at h <;> simp [isMsg] at h
    subst h
    exact ⟨_, _, _, _, _, rfl⟩
  · rw [hl] at h; cases h

end Verif
