import Verif.Spec.Protocol
import Verif.Spec.Ownership
import Verif.Props.Schema
import Verif.Props.Slots
import Verif.Props.Gate
import Verif.Props.Auth
import Verif.Props.Dump
import Verif.Props.Ownership
import Verif.Props.Construct
/-! # C65: the catalogue of messages -/

namespace Verif.Props

open Verif Spec

private theorem entry_exists (c : Cls) : ∃ e ∈ catalogue, e.cls = c := by
  have : (catalogue.any fun e => e.cls == c) = true := by cases c <;> decide +kernel
  obtain ⟨e, he, h⟩ := List.any_eq_true.mp this
  exact ⟨e, he, eq_of_beq h⟩

private theorem entry_table : ∀ e ∈ catalogue, e.cls.typeId = e.number ∧
    e.cls.payload = e.fields.map Prod.fst ∧ e.cls.sign = e.signed ∧ e.cls.encrypt = e.encrypted ∧
    e.cls.expectedOwners = e.senders ∧ e.cls.taskIdProviders = e.links ∧
    (e.cls.isTask = true ↔ e.senders ≠ []) ∧
    (e.cls.isTask = true → e.cls ≠ .TaskToCompute → e.links ≠ []) := by
  decide +kernel

/-- One field of the catalogue against the tables of the model. -/
def fieldAgrees (c : Cls) (p : PStr × Kind) : Bool :=
  match p.2 with
  | .plain => c.msgSlots.all (fun q => q.1 != p.1)
  | .message k o l => c.msgSlots.contains (p.1, ⟨k, o, l⟩)
  | .choice vs => c.enumSlots.any (fun q => q.1 == p.1 && q.2.values == vs)
  | .node => (c == .Hello && p.1 == p!"node_info") ||
      ((c == .WantToStartTaskSession || c == .SetTaskSession) &&
        (p.1 == p!"node_info" || p.1 == p!"super_node_info"))

private theorem field_table : ∀ e ∈ catalogue, ∀ p ∈ e.fields, fieldAgrees e.cls p = true := by
  decide +kernel

private theorem everywhere_and {Q R : Cls → Attrs → Prop} {v : Val} (h : Everywhere Q v) :
    Everywhere R v → Everywhere (fun c as => Q c as ∧ R c as) v := by
  induction h with
  | mk c ty ts enc sig attrs here nested ih =>
    intro h'
    cases h' with
    | mk _ _ _ _ _ _ here' nested' =>
      exact .mk _ _ _ _ _ _ ⟨here, here'⟩
        (fun name sd x hs hx => ih name sd x hs hx (nested' name sd x hs hx))

/-- What loading establishes for one message. -/
private def Typed (E : Env) (c : Cls) (as : Attrs) : Prop :=
  (SlotsTyped c as ∧ EnumsTyped c as) ∧ ContainersHeld E c as

private theorem fits_of {E : Env} {e : Entry} (he : e ∈ catalogue) {as : Attrs}
    (h : Typed E e.cls as) (f : PStr) (k : Kind) (hf : (f, k) ∈ e.fields) :
    Fits E k (getAttr as f) := by
  have ha := field_table e he _ hf
  obtain ⟨⟨h1, h2⟩, h3⟩ := h
  cases k with
  | plain => trivial
  | message c o l =>
    have hs : (f, (⟨c, o, l⟩ : SlotDef)) ∈ e.cls.msgSlots := by
      simpa [fieldAgrees] using ha
    have := h1 f _ hs
    cases l with
    | false =>
      rcases this with a | ⟨_, a⟩ | ⟨a, _⟩
      · exact Or.inl a
      · exact Or.inr a
      · cases a
    | true =>
      rcases this with a | ⟨a, _⟩ | ⟨_, a⟩
      · exact Or.inl a
      · cases a
      · exact Or.inr a
  | choice vs =>
    have hs : ∃ q, (f, q) ∈ e.cls.enumSlots ∧ q.values = vs := by
      simp only [fieldAgrees, List.any_eq_true, Bool.and_eq_true, beq_iff_eq] at ha
      obtain ⟨⟨n, q⟩, hm, hn, hv⟩ := ha
      simp only at hn hv
      subst hn
      exact ⟨q, hm, hv⟩
    obtain ⟨q, hm, hv⟩ := hs
    rcases h2 f q hm with a | ⟨s, hs, a⟩
    · exact Or.inl a
    · exact Or.inr ⟨q, s, a, by rw [← hv]; exact hs⟩
  | node =>
    simp only [fieldAgrees, Bool.or_eq_true, Bool.and_eq_true, beq_iff_eq] at ha
    obtain ⟨_, _, _, h4, h5⟩ := h3
    show _ ∨ _
    rcases ha with ⟨hc, hf⟩ | ⟨hc, hf | hf⟩
    · rw [hf]; exact h4 (Or.inl hc)
    · rw [hf]; exact h4 (Or.inr hc)
    · rw [hf]; exact h5 hc

private theorem listed_of {E : Env} {v : Val}
    (h : Everywhere (fun c as => as.map Prod.fst = c.payload ∧ Typed E c as) v) : Listed E v := by
  induction h with
  | mk c ty ts enc sig attrs here nested ih =>
    obtain ⟨e, he, hc⟩ := entry_exists c
    subst hc
    refine .mk e _ _ _ _ _ he (Or.inl ?_) (fits_of he here.2) ?_
    · rw [here.1, (entry_table e he).2.1]
    · intro f c o l hf x hx
      have ha := field_table e he _ hf
      exact ih f ⟨c, o, l⟩ x (by simpa [fieldAgrees] using ha) hx

private theorem parts_names {E : Env} {dec : Bytes → Bytes → Res Bytes} {data : Bytes}
    {priv pub : Option Bytes} {ct : Bool} {now : Int} {m : Msg}
    (h : (load E dec (some data) priv pub ct now).2 = .ok m) (name : PStr) (sd : SlotDef) (x : Val)
    (hs : (name, sd) ∈ m.cls.msgSlots) (hx : x ∈ members (getAttr m.attrs name)) :
    Everywhere (fun c as => as.map Prod.fst = c.payload) x := by
  obtain ⟨p, slots, as, _, _, ha, hm⟩ := load_construct h
  rw [hm, getAttr_version _ _ _ (payload_ne_version (msgSlot_payload hs))] at hx
  refine (loadAttrs_typed (P := Everywhere _) ?_ ha).2.2 name sd x hs hx
  intro c' ty ts enc sig slots x hx
  refine ⟨?_, loadMsg_everywhere (fun _ _ _ _ h => loadAttrs_names h) _ _ _ _ _ _ _ _ hx⟩
  obtain ⟨_, _, _, _, rfl⟩ := loadMsg_isMsg hx
  simp [isMsg]

/-- C65: a frame that is accepted has a number of the catalogue, and the message has exactly the
fields listed there, each of the listed kind, at every depth. -/
theorem load_follows_catalogue (E : Env) (dec : Bytes → Bytes → Res Bytes) (data : Bytes)
    (priv pub : Option Bytes) (ct : Bool) (now : Int) (m : Msg)
    (h : (load E dec (some data) priv pub ct now).2 = .ok m) :
    (∃ e ∈ catalogue, e.cls = m.cls ∧ e.number = frameType data) ∧ Listed E m.val := by
  obtain ⟨e, he, hc⟩ := entry_exists m.cls
  have ht := entry_table e he
  constructor
  · refine ⟨e, he, hc, ?_⟩
    obtain ⟨_, _, _, c, hct, _, p, version, hp, hver, hv, hparse, _⟩ := load_ok h
    obtain ⟨slots, hl, hcon, _⟩ := parsePayload_ok hparse
    obtain ⟨as, ha, hm⟩ := construct_ok hcon
    have : m.cls = c := by rw [hm]
    rw [← ht.1, hc, this, hct]
  · have hall := everywhere_and (everywhere_and (loaded_message_slots E dec data priv pub ct now m h)
      (loaded_enum_slots E dec data priv pub ct now m h))
      (loaded_containers E dec data priv pub ct now m h)
    have hn := loaded_names E dec data priv pub ct now m h
    have hp := @parts_names E dec data priv pub ct now m h
    obtain ⟨c, ty, ts, enc, sig, attrs⟩ := m
    simp only at hc
    subst hc
    unfold Msg.val at hall ⊢
    cases hall with
    | mk _ _ _ _ _ _ here nested =>
      refine .mk e _ _ _ _ _ he ?_ (fits_of he here) ?_
      · simp only at hn
        by_cases hh : e.cls = .Hello
        · right
          rw [if_pos hh, ht.2.1] at hn
          refine ⟨?_, hn⟩
          rw [← ht.1, hh]; rfl
        · left
          rw [if_neg hh, ht.2.1, List.append_nil] at hn
          exact hn
      · intro f c o l hf x hx
        have hs : (f, (⟨c, o, l⟩ : SlotDef)) ∈ e.cls.msgSlots := by
          simpa [fieldAgrees] using field_table e he _ hf
        exact listed_of (everywhere_and (hp f _ x hs hx) (nested f _ x hs hx))

/-- C65: a frame with another number is refused before anything else is done with it. -/
theorem number_not_listed (E : Env) (dec : Bytes → Bytes → Res Bytes) (data : Bytes)
    (hl : 76 < data.length) (hn : ∀ e ∈ catalogue, e.number ≠ frameType data)
    (priv pub : Option Bytes) (ct : Bool) (now : Int) :
    load E dec (some data) priv pub ct now = ([], .error .headerError) := by
  refine load_header_gate E dec data hl ?_ priv pub ct now
  rintro ⟨_, _, c, hc⟩
  obtain ⟨e, he, rfl⟩ := entry_exists c
  exact hn e he (by rw [← (entry_table e he).1, hc])

/-- C65: a message field that is not optional and is in the payload is not `None` afterwards. -/
theorem not_optional (E : Env) (dec : Bytes → Bytes → Res Bytes) (data : Bytes)
    (priv pub : Option Bytes) (ct : Bool) (now : Int) (m : Msg)
    (h : (load E dec (some data) priv pub ct now).2 = .ok m) (p : Bytes) (ps : List (Val × Val))
    (hp : Payload (loadDecrypt dec priv) data p) (hl : loads p = .ok (wirePairs ps))
    (hk : ∀ q ∈ ps, q.1.hashable = true) (e : Entry) (he : e ∈ catalogue)
    (hc : e.number = frameType data) (f : PStr) (c : Cls) (l : Bool)
    (hf : (f, .message c false l) ∈ e.fields) (hpres : lastValue f ps ≠ none) :
    getAttr m.attrs f ≠ .none := by
  obtain ⟨⟨e', he', hc', hn'⟩, _⟩ := load_follows_catalogue E dec data priv pub ct now m h
  have hcls : e.cls = m.cls := by
    rw [← hc']
    refine typeId_inj ?_
    rw [(entry_table e he).1, (entry_table e' he').1, hc, hn']
  intro hnone
  have hs : (f, (⟨c, false, l⟩ : SlotDef)) ∈ m.cls.msgSlots := by
    rw [← hcls]; simpa [fieldAgrees] using field_table e he _ hf
  have := loaded_present_slot E dec data priv pub ct now m h p ps hp hl hk f _ hs hpres hnone
  cases this

/-- C65: with a sender key, the frames that are listed as signed are only accepted with a
signature of that key; the key makes no difference to the others. -/
theorem signed_as_listed (E : Env) (dec : Bytes → Bytes → Res Bytes) (data key : Bytes)
    (priv : Option Bytes) (ct : Bool) (now : Int) (e : Entry) (he : e ∈ catalogue)
    (hc : e.number = frameType data) (hk : key ≠ []) :
    (e.signed = true → ∀ m, (load E dec (some data) priv (some key) ct now).2 = .ok m →
      ∃ payload hd, Payload (loadDecrypt dec priv) data payload ∧
        dumps (.list [.int e.number, .int (frameTime data)]) = .ok hd ∧
        E.recover (.bytes (frameSig (unversioned data)))
          (E.sha3 (E.sha1 (hd ++ payload) ++ versionBytes data)) = some (4 :: key)) ∧
    (e.signed = false → (load E dec (some data) priv (some key) ct now).2 =
      (load E dec (some data) priv none ct now).2) := by
  have ht := entry_table e he
  constructor
  · intro hs m h
    have hcls : m.cls = e.cls := by
      obtain ⟨⟨e', he', hc', hn'⟩, _⟩ :=
        load_follows_catalogue E dec data priv (some key) ct now m h
      rw [← hc']
      refine typeId_inj ?_
      rw [ht.1, (entry_table e' he').1, hc, hn']
    obtain ⟨_, _, _, _, _, payload, hd, h1, h2, h3⟩ :=
      load_authenticates E dec data key priv ct now m hk h (by rw [hcls, ht.2.2.1, hs])
    exact ⟨payload, hd, h1, by rw [hc]; exact h2, h3⟩
  · intro hs
    by_cases hl : 76 < data.length
    · have hsplit : data = data.take 11 ++ (data.drop 11).take 65 ++ data.drop 76 := by
        have h1 : data.drop 76 = (data.drop 11).drop 65 := by rw [List.drop_drop]
        rw [h1, List.append_assoc, List.take_append_drop, List.take_append_drop]
      have h11 : (data.take 11).length = 11 := by rw [List.length_take]; omega
      have h65 : ((data.drop 11).take 65).length = 65 := by
        rw [List.length_take, List.length_drop]; omega
      have hft : frameType (data.take 11) = e.cls.typeId := by
        rw [ht.1, hc]; unfold frameType; rw [List.take_take]; rfl
      have := unsigned_load E dec _ _ _ (data.drop 76) e.cls h11 h65 h65
        (by rw [ht.2.2.1, hs]) hft priv none (some key) ct now
      rw [← hsplit] at this
      rw [this]
      cases hr : (load E dec (some data) priv none ct now).2 with
      | error x => rfl
      | ok m =>
        obtain ⟨_, _, _, c, hct, _, p, version, hp, hver, hv, hparse, _⟩ := load_ok hr
        obtain ⟨slots, hlo, hcon, _⟩ := parsePayload_ok hparse
        obtain ⟨as, ha, hm⟩ := construct_ok hcon
        have h0 : unversioned data = data := by
          unfold unversioned
          rw [if_neg]
          intro h0
          have : ∀ e ∈ catalogue, e.number = 0 → e.signed = true := by decide +kernel
          rw [this e he (by rw [hc, h0])] at hs
          cases hs
        rw [h0] at hm
        rw [hm]
        rfl
    · rw [load_short E dec (some data) (fun b hb => by cases hb; omega) priv (some key) ct now,
        load_short E dec (some data) (fun b hb => by cases hb; omega) priv none ct now]

private theorem serAttrs_pairs {c : Cls} : ∀ {as : Attrs} {l : List Val}, serAttrs c as = .ok l →
    ∃ ys : Attrs, l = (ys.map fun p => .list [.str p.1, p.2]) ∧
      ys.map Prod.fst = (as.map Prod.fst).filter c.validSlot
  | [], l, h => by unfold serAttrs at h; cases h; exact ⟨[], rfl, rfl⟩
  | (k, v) :: rest, l, h => by
    unfold serAttrs at h
    by_cases hk : c.validSlot k = true
    · rw [if_pos hk] at h
      split at h
      · cases h
      rename_i v' _
      split at h
      · cases h
      rename_i r hr
      cases h
      obtain ⟨ys, rfl, hys⟩ := serAttrs_pairs hr
      exact ⟨(k, v') :: ys, rfl, by simp [hk, hys]⟩
    · rw [if_neg hk] at h
      obtain ⟨ys, rfl, hys⟩ := serAttrs_pairs h
      exact ⟨ys, rfl, by simp [hk, hys]⟩

/-- C65: the frame of a constructed message has the number of the catalogue, is encrypted exactly
if the class is listed as encrypted and a key is given, and its payload is a list of pairs with
the names of the catalogue, in that order. -/
theorem dump_follows_catalogue (E : Env) (G : Getter) (now : Int) (e : Entry) (he : e ∈ catalogue)
    (hdr : Option (Val × Val × Val)) (sig0 slots0 : Val) (des : Bool) (kw : List (PStr × Val))
    (m m' : Msg) (hnew : newMessage E G now e.cls hdr sig0 slots0 des kw = .ok m)
    (encrypt : Bytes → Bytes → Res Bytes) (b : Bytes) (priv pub : Option Bytes)
    (h : dump E encrypt m priv pub = (.ok b, m')) (hsig : ∀ s, m'.sig = .bytes s → s.length = 65) :
    frameType b = e.number ∧
    (frameFlag b = true ↔ e.encrypted = true ∧ ∃ key, pub = some key ∧ key ≠ []) ∧
    ∃ (ys : List (PStr × Val)) (payload : Bytes), ys.map Prod.fst = e.fields.map Prod.fst ∧
      dumps (.list (ys.map fun p => .list [.str p.1, p.2])) = .ok payload ∧
      ((frameFlag b = true ∧ ∃ key, pub = some key ∧ encrypt key payload = .ok (frameBody b)) ∨
        (frameFlag b = false ∧ ∃ v : Bytes, frameBody b = payload ++ v ∧
          v.length = if e.number = 0 then 32 else 0)) := by
  have ht := entry_table e he
  have hcls : m.cls = e.cls := by
    obtain ⟨loaded, as, hl, ha, hc, _, _, hm⟩ := new_ok hnew
    exact hc
  have hnum : m.cls = .Hello ↔ e.number = 0 := by
    rw [hcls, ← ht.1]
    constructor
    · intro h; rw [h]; rfl
    · intro h
      exact typeId_inj h
  have henc : e.encrypted = true ↔ m.cls ≠ .Hello ∧ m.cls ≠ .Disconnect := by
    rw [hcls, ← ht.2.2.2.1]
    cases e.cls <;> simp [Cls.encrypt]
  have hft : frameType b = m.cls.typeId := by
    have h' := h
    unfold dump at h'
    rcases serialize_ok h' with ⟨_, ⟨⟨_, _, hd, sg, body, _, _, hm, hhd, hb, _, _⟩⟩⟩ |
      ⟨_, b0, v, ⟨⟨_, _, hd, sg, body, _, _, hm, hhd, hb0, _, _⟩⟩, _, hb⟩
    · obtain ⟨p1, _⟩ := frame_parts hhd sg body (hsig _ (by rw [hm]))
      rw [← hb] at p1
      exact p1
    · obtain ⟨p1, _⟩ := frame_parts hhd sg (body ++ packPascal (asciiReplace v))
        (hsig _ (by rw [hm]))
      have hb' : b = hd ++ sg ++ (body ++ packPascal (asciiReplace v)) := by
        rw [hb, hb0]; simp
      rw [← hb'] at p1
      exact p1
  obtain ⟨slots, payload, hs, hp, hcase⟩ := encryption_truthful E encrypt m m' b priv pub h hsig
  have hys : ∃ ys : Attrs, slots = .list (ys.map fun p => .list [.str p.1, p.2]) ∧
      ys.map Prod.fst = e.fields.map Prod.fst := by
    unfold Msg.slots at hs
    split at hs
    · cases hs
    rename_i l hl
    cases hs
    obtain ⟨ys, rfl, hn⟩ := serAttrs_pairs hl
    refine ⟨ys, rfl, ?_⟩
    have hself : e.cls.payload.filter e.cls.validSlot = e.cls.payload := by
      rw [List.filter_eq_self]
      intro a ha
      exact List.contains_iff_mem.mpr ha
    have hv : e.cls.validSlot p!"_version" = false := by
      cases hv : e.cls.validSlot p!"_version" with
      | false => rfl
      | true => exact absurd (List.contains_iff_mem.mp hv) (payload_no_version _)
    rw [hn, hcls, ← ht.2.1]
    rcases nothing_else_stored E G now e.cls hdr sig0 slots0 des kw m hnew with h1 | ⟨_, h1⟩
    · rw [h1, hself]
    · rw [h1, List.filter_append, hself]
      simp [hv]
  obtain ⟨ys, rfl, hn⟩ := hys
  refine ⟨by rw [hft, hcls, ht.1], ?_, ys, payload, hn, hp, ?_⟩
  · rcases hcase with ⟨key, h1, h2, h3, h4, h5, _⟩ | ⟨h1, h5, _⟩
    · exact ⟨fun _ => ⟨henc.mpr ⟨h3, h4⟩, key, h1, h2⟩, fun _ => h5⟩
    · rw [h5]
      constructor
      · intro x; cases x
      · rintro ⟨he', key, hk, hne⟩
        obtain ⟨a, b⟩ := henc.mp he'
        rcases h1 with h1 | h1 | h1 | h1
        · rw [h1] at hk; cases hk
        · rw [h1] at hk; cases hk; exact absurd rfl hne
        · exact absurd h1 a
        · exact absurd h1 b
  · rcases hcase with ⟨key, h1, h2, h3, h4, h5, _, h6⟩ | ⟨h1, h5, _, h6⟩
    · exact Or.inl ⟨h5, key, h1, h6⟩
    · right
      refine ⟨h5, ?_⟩
      by_cases hh : m.cls = .Hello
      · rw [if_pos hh] at h6
        obtain ⟨v, hv, h6⟩ := h6
        exact ⟨v, h6, by rw [if_pos (hnum.mp hh), hv]⟩
      · rw [if_neg hh] at h6
        exact ⟨[], by rw [h6, List.append_nil], by rw [if_neg (fun x => hh (hnum.mpr x))]; rfl⟩

/-- C65: in a loaded message whose ownership was verified, every listed task message, at any
depth, is signed by one of the parties listed for it. -/
theorem owners_as_listed (E : Env) (dec : Bytes → Bytes → Res Bytes) (data : Bytes)
    (priv pub : Option Bytes) (ct : Bool) (now : Int) (m : Msg)
    (hl : (load E dec (some data) priv pub ct now).2 = .ok m)
    (provider requestor concent : Option Bytes) (e : Entry) (he : e ∈ catalogue)
    (hm : e.cls = m.cls) (hs : e.senders ≠ [])
    (h : verifyOwners E m provider requestor concent = .ok ()) (w : Msg) (e' : Entry)
    (he' : e' ∈ catalogue) (hw' : e'.cls = w.cls) (hs' : e'.senders ≠ [])
    (hw : Within m.val w.val) :
    ∃ o ∈ e'.senders, ∃ k, PartyKey concent w o k ∧ SignedBy E w w.sig k := by
  have ht := entry_table e he
  have ht' := entry_table e' he'
  have := ownership_sound_loaded E dec data priv pub ct now m hl
    (by rw [← hm]; exact ht.2.2.2.2.2.2.1.mpr hs) provider requestor concent h w hw
    (by rw [← hw']; exact ht'.2.2.2.2.2.2.1.mpr hs')
  obtain ⟨o, ho, k, hk⟩ := this.1
  exact ⟨o, by rw [← ht'.2.2.2.2.1, hw']; exact ho, k, hk⟩

private theorem linked_of_chain {v : Val} {l : List Val} (h : Chain v l) : Linked v l := by
  induction h using Chain.rec (motive_2 := fun attrs names l _ => LinkedFields attrs names l) with
  | ttc ty ts enc sig attrs => exact .ttc _ _ _ _ _
  | @task c ty ts enc sig attrs l ht hne hc ih =>
    obtain ⟨e, he, rfl⟩ := entry_exists c
    have hte := entry_table e he
    rw [hte.2.2.2.2.2.1] at ih
    exact .task _ _ _ _ he (hte.2.2.2.2.2.2.2 ht hne) ih
  | none => exact .none
  | nil => exact .nil _
  | cons _ _ ih1 ih2 => exact .cons ih1 ih2

/-- C65: the task accessors of a loaded task message read the `TaskToCompute` messages reached
through the links of the catalogue: the first value that is not empty. -/
theorem accessors_as_listed (E : Env) (dec : Bytes → Bytes → Res Bytes) (data : Bytes)
    (priv pub : Option Bytes) (ct : Bool) (now : Int) (m : Msg)
    (hl : (load E dec (some data) priv pub ct now).2 = .ok m) (e : Entry) (he : e ∈ catalogue)
    (hm : e.cls = m.cls) (hs : e.senders ≠ []) (hne : m.cls ≠ .TaskToCompute)
    (a : PStr) (ha : a ∈ accessors) :
    ∃ l, Linked m.val l ∧
      taskGet a m.val = ((l.map (ttcField a)).find? holds).getD .none := by
  have hty := loaded_message_slots E dec data priv pub ct now m hl
  obtain ⟨l, hc, h⟩ := accessor_chain_partial a ha m hty
    (by rw [← hm]; exact (entry_table e he).2.2.2.2.2.2.1.mpr hs) hne
  exact ⟨l, linked_of_chain hc, h⟩

/-- A `Disconnect` frame with the reason `timeout`. -/
def disconnectFrame : Bytes :=
  [0, 2, 0, 0, 0, 0, 89, 104, 47, 0, 0] ++ List.replicate 65 0 ++
    [0x81, 0x82, 0x66, 114, 101, 97, 115, 111, 110, 0x67, 116, 105, 109, 101, 111, 117, 116]

/-- The hypotheses are met: the frame is accepted, its field is a choice; number 2005 is free. -/
example : (∃ m, (load toyEnv (fun _ d => .ok d) (some disconnectFrame) none none false 0).2 = .ok m ∧
      getAttr m.attrs p!"reason" = .enum .disconnectReason p!"timeout") ∧
    (∀ e ∈ catalogue, e.number ≠ 2005) := by
  refine ⟨⟨⟨.Disconnect, .int 2, .int 1500000000, .bool false, .bytes (List.replicate 65 0),
    [(p!"reason", .enum .disconnectReason p!"timeout")]⟩, ?_, ?_⟩, ?_⟩ <;> decide +kernel

/-- And a constructed `Disconnect` is dumped, unencrypted although a key is given. -/
example : ∃ m m' b, newMessage toyEnv (fun _ _ _ => .ok .none) 1500000000 .Disconnect none .none .none
      false [(p!"reason", .enum .disconnectReason p!"timeout")] = .ok m ∧
    dump toyEnv (fun _ d => .ok d) m none (some [1]) = (.ok b, m') ∧ b = disconnectFrame ∧
    m'.sig = .bytes (List.replicate 65 0) :=
  ⟨⟨.Disconnect, .int 2, .int 1500000000, .bool false, .none,
      [(p!"reason", .enum .disconnectReason p!"timeout")]⟩, _, _, by decide +kernel, rfl,
    by decide +kernel, by decide +kernel⟩

/-- A signed task message in the catalogue, for the theorems on owners and accessors. -/
example : ∃ e ∈ catalogue, e.cls = .ForceSubtaskResults ∧ e.senders = [.provider, .concent] ∧
    e.links = [p!"ack_report_computed_task"] := by decide +kernel

end Verif.Props
