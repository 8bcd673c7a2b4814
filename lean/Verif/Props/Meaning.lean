import Verif.Lemmas.MeaningSlots
import Verif.Props.Accept
/-!
# C108: what an accepted frame is read as

`Spec.ReadsFrame` says from the protocol description which message a frame that can be read stands for:
its class, its header, and for each field the value the payload gives it, or the default of the class.
-/

namespace Verif.Props

open Verif Spec

/-- What the frame is read as, by the entry of its class. -/
private def As (E : Env) (dec : Bytes → Bytes → Res Bytes) (data : Bytes) (priv : Option Bytes) (e : Entry)
    (m : Msg) : Prop :=
  ∃ payload item rest v attrs, Opened dec priv data payload ∧ payload = item ++ rest ∧ Item item v ∧
    Reads E e.cls v attrs ∧
    m = { cls := e.cls, ty := .int (frameType data), ts := .int (frameTime data),
          enc := .bool (frameFlag data), sig := .bytes (frameSig (unversioned data)),
          attrs := if e.number = 0 then
              attrs ++ [(p!"_version", .str ((fieldVersion (versionField data)).map fun b => Char.ofNat b.toNat))]
            else attrs }

private theorem reads_unique {E : Env} {c : Cls} {v : Val} {as bs : Attrs} (h : Data v) (h1 : Reads E c v as)
    (h2 : Reads E c v bs) : as = bs := by
  have hr : ∀ cls, Declares c cls → ReadsAs E (loadMsg E maxDepth) cls := fun cls _ =>
    reads_as E _ cls (by have := rank_le cls; unfold maxDepth; omega)
  have := ((attrs_reads h hr).mpr h1).symm.trans ((attrs_reads h hr).mpr h2)
  injection this

private theorem as_unique {E : Env} {dec : Bytes → Bytes → Res Bytes} {data : Bytes} {priv : Option Bytes}
    {e e' : Entry} {m m' : Msg} (hc : e.cls = e'.cls) (hn : e.number = e'.number) (h : As E dec data priv e m)
    (h' : As E dec data priv e' m') : m = m' := by
  obtain ⟨p, i, r, v, as, a1, a2, a3, a4, rfl⟩ := h
  obtain ⟨p', i', r', v', as', b1, b2, b3, b4, rfl⟩ := h'
  have hp : p = p' := by
    rw [← frame_opened] at a1 b1
    unfold Payload at a1 b1
    split at a1
    · rename_i hf
      rw [if_pos hf, a1] at b1
      injection b1
    · rename_i hf
      rw [if_neg hf] at b1
      rw [a1, b1]
  subst hp
  have hl := (payload_grammar _ _).mpr ⟨i, r, a2, a3⟩
  have hl' := (payload_grammar _ _).mpr ⟨i', r', b2, b3⟩
  have hv : v = v' := by
    have := hl.symm.trans hl'
    injection this
  subst hv
  rw [← hc] at b4
  rw [reads_unique (loads_data hl) a4 b4, hc, hn]

private theorem base_as {E : Env} {dec : Bytes → Bytes → Res Bytes} {data : Bytes} {priv pub : Option Bytes}
    {ct : Bool} {now : Int} {e : Entry} {m : Msg} (he : e ∈ catalogue)
    (h : FrameBase E dec data priv pub ct now e.cls m) : As E dec data priv e m := by
  have hnum : e.cls = .Hello ↔ e.number = 0 := by
    rw [← (frame_tables e he).1]
    exact ⟨fun h => by rw [h]; rfl, fun h => typeId_inj (by rw [h]; rfl)⟩
  obtain ⟨_, _, _, _, _, hv, payload, hp, hm⟩ := h
  obtain ⟨slots, hl, hcon, _⟩ := parsePayload_ok hm
  obtain ⟨item, rest, e1, e2⟩ := (payload_grammar _ _).mp hl
  obtain ⟨as, ha, rfl⟩ := (construct_reads (loads_data hl)).mp hcon
  refine ⟨payload, item, rest, slots, as, frame_opened.mp hp, e1, e2, ha, ?_⟩
  by_cases h0 : e.cls = .Hello
  · obtain ⟨_, _, _, _, _, hasc, _⟩ := frame_version.mp (hv h0)
    rw [if_pos h0, if_pos (hnum.mp h0), version_ascii_same hasc]
  · rw [if_neg h0, if_neg (fun h => h0 (hnum.mpr h))]

private theorem base_iff_as {E : Env} {dec : Bytes → Bytes → Res Bytes} {data : Bytes} {priv pub : Option Bytes}
    {ct : Bool} {now : Int} {e : Entry} {m : Msg} (he : e ∈ catalogue) :
    FrameBase E dec data priv pub ct now e.cls m ↔
      LegibleFrame E dec data priv pub ct now e ∧ As E dec data priv e m := by
  constructor
  · intro h
    exact ⟨(frame_base he).mp ⟨m, h⟩, base_as he h⟩
  · rintro ⟨h1, h2⟩
    obtain ⟨m', h⟩ := (frame_base he).mpr h1
    rw [as_unique rfl rfl h2 (base_as he h)]
    exact h

/-- C108 (all classes): an accepted message is what the frame reads as. -/
theorem loaded_as_read (E : Env) (dec : Bytes → Bytes → Res Bytes) (data : Bytes) (priv pub : Option Bytes)
    (ct : Bool) (now : Int) (m : Msg) (h : (load E dec (some data) priv pub ct now).2 = .ok m) :
    ReadsFrame E dec data priv pub ct now m := by
  obtain ⟨hl, h1, h2, c, hct, ht, p, version, hp, hver, hv, hparse, hk⟩ := load_ok h
  subst hver
  obtain ⟨e, he, rfl⟩ := listed_cls c
  exact ⟨e, he, (base_iff_as he).mp ⟨hl, h1, h2, hct, ht, hv, p, hp, hparse⟩⟩

/-- C108: the message a frame reads as is accepted, and no other, for every class but the four that check
the message as a whole. -/
theorem load_iff_read (E : Env) (dec : Bytes → Bytes → Res Bytes) (data : Bytes) (priv pub : Option Bytes)
    (ct : Bool) (now : Int) (m : Msg) (h : m.cls ∉ checkedClasses) :
    (load E dec (some data) priv pub ct now).2 = .ok m ↔ ReadsFrame E dec data priv pub ct now m := by
  refine ⟨loaded_as_read E dec data priv pub ct now m, ?_⟩
  rintro ⟨e, he, hf, ha⟩
  have hc : m.cls = e.cls := by
    obtain ⟨_, _, _, _, _, _, _, _, _, rfl⟩ := ha
    rfl
  have hb := (base_iff_as he).mpr ⟨hf, ha⟩
  by_cases hh : e.cls = .Hello
  · rw [hh] at hb
    exact frame_hello hb
  · obtain ⟨hca, _⟩ := (frame_carries hh).mp hb
    rw [load_carries hca]
    exact frame_unchecked h

/-- C108 (the four classes): the message a frame reads as is the one that `load` looks at as a whole. -/
theorem read_iff_carried (E : Env) (dec : Bytes → Bytes → Res Bytes) (data : Bytes) (priv pub : Option Bytes)
    (ct : Bool) (now : Int) (m : Msg) (h : m.cls ∈ checkedClasses) :
    ReadsFrame E dec data priv pub ct now m ↔ Carries E dec data priv pub ct now m := by
  have hne : m.cls ≠ .Hello := by
    intro e
    rw [e] at h
    exact absurd h (by decide)
  constructor
  · rintro ⟨e, he, hf, ha⟩
    have hc : m.cls = e.cls := by
      obtain ⟨_, _, _, _, _, _, _, _, _, rfl⟩ := ha
      rfl
    exact ((frame_carries (by rwa [← hc])).mp ((base_iff_as he).mpr ⟨hf, ha⟩)).1
  · intro hca
    obtain ⟨e, he, hc⟩ := listed_cls m.cls
    exact ⟨e, he, (base_iff_as he).mp ((frame_carries (by rwa [hc])).mpr ⟨hca, hc.symm⟩)⟩

/-- C108: a frame reads as one message at most. -/
theorem read_unique (E : Env) (dec : Bytes → Bytes → Res Bytes) (data : Bytes) (priv pub : Option Bytes)
    (ct : Bool) (now : Int) (m m' : Msg) (h : ReadsFrame E dec data priv pub ct now m)
    (h' : ReadsFrame E dec data priv pub ct now m') : m = m' := by
  obtain ⟨e, he, hf, ha⟩ := h
  obtain ⟨e', he', hf', ha'⟩ := h'
  have hn : e.number = e'.number := by rw [hf.number, hf'.number]
  refine as_unique (typeId_inj ?_) hn ha ha'
  rw [(frame_tables e he).1, (frame_tables e' he').1, hn]

/-- The payload of a `RemoveTask` that gives its field. -/
example (E : Env) : Reads E .RemoveTask (.dict [(.str p!"task_id", .int 7)]) [(p!"task_id", .int 7)] := by
  refine .mk (e := { cls := .RemoveTask, number := 1007, signed := true, encrypted := true, fields := [(p!"task_id", .plain)] })
    (fun _ => .int 7) (by simp [catalogue]) ?_ ?_
  · intro name kind hf h
    simp only [List.mem_cons, Prod.mk.injEq, List.mem_nil_iff, or_false] at hf
    obtain ⟨rfl, rfl⟩ := hf
    rcases h with h | h
    · exact absurd h (by simp [Unread])
    · refine absurd ?_ (h (.int 7))
      rw [← given_iff (by unfold Data; decide)]
      decide
  · intro name kind w hf _ hg
    simp only [List.mem_cons, Prod.mk.injEq, List.mem_nil_iff, or_false] at hf
    obtain ⟨rfl, rfl⟩ := hf
    rw [← given_iff (by unfold Data; decide)] at hg
    have : w = .int 7 := by
      have e : dictGet (.str p!"task_id") (dictOf (.dict [(.str p!"task_id", .int 7)])) = some (.int 7) := by decide
      rw [e] at hg
      injection hg with hg
      exact hg.symm
    subst this
    exact .plain rfl

/-- The `Ping` of C09 reads as a `Ping`. -/
example : ∃ m, m.cls ∉ checkedClasses ∧
    ReadsFrame toyEnv (fun _ _ => .error .decryptionError) pingFrame none none false 0 m :=
  have h : ∃ m, m.cls = .Ping ∧
      (load toyEnv (fun _ _ => .error .decryptionError) (some pingFrame) none none false 0).2 = .ok m := by
    refine ⟨⟨.Ping, .int 1001, .int 1500000000, .bool false, .bytes (frameSig (unversioned pingFrame)), []⟩, rfl, ?_⟩
    decide +kernel
  let ⟨m, hc, hm⟩ := h
  ⟨m, by rw [hc]; decide, loaded_as_read _ _ _ _ _ _ _ m hm⟩

/-- An object is read with the defaults of its kind for what is missing. -/
example : pidsOf (.dict [(.str p!"limit", .int 5)]) =
    .cont .pidStats [(p!"current", .none), (p!"limit", .int 5)] := by decide

end Verif.Props
