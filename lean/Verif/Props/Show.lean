import Verif.Model.Show
import Verif.Model.Construct
import Verif.Props.Errors
import Verif.Lemmas.Arrived
/-! # C80: showing messages -/

namespace Verif.Props

open Verif Spec

private theorem either {p a b : Prop} [Decidable p] (h : if p then a else b) : a ∨ b := by
  by_cases hp : p
  · rw [if_pos hp] at h; exact Or.inl h
  · rw [if_neg hp] at h; exact Or.inr h

private theorem data_members {v : Val} (h : Data v) (x : Msg) : x.val ∉ members v := by
  have hx : ¬ Data x.val := by unfold Data Msg.val data; simp
  cases v with
  | list l => exact fun hm => hx (data_list h _ hm)
  | msg c ty ts enc sig as => intro _; unfold Data data at h; simp at h
  | _ => simp [members]

/-- No field that is not a message slot holds messages. -/
private theorem field_members {E : Env} {c : Cls} {name : PStr} {v : Val} (h : FieldOk E c name v)
    (x : Msg) : x.val ∉ members v := by
  have hn : v = .none → x.val ∉ members v := by rintro rfl; simp [members]
  have hf : ∀ {c : ContId} {Q : PStr → Val → Prop}, Fields c Q v → x.val ∉ members v := by
    rintro c Q ⟨_, rfl, _⟩; simp [members]
  have hl : ∀ {Q : Val → Prop}, (∀ y, Q y → y ≠ x.val) → ListOf Q v → x.val ∉ members v := by
    rintro Q hq ⟨l, rfl, hl⟩ hm
    exact hq _ (hl _ hm) rfl
  have hi : ∀ {i : Int}, v = .int i → x.val ∉ members v := by rintro i rfl; simp [members]
  unfold FieldOk at h
  rcases either h with h | h
  · rcases h with h | h
    · exact data_members h.1 x
    · exact hf h
  rcases either h with h | h
  · exact hl (by rintro y ⟨_, rfl, _⟩ e; cases e) h
  rcases either h with h | h
  · exact hl (by rintro y ⟨_, rfl, _⟩ e; cases e) h
  rcases either h with h | h
  · exact h.elim hn hf
  rcases either h with h | h
  · rcases h with h | ⟨_, e⟩
    · exact hn h
    · exact hi e
  rcases either h with h | h
  · obtain ⟨_, _, e⟩ := h; exact hi e
  rcases either h with h | h
  · obtain ⟨_, rfl, _⟩ := h; simp [members]
  rcases either h with h | h
  · obtain ⟨_, e⟩ := h; exact hi e
  rcases either h with h | h
  · exact h.elim hn hf
  rcases either h with h | h
  · exact hl (by rintro y ⟨_, rfl, _⟩ e; cases e) h
  rcases either h with h | h
  · exact hn h
  split at h
  · rcases h with h | ⟨_, _, rfl⟩
    · exact hn h
    · simp [members]
  · exact data_members h x

private theorem isMsg_cls {c : Cls} {x : Msg} (h : isMsg c x.val = true) : x.cls = c := by
  unfold Msg.val isMsg at h
  simpa using h

private theorem arrived_sits {E : Env} {path : List (PStr × Nat)} {as : Attrs} {x : Msg}
    (hx : Sits path as x) : ∀ {c : Cls}, Arrived E c as → Arrived E x.cls x.attrs := by
  have step : ∀ {as : Attrs} {name : PStr} {i : Nat} {x : Msg} {c : Cls},
      (members (getAttr as name))[i]? = some x.val → Arrived E c as → Arrived E x.cls x.attrs := by
    intro as name i x c hi ha
    cases ha with
    | mk _ _ names fields slots heads nested =>
      have hm := List.mem_of_getElem? hi
      unfold getAttr at hm
      cases hl : lookupName name as with
      | none => rw [hl] at hm; simp [members] at hm
      | some v =>
        rw [hl] at hm
        simp only at hm
        have hin := mem_of_lookupName hl
        cases hs : lookupName name c.msgSlots with
        | none =>
          rcases (fields name v hin hs).1 with h | ⟨rfl, _⟩
          · exact absurd hm (field_members h x)
          · simp [members] at hm
        | some sd =>
          have hcls : x.cls = sd.cls := by
            rcases slots name sd v hin hs with h | ⟨rfl, _⟩
            · unfold SlotOk at h
              split at h
              · obtain ⟨l, rfl, _, hl⟩ := h
                exact isMsg_cls (hl _ hm)
              · rcases h with ⟨rfl, _⟩ | h
                · simp [members] at hm
                · cases v <;> simp [isMsg] at h
                  simp only [members, List.mem_singleton, Msg.val, Val.msg.injEq] at hm
                  rw [hm.1, h]
            · simp [members] at hm
          have := nested name sd v x.ty x.ts x.enc x.sig x.attrs hin hs
          unfold Msg.val at hm
          rw [hcls] at hm ⊢
          exact this hm
  induction hx with
  | here h => exact fun ha => step h ha
  | deeper h _ ih => exact fun ha => ih (step h ha)

/-- Serialising what arrived fails with `FieldError` only. -/
private theorem arrived_fieldError {E : Env} {c : Cls} {as : Attrs} (h : Arrived E c as) :
    ∀ {e : Exc}, serAttrs c as = .error e → e.isFieldError = true := by
  induction h with
  | mk c as names fields slots heads nested ih =>
    intro e he
    refine serAttrs_err (fun k v hm _ e he => ?_) he
    cases hs : lookupName k c.msgSlots with
    | none =>
      rcases (fields k v hm hs).1 with h | ⟨rfl, hman⟩
      · obtain ⟨y, hy, _⟩ := field_wire (rec := loadMsg E 0) h hs
        rw [hy] at he; cases he
      · have hc : (c = .TaskToCompute ∧ (k = p!"compute_task_def" ∨ k = p!"price" ∨ k = p!"size")) ∨
            (c = .FileTransferToken ∧ k = p!"files") := by
          unfold mandatory at hman
          rw [hs] at hman
          simpa using hman
        rcases hc with ⟨rfl, rfl | rfl | rfl⟩ | ⟨rfl, rfl⟩
        · have : serSlot .TaskToCompute p!"compute_task_def" .none = .ok .none := rfl
          rw [this] at he; cases he
        · have : serSlot .TaskToCompute p!"price" .none = .ok .none := rfl
          rw [this] at he; cases he
        · have : serSlot .TaskToCompute p!"size" .none = .ok .none := rfl
          rw [this] at he; cases he
        · have : serSlot .FileTransferToken p!"files" .none = .ok .none := rfl
          rw [this] at he; cases he
    | some sd =>
      refine serSlot_err (fun e' he' => ?_) (fun _ x hx => ?_) he
      · rw [serHook_unhooked c k v (msgSlot_unhooked (msgSlots_lookup.mpr hs))] at he'
        cases he'
      · intro c' ty ts enc sig as' hxe e' he'
        subst hxe
        have hcls : c' = sd.cls := by
          rcases slots k sd v hm hs with h | ⟨rfl, _⟩
          · unfold SlotOk at h
            split at h
            · obtain ⟨l, rfl, _, hl⟩ := h
              simpa [isMsg] using hl _ hx
            · rcases h with ⟨rfl, _⟩ | h
              · simp [members] at hx
              · cases v <;> simp [isMsg] at h
                simp only [members, List.mem_singleton, Val.msg.injEq] at hx
                rw [hx.1, h]
          · simp [members] at hx
        subst hcls
        exact ih k sd v ty ts enc sig as' hm hs hx he'

private theorem sits_version {as : Attrs} {o : Option PStr} {path : List (PStr × Nat)} {x : Msg}
    (h : Sits path (as ++ versionAttr o) x) : Sits path as x := by
  have key : ∀ {name : PStr} {i : Nat} {y : Val},
      (members (getAttr (as ++ versionAttr o) name))[i]? = some y →
      (members (getAttr as name))[i]? = some y := by
    intro name i y hy
    unfold getAttr at hy ⊢
    rw [lookupName_append] at hy
    cases hl : lookupName name as with
    | some v => rw [hl] at hy; exact hy
    | none =>
      rw [hl] at hy
      exfalso
      cases o with
      | none => simp [versionAttr, lookupName, members] at hy
      | some v =>
        by_cases hn : p!"_version" = name
        · subst hn; simp [versionAttr, lookupName, members] at hy
        · simp [versionAttr, lookupName, hn, members] at hy
  cases h with
  | here h => exact .here (key h)
  | deeper h hx => exact .deeper (key h) hx

/-- C80: a loaded message can be shown, and so can every message it carries, whatever the frame. -/
theorem repr_loaded (E : Env) (dec : Bytes → Bytes → Res Bytes) (data : Bytes)
    (priv pub : Option Bytes) (ct : Bool) (now : Int) (m : Msg)
    (h : (load E dec (some data) priv pub ct now).2 = .ok m) :
    (∃ s, m.reprSlots = .ok s) ∧ ∀ path x, Sits path m.attrs x → ∃ s, x.reprSlots = .ok s := by
  constructor
  · unfold Msg.reprSlots
    cases hs : m.slots with
    | ok v => exact ⟨_, rfl⟩
    | error e =>
      have := loaded_slots_errors E dec data priv pub ct now m e h hs
      simp [this]
  · intro path x hx
    obtain ⟨p, slots, as, _, hl, ha, hm⟩ := load_construct h
    rw [hm] at hx
    have harr := arrived_sits (sits_version hx) (arrived_of_load _ (loads_data hl) ha)
    unfold Msg.reprSlots Msg.slots
    cases hs : serAttrs x.cls x.attrs with
    | ok v => exact ⟨_, rfl⟩
    | error e =>
      have := arrived_fieldError harr hs
      simp [this]

/-! Both outcomes occur: an `AckReportComputedTask` without report is shown as unserializable, a
`RandVal` with its slots. -/

private def frame (c : Cls) (slots : Val) : Bytes :=
  ((packHeader c.typeId (.int 1500000000) (.bool false)).toOption.getD [] ++ List.replicate 65 0) ++
    (dumps slots).toOption.getD []

private def shown (data : Bytes) : Res (Option Val) :=
  match (load toyEnv (fun _ d => .ok d) (some data) none none false 0).2 with
  | .ok m => m.reprSlots
  | .error e => .error e

example : shown (frame .AckReportComputedTask (.list [])) = .ok none ∧
    shown (frame .RandVal (.list [.list [.str p!"rand_val", .int 5]])) =
      .ok (some (.list [.list [.str p!"rand_val", .int 5]])) := by
  decide +kernel

/-- C80 does not extend to messages as their makers build them: `Peers(peers=[1])` cannot be shown. -/
theorem repr_unshown_refuted (E : Env) (now : Int) :
    ∃ m, newMessage E (fun _ _ _ => .ok .none) now .Peers none (.bytes []) (.list []) false
        [(p!"peers", .list [.int 1])] = .ok m ∧
      m.reprSlots = .error .attributeError := by
  refine ⟨_, rfl, ?_⟩
  rfl

end Verif.Props
