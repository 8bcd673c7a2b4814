import Verif.Lemmas.Writes
import Verif.Lemmas.Serialize
/-! # Lemmas about the fields of a message as they are sent -/

set_option linter.unusedSimpArgs false

namespace Verif

open Spec

private theorem sentMessage_inv {c : Cls} {v w : Val} (h : SentMessage c v w) :
    ∃ ty ts enc sig attrs l, v = .msg c ty ts enc sig attrs ∧
      w = .tuple [.tuple [ty, ts, enc], sig, .list l] ∧ SentFields c attrs l := by
  cases h with | mk h => exact ⟨_, _, _, _, _, _, rfl, rfl, h⟩

private theorem sentFields_inv {c : Cls} {name : PStr} {v : Val} {rest : Attrs} {l : List Val}
    (h : SentFields c ((name, v) :: rest) l) : ∃ e ∈ catalogue, e.cls = c ∧
      ((name ∉ e.fields.map Prod.fst ∧ SentFields c rest l) ∨
      ∃ kind w l', (name, kind) ∈ e.fields ∧ l = .list [.str name, w] :: l' ∧ SentField c name kind v w ∧
        SentFields c rest l') := by
  cases h with
  | other he hn h => exact ⟨_, he, rfl, .inl ⟨hn, h⟩⟩
  | field he hf h1 h2 => exact ⟨_, he, rfl, .inr ⟨_, _, _, hf, rfl, h1, h2⟩⟩

/-- A field of a kind other than messages. -/
private theorem field_plain {c : Cls} {name : PStr} {kind : Kind} {v w : Val} (hs : ¬ Special c name kind v)
    (hn : ¬ SentSpecially c name kind v w) (hk : ∀ cls o l, kind ≠ .message cls o l) :
    SentField c name kind v w ↔ (∃ e s, v = .enum e s ∧ w = .str s) ∨ ((∀ e s, v ≠ .enum e s) ∧ w = v) := by
  constructor
  · intro h
    cases h with
    | special h => exact absurd h hn
    | member _ => exact .inl ⟨_, _, rfl, rfl⟩
    | absent => exact absurd rfl (hk _ _ _)
    | single => exact absurd rfl (hk _ _ _)
    | several => exact absurd rfl (hk _ _ _)
    | same _ _ h => exact .inr ⟨h, rfl⟩
  · rintro (⟨e, s, rfl, rfl⟩ | ⟨h, rfl⟩)
    · exact .member hs
    · exact .same hs hk h

/-- A field for messages. -/
private theorem field_message {c cls : Cls} {name : PStr} {o li : Bool} {v w : Val}
    (hs : ¬ Special c name (.message cls o li) v) (hn : ¬ SentSpecially c name (.message cls o li) v w) :
    SentField c name (.message cls o li) v w ↔ (∃ e s, v = .enum e s ∧ w = .str s) ∨
      (o = true ∧ v = .none ∧ w = .tuple [.bool false, .none]) ∨
      (∃ x, SentMessage cls v x ∧ w = .tuple [.bool false, x]) ∨
      (∃ l : List (Val × Val), (∀ p ∈ l, SentMessage cls p.1 p.2) ∧ v = .list (l.map (·.1)) ∧
        w = .tuple [.bool true, .list (l.map (·.2))]) := by
  constructor
  · intro h
    generalize hk : Kind.message cls o li = kind at h
    cases h with
    | special h => subst hk; exact absurd h hn
    | member _ => exact .inl ⟨_, _, rfl, rfl⟩
    | absent => injection hk with h1 h2 h3; exact .inr (.inl ⟨h2, rfl, rfl⟩)
    | single h => injection hk with h1 h2 h3; subst h1; exact .inr (.inr (.inl ⟨_, h, rfl⟩))
    | several l h => injection hk with h1 h2 h3; subst h1; exact .inr (.inr (.inr ⟨l, h, rfl, rfl⟩))
    | same _ h _ => exact absurd hk.symm (h _ _ _)
  · rintro (⟨e, s, rfl, rfl⟩ | ⟨rfl, rfl, rfl⟩ | ⟨x, h, rfl⟩ | ⟨l, h, rfl, rfl⟩)
    · exact .member hs
    · exact .absent
    · exact .single h
    · exact .several l h

private theorem special_of {e : Entry} (he : e ∈ catalogue) {name : PStr} {kind : Kind} (hf : (name, kind) ∈ e.fields)
    {v w : Val} (h : SentField e.cls name kind v w) (hs : Special e.cls name kind v) :
    SentSpecially e.cls name kind v w := by
  have message : ∀ {cls o l}, kind = .message cls o l → False := by
    rintro cls o l rfl
    have hp := sent_plain_kind e he _ hf
    dsimp only at hp
    rcases hs with ⟨h, _⟩ | h | h | ⟨h1, h2, _⟩ | ⟨h1, h2, _⟩
    · cases h
    · exact absurd (hp (.inl h)) (by simp)
    · exact absurd (hp (.inr (.inl h))) (by simp)
    · exact absurd (hp (.inr (.inr (.inl ⟨h1, h2⟩)))) (by simp)
    · exact absurd (hp (.inr (.inr (.inr ⟨h1, h2⟩)))) (by simp)
  cases h with
  | special h => exact h
  | member h => exact absurd hs h
  | absent => exact (message rfl).elim
  | single => exact (message rfl).elim
  | several => exact (message rfl).elim
  | same h => exact absurd hs h

/-- The part of `serSlot` that no hook concerns. -/
private theorem slot_split {e : Entry} (he : e ∈ catalogue) {name : PStr} {kind : Kind} (hf : (name, kind) ∈ e.fields)
    {v w : Val} {r : Res Val}
    (hr : serSlot e.cls name v = match serHook e.cls name v with
      | some r => r
      | none => r)
    (h : ∀ (_ : ¬ Special e.cls name kind v) (_ : ¬ SentSpecially e.cls name kind v w),
      r = .ok w ↔ SentField e.cls name kind v w) :
    serSlot e.cls name v = .ok w ↔ SentField e.cls name kind v w := by
  rw [hr]
  cases hh : serHook e.cls name v with
  | none =>
    have hs := (hook_special he hf v).mp hh
    exact h hs (fun h => by
      have := (hook_sent he hf v w).mpr h
      rw [hh] at this
      cases this)
  | some x =>
    have hs : Special e.cls name kind v := Classical.byContradiction fun h => by
      have := (hook_special he hf v).mpr h
      rw [hh] at this
      cases this
    dsimp only
    constructor
    · rintro rfl
      exact .special ((hook_sent he hf v w).mp hh)
    · intro h
      have := (hook_sent he hf v w).mpr (special_of he hf h hs)
      rw [hh] at this
      injection this

/-- A value that is neither a member of an enumeration, `None`, a list or a message. -/
private theorem slot_simple {e : Entry} (he : e ∈ catalogue) {name : PStr} {kind : Kind} (hf : (name, kind) ∈ e.fields)
    {v w : Val} (hv : ∀ en s, v ≠ .enum en s) (hn : v ≠ .none) (hl : ∀ l, v ≠ .list l)
    (hm : ∀ c ty ts enc sig attrs, v ≠ .msg c ty ts enc sig attrs)
    (hr : serSlot e.cls name v = match serHook e.cls name v with
      | some r => r
      | none => match lookupName name e.cls.msgSlots with
        | none => .ok v
        | some _ => .error (.fieldError name)) :
    serSlot e.cls name v = .ok w ↔ SentField e.cls name kind v w := by
  refine slot_split he hf hr fun hs hns => ?_
  rcases sent_message_kind he hf with ⟨sd, h1, rfl⟩ | ⟨h1, h2⟩
  · rw [h1, field_message hs hns]
    refine ⟨fun h => (by cases h), ?_⟩
    rintro (⟨_, _, h, _⟩ | ⟨_, h, _⟩ | ⟨x, h, _⟩ | ⟨l, _, h, _⟩)
    · exact absurd h (hv _ _)
    · exact absurd h hn
    · obtain ⟨_, _, _, _, _, _, h, _⟩ := sentMessage_inv h
      exact absurd h (hm _ _ _ _ _ _)
    · exact absurd h (hl _)
  · rw [h1, field_plain hs hns h2]
    constructor
    · intro h; injection h with h; exact .inr ⟨hv, h.symm⟩
    · rintro (⟨_, _, h, _⟩ | ⟨_, h⟩)
      · exact absurd h (hv _ _)
      · rw [h]

private theorem valid_field {e : Entry} (he : e ∈ catalogue) (name : PStr) :
    e.cls.validSlot name = true ↔ name ∈ e.fields.map Prod.fst := by
  unfold Cls.validSlot
  rw [payload_table e he, List.contains_iff_mem]

private theorem map_inj {α β : Type _} {f : α → β} : ∀ {l : List α}, (l.map f).Nodup → ∀ {x y : α}, x ∈ l → y ∈ l →
    f x = f y → x = y
  | [], _, _, _, h, _, _ => by cases h
  | z :: l, hn, x, y, hx, hy, e => by
    rw [List.map_cons, List.nodup_cons] at hn
    rcases List.mem_cons.mp hx with rfl | hx' <;> rcases List.mem_cons.mp hy with rfl | hy'
    · rfl
    · exact absurd (List.mem_map.mpr ⟨y, hy', e.symm⟩) hn.1
    · exact absurd (List.mem_map.mpr ⟨x, hx', e⟩) hn.1
    · exact map_inj hn.2 hx' hy' e

private theorem catalogue_nodup : (catalogue.map (·.cls)).Nodup := by decide +kernel

private theorem fields_unique {e e' : Entry} (he : e ∈ catalogue) (he' : e' ∈ catalogue) (hc : e'.cls = e.cls) :
    e' = e := map_inj catalogue_nodup he' he hc

private theorem not_sent {v : Val} {rest r : List Val} {c : Cls} (hv : ∀ ty ts enc sig attrs, v ≠ .msg c ty ts enc sig attrs) :
    ¬ ∃ ps : List (Val × Val), v :: rest = ps.map (·.1) ∧ r = ps.map (·.2) ∧ ∀ p ∈ ps, SentMessage c p.1 p.2 := by
  rintro ⟨ps, e, rfl, hp⟩
  cases ps with
  | nil => cases e
  | cons p ps =>
    simp only [List.map_cons, List.cons.injEq] at e
    obtain ⟨_, _, _, _, _, _, h, _⟩ := sentMessage_inv (hp p (by simp))
    exact hv _ _ _ _ _ (e.1.trans h)

private theorem kind_unique {e : Entry} (he : e ∈ catalogue) {name : PStr} {k k' : Kind} (h : (name, k) ∈ e.fields)
    (h' : (name, k') ∈ e.fields) : k = k' :=
  (slotKind_table e he _ h).trans (slotKind_table e he _ h').symm

mutual
private theorem attrs_sent : ∀ (as : Attrs) (c : Cls) (l : List Val), serAttrs c as = .ok l ↔ SentFields c as l
  | [], c, l => by
    unfold serAttrs
    constructor
    · intro h; injection h with h; subst h; exact .nil
    · intro h; cases h; rfl
  | (k, v) :: rest, c, l => by
    obtain ⟨e, he, rfl⟩ := listed_cls c
    unfold serAttrs
    by_cases hk : e.cls.validSlot k = true
    · rw [if_pos hk]
      have hm := (valid_field he k).mp hk
      obtain ⟨⟨k', kind⟩, hf, rfl⟩ := List.mem_map.mp hm
      constructor
      · intro h
        cases h1 : serSlot e.cls k' v with
        | error _ => simp only [h1] at h; cases h
        | ok w =>
          simp only [h1] at h
          cases h2 : serAttrs e.cls rest with
          | error _ => simp only [h2] at h; cases h
          | ok r =>
            simp only [h2] at h
            injection h with h
            subst h
            exact .field he hf ((slot_sent v e he k' kind hf w).mp h1) ((attrs_sent rest e.cls r).mp h2)
      · intro h
        obtain ⟨e', he', hc, h⟩ := sentFields_inv h
        have := fields_unique he he' hc
        subst this
        rcases h with ⟨hn, _⟩ | ⟨kind', w, l', hf', rfl, h1, h2⟩
        · exact absurd hm hn
        · have := kind_unique he' hf hf'
          subst this
          rw [(slot_sent v e' he' k' kind hf w).mpr h1]
          dsimp only
          rw [(attrs_sent rest e'.cls l').mpr h2]
    · rw [if_neg hk]
      have hm : k ∉ e.fields.map Prod.fst := fun h => hk ((valid_field he k).mpr h)
      constructor
      · intro h
        exact .other he hm ((attrs_sent rest e.cls l).mp h)
      · intro h
        obtain ⟨e', he', hc, h⟩ := sentFields_inv h
        have := fields_unique he he' hc
        subst this
        rcases h with ⟨hn, h⟩ | ⟨kind', w, l', hf', rfl, h1, h2⟩
        · exact (attrs_sent rest e'.cls l).mpr h
        · exact absurd (List.mem_map.mpr ⟨_, hf', rfl⟩) hm
private theorem slot_sent : ∀ (v : Val) (e : Entry) (_ : e ∈ catalogue) (name : PStr) (kind : Kind)
    (_ : (name, kind) ∈ e.fields) (w : Val), serSlot e.cls name v = .ok w ↔ SentField e.cls name kind v w
  | .enum en s, e, he, name, kind, hf, w => by
    refine slot_split he hf (r := .ok (.str s)) (by unfold serSlot; rfl) fun hs hns => ?_
    rw [Except.ok.injEq]
    rcases sent_message_kind he hf with ⟨sd, h1, rfl⟩ | ⟨h1, h2⟩
    · rw [field_message hs hns]
      constructor
      · intro h; exact .inl ⟨en, s, rfl, h.symm⟩
      · rintro (⟨_, _, h, rfl⟩ | ⟨_, h, _⟩ | ⟨x, h, _⟩ | ⟨l, _, h, _⟩)
        · injection h with _ h; rw [h]
        · cases h
        · obtain ⟨_, _, _, _, _, _, h, _⟩ := sentMessage_inv h; cases h
        · cases h
    · rw [field_plain hs hns h2]
      constructor
      · intro h; exact .inl ⟨en, s, rfl, h.symm⟩
      · rintro (⟨_, _, h, rfl⟩ | ⟨h, _⟩)
        · injection h with _ h; rw [h]
        · exact absurd rfl (h _ _)
  | .none, e, he, name, kind, hf, w => by
    refine slot_split he hf (r := match lookupName name e.cls.msgSlots with
      | none => .ok .none
      | some sd => if sd.allowNone then .ok (.tuple [.bool false, .none]) else .error (.fieldError name))
      (by unfold serSlot; rfl) fun hs hns => ?_
    rcases sent_message_kind he hf with ⟨sd, h1, rfl⟩ | ⟨h1, h2⟩
    · rw [h1, field_message hs hns]
      dsimp only
      by_cases ha : sd.allowNone = true
      · rw [if_pos ha, Except.ok.injEq]
        constructor
        · rintro rfl
          exact .inr (.inl ⟨ha, rfl, rfl⟩)
        · rintro (⟨_, _, h, _⟩ | ⟨_, _, h⟩ | ⟨x, h, _⟩ | ⟨l, _, h, _⟩)
          · cases h
          · exact h.symm
          · obtain ⟨_, _, _, _, _, _, h, _⟩ := sentMessage_inv h; cases h
          · cases h
      · rw [if_neg ha]
        refine ⟨fun h => (by cases h), ?_⟩
        rintro (⟨_, _, h, _⟩ | ⟨h, _⟩ | ⟨x, h, _⟩ | ⟨l, _, h, _⟩)
        · cases h
        · exact absurd h ha
        · obtain ⟨_, _, _, _, _, _, h, _⟩ := sentMessage_inv h; cases h
        · cases h
    · rw [h1, field_plain hs hns h2, Except.ok.injEq]
      constructor
      · intro h; exact .inr ⟨by simp, h.symm⟩
      · rintro (⟨_, _, h, _⟩ | ⟨_, h⟩)
        · cases h
        · exact h.symm
  | .list l, e, he, name, kind, hf, w => by
    refine slot_split he hf (r := match lookupName name e.cls.msgSlots with
      | none => .ok (.list l)
      | some sd => match serMsgs sd.cls name l with
        | .error e => .error e
        | .ok r => .ok (.tuple [.bool true, .list r]))
      (by unfold serSlot; rfl) fun hs hns => ?_
    rcases sent_message_kind he hf with ⟨sd, h1, rfl⟩ | ⟨h1, h2⟩
    · rw [h1, field_message hs hns]
      dsimp only
      constructor
      · intro h
        cases hm : serMsgs sd.cls name l with
        | error _ => rw [hm] at h; cases h
        | ok r =>
          rw [hm] at h
          injection h with h
          subst h
          obtain ⟨ps, e1, e2, hp⟩ := (msgs_sent l sd.cls name r).mp hm
          exact .inr (.inr (.inr ⟨ps, hp, by rw [e1], by rw [e2]⟩))
      · rintro (⟨_, _, h, _⟩ | ⟨_, h, _⟩ | ⟨x, h, _⟩ | ⟨ps, hp, h, rfl⟩)
        · cases h
        · cases h
        · obtain ⟨_, _, _, _, _, _, h, _⟩ := sentMessage_inv h; cases h
        · injection h with h
          rw [(msgs_sent l sd.cls name _).mpr ⟨ps, h, rfl, hp⟩]
    · rw [h1, field_plain hs hns h2, Except.ok.injEq]
      constructor
      · intro h; exact .inr ⟨by simp, h.symm⟩
      · rintro (⟨_, _, h, _⟩ | ⟨_, h⟩)
        · cases h
        · exact h.symm
  | .msg c' ty ts enc sig attrs, e, he, name, kind, hf, w => by
    refine slot_split he hf (r := match lookupName name e.cls.msgSlots with
      | none => .ok (.msg c' ty ts enc sig attrs)
      | some sd =>
        if c' = sd.cls then
          match serAttrs c' attrs with
          | .error e => .error e
          | .ok s => .ok (.tuple [.bool false, .tuple [.tuple [ty, ts, enc], sig, .list s]])
        else .error (.fieldError name))
      (by unfold serSlot; rfl) fun hs hns => ?_
    rcases sent_message_kind he hf with ⟨sd, h1, rfl⟩ | ⟨h1, h2⟩
    · rw [h1, field_message hs hns]
      dsimp only
      by_cases hc : c' = sd.cls
      · rw [if_pos hc]
        constructor
        · intro h
          cases hm : serAttrs c' attrs with
          | error _ => rw [hm] at h; cases h
          | ok r =>
            rw [hm] at h
            injection h with h
            subst h
            rw [← hc]
            exact .inr (.inr (.inl ⟨_, .mk ((attrs_sent attrs c' r).mp hm), rfl⟩))
        · rintro (⟨_, _, h, _⟩ | ⟨_, h, _⟩ | ⟨x, h, rfl⟩ | ⟨ps, hp, h, rfl⟩)
          · cases h
          · cases h
          · obtain ⟨_, _, _, _, _, r, hv, rfl, hr⟩ := sentMessage_inv h
            injection hv with a1 a2 a3 a4 a5 a6
            subst a2 a3 a4 a5 a6
            rw [hc, (attrs_sent attrs sd.cls r).mpr hr]
          · cases h
      · rw [if_neg hc]
        refine ⟨fun h => (by cases h), ?_⟩
        rintro (⟨_, _, h, _⟩ | ⟨_, h, _⟩ | ⟨x, h, rfl⟩ | ⟨ps, hp, h, rfl⟩)
        · cases h
        · cases h
        · obtain ⟨_, _, _, _, _, r, hv, rfl, hr⟩ := sentMessage_inv h
          injection hv with hv
          exact absurd hv hc
        · cases h
    · rw [h1, field_plain hs hns h2, Except.ok.injEq]
      constructor
      · intro h; exact .inr ⟨by simp, h.symm⟩
      · rintro (⟨_, _, h, _⟩ | ⟨_, h⟩)
        · cases h
        · exact h.symm
  | .bool _, e, he, name, kind, hf, w => slot_simple he hf (by simp) (by simp) (by simp) (by simp) (by unfold serSlot; rfl)
  | .int _, e, he, name, kind, hf, w => slot_simple he hf (by simp) (by simp) (by simp) (by simp) (by unfold serSlot; rfl)
  | .float _, e, he, name, kind, hf, w => slot_simple he hf (by simp) (by simp) (by simp) (by simp) (by unfold serSlot; rfl)
  | .str _, e, he, name, kind, hf, w => slot_simple he hf (by simp) (by simp) (by simp) (by simp) (by unfold serSlot; rfl)
  | .bytes _, e, he, name, kind, hf, w => slot_simple he hf (by simp) (by simp) (by simp) (by simp) (by unfold serSlot; rfl)
  | .tuple _, e, he, name, kind, hf, w => slot_simple he hf (by simp) (by simp) (by simp) (by simp) (by unfold serSlot; rfl)
  | .dict _, e, he, name, kind, hf, w => slot_simple he hf (by simp) (by simp) (by simp) (by simp) (by unfold serSlot; rfl)
  | .tag _ _, e, he, name, kind, hf, w => slot_simple he hf (by simp) (by simp) (by simp) (by simp) (by unfold serSlot; rfl)
  | .cont _ _, e, he, name, kind, hf, w => slot_simple he hf (by simp) (by simp) (by simp) (by simp) (by unfold serSlot; rfl)
  | .fdict _ _, e, he, name, kind, hf, w => slot_simple he hf (by simp) (by simp) (by simp) (by simp) (by unfold serSlot; rfl)
  | .mask _, e, he, name, kind, hf, w => slot_simple he hf (by simp) (by simp) (by simp) (by simp) (by unfold serSlot; rfl)
private theorem msgs_sent : ∀ (l : List Val) (c : Cls) (name : PStr) (r : List Val), serMsgs c name l = .ok r ↔
    ∃ ps : List (Val × Val), l = ps.map (·.1) ∧ r = ps.map (·.2) ∧ ∀ p ∈ ps, SentMessage c p.1 p.2
  | [], c, name, r => by
    unfold serMsgs
    constructor
    · intro h; injection h with h; subst h; exact ⟨[], rfl, rfl, fun _ h => (by cases h)⟩
    · rintro ⟨ps, e, rfl, _⟩
      cases ps with
      | nil => rfl
      | cons => cases e
  | v :: rest, c, name, r => by
    match v with
    | .msg c' ty ts enc sig attrs =>
      unfold serMsgs
      by_cases hc : c' = c
      · rw [if_pos hc]
        subst hc
        constructor
        · intro h
          cases hm : serAttrs c' attrs with
          | error _ => rw [hm] at h; cases h
          | ok s =>
            rw [hm] at h
            cases hr : serMsgs c' name rest with
            | error _ => simp only [hr] at h; cases h
            | ok r' =>
              simp only [hr] at h
              injection h with h
              subst h
              obtain ⟨ps, rfl, rfl, hp⟩ := (msgs_sent rest c' name r').mp hr
              refine ⟨(_, _) :: ps, rfl, rfl, fun p h => ?_⟩
              rcases List.mem_cons.mp h with rfl | h
              · exact .mk ((attrs_sent attrs c' s).mp hm)
              · exact hp p h
        · rintro ⟨ps, e, rfl, hp⟩
          cases ps with
          | nil => cases e
          | cons p ps =>
            simp only [List.map_cons, List.cons.injEq] at e
            obtain ⟨_, _, _, _, _, s, h, hw, hs⟩ := sentMessage_inv (hp p (by simp))
            have h' := e.1.trans h
            injection h' with a1 a2 a3 a4 a5 a6
            subst a2 a3 a4 a5 a6
            rw [(attrs_sent attrs c' s).mpr hs]
            dsimp only
            rw [(msgs_sent rest c' name _).mpr ⟨ps, e.2, rfl, fun q hq => hp q (List.mem_cons_of_mem _ hq)⟩]
            dsimp only
            rw [List.map_cons, hw]
      · rw [if_neg hc]
        exact ⟨fun h => (by cases h), fun h => absurd h (not_sent (by
          intro _ _ _ _ _ h; injection h with h; exact hc h))⟩
    | .none => unfold serMsgs; exact ⟨fun h => (by cases h), fun h => absurd h (not_sent (by simp))⟩
    | .bool _ => unfold serMsgs; exact ⟨fun h => (by cases h), fun h => absurd h (not_sent (by simp))⟩
    | .int _ => unfold serMsgs; exact ⟨fun h => (by cases h), fun h => absurd h (not_sent (by simp))⟩
    | .float _ => unfold serMsgs; exact ⟨fun h => (by cases h), fun h => absurd h (not_sent (by simp))⟩
    | .str _ => unfold serMsgs; exact ⟨fun h => (by cases h), fun h => absurd h (not_sent (by simp))⟩
    | .bytes _ => unfold serMsgs; exact ⟨fun h => (by cases h), fun h => absurd h (not_sent (by simp))⟩
    | .list _ => unfold serMsgs; exact ⟨fun h => (by cases h), fun h => absurd h (not_sent (by simp))⟩
    | .tuple _ => unfold serMsgs; exact ⟨fun h => (by cases h), fun h => absurd h (not_sent (by simp))⟩
    | .dict _ => unfold serMsgs; exact ⟨fun h => (by cases h), fun h => absurd h (not_sent (by simp))⟩
    | .tag _ _ => unfold serMsgs; exact ⟨fun h => (by cases h), fun h => absurd h (not_sent (by simp))⟩
    | .enum _ _ => unfold serMsgs; exact ⟨fun h => (by cases h), fun h => absurd h (not_sent (by simp))⟩
    | .cont _ _ => unfold serMsgs; exact ⟨fun h => (by cases h), fun h => absurd h (not_sent (by simp))⟩
    | .fdict _ _ => unfold serMsgs; exact ⟨fun h => (by cases h), fun h => absurd h (not_sent (by simp))⟩
    | .mask _ => unfold serMsgs; exact ⟨fun h => (by cases h), fun h => absurd h (not_sent (by simp))⟩
end

theorem fields_sent {c : Cls} {as : Attrs} {l : List Val} : serAttrs c as = .ok l ↔ SentFields c as l :=
  attrs_sent as c l

theorem field_sent {e : Entry} (he : e ∈ catalogue) {name : PStr} {kind : Kind} (hf : (name, kind) ∈ e.fields)
    {v w : Val} : serSlot e.cls name v = .ok w ↔ SentField e.cls name kind v w := slot_sent v e he name kind hf w

theorem messages_sent {c : Cls} {name : PStr} {l r : List Val} : serMsgs c name l = .ok r ↔
    ∃ ps : List (Val × Val), l = ps.map (·.1) ∧ r = ps.map (·.2) ∧ ∀ p ∈ ps, SentMessage c p.1 p.2 :=
  msgs_sent l c name r

theorem sent_entry_unique {e e' : Entry} (he : e ∈ catalogue) (he' : e' ∈ catalogue) (hc : e'.cls = e.cls) :
    e' = e := fields_unique he he' hc

theorem sent_kind_unique {e : Entry} (he : e ∈ catalogue) {name : PStr} {k k' : Kind} (h : (name, k) ∈ e.fields)
    (h' : (name, k') ∈ e.fields) : k = k' := kind_unique he h h'

theorem sent_valid {e : Entry} (he : e ∈ catalogue) (name : PStr) :
    e.cls.validSlot name = true ↔ name ∈ e.fields.map Prod.fst := valid_field he name

theorem slots_sent {m : Msg} {s : Val} : m.slots = .ok s ↔ ∃ l, s = .list l ∧ SentFields m.cls m.attrs l := by
  unfold Msg.slots
  constructor
  · intro h
    cases hs : serAttrs m.cls m.attrs with
    | error _ => rw [hs] at h; cases h
    | ok l => rw [hs] at h; injection h with h; exact ⟨l, h.symm, (attrs_sent _ _ _).mp hs⟩
  · rintro ⟨l, rfl, h⟩
    rw [(attrs_sent _ _ _).mpr h]

end Verif
