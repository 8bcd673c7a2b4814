import Verif.Lemmas.Unsent
/-! # Why messages cannot be sent: fields -/

set_option linter.unusedSimpArgs false

namespace Verif

open Spec

private theorem peers_fault {l : List Val} {x : Exc} : mapRes serPeer l = .error x ↔
    FirstFault (fun p => ∃ w, PeerSent p w) PeerUnsent l x :=
  first_fault (fun _ => ⟨fun ⟨w, h⟩ => ⟨w, peer_sent.mpr h⟩, fun ⟨w, h⟩ => ⟨w, peer_sent.mp h⟩⟩)
    (fun _ _ => peer_unsent) l x

private theorem tasks_fault {l : List Val} {x : Exc} : mapRes toDict l = .error x ↔
    FirstFault (fun p => ∃ w, Described p w) Indescribable l x :=
  first_fault (fun _ => ⟨fun ⟨w, h⟩ => ⟨w, described_iff.mpr h⟩, fun ⟨w, h⟩ => ⟨w, described_iff.mp h⟩⟩)
    (fun _ _ => indescribable_iff) l x

private theorem indescribable_object {c : ContId} {fs : Attrs} {x : Exc} :
    Indescribable (.cont c fs) x ↔ NumberMask (.cont c fs) ∧ x = .typeError := by
  constructor
  · intro h
    cases h with
    | stranger h => exact absurd rfl (h _ _)
    | mask h => exact ⟨h, rfl⟩
  · rintro ⟨h, rfl⟩; exact .mask h

theorem hook_unsent {e : Entry} (he : e ∈ catalogue) {name : PStr} {kind : Kind} (hf : (name, kind) ∈ e.fields)
    (v : Val) (x : Exc) : serHook e.cls name v = some (.error x) ↔ UnsentSpecially e.cls name kind v x := by
  have hk := sent_kind_node he hf
  have hp := sent_plain_kind e he _ hf
  dsimp only at hp
  generalize e.cls = c at hk hp ⊢
  unfold serHook
  by_cases h1 : (c.nodeSlots.contains name && v.truthy) = true
  · rw [if_pos h1]
    rw [Bool.and_eq_true] at h1
    have hkn := hk.mp h1.1
    subst hkn
    constructor
    · intro h
      cases hd : toDict v with
      | ok d => rw [hd] at h; simp at h
      | error y =>
        rw [hd] at h
        have hi := indescribable_iff.mp hd
        have : x = .fieldError name := by
          cases hi <;> simp at h <;> exact h.symm
        subst this
        exact .node (by rw [holds_eq]; exact h1.2) hi
    · intro h
      cases h with
      | node _ h => rw [indescribable_iff.mpr h]; cases h <;> rfl
      | nopeers => exact absurd (hp (.inl ⟨rfl, rfl⟩)) (by simp)
      | peers => exact absurd (hp (.inl ⟨rfl, rfl⟩)) (by simp)
      | notasks => exact absurd (hp (.inr (.inl ⟨rfl, rfl⟩))) (by simp)
      | tasks => exact absurd (hp (.inr (.inl ⟨rfl, rfl⟩))) (by simp)
      | header => exact absurd (hp (.inr (.inr (.inl ⟨rfl, rfl⟩)))) (by simp)
      | stats => exact absurd (hp (.inr (.inr (.inr ⟨rfl, rfl⟩)))) (by simp)
  rw [if_neg h1]
  have h1' : holds v = true → kind ≠ .node := by
    rintro a rfl
    rw [holds_eq] at a
    exact h1 (by rw [Bool.and_eq_true]; exact ⟨hk.mpr rfl, a⟩)
  by_cases h2 : c = .Peers ∧ name = p!"peers"
  · rw [if_pos h2]
    obtain ⟨rfl, rfl⟩ := h2
    constructor
    · intro h
      cases hi : v.iter with
      | none =>
        rw [hi] at h
        simp only [Option.some.injEq, Except.error.injEq] at h
        subst h
        exact .nopeers fun l hl => by rw [← items_iff, hi] at hl; cases hl
      | some l =>
        rw [hi] at h
        cases hm : mapRes serPeer l with
        | ok _ => simp only [hm] at h; simp at h
        | error r =>
          simp only [hm, Option.some.injEq, Except.error.injEq] at h
          subst h
          exact .peers (items_iff.mp hi) (peers_fault.mp hm)
    · intro h
      cases h with
      | node a b => exact (h1' a rfl).elim
      | nopeers h =>
        cases hi : v.iter with
        | none => rfl
        | some l => exact absurd (items_iff.mp hi) (h l)
      | peers hi hl =>
        rw [items_iff.mpr hi]
        dsimp only
        rw [peers_fault.mpr hl]
  rw [if_neg h2]
  by_cases h3 : c = .Tasks ∧ name = p!"tasks"
  · rw [if_pos h3]
    obtain ⟨rfl, rfl⟩ := h3
    constructor
    · intro h
      split at h
      · rename_i l
        cases hm : mapRes toDict l with
        | ok _ => simp only [hm] at h; simp at h
        | error r =>
          simp only [hm, Option.some.injEq, Except.error.injEq] at h
          subst h
          exact .tasks (tasks_fault.mp hm)
      · rename_i hn
        simp only [Option.some.injEq, Except.error.injEq] at h
        subst h
        exact .notasks fun l e => hn l e
    · intro h
      cases h with
      | node a b => exact (h1' a rfl).elim
      | notasks h =>
        split
        · exact absurd rfl (h _)
        · rfl
      | tasks hl =>
        dsimp only
        rw [tasks_fault.mpr hl]
  rw [if_neg h3]
  by_cases h4 : c = .WantToComputeTask ∧ name = p!"task_header"
  · rw [if_pos h4]
    obtain ⟨rfl, rfl⟩ := h4
    constructor
    · intro h
      split at h
      · injection h with h
        obtain ⟨a, rfl⟩ := indescribable_object.mp (indescribable_iff.mp h)
        exact .header a
      · cases h
    · intro h
      cases h with
      | node a b => exact (h1' a rfl).elim
      | header h => dsimp only; rw [indescribable_iff.mpr (.mask h)]
  rw [if_neg h4]
  by_cases h5 : c = .ReportComputedTask ∧ name = p!"stats"
  · rw [if_pos h5]
    obtain ⟨rfl, rfl⟩ := h5
    constructor
    · intro h
      split at h
      · injection h with h
        obtain ⟨a, rfl⟩ := indescribable_object.mp (indescribable_iff.mp h)
        exact .stats a
      · cases h
    · intro h
      cases h with
      | node a b => exact (h1' a rfl).elim
      | stats h => dsimp only; rw [indescribable_iff.mpr (.mask h)]
  rw [if_neg h5]
  refine ⟨fun h => (by cases h), fun h => ?_⟩
  cases h with
  | node a b => exact (h1' a rfl).elim
  | nopeers => exact absurd ⟨rfl, rfl⟩ h2
  | peers => exact absurd ⟨rfl, rfl⟩ h2
  | notasks => exact absurd ⟨rfl, rfl⟩ h3
  | tasks => exact absurd ⟨rfl, rfl⟩ h3
  | header => exact absurd ⟨rfl, rfl⟩ h4
  | stats => exact absurd ⟨rfl, rfl⟩ h5

/-! ### Inversions -/

/-- An element of a list of messages cannot be sent. -/
private def Elem (cls : Cls) (name : PStr) (v : Val) (x : Exc) : Prop :=
  (NoMessage cls v ∧ x = .fieldError name) ∨
  ∃ ty ts enc sig attrs, v = .msg cls ty ts enc sig attrs ∧ UnsentFields cls attrs x

private def Elems (cls : Cls) (name : PStr) (l : List Val) (x : Exc) : Prop :=
  FirstFault (fun y => ∃ w, SentMessage cls y w) (Elem cls name) l x

private theorem unsent_inv {c : Cls} {name : PStr} {kind : Kind} {v : Val} {x : Exc}
    (hn : ¬ UnsentSpecially c name kind v x) : UnsentField c name kind v x ↔
    ∃ cls o li, kind = .message cls o li ∧
      ((o = false ∧ v = .none ∧ x = .fieldError name) ∨
      (v ≠ .none ∧ (∀ e s, v ≠ .enum e s) ∧ (∀ l, v ≠ .list l) ∧ Elem cls name v x) ∨
      ∃ l, v = .list l ∧ Elems cls name l x) := by
  constructor
  · intro h
    cases h with
    | special h => exact absurd h hn
    | missing => exact ⟨_, _, _, rfl, .inl ⟨rfl, rfl, rfl⟩⟩
    | stranger a b c d => exact ⟨_, _, _, rfl, .inr (.inl ⟨a, b, c, .inl ⟨d, rfl⟩⟩)⟩
    | inside h =>
      exact ⟨_, _, _, rfl, .inr (.inl ⟨by simp, by simp, by simp, .inr ⟨_, _, _, _, _, rfl, h⟩⟩)⟩
    | strangers a b => exact ⟨_, _, _, rfl, .inr (.inr ⟨_, rfl, _, _, _, rfl, a, .inl ⟨b, rfl⟩⟩)⟩
    | among a b => exact ⟨_, _, _, rfl, .inr (.inr ⟨_, rfl, _, _, _, rfl, a, .inr ⟨_, _, _, _, _, rfl, b⟩⟩)⟩
  · rintro ⟨cls, o, li, rfl, ⟨rfl, rfl, rfl⟩ | ⟨a, b, d, ⟨f, rfl⟩ | ⟨_, _, _, _, _, rfl, h⟩⟩ |
      ⟨_, rfl, b, y, a, rfl, hb, ⟨f, rfl⟩ | ⟨_, _, _, _, _, rfl, h⟩⟩⟩
    · exact .missing
    · exact .stranger a b d f
    · exact .inside h
    · exact .strangers hb f
    · exact .among hb h

private theorem unsentFields_inv {c : Cls} {as : Attrs} {x : Exc} : UnsentFields c as x ↔
    ∃ e ∈ catalogue, e.cls = c ∧ ∃ name kind v before after l, as = before ++ (name, v) :: after ∧
      SentFields c before l ∧ (name, kind) ∈ e.fields ∧ UnsentField c name kind v x := by
  constructor
  · intro h
    cases h with
    | mk he a b d => exact ⟨_, he, rfl, _, _, _, _, _, _, rfl, a, b, d⟩
  · rintro ⟨e, he, rfl, name, kind, v, b, a, l, rfl, h1, h2, h3⟩
    exact .mk he h1 h2 h3

private theorem message_inv {c : Cls} {v w : Val} (h : SentMessage c v w) :
    ∃ ty ts enc sig attrs l, v = .msg c ty ts enc sig attrs ∧ SentFields c attrs l := by
  cases h with | mk h => exact ⟨_, _, _, _, _, _, rfl, h⟩

private theorem sent_tail {c : Cls} {p : PStr × Val} {rest : Attrs} {l : List Val} (h : SentFields c (p :: rest) l) :
    ∃ l', SentFields c rest l' := by
  obtain ⟨name, v⟩ := p
  cases h with
  | other _ _ h => exact ⟨_, h⟩
  | field _ _ _ h => exact ⟨_, h⟩

private theorem slot_unsent_split {e : Entry} (he : e ∈ catalogue) {name : PStr} {kind : Kind}
    (hf : (name, kind) ∈ e.fields) {v : Val} {x : Exc} {r : Res Val}
    (hr : serSlot e.cls name v = match serHook e.cls name v with
      | some r => r
      | none => r)
    (h : ∀ (_ : ¬ UnsentSpecially e.cls name kind v x), r = .error x ↔ UnsentField e.cls name kind v x) :
    serSlot e.cls name v = .error x ↔ UnsentField e.cls name kind v x := by
  rw [hr]
  cases hh : serHook e.cls name v with
  | none =>
    exact h (fun h => by
      have := (hook_unsent he hf v x).mpr h
      rw [hh] at this
      cases this)
  | some y =>
    have hs : Special e.cls name kind v := Classical.byContradiction fun h => by
      have := (hook_special he hf v).mpr h
      rw [hh] at this
      cases this
    dsimp only
    constructor
    · rintro rfl
      exact .special ((hook_unsent he hf v x).mp hh)
    · intro h
      refine Classical.byContradiction fun hy => ?_
      have hns : ¬ UnsentSpecially e.cls name kind v x := fun h => by
        have := (hook_unsent he hf v x).mpr h
        rw [hh] at this
        injection this with this
        exact hy this
      obtain ⟨cls, o, li, rfl, _⟩ := (unsent_inv hns).mp h
      have hpk := sent_plain_kind e he _ hf
      rcases hs with ⟨h, _⟩ | h | h | ⟨a, b, _⟩ | ⟨a, b, _⟩
      · cases h
      · exact absurd (hpk (.inl h)) (by simp)
      · exact absurd (hpk (.inr (.inl h))) (by simp)
      · exact absurd (hpk (.inr (.inr (.inl ⟨a, b⟩)))) (by simp)
      · exact absurd (hpk (.inr (.inr (.inr ⟨a, b⟩)))) (by simp)

private theorem slot_unsent_simple {e : Entry} (he : e ∈ catalogue) {name : PStr} {kind : Kind}
    (hf : (name, kind) ∈ e.fields) {v : Val} {x : Exc} (hv : ∀ en s, v ≠ .enum en s) (hn : v ≠ .none)
    (hl : ∀ l, v ≠ .list l) (hm : ∀ c, NoMessage c v)
    (hr : serSlot e.cls name v = match serHook e.cls name v with
      | some r => r
      | none => match lookupName name e.cls.msgSlots with
        | none => .ok v
        | some _ => .error (.fieldError name)) :
    serSlot e.cls name v = .error x ↔ UnsentField e.cls name kind v x := by
  refine slot_unsent_split he hf hr fun hns => ?_
  rw [unsent_inv hns]
  rcases sent_message_kind he hf with ⟨sd, h1, rfl⟩ | ⟨h1, h2⟩
  · rw [h1]
    dsimp only
    constructor
    · intro h
      injection h with h
      exact ⟨_, _, _, rfl, .inr (.inl ⟨hn, hv, hl, .inl ⟨hm _, h.symm⟩⟩)⟩
    · rintro ⟨_, _, _, _, ⟨_, h, _⟩ | ⟨_, _, _, ⟨_, h⟩ | ⟨_, _, _, _, _, h, _⟩⟩ | ⟨_, h, _⟩⟩
      · exact absurd h hn
      · rw [h]
      · exact absurd h (hm _ _ _ _ _ _)
      · exact absurd h (hl _)
  · rw [h1]
    refine ⟨fun h => (by cases h), ?_⟩
    rintro ⟨_, _, _, h, _⟩
    exact absurd h (h2 _ _ _)

private theorem elem_stranger {cls : Cls} {name : PStr} {v : Val} {x : Exc} (h : NoMessage cls v) :
    Elem cls name v x ↔ x = .fieldError name := by
  constructor
  · rintro (⟨_, h⟩ | ⟨_, _, _, _, _, e, _⟩)
    · exact h
    · exact absurd e (h _ _ _ _ _)
  · rintro rfl; exact .inl ⟨h, rfl⟩

private theorem elems_stranger {cls : Cls} {name : PStr} {v : Val} {rest : List Val} {x : Exc} (h : NoMessage cls v) :
    (Except.error (.fieldError name) : Res (List Val)) = .error x ↔ Elems cls name (v :: rest) x := by
  constructor
  · intro e
    injection e with e
    exact ⟨[], v, rest, rfl, fun _ h => (by cases h), (elem_stranger h).mpr e.symm⟩
  · rintro ⟨b, y, a, e, hb, hf⟩
    cases b with
    | nil =>
      injection e with e1 e2
      subst e1
      rw [(elem_stranger h).mp hf]
    | cons z b =>
      injection e with e1 e2
      subst e1
      obtain ⟨w, hw⟩ := hb v List.mem_cons_self
      obtain ⟨_, _, _, _, _, _, hv, _⟩ := message_inv hw
      exact absurd hv (h _ _ _ _ _)

private theorem not_both {c : Cls} {as : Attrs} {x : Exc} {l : List Val}
    (h : serAttrs c as = .error x ↔ UnsentFields c as x) (h1 : UnsentFields c as x) (h2 : SentFields c as l) : False := by
  have a := h.mpr h1
  have b := fields_sent.mpr h2
  rw [a] at b
  cases b

mutual
private theorem attrs_unsent : ∀ (as : Attrs) (c : Cls) (x : Exc), serAttrs c as = .error x ↔ UnsentFields c as x
  | [], c, x => by
    unfold serAttrs
    refine ⟨fun h => (by cases h), fun h => ?_⟩
    obtain ⟨_, _, _, _, _, _, b, _, _, h, _⟩ := unsentFields_inv.mp h
    cases b <;> cases h
  | (k, v) :: rest, c, x => by
    obtain ⟨e, he, rfl⟩ := listed_cls c
    have ih := attrs_unsent rest e.cls x
    rw [unsentFields_inv]
    unfold serAttrs
    by_cases hk : e.cls.validSlot k = true
    · rw [if_pos hk]
      have hm := (sent_valid he k).mp hk
      obtain ⟨⟨k', kind⟩, hf, rfl⟩ := List.mem_map.mp hm
      have hs := slot_unsent v e he k' kind hf x
      constructor
      · intro h
        cases h1 : serSlot e.cls k' v with
        | error y =>
          simp only [h1] at h
          injection h with h
          subst h
          exact ⟨e, he, rfl, k', kind, v, [], rest, [], rfl, .nil, hf, hs.mp h1⟩
        | ok w =>
          simp only [h1] at h
          cases h2 : serAttrs e.cls rest with
          | ok r => simp only [h2] at h; cases h
          | error r =>
            simp only [h2] at h
            injection h with h
            subst h
            obtain ⟨e', he', hc, name, kind', v', b, a, l, rfl, b1, b2, b3⟩ := unsentFields_inv.mp (ih.mp h2)
            exact ⟨e', he', hc, name, kind', v', (k', v) :: b, a, _, rfl,
              .field he hf ((field_sent he hf).mp h1) b1, b2, b3⟩
      · rintro ⟨e', he', hc, name, kind', v', b, a, l, eq, b1, b2, b3⟩
        have := sent_entry_unique he he' hc
        subst this
        cases b with
        | nil =>
          simp only [List.nil_append, List.cons.injEq, Prod.mk.injEq] at eq
          obtain ⟨⟨rfl, rfl⟩, rfl⟩ := eq
          have := sent_kind_unique he' hf b2
          subst this
          rw [hs.mpr b3]
        | cons p b =>
          simp only [List.cons_append, List.cons.injEq] at eq
          obtain ⟨rfl, rfl⟩ := eq
          obtain ⟨l', hl'⟩ := sent_tail b1
          have h1 : ∃ w, serSlot e'.cls k' v = .ok w := by
            have hb := fields_sent.mpr b1
            unfold serAttrs at hb
            rw [if_pos hk] at hb
            cases hv : serSlot e'.cls k' v with
            | ok w => exact ⟨w, rfl⟩
            | error _ => simp only [hv] at hb; cases hb
          obtain ⟨w, h1⟩ := h1
          rw [h1]
          dsimp only
          rw [ih.mpr (unsentFields_inv.mpr ⟨e', he', hc, name, kind', v', b, a, l', rfl, hl', b2, b3⟩)]
    · rw [if_neg hk]
      have hm : k ∉ e.fields.map Prod.fst := fun h => hk ((sent_valid he k).mpr h)
      rw [ih, unsentFields_inv]
      constructor
      · rintro ⟨e', he', hc, name, kind', v', b, a, l, rfl, b1, b2, b3⟩
        exact ⟨e', he', hc, name, kind', v', (k, v) :: b, a, l, rfl, .other he hm b1, b2, b3⟩
      · rintro ⟨e', he', hc, name, kind', v', b, a, l, eq, b1, b2, b3⟩
        have := sent_entry_unique he he' hc
        subst this
        cases b with
        | nil =>
          simp only [List.nil_append, List.cons.injEq, Prod.mk.injEq] at eq
          obtain ⟨⟨rfl, rfl⟩, rfl⟩ := eq
          exact absurd (List.mem_map.mpr ⟨_, b2, rfl⟩) hm
        | cons p b =>
          simp only [List.cons_append, List.cons.injEq] at eq
          obtain ⟨rfl, rfl⟩ := eq
          obtain ⟨l', hl'⟩ := sent_tail b1
          exact ⟨e', he', hc, name, kind', v', b, a, l', rfl, hl', b2, b3⟩
private theorem slot_unsent : ∀ (v : Val) (e : Entry) (_ : e ∈ catalogue) (name : PStr) (kind : Kind)
    (_ : (name, kind) ∈ e.fields) (x : Exc), serSlot e.cls name v = .error x ↔ UnsentField e.cls name kind v x
  | .enum en s, e, he, name, kind, hf, x => by
    refine slot_unsent_split he hf (r := .ok (.str s)) (by unfold serSlot; rfl) fun hns => ?_
    rw [unsent_inv hns]
    refine ⟨fun h => (by cases h), ?_⟩
    rintro ⟨_, _, _, _, ⟨_, h, _⟩ | ⟨_, h, _⟩ | ⟨_, h, _⟩⟩
    · cases h
    · exact absurd rfl (h _ _)
    · cases h
  | .none, e, he, name, kind, hf, x => by
    refine slot_unsent_split he hf (r := match lookupName name e.cls.msgSlots with
      | none => .ok .none
      | some sd => if sd.allowNone then .ok (.tuple [.bool false, .none]) else .error (.fieldError name))
      (by unfold serSlot; rfl) fun hns => ?_
    rw [unsent_inv hns]
    rcases sent_message_kind he hf with ⟨sd, h1, rfl⟩ | ⟨h1, h2⟩
    · rw [h1]
      dsimp only
      by_cases ha : sd.allowNone = true
      · rw [if_pos ha]
        refine ⟨fun h => (by cases h), ?_⟩
        rintro ⟨_, _, _, hk, ⟨rfl, _⟩ | ⟨h, _⟩ | ⟨_, h, _⟩⟩
        · injection hk with _ hk; rw [ha] at hk; cases hk
        · exact absurd rfl h
        · cases h
      · rw [if_neg ha]
        constructor
        · intro h
          injection h with h
          exact ⟨_, _, _, rfl, .inl ⟨by simpa using ha, rfl, h.symm⟩⟩
        · rintro ⟨_, _, _, hk, ⟨_, _, h⟩ | ⟨h, _⟩ | ⟨_, h, _⟩⟩
          · rw [h]
          · exact absurd rfl h
          · cases h
    · rw [h1]
      refine ⟨fun h => (by cases h), ?_⟩
      rintro ⟨_, _, _, h, _⟩
      exact absurd h (h2 _ _ _)
  | .list l, e, he, name, kind, hf, x => by
    refine slot_unsent_split he hf (r := match lookupName name e.cls.msgSlots with
      | none => .ok (.list l)
      | some sd => match serMsgs sd.cls name l with
        | .error e => .error e
        | .ok r => .ok (.tuple [.bool true, .list r]))
      (by unfold serSlot; rfl) fun hns => ?_
    rw [unsent_inv hns]
    rcases sent_message_kind he hf with ⟨sd, h1, rfl⟩ | ⟨h1, h2⟩
    · rw [h1]
      dsimp only
      have hm := msgs_unsent l sd.cls name x
      constructor
      · intro h
        cases hs : serMsgs sd.cls name l with
        | ok _ => rw [hs] at h; cases h
        | error r =>
          rw [hs] at h
          injection h with h
          subst h
          exact ⟨_, _, _, rfl, .inr (.inr ⟨l, rfl, hm.mp hs⟩)⟩
      · rintro ⟨_, _, _, hk, ⟨_, h, _⟩ | ⟨_, _, h, _⟩ | ⟨_, h, h'⟩⟩
        · cases h
        · exact absurd rfl (h _)
        · injection hk with hk
          subst hk
          injection h with h
          subst h
          rw [hm.mpr h']
    · rw [h1]
      refine ⟨fun h => (by cases h), ?_⟩
      rintro ⟨_, _, _, h, _⟩
      exact absurd h (h2 _ _ _)
  | .msg c' ty ts enc sig attrs, e, he, name, kind, hf, x => by
    refine slot_unsent_split he hf (r := match lookupName name e.cls.msgSlots with
      | none => .ok (.msg c' ty ts enc sig attrs)
      | some sd =>
        if c' = sd.cls then
          match serAttrs c' attrs with
          | .error e => .error e
          | .ok s => .ok (.tuple [.bool false, .tuple [.tuple [ty, ts, enc], sig, .list s]])
        else .error (.fieldError name))
      (by unfold serSlot; rfl) fun hns => ?_
    rw [unsent_inv hns]
    rcases sent_message_kind he hf with ⟨sd, h1, rfl⟩ | ⟨h1, h2⟩
    · rw [h1]
      dsimp only
      have ha := attrs_unsent attrs c' x
      by_cases hc : c' = sd.cls
      · rw [if_pos hc]
        constructor
        · intro h
          cases hm : serAttrs c' attrs with
          | ok _ => rw [hm] at h; cases h
          | error r =>
            rw [hm] at h
            injection h with h
            subst h
            rw [← hc]
            exact ⟨_, _, _, rfl, .inr (.inl ⟨by simp, by simp, by simp, .inr ⟨_, _, _, _, _, rfl, ha.mp hm⟩⟩)⟩
        · rintro ⟨_, _, _, hk, ⟨_, h, _⟩ | ⟨_, _, _, ⟨h, _⟩ | ⟨_, _, _, _, _, h, h'⟩⟩ | ⟨_, h, _⟩⟩
          · cases h
          · injection hk with hk
            subst hk hc
            exact absurd rfl (h _ _ _ _ _)
          · injection hk with hk
            subst hk
            injection h with _ _ _ _ _ h
            subst h
            subst hc
            rw [ha.mpr h']
          · cases h
      · rw [if_neg hc]
        constructor
        · intro h
          injection h with h
          refine ⟨_, _, _, rfl, .inr (.inl ⟨by simp, by simp, by simp, .inl ⟨?_, h.symm⟩⟩)⟩
          intro _ _ _ _ _ h
          injection h with h
          exact hc h
        · rintro ⟨_, _, _, hk, ⟨_, h, _⟩ | ⟨_, _, _, ⟨_, h⟩ | ⟨_, _, _, _, _, h, h'⟩⟩ | ⟨_, h, _⟩⟩
          · cases h
          · rw [h]
          · injection hk with hk
            subst hk
            injection h with h
            exact absurd h hc
          · cases h
    · rw [h1]
      refine ⟨fun h => (by cases h), ?_⟩
      rintro ⟨_, _, _, h, _⟩
      exact absurd h (h2 _ _ _)
  | .bool _, e, he, name, kind, hf, x => slot_unsent_simple he hf (by simp) (by simp) (by simp) (by simp [NoMessage]) (by unfold serSlot; rfl)
  | .int _, e, he, name, kind, hf, x => slot_unsent_simple he hf (by simp) (by simp) (by simp) (by simp [NoMessage]) (by unfold serSlot; rfl)
  | .float _, e, he, name, kind, hf, x => slot_unsent_simple he hf (by simp) (by simp) (by simp) (by simp [NoMessage]) (by unfold serSlot; rfl)
  | .str _, e, he, name, kind, hf, x => slot_unsent_simple he hf (by simp) (by simp) (by simp) (by simp [NoMessage]) (by unfold serSlot; rfl)
  | .bytes _, e, he, name, kind, hf, x => slot_unsent_simple he hf (by simp) (by simp) (by simp) (by simp [NoMessage]) (by unfold serSlot; rfl)
  | .tuple _, e, he, name, kind, hf, x => slot_unsent_simple he hf (by simp) (by simp) (by simp) (by simp [NoMessage]) (by unfold serSlot; rfl)
  | .dict _, e, he, name, kind, hf, x => slot_unsent_simple he hf (by simp) (by simp) (by simp) (by simp [NoMessage]) (by unfold serSlot; rfl)
  | .tag _ _, e, he, name, kind, hf, x => slot_unsent_simple he hf (by simp) (by simp) (by simp) (by simp [NoMessage]) (by unfold serSlot; rfl)
  | .cont _ _, e, he, name, kind, hf, x => slot_unsent_simple he hf (by simp) (by simp) (by simp) (by simp [NoMessage]) (by unfold serSlot; rfl)
  | .fdict _ _, e, he, name, kind, hf, x => slot_unsent_simple he hf (by simp) (by simp) (by simp) (by simp [NoMessage]) (by unfold serSlot; rfl)
  | .mask _, e, he, name, kind, hf, x => slot_unsent_simple he hf (by simp) (by simp) (by simp) (by simp [NoMessage]) (by unfold serSlot; rfl)
private theorem msgs_unsent : ∀ (l : List Val) (c : Cls) (name : PStr) (x : Exc), serMsgs c name l = .error x ↔
    Elems c name l x
  | [], c, name, x => by
    unfold serMsgs
    refine ⟨fun h => (by cases h), ?_⟩
    rintro ⟨b, _, _, h, _⟩
    cases b <;> cases h
  | v :: rest, c, name, x => by
    match v with
    | .msg c' ty ts enc sig attrs =>
      have ha := fun y => attrs_unsent attrs c' y
      have hr := msgs_unsent rest c name x
      unfold serMsgs
      by_cases hc : c' = c
      · rw [if_pos hc]
        subst hc
        cases hm : serAttrs c' attrs with
        | error y =>
          dsimp only
          constructor
          · intro h
            injection h with h
            subst h
            exact ⟨[], _, rest, rfl, fun _ h => (by cases h), .inr ⟨_, _, _, _, _, rfl, (ha _).mp hm⟩⟩
          · rintro ⟨b, y, a, e, hb, hf⟩
            cases b with
            | nil =>
              injection e with e1 e2
              rcases hf with ⟨hn, _⟩ | ⟨_, _, _, _, _, e3, hu⟩
              · exact absurd e1.symm (hn _ _ _ _ _)
              · have e4 := e1.trans e3
                injection e4 with _ _ _ _ _ e4
                subst e4
                have := (ha _).mpr hu
                rw [hm] at this
                injection this with this
                rw [this]
            | cons z b =>
              injection e with e1 e2
              obtain ⟨w, hw⟩ := hb z List.mem_cons_self
              obtain ⟨_, _, _, _, _, l, e3, hl⟩ := message_inv hw
              have e4 := e1.trans e3
              injection e4 with _ _ _ _ _ e4
              subst e4
              exact (not_both (ha _) ((ha _).mp hm) hl).elim
        | ok s =>
          dsimp only
          have hs := fields_sent.mp hm
          have step : Elems c' name (.msg c' ty ts enc sig attrs :: rest) x ↔ Elems c' name rest x := by
            constructor
            · rintro ⟨b, y, a, e, hb, hf⟩
              cases b with
              | nil =>
                injection e with e1 e2
                rcases hf with ⟨hn, _⟩ | ⟨_, _, _, _, _, e3, hu⟩
                · exact absurd e1.symm (hn _ _ _ _ _)
                · have e4 := e1.trans e3
                  injection e4 with _ _ _ _ _ e4
                  subst e4
                  exact (not_both (ha _) hu hs).elim
              | cons z b =>
                injection e with e1 e2
                exact ⟨b, y, a, e2, fun y hy => hb y (List.mem_cons_of_mem _ hy), hf⟩
            · rintro ⟨b, y, a, rfl, hb, hf⟩
              refine ⟨_ :: b, y, a, rfl, fun z hz => ?_, hf⟩
              rcases List.mem_cons.mp hz with rfl | hz
              · exact ⟨_, .mk hs⟩
              · exact hb z hz
          rw [step, ← hr]
          cases serMsgs c' name rest with
          | error z => simp
          | ok r => simp
      · rw [if_neg hc]
        exact elems_stranger (by intro _ _ _ _ _ h; injection h with h; exact hc h)
    | .none => unfold serMsgs; exact elems_stranger (by simp [NoMessage])
    | .bool _ => unfold serMsgs; exact elems_stranger (by simp [NoMessage])
    | .int _ => unfold serMsgs; exact elems_stranger (by simp [NoMessage])
    | .float _ => unfold serMsgs; exact elems_stranger (by simp [NoMessage])
    | .str _ => unfold serMsgs; exact elems_stranger (by simp [NoMessage])
    | .bytes _ => unfold serMsgs; exact elems_stranger (by simp [NoMessage])
    | .list _ => unfold serMsgs; exact elems_stranger (by simp [NoMessage])
    | .tuple _ => unfold serMsgs; exact elems_stranger (by simp [NoMessage])
    | .dict _ => unfold serMsgs; exact elems_stranger (by simp [NoMessage])
    | .tag _ _ => unfold serMsgs; exact elems_stranger (by simp [NoMessage])
    | .enum _ _ => unfold serMsgs; exact elems_stranger (by simp [NoMessage])
    | .cont _ _ => unfold serMsgs; exact elems_stranger (by simp [NoMessage])
    | .fdict _ _ => unfold serMsgs; exact elems_stranger (by simp [NoMessage])
    | .mask _ => unfold serMsgs; exact elems_stranger (by simp [NoMessage])
end

theorem slots_unsent {m : Msg} {x : Exc} : m.slots = .error x ↔ UnsentFields m.cls m.attrs x := by
  unfold Msg.slots
  rw [← attrs_unsent]
  cases serAttrs m.cls m.attrs with
  | error y => simp
  | ok l => simp

end Verif
