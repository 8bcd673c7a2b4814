import Verif.Spec.Writes
import Verif.Lemmas.AcceptSlots
import Verif.Lemmas.Encoded
import Verif.Lemmas.MeaningSlots
/-! # Lemmas about what is sent for a message -/

set_option linter.unusedSimpArgs false

namespace Verif

open Spec

/-! ### Objects -/

private theorem statsClass_inner (k : PStr) : (statsClass k).isSome = true ↔ k ∈ innerNames .providerStats := by
  unfold statsClass innerNames
  repeat' split
  all_goals simp_all

private theorem calls_inner (c : ContId) (k : PStr) : callsToDict c k = true ↔ k ∈ innerNames c := by
  cases c <;> simp only [callsToDict]
  all_goals first
    | exact statsClass_inner k
    | simp [innerNames]

private theorem omittable_stats (k : PStr) : Omittable .providerStats k ↔ (statsClass k).isSome = true := by
  rw [statsClass_inner]; simp [Omittable]

private theorem unEnum_same {v : Val} (h : ∀ e s, v ≠ .enum e s) : v.unEnum = v := by
  unfold Val.unEnum
  split
  · exact absurd rfl (h _ _)
  · rfl

private theorem unEnum_iff {v w : Val} : v.unEnum = w ↔ (∃ e s, v = .enum e s ∧ w = .str s) ∨
    ((∀ e s, v ≠ .enum e s) ∧ w = v) := by
  cases v with
  | enum e s =>
    constructor
    · intro h; exact .inl ⟨e, s, rfl, h.symm⟩
    · rintro (⟨e', s', h, rfl⟩ | ⟨h, _⟩)
      · injection h with _ h; rw [h]; rfl
      · exact absurd rfl (h e s)
  | _ => simp [Val.unEnum, eq_comm]

private theorem describedAs_leaf {c : ContId} {k : PStr} {v w : Val} (hv : ∀ d fs, v ≠ .cont d fs) :
    DescribedAs c k v w ↔ (∃ b, c = .taskHeader ∧ k = p!"mask" ∧ v = .mask b ∧ w = .bytes b) ∨
      (∃ e s, v = .enum e s ∧ w = .str s) ∨ (Omittable c k ∧ v.truthy = false ∧ w = .none) ∨
      ((∀ e s, v ≠ .enum e s) ∧ (Omittable c k → v.truthy = true) ∧
        (c = .taskHeader → k = p!"mask" → (∀ b, v ≠ .mask b) ∧ (∀ i, v ≠ .int i) ∧ ∀ b, v ≠ .bool b) ∧ w = v) := by
  constructor
  · intro h
    cases h with
    | inner _ h => cases h with | mk _ _ => exact absurd rfl (hv _ _)
    | mask => exact .inl ⟨_, rfl, rfl, rfl, rfl⟩
    | member => exact .inr (.inl ⟨_, _, rfl, rfl⟩)
    | empty h1 h2 => exact .inr (.inr (.inl ⟨h1, by rwa [holds_eq] at h2, rfl⟩))
    | same h1 h2 h3 h4 => exact .inr (.inr (.inr ⟨h1, fun h => by rw [← holds_eq]; exact h3 h, h4, rfl⟩))
  · rintro (⟨b, rfl, rfl, rfl, rfl⟩ | ⟨e, s, rfl, rfl⟩ | ⟨h1, h2, rfl⟩ | ⟨h1, h2, h3, rfl⟩)
    · exact .mask
    · exact .member
    · exact .empty h1 (by rw [holds_eq]; exact h2)
    · exact .same h1 (fun _ => hv) (fun h => by rw [holds_eq]; exact h2 h) h3

private theorem leaf_described {c : ContId} {k : PStr} {v w : Val} (hv : ∀ d fs, v ≠ .cont d fs) :
    toDictLeaf c k v = .ok w ↔ DescribedAs c k v w := by
  rw [describedAs_leaf hv]
  have plain : ∀ (_ : ¬ (c = .taskHeader ∧ k = p!"mask")) (_ : ¬ Omittable c k), (((.ok v.unEnum : Res Val) = .ok w) ↔
      (∃ b, c = .taskHeader ∧ k = p!"mask" ∧ v = .mask b ∧ w = .bytes b) ∨
      (∃ e s, v = .enum e s ∧ w = .str s) ∨ (Omittable c k ∧ v.truthy = false ∧ w = .none) ∨
      ((∀ e s, v ≠ .enum e s) ∧ (Omittable c k → v.truthy = true) ∧
        (c = .taskHeader → k = p!"mask" → (∀ b, v ≠ .mask b) ∧ (∀ i, v ≠ .int i) ∧ ∀ b, v ≠ .bool b) ∧ w = v)) := by
    intro h1 h2
    rw [Except.ok.injEq, unEnum_iff]
    constructor
    · rintro (h | ⟨h, rfl⟩)
      · exact .inr (.inl h)
      · exact .inr (.inr (.inr ⟨h, fun h => absurd h h2, fun a b => absurd ⟨a, b⟩ h1, rfl⟩))
    · rintro (⟨b, e1, e2, _⟩ | h | ⟨h, _⟩ | ⟨h, _, _, rfl⟩)
      · exact absurd ⟨e1, e2⟩ h1
      · exact .inl h
      · exact absurd h h2
      · exact .inr ⟨h, rfl⟩
  have emptied : ∀ (_ : c ≠ .taskHeader) (_ : Omittable c k),
      (((if v.truthy then .ok v.unEnum else .ok .none : Res Val) = .ok w) ↔
      (∃ b, c = .taskHeader ∧ k = p!"mask" ∧ v = .mask b ∧ w = .bytes b) ∨
      (∃ e s, v = .enum e s ∧ w = .str s) ∨ (Omittable c k ∧ v.truthy = false ∧ w = .none) ∨
      ((∀ e s, v ≠ .enum e s) ∧ (Omittable c k → v.truthy = true) ∧
        (c = .taskHeader → k = p!"mask" → (∀ b, v ≠ .mask b) ∧ (∀ i, v ≠ .int i) ∧ ∀ b, v ≠ .bool b) ∧ w = v)) := by
    intro h1 h2
    by_cases ht : v.truthy = true
    · rw [if_pos ht, Except.ok.injEq, unEnum_iff]
      constructor
      · rintro (h | ⟨h, rfl⟩)
        · exact .inr (.inl h)
        · exact .inr (.inr (.inr ⟨h, fun _ => ht, fun a => absurd a h1, rfl⟩))
      · rintro (⟨b, e1, _⟩ | h | ⟨_, h, _⟩ | ⟨h, _, _, rfl⟩)
        · exact absurd e1 h1
        · exact .inl h
        · rw [ht] at h; cases h
        · exact .inr ⟨h, rfl⟩
    · rw [if_neg ht, Except.ok.injEq]
      have ht' : v.truthy = false := by simpa using ht
      constructor
      · rintro rfl
        exact .inr (.inr (.inl ⟨h2, ht', rfl⟩))
      · rintro (⟨b, e1, _⟩ | ⟨e, s, rfl, _⟩ | ⟨_, _, h⟩ | ⟨_, h, _⟩)
        · exact absurd e1 h1
        · exact absurd rfl ht
        · exact h.symm
        · exact absurd (h h2) ht
  unfold toDictLeaf
  cases c with
  | taskHeader =>
    dsimp only
    by_cases hk : k = p!"mask"
    · rw [if_pos hk]
      subst hk
      have ho : ¬ Omittable .taskHeader p!"mask" := by simp [Omittable]
      have rest : ∀ (_ : ∀ b, v ≠ .mask b) (_ : ∀ i, v ≠ .int i) (_ : ∀ b, v ≠ .bool b),
          (((.ok v.unEnum : Res Val) = .ok w) ↔
          (∃ b, (ContId.taskHeader = .taskHeader) ∧ p!"mask" = p!"mask" ∧ v = .mask b ∧ w = .bytes b) ∨
          (∃ e s, v = .enum e s ∧ w = .str s) ∨ (Omittable .taskHeader p!"mask" ∧ v.truthy = false ∧ w = .none) ∨
          ((∀ e s, v ≠ .enum e s) ∧ (Omittable .taskHeader p!"mask" → v.truthy = true) ∧
            (ContId.taskHeader = .taskHeader → p!"mask" = p!"mask" →
              (∀ b, v ≠ .mask b) ∧ (∀ i, v ≠ .int i) ∧ ∀ b, v ≠ .bool b) ∧ w = v)) := by
        intro a b c
        rw [Except.ok.injEq, unEnum_iff]
        constructor
        · rintro (h | ⟨h, rfl⟩)
          · exact .inr (.inl h)
          · exact .inr (.inr (.inr ⟨h, fun h => absurd h ho, fun _ _ => ⟨a, b, c⟩, rfl⟩))
        · rintro (⟨x, _, _, e, _⟩ | h | ⟨h, _⟩ | ⟨h, _, _, rfl⟩)
          · exact absurd e (a x)
          · exact .inl h
          · exact absurd h ho
          · exact .inr ⟨h, rfl⟩
      have refused : ∀ (_ : (∃ i, v = .int i) ∨ ∃ b, v = .bool b), ¬
          ((∃ b, (ContId.taskHeader = .taskHeader) ∧ p!"mask" = p!"mask" ∧ v = .mask b ∧ w = .bytes b) ∨
          (∃ e s, v = .enum e s ∧ w = .str s) ∨ (Omittable .taskHeader p!"mask" ∧ v.truthy = false ∧ w = .none) ∨
          ((∀ e s, v ≠ .enum e s) ∧ (Omittable .taskHeader p!"mask" → v.truthy = true) ∧
            (ContId.taskHeader = .taskHeader → p!"mask" = p!"mask" →
              (∀ b, v ≠ .mask b) ∧ (∀ i, v ≠ .int i) ∧ ∀ b, v ≠ .bool b) ∧ w = v)) := by
        intro hv
        rintro (⟨_, _, _, e, _⟩ | ⟨_, _, e, _⟩ | ⟨h, _⟩ | ⟨_, _, h, _⟩)
        · subst e; rcases hv with ⟨_, e⟩ | ⟨_, e⟩ <;> cases e
        · subst e; rcases hv with ⟨_, e⟩ | ⟨_, e⟩ <;> cases e
        · exact ho h
        · obtain ⟨_, h1, h2⟩ := h rfl rfl
          rcases hv with ⟨i, e⟩ | ⟨b, e⟩
          · exact h1 i e
          · exact h2 b e
      cases v with
      | mask b =>
        dsimp only
        constructor
        · intro h; injection h with h; exact .inl ⟨b, rfl, rfl, rfl, h.symm⟩
        · rintro (⟨_, _, _, e, rfl⟩ | ⟨_, _, e, _⟩ | ⟨h, _⟩ | ⟨_, _, h, _⟩)
          · injection e with e; rw [e]
          · cases e
          · exact absurd h ho
          · exact absurd rfl ((h rfl rfl).1 b)
      | int i => exact ⟨fun h => (by cases h), fun h => absurd h (refused (.inl ⟨i, rfl⟩))⟩
      | bool b => exact ⟨fun h => (by cases h), fun h => absurd h (refused (.inr ⟨b, rfl⟩))⟩
      | _ => exact rest (by simp) (by simp) (by simp)
    · rw [if_neg hk]
      exact plain (fun h => hk h.2) (by simp [Omittable])
  | providerStats =>
    dsimp only
    by_cases hs : (statsClass k).isSome = true
    · rw [if_pos hs]
      exact emptied (by decide) ((omittable_stats k).mpr hs)
    · rw [if_neg hs]
      exact plain (by simp) (fun h => hs ((omittable_stats k).mp h))
  | cpuStats => exact emptied (by decide) (.inr rfl)
  | _ => exact plain (by simp) (by simp [Omittable])

private theorem described_inv {c : ContId} {fs : Attrs} {w : Val} (h : Described (.cont c fs) w) :
    ∃ members : List (PStr × Val × Val), fs = (members.map fun m => (m.1, m.2.1)) ∧
      w = .dict (members.map fun m => (.str m.1, m.2.2)) ∧ ∀ m ∈ members, DescribedAs c m.1 m.2.1 m.2.2 := by
  generalize hv : Val.cont c fs = v at h
  cases h with
  | mk members hm =>
    injection hv with h1 h2
    subst h1
    exact ⟨members, h2, rfl, hm⟩

mutual
private theorem member_described : ∀ (v : Val) (c : ContId) (k : PStr) (w : Val),
    toDictV c k v = .ok w ↔ DescribedAs c k v w
  | .cont c' fs', c, k, w => by
    unfold toDictV
    by_cases hk : callsToDict c k = true
    · rw [if_pos hk]
      constructor
      · intro h
        cases hd : toDictF c' fs' with
        | error _ => rw [hd] at h; cases h
        | ok d =>
          rw [hd] at h
          injection h with h
          subst h
          obtain ⟨members, rfl, rfl, hm⟩ := (members_described fs' c' d).mp hd
          exact .inner ((calls_inner c k).mp hk) (.mk members hm)
      · intro h
        cases h with
        | inner _ h =>
          obtain ⟨members, e1, rfl, hm⟩ := described_inv h
          rw [(members_described fs' c' _).mpr ⟨members, e1, rfl, hm⟩]
        | empty _ h => cases h
        | same _ h => exact absurd rfl (h ((calls_inner c k).mp hk) _ _)
    · rw [if_neg hk]
      have hk' : k ∉ innerNames c := fun h => hk ((calls_inner c k).mpr h)
      constructor
      · intro h
        injection h with h
        subst h
        refine .same (by simp) (fun h => absurd h hk') (fun _ => rfl) (fun _ _ => by simp)
      · intro h
        cases h with
        | inner h _ => exact absurd h hk'
        | empty _ h => cases h
        | same _ h => rfl
  | .none, c, k, w => by unfold toDictV; exact leaf_described (by simp)
  | .bool _, c, k, w => by unfold toDictV; exact leaf_described (by simp)
  | .int _, c, k, w => by unfold toDictV; exact leaf_described (by simp)
  | .float _, c, k, w => by unfold toDictV; exact leaf_described (by simp)
  | .str _, c, k, w => by unfold toDictV; exact leaf_described (by simp)
  | .bytes _, c, k, w => by unfold toDictV; exact leaf_described (by simp)
  | .list _, c, k, w => by unfold toDictV; exact leaf_described (by simp)
  | .tuple _, c, k, w => by unfold toDictV; exact leaf_described (by simp)
  | .dict _, c, k, w => by unfold toDictV; exact leaf_described (by simp)
  | .tag _ _, c, k, w => by unfold toDictV; exact leaf_described (by simp)
  | .enum _ _, c, k, w => by unfold toDictV; exact leaf_described (by simp)
  | .fdict _ _, c, k, w => by unfold toDictV; exact leaf_described (by simp)
  | .mask _, c, k, w => by unfold toDictV; exact leaf_described (by simp)
  | .msg _ _ _ _ _ _, c, k, w => by unfold toDictV; exact leaf_described (by simp)
private theorem members_described : ∀ (fs : Attrs) (c : ContId) (d : List (Val × Val)), toDictF c fs = .ok d ↔
    ∃ members : List (PStr × Val × Val), fs = (members.map fun m => (m.1, m.2.1)) ∧
      d = (members.map fun m => (.str m.1, m.2.2)) ∧ ∀ m ∈ members, DescribedAs c m.1 m.2.1 m.2.2
  | [], c, d => by
    unfold toDictF
    constructor
    · intro h
      injection h with h
      subst h
      exact ⟨[], rfl, rfl, fun _ h => (by cases h)⟩
    · rintro ⟨members, e, rfl, _⟩
      cases members with
      | nil => rfl
      | cons => cases e
  | (k, v) :: rest, c, d => by
    unfold toDictF
    constructor
    · intro h
      cases h1 : toDictV c k v with
      | error _ => rw [h1] at h; cases h
      | ok v' =>
        rw [h1] at h
        cases h2 : toDictF c rest with
        | error _ => rw [h2] at h; cases h
        | ok r =>
          rw [h2] at h
          injection h with h
          subst h
          obtain ⟨members, rfl, rfl, hm⟩ := (members_described rest c r).mp h2
          refine ⟨(k, v, v') :: members, rfl, rfl, fun m h => ?_⟩
          rcases List.mem_cons.mp h with rfl | h
          · exact (member_described v c k v').mp h1
          · exact hm m h
    · rintro ⟨members, e, rfl, hm⟩
      cases members with
      | nil => cases e
      | cons m members =>
        simp only [List.map_cons, List.cons.injEq, Prod.mk.injEq] at e
        obtain ⟨⟨rfl, rfl⟩, rfl⟩ := e
        have h1 := (member_described m.2.1 c m.1 m.2.2).mpr (hm m (by simp))
        have h2 := (members_described (members.map fun m => (m.1, m.2.1)) c _).mpr
          ⟨members, rfl, rfl, fun x hx => hm x (List.mem_cons_of_mem _ hx)⟩
        rw [h1, h2]
        rfl
end

theorem described_iff {v w : Val} : toDict v = .ok w ↔ Described v w := by
  unfold toDict
  constructor
  · intro h
    cases v with
    | cont c fs =>
      dsimp only at h
      cases hd : toDictF c fs with
      | error _ => rw [hd] at h; cases h
      | ok d =>
        rw [hd] at h
        injection h with h
        subst h
        obtain ⟨members, rfl, rfl, hm⟩ := (members_described fs c d).mp hd
        exact .mk members hm
    | _ => cases h
  · intro h
    cases h with
    | mk members hm => dsimp only; rw [(members_described _ _ _).mpr ⟨members, rfl, rfl, hm⟩]

/-! ### Fields with a form of their own -/

theorem items_iff {v : Val} {l : List Val} : v.iter = some l ↔ Items v l := by
  constructor
  · intro h
    cases v <;> simp only [Val.iter, Option.some.injEq, reduceCtorEq] at h
    all_goals subst h
    · exact .elements (.text _)
    · exact .elements (.bytes _)
    · exact .elements (.list _)
    · exact .tuple _
    · exact .elements (.dict _)
    · exact .dictionary _ _
  · intro h
    cases h with
    | elements h => cases h <;> rfl
    | tuple => rfl
    | dictionary => rfl

theorem mapRes_sent {α β : Type _} {f : α → Res β} {R : α → β → Prop} (hf : ∀ x y, f x = .ok y ↔ R x y) :
    ∀ {l : List α} {ys : List β}, mapRes f l = .ok ys ↔
      ∃ ps : List (α × β), l = ps.map (·.1) ∧ ys = ps.map (·.2) ∧ ∀ p ∈ ps, R p.1 p.2
  | [], ys => by
    constructor
    · intro h
      injection h with h
      subst h
      exact ⟨[], rfl, rfl, fun _ h => (by cases h)⟩
    · rintro ⟨ps, e, rfl, _⟩
      cases ps with
      | nil => rfl
      | cons => cases e
  | x :: xs, ys => by
    unfold mapRes
    constructor
    · intro h
      cases h1 : f x with
      | error _ => rw [h1] at h; cases h
      | ok y =>
        rw [h1] at h
        cases h2 : mapRes f xs with
        | error _ => rw [h2] at h; cases h
        | ok r =>
          rw [h2] at h
          injection h with h
          subst h
          obtain ⟨ps, rfl, rfl, hp⟩ := (mapRes_sent hf).mp h2
          refine ⟨(x, y) :: ps, rfl, rfl, fun p h => ?_⟩
          rcases List.mem_cons.mp h with rfl | h
          · exact (hf _ _).mp h1
          · exact hp p h
    · rintro ⟨ps, e, rfl, hp⟩
      cases ps with
      | nil => cases e
      | cons p ps =>
        simp only [List.map_cons, List.cons.injEq] at e
        obtain ⟨rfl, rfl⟩ := e
        rw [(hf _ _).mpr (hp p (by simp)), (mapRes_sent hf).mpr ⟨ps, rfl, rfl,
          fun q hq => hp q (List.mem_cons_of_mem _ hq)⟩]
        rfl

private theorem lookup_split {n : PStr} : ∀ {items : Attrs} {x : Val}, lookupName n items = some x ↔
    ∃ before after, items = before ++ (n, x) :: after ∧ n ∉ before.map Prod.fst
  | [], x => by
    constructor
    · intro h; cases h
    · rintro ⟨b, a, e, _⟩
      exact absurd e (by simp)
  | (k, v) :: rest, x => by
    unfold lookupName
    by_cases hk : k = n
    · rw [if_pos hk]
      constructor
      · intro h
        injection h with h
        subst h hk
        exact ⟨[], rest, rfl, by simp⟩
      · rintro ⟨b, a, e, hb⟩
        cases b with
        | nil => simp only [List.nil_append, List.cons.injEq, Prod.mk.injEq] at e; rw [e.1.2]
        | cons p b =>
          simp only [List.cons_append, List.cons.injEq] at e
          exact absurd (by rw [← e.1]; simp [hk]) hb
    · rw [if_neg hk, lookup_split]
      constructor
      · rintro ⟨b, a, rfl, hb⟩
        exact ⟨(k, v) :: b, a, rfl, by simp only [List.map_cons, List.mem_cons, not_or]; exact ⟨fun h => hk h.symm, hb⟩⟩
      · rintro ⟨b, a, e, hb⟩
        cases b with
        | nil =>
          simp only [List.nil_append, List.cons.injEq, Prod.mk.injEq] at e
          exact absurd e.1.1 hk
        | cons p b =>
          simp only [List.cons_append, List.cons.injEq] at e
          exact ⟨b, a, e.2, fun h => hb (by simp only [List.map_cons, List.mem_cons]; exact .inr h)⟩

private theorem setName_split {n : PStr} {w : Val} : ∀ {before : Attrs} {x : Val} {after : Attrs},
    n ∉ before.map Prod.fst → setName n w (before ++ (n, x) :: after) = before ++ (n, w) :: after
  | [], _, _, _ => by simp [setName]
  | (k, v) :: b, x, a, h => by
    simp only [List.map_cons, List.mem_cons, not_or] at h
    simp only [List.cons_append, setName]
    rw [if_neg (fun e => h.1 e.symm), setName_split h.2]

theorem peer_sent {p w : Val} : serPeer p = .ok w ↔ PeerSent p w := by
  unfold serPeer
  constructor
  · intro h
    split at h
    · rename_i items
      split at h
      · cases h
      · rename_i n hn
        split at h
        · cases h
        · rename_i d hd
          injection h with h
          subst h
          obtain ⟨b, a, rfl, hb⟩ := lookup_split.mp hn
          rw [setName_split hb]
          exact .mk hb (described_iff.mp hd)
    · cases h
  · intro h
    cases h with
    | @mk before after node w hb hd =>
      dsimp only
      rw [lookup_split.mpr ⟨before, after, rfl, hb⟩]
      dsimp only
      rw [described_iff.mpr hd]
      dsimp only
      rw [setName_split hb]
      rfl

/-! ### Tables -/

theorem sent_kind_node {e : Entry} (he : e ∈ catalogue) {name : PStr} {kind : Kind} (hf : (name, kind) ∈ e.fields) :
    e.cls.nodeSlots.contains name = true ↔ kind = .node := by
  have h := slotKind_table e he _ hf
  dsimp only at h
  rw [h]
  unfold slotKind
  by_cases hc : e.cls.nodeSlots.contains name = true
  · rw [if_pos hc]; exact ⟨fun _ => rfl, fun _ => hc⟩
  · rw [if_neg hc]
    refine ⟨fun h => absurd h hc, fun h => ?_⟩
    repeat' split at h
    all_goals cases h

private theorem node_not_msg (c : Cls) : ∀ n ∈ c.nodeSlots, lookupName n c.msgSlots = none := by
  cases c <;> decide

theorem sent_message_kind {e : Entry} (he : e ∈ catalogue) {name : PStr} {kind : Kind} (hf : (name, kind) ∈ e.fields) :
    (∃ sd, lookupName name e.cls.msgSlots = some sd ∧ kind = .message sd.cls sd.allowNone sd.isList) ∨
    (lookupName name e.cls.msgSlots = none ∧ ∀ cls o l, kind ≠ .message cls o l) := by
  have h := slotKind_table e he _ hf
  dsimp only at h
  rw [h]
  unfold slotKind
  by_cases hc : e.cls.nodeSlots.contains name = true
  · rw [if_pos hc]
    exact .inr ⟨node_not_msg _ _ (by simpa using hc), by simp⟩
  · rw [if_neg hc]
    cases he : lookupName name e.cls.enumSlots with
    | some en =>
      have hm : (name, en) ∈ e.cls.enumSlots := by
        clear h hc
        generalize e.cls.enumSlots = l at he
        induction l with
        | nil => cases he
        | cons p l ih =>
          unfold lookupName at he
          obtain ⟨k, x⟩ := p
          dsimp only at he
          by_cases hk : k = name
          · rw [if_pos hk] at he
            injection he with he
            subst he hk
            simp
          · rw [if_neg hk] at he
            exact List.mem_cons_of_mem _ (ih he)
      exact .inr ⟨enum_not_msg _ _ hm, by simp⟩
    | none =>
      dsimp only
      cases hm : lookupName name e.cls.msgSlots with
      | none => exact .inr ⟨rfl, by simp⟩
      | some sd => exact .inl ⟨sd, rfl, rfl⟩

theorem sent_plain_kind : ∀ e ∈ catalogue, ∀ p ∈ e.fields,
    ((e.cls = .Peers ∧ p.1 = p!"peers") ∨ (e.cls = .Tasks ∧ p.1 = p!"tasks") ∨
    (e.cls = .WantToComputeTask ∧ p.1 = p!"task_header") ∨ (e.cls = .ReportComputedTask ∧ p.1 = p!"stats")) →
    p.2 = .plain := by decide +kernel

/-! ### Fields -/

theorem hook_special {e : Entry} (he : e ∈ catalogue) {name : PStr} {kind : Kind} (hf : (name, kind) ∈ e.fields)
    (v : Val) : serHook e.cls name v = none ↔ ¬ Special e.cls name kind v := by
  have hk := sent_kind_node he hf
  have hp := sent_plain_kind e he _ hf
  dsimp only at hp
  unfold serHook Special
  by_cases h1 : (e.cls.nodeSlots.contains name && v.truthy) = true
  · rw [if_pos h1]
    rw [Bool.and_eq_true] at h1
    refine ⟨fun h => (by cases h), fun h => absurd (.inl ⟨hk.mp h1.1, by rw [holds_eq]; exact h1.2⟩) h⟩
  rw [if_neg h1]
  have h1' : ¬ (kind = .node ∧ holds v = true) := by
    rintro ⟨a, b⟩
    rw [holds_eq] at b
    exact h1 (by rw [Bool.and_eq_true]; exact ⟨hk.mpr a, b⟩)
  by_cases h2 : e.cls = .Peers ∧ name = p!"peers"
  · rw [if_pos h2]
    exact ⟨fun h => (by cases h), fun h => absurd (.inr (.inl h2)) h⟩
  rw [if_neg h2]
  by_cases h3 : e.cls = .Tasks ∧ name = p!"tasks"
  · rw [if_pos h3]
    exact ⟨fun h => (by cases h), fun h => absurd (.inr (.inr (.inl h3))) h⟩
  rw [if_neg h3]
  by_cases h4 : e.cls = .WantToComputeTask ∧ name = p!"task_header"
  · rw [if_pos h4]
    have h5 : ¬ e.cls = .ReportComputedTask := by rw [h4.1]; decide
    split
    · refine ⟨fun h => (by cases h), fun h => absurd (.inr (.inr (.inr (.inl ⟨h4.1, h4.2, _, rfl⟩)))) h⟩
    · rename_i hn
      refine ⟨fun _ => ?_, fun _ => rfl⟩
      rintro (h | h | h | ⟨_, _, fs, rfl⟩ | ⟨h, _⟩)
      · exact h1' h
      · exact h2 h
      · exact h3 h
      · exact hn _ rfl
      · exact h5 h
  rw [if_neg h4]
  by_cases h5 : e.cls = .ReportComputedTask ∧ name = p!"stats"
  · rw [if_pos h5]
    split
    · refine ⟨fun h => (by cases h), fun h => absurd (.inr (.inr (.inr (.inr ⟨h5.1, h5.2, _, rfl⟩)))) h⟩
    · rename_i hn
      refine ⟨fun _ => ?_, fun _ => rfl⟩
      rintro (h | h | h | ⟨a, b, _⟩ | ⟨_, _, fs, rfl⟩)
      · exact h1' h
      · exact h2 h
      · exact h3 h
      · exact h4 ⟨a, b⟩
      · exact hn _ rfl
  rw [if_neg h5]
  refine ⟨fun _ => ?_, fun _ => rfl⟩
  rintro (h | h | h | ⟨a, b, _⟩ | ⟨a, b, _⟩)
  · exact h1' h
  · exact h2 h
  · exact h3 h
  · exact h4 ⟨a, b⟩
  · exact h5 ⟨a, b⟩

theorem hook_sent {e : Entry} (he : e ∈ catalogue) {name : PStr} {kind : Kind} (hf : (name, kind) ∈ e.fields)
    (v w : Val) : serHook e.cls name v = some (.ok w) ↔ SentSpecially e.cls name kind v w := by
  have hk := sent_kind_node he hf
  have hp := sent_plain_kind e he _ hf
  dsimp only at hp
  generalize e.cls = c at hk hp ⊢
  unfold serHook
  by_cases h1 : (c.nodeSlots.contains name && v.truthy) = true
  · rw [if_pos h1]
    rw [Bool.and_eq_true] at h1
    have hkn := hk.mp h1.1
    subst hkn
    constructor
    · intro h
      cases hd : toDict v with
      | error x => rw [hd] at h; cases x <;> simp at h
      | ok d =>
        rw [hd] at h
        simp only [Option.some.injEq, Except.ok.injEq] at h
        subst h
        exact .node (by rw [holds_eq]; exact h1.2) (described_iff.mp hd)
    · intro h
      cases h with
      | node _ h => rw [described_iff.mpr h]
      | peers => exact absurd (hp (.inl ⟨rfl, rfl⟩)) (by simp)
      | tasks => exact absurd (hp (.inr (.inl ⟨rfl, rfl⟩))) (by simp)
      | header => exact absurd (hp (.inr (.inr (.inl ⟨rfl, rfl⟩)))) (by simp)
      | stats => exact absurd (hp (.inr (.inr (.inr ⟨rfl, rfl⟩)))) (by simp)
  rw [if_neg h1]
  have h1' : ∀ {w}, SentSpecially c name kind v w → (kind = .node → False) := by
    intro w h hkn
    subst hkn
    cases h with
    | node a _ => rw [holds_eq] at a; exact h1 (by rw [Bool.and_eq_true]; exact ⟨hk.mpr rfl, a⟩)
    | peers => exact absurd (hp (.inl ⟨rfl, rfl⟩)) (by simp)
    | tasks => exact absurd (hp (.inr (.inl ⟨rfl, rfl⟩))) (by simp)
    | header => exact absurd (hp (.inr (.inr (.inl ⟨rfl, rfl⟩)))) (by simp)
    | stats => exact absurd (hp (.inr (.inr (.inr ⟨rfl, rfl⟩)))) (by simp)
  by_cases h2 : c = .Peers ∧ name = p!"peers"
  · rw [if_pos h2]
    obtain ⟨rfl, rfl⟩ := h2
    constructor
    · intro h
      cases hi : v.iter with
      | none => rw [hi] at h; simp at h
      | some l =>
        rw [hi] at h
        cases hm : mapRes serPeer l with
        | error _ => simp only [hm] at h; simp at h
        | ok r =>
          simp only [hm, Option.some.injEq, Except.ok.injEq] at h
          subst h
          obtain ⟨ps, rfl, rfl, hps⟩ := (mapRes_sent fun _ _ => peer_sent).mp hm
          exact .peers ps (items_iff.mp hi) hps
    · intro h
      cases h with
      | node a b => exact (h1' (.node a b) rfl).elim
      | peers l hi hl =>
        rw [items_iff.mpr hi]
        dsimp only
        rw [(mapRes_sent fun _ _ => peer_sent).mpr ⟨l, rfl, rfl, hl⟩]
  rw [if_neg h2]
  by_cases h3 : c = .Tasks ∧ name = p!"tasks"
  · rw [if_pos h3]
    obtain ⟨rfl, rfl⟩ := h3
    constructor
    · intro h
      split at h
      · rename_i l
        cases hm : mapRes toDict l with
        | error _ => simp only [hm] at h; simp at h
        | ok r =>
          simp only [hm, Option.some.injEq, Except.ok.injEq] at h
          subst h
          obtain ⟨ps, rfl, rfl, hps⟩ := (mapRes_sent fun _ _ => described_iff).mp hm
          exact .tasks ps hps
      · simp at h
    · intro h
      cases h with
      | node a b => exact (h1' (.node a b) rfl).elim
      | tasks l hl =>
        dsimp only
        rw [(mapRes_sent fun _ _ => described_iff).mpr ⟨l, rfl, rfl, hl⟩]
  rw [if_neg h3]
  by_cases h4 : c = .WantToComputeTask ∧ name = p!"task_header"
  · rw [if_pos h4]
    obtain ⟨rfl, rfl⟩ := h4
    constructor
    · intro h
      split at h
      · injection h with h
        exact .header (described_iff.mp h)
      · cases h
    · intro h
      cases h with
      | node a b => exact (h1' (.node a b) rfl).elim
      | header h => dsimp only; rw [described_iff.mpr h]
  rw [if_neg h4]
  by_cases h5 : c = .ReportComputedTask ∧ name = p!"stats"
  · rw [if_pos h5]
    obtain ⟨rfl, rfl⟩ := h5
    constructor
    · intro h
      split at h
      · injection h with h
        exact .stats (described_iff.mp h)
      · cases h
    · intro h
      cases h with
      | node a b => exact (h1' (.node a b) rfl).elim
      | stats h => dsimp only; rw [described_iff.mpr h]
  rw [if_neg h5]
  refine ⟨fun h => (by cases h), fun h => ?_⟩
  cases h with
  | node a b => exact (h1' (.node a b) rfl).elim
  | peers => exact absurd ⟨rfl, rfl⟩ h2
  | tasks => exact absurd ⟨rfl, rfl⟩ h3
  | header => exact absurd ⟨rfl, rfl⟩ h4
  | stats => exact absurd ⟨rfl, rfl⟩ h5

end Verif
