import Verif.Spec.Unsent
import Verif.Lemmas.WritesSlots
/-! # Why messages cannot be sent -/

set_option linter.unusedSimpArgs false

namespace Verif

open Spec

/-! ### Objects -/

private theorem calls_iff (c : ContId) (k : PStr) : callsToDict c k = true ↔ k ∈ innerNames c := by
  cases c <;> simp [callsToDict, innerNames, statsClass]
  · repeat' split
    all_goals simp_all

private theorem leaf_error {c : ContId} {k : PStr} {v : Val} {x : Exc} : toDictLeaf c k v = .error x ↔
    c = .taskHeader ∧ k = p!"mask" ∧ ((∃ i, v = .int i) ∨ (∃ b, v = .bool b)) ∧ x = .typeError := by
  unfold toDictLeaf
  split
  · by_cases hk : k = p!"mask"
    · rw [if_pos hk]
      split <;> simp_all [eq_comm]
    · rw [if_neg hk]; simp [hk]
  · repeat' split
    all_goals simp
  · split <;> simp
  · simp_all

private def Bad (c : ContId) (k : PStr) (v : Val) : Prop :=
  (c = .taskHeader ∧ k = p!"mask" ∧ ((∃ i, v = .int i) ∨ (∃ b, v = .bool b))) ∨ (k ∈ innerNames c ∧ NumberMask v)

private theorem mask_inv {c : ContId} {fs : Attrs} : NumberMask (.cont c fs) ↔ ∃ p ∈ fs, Bad c p.1 p.2 := by
  constructor
  · intro h
    cases h with
    | here h1 h2 => exact ⟨_, h1, .inl ⟨rfl, rfl, h2⟩⟩
    | inner h1 h2 h3 => exact ⟨_, h1, .inr ⟨h2, h3⟩⟩
  · rintro ⟨⟨k, v⟩, hp, ⟨rfl, rfl, h⟩ | ⟨h1, h2⟩⟩
    · exact .here hp h
    · exact .inner hp h1 h2

private theorem bad_leaf {c : ContId} {k : PStr} {v : Val} {x : Exc} (hv : ∀ d fs, v ≠ .cont d fs) :
    toDictLeaf c k v = .error x ↔ Bad c k v ∧ x = .typeError := by
  rw [leaf_error]
  constructor
  · rintro ⟨a, b, d, e⟩; exact ⟨.inl ⟨a, b, d⟩, e⟩
  · rintro ⟨⟨a, b, d⟩ | ⟨_, h⟩, e⟩
    · exact ⟨a, b, d, e⟩
    · cases h <;> exact absurd rfl (hv _ _)

mutual
private theorem member_error : ∀ (v : Val) (c : ContId) (k : PStr) (x : Exc),
    toDictV c k v = .error x ↔ Bad c k v ∧ x = .typeError
  | .cont c' fs', c, k, x => by
    have hb : Bad c k (.cont c' fs') ↔ k ∈ innerNames c ∧ NumberMask (.cont c' fs') := by
      simp [Bad]
    unfold toDictV
    by_cases hc : callsToDict c k = true
    · rw [if_pos hc]
      have := members_error fs' c' x
      rw [hb, mask_inv]
      have hi := (calls_iff c k).mp hc
      cases hd : toDictF c' fs' with
      | error y =>
        rw [hd] at this
        exact ⟨fun h => (by injection h with h; subst h; have := this.mp rfl; exact ⟨⟨hi, this.1⟩, this.2⟩),
          fun h => (by have := this.mpr ⟨h.1.2, h.2⟩; injection this with this; rw [this])⟩
      | ok d =>
        rw [hd] at this
        exact ⟨fun h => (by cases h), fun h => (by have := this.mpr ⟨h.1.2, h.2⟩; cases this)⟩
    · rw [if_neg hc]
      exact ⟨fun h => (by cases h), fun h => absurd ((calls_iff c k).mpr (hb.mp h.1).1) hc⟩
  | .none, c, k, w => by unfold toDictV; exact bad_leaf (by simp)
  | .bool _, c, k, w => by unfold toDictV; exact bad_leaf (by simp)
  | .int _, c, k, w => by unfold toDictV; exact bad_leaf (by simp)
  | .float _, c, k, w => by unfold toDictV; exact bad_leaf (by simp)
  | .str _, c, k, w => by unfold toDictV; exact bad_leaf (by simp)
  | .bytes _, c, k, w => by unfold toDictV; exact bad_leaf (by simp)
  | .list _, c, k, w => by unfold toDictV; exact bad_leaf (by simp)
  | .tuple _, c, k, w => by unfold toDictV; exact bad_leaf (by simp)
  | .dict _, c, k, w => by unfold toDictV; exact bad_leaf (by simp)
  | .tag _ _, c, k, w => by unfold toDictV; exact bad_leaf (by simp)
  | .enum _ _, c, k, w => by unfold toDictV; exact bad_leaf (by simp)
  | .fdict _ _, c, k, w => by unfold toDictV; exact bad_leaf (by simp)
  | .mask _, c, k, w => by unfold toDictV; exact bad_leaf (by simp)
  | .msg _ _ _ _ _ _, c, k, w => by unfold toDictV; exact bad_leaf (by simp)
private theorem members_error : ∀ (fs : Attrs) (c : ContId) (x : Exc), toDictF c fs = .error x ↔
    (∃ p ∈ fs, Bad c p.1 p.2) ∧ x = .typeError
  | [], c, x => by
    unfold toDictF
    exact ⟨fun h => (by cases h), fun h => (by obtain ⟨⟨_, h, _⟩, _⟩ := h; cases h)⟩
  | (k, v) :: rest, c, x => by
    have h1 := member_error v c k x
    have h2 := members_error rest c x
    unfold toDictF
    cases hv : toDictV c k v with
    | error y =>
      have h3 := (member_error v c k y).mp hv
      dsimp only
      constructor
      · intro h; injection h with h; subst h; exact ⟨⟨_, List.mem_cons_self, h3.1⟩, h3.2⟩
      · rintro ⟨_, rfl⟩; rw [h3.2]
    | ok v' =>
      rw [hv] at h1
      have hnb : ¬ Bad c k v := fun hb => by
        have := (member_error v c k .typeError).mpr ⟨hb, rfl⟩
        rw [hv] at this
        cases this
      dsimp only
      cases hr : toDictF c rest with
      | error y =>
        have h3 := (members_error rest c y).mp hr
        dsimp only
        constructor
        · intro h; injection h with h; subst h
          obtain ⟨⟨p, hp, hb⟩, e⟩ := h3
          exact ⟨⟨p, List.mem_cons_of_mem _ hp, hb⟩, e⟩
        · rintro ⟨_, rfl⟩; rw [h3.2]
      | ok d =>
        rw [hr] at h2
        refine ⟨fun h => (by cases h), ?_⟩
        rintro ⟨⟨p, hp, hb⟩, rfl⟩
        rcases List.mem_cons.mp hp with rfl | hp
        · exact absurd hb hnb
        · have := h2.mpr ⟨⟨p, hp, hb⟩, rfl⟩
          cases this
end

theorem indescribable_iff {v : Val} {x : Exc} : toDict v = .error x ↔ Indescribable v x := by
  constructor
  · intro h
    unfold toDict at h
    split at h
    · rename_i c fs
      cases hd : toDictF c fs with
      | ok d => rw [hd] at h; cases h
      | error y =>
        rw [hd] at h
        injection h with h
        subst h
        obtain ⟨h1, rfl⟩ := (members_error fs c _).mp hd
        exact .mask (mask_inv.mpr h1)
    · rename_i hn
      injection h with h
      subst h
      exact .stranger fun c fs e => hn c fs e
  · intro h
    cases h with
    | stranger h =>
      unfold toDict
      split
      · exact absurd rfl (h _ _)
      · rfl
    | mask h =>
      have hc : ∃ c fs, v = .cont c fs := by cases h <;> exact ⟨_, _, rfl⟩
      obtain ⟨c, fs, rfl⟩ := hc
      unfold toDict
      dsimp only
      rw [(members_error fs c .typeError).mpr ⟨mask_inv.mp h, rfl⟩]

/-! ### Lists -/

theorem first_fault {α : Type _} {f : Val → Res α} {Fine : Val → Prop} {Fault : Val → Exc → Prop}
    (h1 : ∀ v, Fine v ↔ ∃ w, f v = .ok w) (h2 : ∀ v x, f v = .error x ↔ Fault v x) :
    ∀ (l : List Val) (x : Exc), mapRes f l = .error x ↔ FirstFault Fine Fault l x
  | [], x => by
    refine ⟨fun h => (by cases h), ?_⟩
    rintro ⟨b, v, a, e, _⟩
    cases b <;> cases e
  | y :: ys, x => by
    have ih := first_fault h1 h2 ys x
    unfold mapRes
    cases hy : f y with
    | error z =>
      dsimp only
      constructor
      · intro h; injection h with h; subst h
        exact ⟨[], y, ys, rfl, fun _ h => (by cases h), (h2 _ _).mp hy⟩
      · rintro ⟨b, v, a, e, hb, hf⟩
        cases b with
        | nil =>
          injection e with e1 e2
          subst e1
          have := (h2 _ _).mpr hf
          rw [hy] at this
          injection this with this
          rw [this]
        | cons z' b =>
          injection e with e1 e2
          subst e1
          obtain ⟨w, hw⟩ := (h1 _).mp (hb y List.mem_cons_self)
          rw [hy] at hw
          cases hw
    | ok w =>
      dsimp only
      have hs : FirstFault Fine Fault (y :: ys) x ↔ FirstFault Fine Fault ys x := by
        constructor
        · rintro ⟨b, v, a, e, hb, hf⟩
          cases b with
          | nil =>
            injection e with e1 e2
            subst e1
            have := (h2 _ _).mpr hf
            rw [hy] at this
            cases this
          | cons z' b =>
            injection e with e1 e2
            exact ⟨b, v, a, e2, fun y hy => hb y (List.mem_cons_of_mem _ hy), hf⟩
        · rintro ⟨b, v, a, rfl, hb, hf⟩
          refine ⟨y :: b, v, a, rfl, fun z hz => ?_, hf⟩
          rcases List.mem_cons.mp hz with rfl | hz
          · exact (h1 _).mpr ⟨w, hy⟩
          · exact hb z hz
      rw [hs, ← ih]
      cases mapRes f ys with
      | error z => simp
      | ok r => simp

/-! ### Peers -/

private theorem lookup_found {n : PStr} : ∀ {before after : Attrs} {x : Val}, n ∉ before.map Prod.fst →
    lookupName n (before ++ (n, x) :: after) = some x
  | [], _, _, _ => by simp [lookupName]
  | (k, v) :: b, a, x, h => by
    simp only [List.map_cons, List.mem_cons, not_or] at h
    simp only [List.cons_append, lookupName]
    rw [if_neg (fun e => h.1 e.symm)]
    exact lookup_found h.2

private theorem lookup_lost {n : PStr} : ∀ {items : Attrs}, lookupName n items = none → n ∉ items.map Prod.fst
  | [], _ => by simp
  | (k, v) :: b, h => by
    simp only [lookupName] at h
    by_cases hk : k = n
    · rw [if_pos hk] at h; cases h
    · rw [if_neg hk] at h
      simp only [List.map_cons, List.mem_cons, not_or]
      exact ⟨fun e => hk e.symm, lookup_lost h⟩

private theorem lookup_where {n : PStr} : ∀ {items : Attrs} {x : Val}, lookupName n items = some x →
    ∃ before after, items = before ++ (n, x) :: after ∧ n ∉ before.map Prod.fst
  | [], _, h => by cases h
  | (k, v) :: b, x, h => by
    simp only [lookupName] at h
    by_cases hk : k = n
    · rw [if_pos hk] at h
      injection h with h
      subst h hk
      exact ⟨[], b, rfl, by simp⟩
    · rw [if_neg hk] at h
      obtain ⟨p, q, rfl, hp⟩ := lookup_where h
      refine ⟨(k, v) :: p, q, rfl, ?_⟩
      simp only [List.map_cons, List.mem_cons, not_or]
      exact ⟨fun e => hk e.symm, hp⟩

theorem peer_unsent {p : Val} {x : Exc} : serPeer p = .error x ↔ PeerUnsent p x := by
  constructor
  · intro h
    unfold serPeer at h
    split at h
    · rename_i items
      cases hl : lookupName p!"node" items with
      | none =>
        rw [hl] at h
        injection h with h
        subst h
        exact .lost (lookup_lost hl)
      | some n =>
        rw [hl] at h
        dsimp only at h
        obtain ⟨b, a, rfl, hb⟩ := lookup_where hl
        cases hd : toDict n with
        | ok d => rw [hd] at h; cases h
        | error y =>
          rw [hd] at h
          injection h with h
          subst h
          exact .node hb (indescribable_iff.mp hd)
    · rename_i hn
      injection h with h
      subst h
      exact .stranger fun items e => hn items e
  · intro h
    cases h with
    | stranger h =>
      unfold serPeer
      split
      · exact absurd rfl (h _)
      · rfl
    | @lost items h =>
      unfold serPeer
      dsimp only
      cases hl : lookupName p!"node" items with
      | none => rfl
      | some n =>
        obtain ⟨b, a, rfl, hb⟩ := lookup_where hl
        exact absurd (by simp) h
    | node hb h =>
      unfold serPeer
      dsimp only
      rw [lookup_found hb]
      dsimp only
      rw [indescribable_iff.mpr h]

end Verif
