import Verif.Lemmas.PyEq
import Verif.Lemmas.Slots
import Verif.Lemmas.Cont
/-! # Serialising keeps dictionary keys distinct -/

set_option linter.unusedSimpArgs false

namespace Verif

open Spec

theorem keyed_unEnum {v : Val} (h : Keyed v) : Keyed v.unEnum := by
  cases v <;> first | exact h | simp [Val.unEnum, Keyed]

theorem keyed_leaf {c : ContId} {k : PStr} {v w : Val} (h : Keyed v) (hw : toDictLeaf c k v = .ok w) :
    Keyed w := by
  unfold toDictLeaf at hw
  repeat' split at hw
  all_goals cases hw
  all_goals first | exact keyed_unEnum h | simp [Keyed]

theorem toDictF_keys {c : ContId} : ∀ {fs : Attrs} {d : List (Val × Val)}, toDictF c fs = .ok d →
    d.map Prod.fst = fs.map fun kv => .str kv.1
  | [], d, h => by unfold toDictF at h; cases h; rfl
  | (k, v) :: rest, d, h => by
    unfold toDictF at h
    split at h
    · cases h
    split at h
    · cases h
    rename_i r hr
    injection h with h; subst h
    simp [toDictF_keys hr]

theorem distinct_str {fs : Attrs} (h : (fs.map Prod.fst).Nodup) :
    distinctKeys (fs.map fun kv => Val.str kv.1) = true := by
  rw [distinct_iff, List.map_map]
  have : (Val.keyNorm ∘ fun kv : PStr × Val => Val.str kv.1) = Val.str ∘ Prod.fst := rfl
  rw [this, ← List.map_map]
  exact List.Pairwise.map _ (fun a b e h => e (by injection h)) h

mutual
theorem keyed_toDictV {c : ContId} {k : PStr} (v : Val) {w : Val} (h : Keyed v)
    (hw : toDictV c k v = .ok w) : Keyed w := by
  cases v with
  | cont c' fs' =>
    unfold toDictV at hw
    split at hw
    · split at hw
      · cases hw
      · rename_i d hd
        injection hw with hw; subst hw
        simp only [Keyed] at h ⊢
        refine ⟨?_, keyed_toDictF fs' h.2 hd⟩
        rw [toDictF_keys hd]
        exact distinct_str h.1
    · injection hw with hw; subst hw; exact h
  | _ => unfold toDictV at hw; exact keyed_leaf h hw
theorem keyed_toDictF {c : ContId} (fs : Attrs) {d : List (Val × Val)} (h : KeyedF fs)
    (hw : toDictF c fs = .ok d) : KeyedD d := by
  cases fs with
  | nil => unfold toDictF at hw; cases hw; simp [KeyedD]
  | cons p rest =>
    obtain ⟨k, v⟩ := p
    unfold toDictF at hw
    simp only [KeyedF] at h
    split at hw
    · cases hw
    rename_i v' hv
    split at hw
    · cases hw
    rename_i r hr
    injection hw with hw; subst hw
    simp only [KeyedD]
    exact ⟨by simp [Keyed], keyed_toDictV v h.1 hv, keyed_toDictF rest h.2 hr⟩
end

theorem keyed_toDict {v w : Val} (h : Keyed v) (hw : toDict v = .ok w) : Keyed w := by
  unfold toDict at hw
  split at hw
  · rename_i c fs
    split at hw
    · cases hw
    rename_i d hd
    injection hw with hw; subst hw
    simp only [Keyed] at h ⊢
    refine ⟨?_, keyed_toDictF fs h.2 hd⟩
    rw [toDictF_keys hd]
    exact distinct_str h.1
  · cases hw

theorem keyed_iter {v : Val} {l : List Val} (h : Keyed v) (hi : v.iter = some l) : KeyedL l := by
  unfold Val.iter at hi
  rw [keyedL_mem]
  intro x hx
  split at hi <;> cases hi <;> simp only [Keyed] at h
  · exact keyedL_mem.mp h x hx
  · exact keyedL_mem.mp h x hx
  · obtain ⟨_, _, rfl⟩ := List.mem_map.mp hx; simp [Keyed]
  · obtain ⟨_, _, rfl⟩ := List.mem_map.mp hx; simp [Keyed]
  · obtain ⟨q, hq, rfl⟩ := List.mem_map.mp hx; exact (keyedD_mem.mp h.2 q hq).1
  · obtain ⟨_, _, rfl⟩ := List.mem_map.mp hx; simp [Keyed]

theorem keyed_mapRes {f : Val → Res Val} {l r : List Val} (hl : KeyedL l)
    (hf : ∀ x w, Keyed x → f x = .ok w → Keyed w) (h : mapRes f l = .ok r) : KeyedL r := by
  rw [keyedL_mem] at hl ⊢
  intro y hy
  obtain ⟨x, hx, e⟩ := mapRes_ok h y hy
  exact hf x y (hl x hx) e

theorem keyed_serPeer {v w : Val} (h : Keyed v) (hw : serPeer v = .ok w) : Keyed w := by
  unfold serPeer at hw
  split at hw
  · rename_i items
    simp only [Keyed] at h
    split at hw
    · cases hw
    rename_i n hn
    split at hw
    · cases hw
    rename_i d hd
    injection hw with hw; subst hw
    have hmem := mem_of_lookupName hn
    have hk := keyed_toDict (keyedF_mem.mp h.2 _ hmem) hd
    simp only [Keyed]
    rw [List.map_map]
    refine ⟨?_, ?_⟩
    · refine distinct_str (fs := setName p!"node" d items) ?_
      rw [setName_names _ _ _ (List.mem_map.mpr ⟨_, hmem, rfl⟩)]
      exact h.1
    · rw [keyedD_mem]
      intro kv hkv
      obtain ⟨q, hq, rfl⟩ := List.mem_map.mp hkv
      refine ⟨by simp [Keyed], ?_⟩
      rcases setName_mem (k' := q.1) (v' := q.2) hq with h' | h'
      · exact h'.2 ▸ hk
      · exact keyedF_mem.mp h.2 _ h'
  · cases hw

theorem keyed_serHook {c : Cls} {key : PStr} {v w : Val} (h : Keyed v)
    (hw : serHook c key v = some (.ok w)) : Keyed w := by
  unfold serHook at hw
  split at hw
  · injection hw with hw
    split at hw
    · rename_i d hd
      injection hw with hw; subst hw
      exact keyed_toDict h hd
    all_goals cases hw
  split at hw
  · injection hw with hw
    split at hw
    · cases hw
    rename_i l hl
    split at hw
    · cases hw
    rename_i r hr
    injection hw with hw; subst hw
    simp only [Keyed]
    exact keyed_mapRes (keyed_iter h hl) (fun _ _ => keyed_serPeer) hr
  split at hw
  · injection hw with hw
    split at hw
    · rename_i l
      split at hw
      · cases hw
      rename_i r hr
      injection hw with hw; subst hw
      simp only [Keyed] at h ⊢
      exact keyed_mapRes h (fun _ _ => keyed_toDict) hr
    · cases hw
  split at hw
  · split at hw
    · injection hw with hw; exact keyed_toDict h hw
    · cases hw
  split at hw
  · split at hw
    · injection hw with hw; exact keyed_toDict h hw
    · cases hw
  · cases hw

mutual
theorem keyed_serAttrs {c : Cls} (as : Attrs) {l : List Val} (h : KeyedF as)
    (hw : serAttrs c as = .ok l) : KeyedL l := by
  cases as with
  | nil => unfold serAttrs at hw; cases hw; simp [KeyedL]
  | cons p rest =>
    obtain ⟨k, v⟩ := p
    unfold serAttrs at hw
    simp only [KeyedF] at h
    split at hw
    · split at hw
      · cases hw
      rename_i v' hv
      split at hw
      · cases hw
      rename_i r hr
      injection hw with hw; subst hw
      simp only [KeyedL, Keyed]
      exact ⟨⟨trivial, keyed_serSlot v h.1 hv, trivial⟩, keyed_serAttrs rest h.2 hr⟩
    · exact keyed_serAttrs rest h.2 hw
theorem keyed_serSlot {c : Cls} {key : PStr} (v : Val) {w : Val} (h : Keyed v)
    (hw : serSlot c key v = .ok w) : Keyed w := by
  cases hk : serHook c key v with
  | some r =>
    unfold serSlot at hw
    rw [hk] at hw
    dsimp only at hw
    rw [hw] at hk
    exact keyed_serHook h hk
  | none =>
    cases hl : lookupName key c.msgSlots with
    | none =>
      cases v <;> unfold serSlot at hw <;> rw [hk] at hw <;> dsimp only at hw
      all_goals (try rw [hl] at hw)
      all_goals cases hw
      all_goals first | exact h | simp [Keyed]
    | some sd =>
      cases v with
      | none =>
        unfold serSlot at hw; rw [hk] at hw; dsimp only at hw; rw [hl] at hw; dsimp only at hw
        split at hw <;> cases hw
        simp [Keyed, KeyedL]
      | enum e s =>
        unfold serSlot at hw; rw [hk] at hw; dsimp only at hw
        cases hw; simp [Keyed]
      | list l =>
        unfold serSlot at hw; rw [hk] at hw; dsimp only at hw; rw [hl] at hw; dsimp only at hw
        split at hw
        · cases hw
        rename_i r hr
        injection hw with hw; subst hw
        simp only [Keyed] at h
        simp only [Keyed, KeyedL, true_and, and_true]
        exact keyed_serMsgs l h hr
      | msg c' ty ts enc sig attrs =>
        unfold serSlot at hw; rw [hk] at hw; dsimp only at hw; rw [hl] at hw; dsimp only at hw
        split at hw
        · split at hw
          · cases hw
          rename_i s hs
          injection hw with hw; subst hw
          simp only [Keyed] at h
          simp only [Keyed, KeyedL, true_and, and_true]
          exact ⟨⟨h.1, h.2.1, h.2.2.1⟩, h.2.2.2.1, keyed_serAttrs attrs h.2.2.2.2 hs⟩
        · cases hw
      | _ => unfold serSlot at hw; rw [hk] at hw; dsimp only at hw; rw [hl] at hw; cases hw
theorem keyed_serMsgs {want : Cls} {key : PStr} (l : List Val) {r : List Val} (h : KeyedL l)
    (hw : serMsgs want key l = .ok r) : KeyedL r := by
  cases l with
  | nil => unfold serMsgs at hw; cases hw; simp [KeyedL]
  | cons x rest =>
    simp only [KeyedL] at h
    cases x with
    | msg c' ty ts enc sig attrs =>
      unfold serMsgs at hw
      split at hw
      · split at hw
        · cases hw
        rename_i s hs
        split at hw
        · cases hw
        rename_i r' hr
        injection hw with hw; subst hw
        have h1 := h.1
        simp only [Keyed] at h1
        simp only [Keyed, KeyedL, true_and, and_true]
        exact ⟨⟨⟨h1.1, h1.2.1, h1.2.2.1⟩, h1.2.2.2.1, keyed_serAttrs attrs h1.2.2.2.2 hs⟩,
          keyed_serMsgs rest h.2 hr⟩
      · cases hw
    | _ => unfold serMsgs at hw; cases hw
end

theorem keyed_slots {m : Msg} {s : Val} (h : KeyedF m.attrs) (hs : m.slots = .ok s) : Keyed s := by
  unfold Msg.slots at hs
  split at hs
  · cases hs
  rename_i l hl
  injection hs with hs; subst hs
  simp only [Keyed]
  exact keyed_serAttrs _ h hl

end Verif
