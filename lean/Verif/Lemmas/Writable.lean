import Verif.Lemmas.Encodes
import Verif.Model.Message
import Verif.Spec.Writable
/-! # What is small enough stays so in slots, and can be written -/

set_option linter.unusedSimpArgs false

namespace Verif

open Spec

mutual
theorem enc_fits (v : Val) (h : v.wireOk = true) (hs : Writable v) : ∃ b, cborEnc v = .ok b := by
  match v, h, hs with
  | .none, _, _ => exact ⟨_, rfl⟩
  | .bool _, _, _ => exact ⟨_, rfl⟩
  | .int i, _, hs =>
    simp only [Writable] at hs; simp only [cborEnc]
    exact cborInt_some i (2 ^ 64 - 1) hs (Nat.sub_lt (Nat.two_pow_pos 64) Nat.one_pos)
  | .float _, _, _ => exact ⟨_, rfl⟩
  | .str s, _, hs =>
    simp only [Writable] at hs; simp only [cborEnc]
    exact cborStr_some _ _ (Nat.lt_of_le_of_lt (utf8Enc_length s) hs)
  | .bytes b, _, hs => simp only [Writable] at hs; simp only [cborEnc]; exact cborStr_some _ _ hs
  | .list l, h, hs =>
    simp only [Val.wireOk] at h; simp only [Writable] at hs; simp only [cborEnc]
    exact withHead_some hs.1 (enc_fitsL l h hs.2)
  | .tuple l, h, hs =>
    simp only [Val.wireOk] at h; simp only [Writable] at hs; simp only [cborEnc]
    exact withHead_some hs.1 (enc_fitsL l h hs.2)
  | .dict d, h, hs =>
    simp only [Val.wireOk, Bool.and_eq_true] at h; simp only [Writable] at hs; simp only [cborEnc]
    exact withHead_some hs.1 (enc_fitsD d h.1 hs.2)
  | .tag n v, h, hs =>
    simp only [Val.wireOk, Bool.and_eq_true] at h; simp only [Writable] at hs; simp only [cborEnc]
    rw [if_neg hs.2.1]
    exact withHead_some hs.1 (enc_fits v h.2 hs.2.2)
  | .enum e s, h, hs =>
    simp only [Val.wireOk] at h; simp only [Writable] at hs; simp only [cborEnc]
    rw [if_pos h]
    exact cborStr_some _ _ (Nat.lt_of_le_of_lt (utf8Enc_length s) hs)
  | .fdict _ items, h, hs =>
    simp only [Val.wireOk, Bool.and_eq_true] at h; simp only [Writable] at hs; simp only [cborEnc]
    exact withHead_some hs.1 (enc_fitsF items h.1 hs.2)
  | .cont _ _, h, _ => simp [Val.wireOk] at h
  | .mask _, h, _ => simp [Val.wireOk] at h
  | .msg .., h, _ => simp [Val.wireOk] at h
theorem enc_fitsL (l : List Val) (h : Val.wireOkL l = true) (hs : WritableL l) :
    ∃ b, cborEncL l = .ok b := by
  match l, h, hs with
  | [], _, _ => exact ⟨_, rfl⟩
  | x :: xs, h, hs =>
    simp only [Val.wireOkL, Bool.and_eq_true] at h; simp only [WritableL] at hs; simp only [cborEncL]
    exact cat_some (enc_fits x h.1 hs.1) (enc_fitsL xs h.2 hs.2)
theorem enc_fitsD (d : List (Val × Val)) (h : Val.wireOkD d = true) (hs : WritableD d) :
    ∃ b, cborEncD d = .ok b := by
  match d, h, hs with
  | [], _, _ => exact ⟨_, rfl⟩
  | (k, x) :: xs, h, hs =>
    simp only [Val.wireOkD, Bool.and_eq_true] at h; simp only [WritableD] at hs; simp only [cborEncD]
    exact cat_some (enc_fits k h.1.1 hs.1)
      (cat_some (enc_fits x h.1.2 hs.2.1) (enc_fitsD xs h.2 hs.2.2))
theorem enc_fitsF (f : List (PStr × Val)) (h : Val.wireOkF f = true) (hs : WritableA f) :
    ∃ b, cborEncF f = .ok b := by
  match f, h, hs with
  | [], _, _ => exact ⟨_, rfl⟩
  | (k, x) :: xs, h, hs =>
    simp only [Val.wireOkF, Bool.and_eq_true] at h; simp only [WritableA] at hs; simp only [cborEncF]
    exact cat_some (cborStr_some _ _ (Nat.lt_of_le_of_lt (utf8Enc_length k) hs.1))
      (cat_some (enc_fits x h.1 hs.2.1) (enc_fitsF xs h.2 hs.2.2))
end

theorem dumps_fits {v : Val} (h : v.wireOk = true) (hs : Writable v) : ∃ b, dumps v = .ok b := by
  obtain ⟨b, hb⟩ := enc_fits v h hs
  exact ⟨b, by unfold dumps; rw [hb]⟩

theorem fitsA_mem {as : Attrs} : WritableA as ↔ ∀ k v, (k, v) ∈ as → 4 * k.length < 2 ^ 64 ∧ Writable v := by
  induction as with
  | nil => simp [WritableA]
  | cons p rest ih =>
    obtain ⟨k, v⟩ := p
    simp only [WritableA, ih, List.mem_cons, Prod.mk.injEq]
    constructor
    · rintro ⟨h1, h2, h3⟩ k' v' (⟨rfl, rfl⟩ | hm)
      · exact ⟨h1, h2⟩
      · exact h3 k' v' hm
    · intro h
      exact ⟨(h k v (Or.inl ⟨rfl, rfl⟩)).1, (h k v (Or.inl ⟨rfl, rfl⟩)).2,
        fun k' v' hm => h k' v' (Or.inr hm)⟩

theorem fitsL_mem {l : List Val} : WritableL l ↔ ∀ v ∈ l, Writable v := by
  induction l with
  | nil => simp [WritableL]
  | cons p rest ih => simp [WritableL, ih]

theorem fitsD_names {as : Attrs} (h : WritableA as) : WritableD (as.map fun p => (Val.str p.1, p.2)) := by
  induction as with
  | nil => simp [WritableD]
  | cons p rest ih =>
    obtain ⟨k, v⟩ := p
    simp only [WritableA] at h
    simp only [List.map_cons, WritableD, Writable]
    exact ⟨h.1, h.2.1, ih h.2.2⟩

theorem fitsD_key : ∀ {d : List (Val × Val)} {p : Val × Val}, WritableD d → p ∈ d → Writable p.1
  | (k, x) :: rest, p, h, hm => by
    simp only [WritableD] at h
    rcases List.mem_cons.mp hm with rfl | hm
    · exact h.1
    · exact fitsD_key h.2.2 hm

/-! ### Containers -/

theorem fits_unEnum {v : Val} (h : Writable v) : Writable v.unEnum := by
  cases v <;> simp only [Val.unEnum] <;> first | exact h | (simp only [Writable] at *; exact h)

theorem fits_toDictLeaf {c : ContId} {k : PStr} {v y : Val} (h : Writable v)
    (e : toDictLeaf c k v = .ok y) : Writable y := by
  unfold toDictLeaf at e
  repeat' split at e
  all_goals cases e
  all_goals first
    | exact fits_unEnum h
    | exact h
    | (simp only [Writable] at *; done)
    | (simp only [Writable] at *; exact h)

mutual
theorem fits_toDictV (c : ContId) (k : PStr) (v : Val) (y : Val) (h : Writable v)
    (e : toDictV c k v = .ok y) : Writable y := by
  match v with
  | .cont c' fs' =>
    unfold toDictV at e
    split at e
    · split at e
      · cases e
      · rename_i d hd
        injection e with e; subst e
        simp only [Writable] at h ⊢
        obtain ⟨h1, h2⟩ := fits_toDictF c' fs' d h.2 hd
        exact ⟨h2 ▸ h.1, h1⟩
    · injection e with e; subst e; exact h
  | .none | .bool _ | .int _ | .float _ | .str _ | .bytes _ | .list _ | .tuple _ | .dict _
  | .tag _ _ | .enum _ _ | .fdict _ _ | .mask _ | .msg .. =>
    unfold toDictV at e
    exact fits_toDictLeaf h e
theorem fits_toDictF (c : ContId) (fs : List (PStr × Val)) (d : List (Val × Val)) (h : WritableA fs)
    (e : toDictF c fs = .ok d) : WritableD d ∧ d.length = fs.length := by
  match fs with
  | [] => unfold toDictF at e; injection e with e; subst e; simp [WritableD]
  | (k, v) :: rest =>
    unfold toDictF at e
    split at e
    · cases e
    rename_i v' hv
    split at e
    · cases e
    rename_i r hr
    injection e with e; subst e
    simp only [WritableA] at h
    obtain ⟨h1, h2⟩ := fits_toDictF c rest r h.2.2 hr
    simp only [WritableD, Writable, List.length_cons, h2, and_true]
    exact ⟨h.1, fits_toDictV c k v v' h.2.1 hv, h1⟩
end

theorem fits_toDict {v y : Val} (h : Writable v) (e : toDict v = .ok y) : Writable y := by
  unfold toDict at e
  split at e
  · split at e
    · cases e
    rename_i c fs _ d hd
    injection e with e; subst e
    simp only [Writable] at h ⊢
    obtain ⟨h1, h2⟩ := fits_toDictF c fs d h.2 hd
    exact ⟨h2 ▸ h.1, h1⟩
  · cases e

/-! ### Slots -/

theorem fits_setName {n : PStr} {w : Val} (hn : 4 * n.length < 2 ^ 64) (hw : Writable w) :
    ∀ {as : Attrs}, WritableA as → WritableA (setName n w as)
  | [], _ => by simp only [setName, WritableA]; exact ⟨hn, hw, trivial⟩
  | (k, v) :: rest, h => by
    simp only [WritableA] at h
    unfold setName
    split
    · simp only [WritableA]; exact ⟨h.1, hw, h.2.2⟩
    · simp only [WritableA]; exact ⟨h.1, h.2.1, fits_setName hn hw h.2.2⟩

theorem length_setName {n : PStr} {w : Val} : ∀ {as : Attrs} {v : Val}, lookupName n as = some v →
    (setName n w as).length = as.length
  | [], _, h => by simp [lookupName] at h
  | (k, x) :: rest, v, h => by
    unfold setName
    split
    · rfl
    · rename_i hk
      unfold lookupName at h
      rw [if_neg hk] at h
      simp only [List.length_cons, length_setName h]

theorem fits_lookup {n : PStr} : ∀ {as : Attrs} {v : Val}, WritableA as → lookupName n as = some v → Writable v
  | [], _, _, h => by simp [lookupName] at h
  | (k, x) :: rest, v, hf, h => by
    simp only [WritableA] at hf
    unfold lookupName at h
    split at h
    · injection h with h; subst h; exact hf.2.1
    · exact fits_lookup hf.2.2 h

theorem fits_serPeer {p y : Val} (h : Writable p) (e : serPeer p = .ok y) : Writable y := by
  unfold serPeer at e
  split at e
  · rename_i items
    split at e
    · cases e
    rename_i n hn
    split at e
    · cases e
    rename_i d hd
    injection e with e; subst e
    simp only [Writable] at h ⊢
    have hs := fits_setName (n := p!"node") (by decide) (fits_toDict (fits_lookup h.2 hn) hd) h.2
    refine ⟨?_, fitsD_names hs⟩
    rw [List.length_map, length_setName hn]
    exact h.1
  · cases e

theorem fits_mapRes {f : Val → Res Val} (hf : ∀ x y, Writable x → f x = .ok y → Writable y) :
    ∀ {l r : List Val}, WritableL l → mapRes f l = .ok r → WritableL r ∧ r.length = l.length
  | [], r, _, e => by simp [mapRes] at e; subst e; simp [WritableL]
  | x :: xs, r, h, e => by
    simp only [WritableL] at h
    unfold mapRes at e
    split at e
    · cases e
    rename_i y hy
    split at e
    · cases e
    rename_i ys hys
    injection e with e; subst e
    obtain ⟨h1, h2⟩ := fits_mapRes hf h.2 hys
    simp only [WritableL, List.length_cons, h2, and_true]
    exact ⟨hf x y h.1 hy, h1⟩

theorem fits_iter {v : Val} {l : List Val} (h : Writable v) (e : v.iter = some l) :
    WritableL l ∧ l.length < 2 ^ 64 := by
  cases v <;> simp only [Val.iter, reduceCtorEq, Option.some.injEq] at e <;> subst e <;>
    simp only [Writable] at h
  · refine ⟨fitsL_mem.mpr fun x hx => ?_, by simp only [List.length_map]; omega⟩
    obtain ⟨c, _, rfl⟩ := List.mem_map.mp hx
    simp only [Writable, List.length_cons, List.length_nil]; decide
  · refine ⟨fitsL_mem.mpr fun x hx => ?_, by simp only [List.length_map]; exact h⟩
    obtain ⟨c, _, rfl⟩ := List.mem_map.mp hx
    simp only [Writable, Int.natAbs_natCast]
    refine Nat.lt_of_lt_of_le c.toNat_lt ?_
    generalize hn : 2 ^ 64 - 1 = n
    exact Nat.le_trans (by decide) (Nat.pow_le_pow_right (i := 1) (by decide) (by omega))
  · exact h.symm
  · exact h.symm
  · rename_i d
    refine ⟨fitsL_mem.mpr fun x hx => ?_, by simp only [List.length_map]; exact h.1⟩
    obtain ⟨p, hp, rfl⟩ := List.mem_map.mp hx
    exact fitsD_key h.2 hp
  · rename_i items
    refine ⟨fitsL_mem.mpr fun x hx => ?_, by simp only [List.length_map]; exact h.1⟩
    obtain ⟨p, hp, rfl⟩ := List.mem_map.mp hx
    simp only [Writable]
    exact (fitsA_mem.mp h.2 p.1 p.2 hp).1

theorem fits_serHook {c : Cls} {key : PStr} {v y : Val} (h : Writable v)
    (e : serHook c key v = some (.ok y)) : Writable y := by
  unfold serHook at e
  split at e
  · injection e with e
    split at e
    · rename_i d hd
      injection e with e; subst e
      exact fits_toDict h hd
    · cases e
    · cases e
  split at e
  · injection e with e
    split at e
    · cases e
    rename_i l hl
    split at e
    · cases e
    rename_i r hr
    injection e with e; subst e
    obtain ⟨h1, h2⟩ := fits_iter h hl
    obtain ⟨h3, h4⟩ := fits_mapRes (fun x y => fits_serPeer) h1 hr
    simp only [Writable]
    exact ⟨h4 ▸ h2, h3⟩
  split at e
  · injection e with e
    split at e
    · rename_i l
      split at e
      · cases e
      rename_i r hr
      injection e with e; subst e
      simp only [Writable] at h ⊢
      obtain ⟨h3, h4⟩ := fits_mapRes (fun x y => fits_toDict) h.2 hr
      exact ⟨h4 ▸ h.1, h3⟩
    · cases e
  split at e
  · split at e
    · injection e with e; exact fits_toDict h e
    · cases e
  split at e
  · split at e
    · injection e with e; exact fits_toDict h e
    · cases e
  cases e

mutual
theorem fits_serAttrs (c : Cls) (as : List (PStr × Val)) (l : List Val) (h : WritableA as)
    (e : serAttrs c as = .ok l) : WritableL l ∧ l.length ≤ as.length := by
  match as with
  | [] => unfold serAttrs at e; injection e with e; subst e; simp [WritableL]
  | (k, v) :: rest =>
    simp only [WritableA] at h
    unfold serAttrs at e
    split at e
    · split at e
      · cases e
      rename_i v' hv
      split at e
      · cases e
      rename_i r hr
      injection e with e; subst e
      obtain ⟨h1, h2⟩ := fits_serAttrs c rest r h.2.2 hr
      simp only [WritableL, Writable, List.length_cons, List.length_nil]
      exact ⟨⟨⟨by decide, h.1, fits_serSlot c k v v' h.2.1 hv, trivial⟩, h1⟩, by omega⟩
    · obtain ⟨h1, h2⟩ := fits_serAttrs c rest l h.2.2 e
      exact ⟨h1, by simp only [List.length_cons]; omega⟩
theorem fits_serSlot (c : Cls) (key : PStr) (v y : Val) (h : Writable v)
    (e : serSlot c key v = .ok y) : Writable y := by
  match v with
  | .list l =>
    unfold serSlot at e
    split at e
    · rename_i r hr; subst e; exact fits_serHook h hr
    dsimp only at e
    split at e
    · injection e with e; subst e; exact h
    rename_i sd _
    split at e
    · cases e
    rename_i r hr
    injection e with e; subst e
    simp only [Writable] at h
    obtain ⟨h1, h2⟩ := fits_serMsgs sd.cls key l r h.2 hr
    simp only [Writable, WritableL, List.length_cons, List.length_nil]
    exact ⟨by decide, trivial, ⟨h2 ▸ h.1, h1⟩, trivial⟩
  | .msg c' ty ts enc sig attrs =>
    unfold serSlot at e
    split at e
    · rename_i r hr; subst e; exact fits_serHook h hr
    dsimp only at e
    split at e
    · injection e with e; subst e; exact h
    rename_i sd _
    split at e
    · split at e
      · cases e
      rename_i s hs
      injection e with e; subst e
      simp only [Writable] at h
      obtain ⟨h1, h2, h3, h4, h5, h6⟩ := h
      obtain ⟨h7, h8⟩ := fits_serAttrs c' attrs s h6 hs
      simp only [Writable, WritableL, List.length_cons, List.length_nil]
      exact ⟨by decide, trivial, ⟨by decide, ⟨by decide, h1, h2, h3, trivial⟩, h4,
        ⟨Nat.lt_of_le_of_lt h8 h5, h7⟩, trivial⟩, trivial⟩
    · cases e
  | .none =>
    unfold serSlot at e
    split at e
    · rename_i r hr; subst e; exact fits_serHook h hr
    dsimp only at e
    split at e
    · injection e with e; subst e; exact h
    split at e
    · injection e with e; subst e
      simp only [Writable, WritableL, List.length_cons, List.length_nil]; decide
    · cases e
  | .enum e' s =>
    unfold serSlot at e
    split at e
    · rename_i r hr; subst e; exact fits_serHook h hr
    dsimp only at e
    injection e with e; subst e
    simp only [Writable] at h ⊢; exact h
  | .bool _ | .int _ | .float _ | .str _ | .bytes _ | .tuple _ | .dict _
  | .tag _ _ | .cont _ _ | .fdict _ _ | .mask _ =>
    unfold serSlot at e
    split at e
    · rename_i r hr; subst e; exact fits_serHook h hr
    dsimp only at e
    split at e
    · injection e with e; subst e; exact h
    · cases e
theorem fits_serMsgs (want : Cls) (key : PStr) (l r : List Val) (h : WritableL l)
    (e : serMsgs want key l = .ok r) : WritableL r ∧ r.length = l.length := by
  match l with
  | [] => unfold serMsgs at e; injection e with e; subst e; simp [WritableL]
  | .msg c' ty ts enc sig attrs :: rest =>
    unfold serMsgs at e
    split at e
    · split at e
      · cases e
      rename_i s hs
      split at e
      · cases e
      rename_i r' hr
      injection e with e; subst e
      simp only [WritableL, Writable] at h
      obtain ⟨⟨h1, h2, h3, h4, h5, h6⟩, hrest⟩ := h
      obtain ⟨h7, h8⟩ := fits_serAttrs c' attrs s h6 hs
      obtain ⟨h9, h10⟩ := fits_serMsgs want key rest r' hrest hr
      simp only [Writable, WritableL, List.length_cons, List.length_nil, h10, and_true]
      exact ⟨⟨by decide, ⟨by decide, h1, h2, h3⟩, h4,
        ⟨Nat.lt_of_le_of_lt h8 h5, h7⟩⟩, h9⟩
    · cases e
  | .none :: _ | .enum _ _ :: _ | .bool _ :: _ | .int _ :: _ | .float _ :: _ | .str _ :: _
  | .bytes _ :: _ | .list _ :: _ | .tuple _ :: _ | .dict _ :: _ | .tag _ _ :: _ | .cont _ _ :: _
  | .fdict _ _ :: _ | .mask _ :: _ => unfold serMsgs at e; cases e
end

/-! ### Small values, for examples -/

mutual
/-- Every part is smaller than 1000. -/
def smallB (v : Val) : Bool :=
  match v with
  | .none => true
  | .bool _ => true
  | .int i => decide (i.natAbs < 2 ^ 64)
  | .float _ => true
  | .str s => decide (s.length < 1000)
  | .bytes b => decide (b.length < 1000)
  | .list l => decide (l.length < 1000) && smallBL l
  | .tuple l => decide (l.length < 1000) && smallBL l
  | .dict d => decide (d.length < 1000) && smallBD d
  | .tag _ _ => false
  | .enum _ s => decide (s.length < 1000)
  | .fdict _ items => decide (items.length < 1000) && smallBA items
  | .cont _ fs => decide (fs.length < 1000) && smallBA fs
  | .mask b => decide (b.length < 1000)
  | .msg _ ty ts enc sig attrs =>
    smallB ty && smallB ts && smallB enc && smallB sig && decide (attrs.length < 1000) && smallBA attrs
termination_by structural v
def smallBL (l : List Val) : Bool :=
  match l with
  | [] => true
  | x :: xs => smallB x && smallBL xs
termination_by structural l
def smallBD (d : List (Val × Val)) : Bool :=
  match d with
  | [] => true
  | (k, x) :: xs => smallB k && smallB x && smallBD xs
termination_by structural d
def smallBA (d : List (PStr × Val)) : Bool :=
  match d with
  | [] => true
  | (k, x) :: xs => decide (k.length < 1000) && smallB x && smallBA xs
termination_by structural d
end

theorem small_pow {n : Nat} (h : n < 2 ^ 64) : n < 256 ^ (2 ^ 64 - 1) := by
  generalize hk : 2 ^ 64 - 1 = k
  exact Nat.lt_of_lt_of_le h
    (Nat.le_trans (by decide) (Nat.pow_le_pow_right (i := 8) (by decide) (by omega)))

mutual
theorem fits_small (v : Val) (h : smallB v = true) : Writable v := by
  match v with
  | .none | .bool _ | .float _ => simp only [Writable]
  | .int i =>
    simp only [smallB, decide_eq_true_eq] at h
    simp only [Writable]
    exact small_pow h
  | .str s | .enum _ s => simp only [smallB, decide_eq_true_eq] at h; simp only [Writable]; omega
  | .bytes s | .mask s => simp only [smallB, decide_eq_true_eq] at h; simp only [Writable]; omega
  | .list l | .tuple l =>
    simp only [smallB, Bool.and_eq_true, decide_eq_true_eq] at h; simp only [Writable]
    exact ⟨by omega, fits_smallL l h.2⟩
  | .dict d =>
    simp only [smallB, Bool.and_eq_true, decide_eq_true_eq] at h; simp only [Writable]
    exact ⟨by omega, fits_smallD d h.2⟩
  | .tag _ _ => simp [smallB] at h
  | .fdict _ d | .cont _ d =>
    simp only [smallB, Bool.and_eq_true, decide_eq_true_eq] at h; simp only [Writable]
    exact ⟨by omega, fits_smallA d h.2⟩
  | .msg _ ty ts enc sig attrs =>
    simp only [smallB, Bool.and_eq_true, decide_eq_true_eq] at h; simp only [Writable]
    exact ⟨fits_small ty h.1.1.1.1.1, fits_small ts h.1.1.1.1.2, fits_small enc h.1.1.1.2,
      fits_small sig h.1.1.2, by omega, fits_smallA attrs h.2⟩
theorem fits_smallL (l : List Val) (h : smallBL l = true) : WritableL l := by
  match l with
  | [] => simp only [WritableL]
  | x :: xs =>
    simp only [smallBL, Bool.and_eq_true] at h
    simp only [WritableL]
    exact ⟨fits_small x h.1, fits_smallL xs h.2⟩
theorem fits_smallD (d : List (Val × Val)) (h : smallBD d = true) : WritableD d := by
  match d with
  | [] => simp only [WritableD]
  | (k, x) :: xs =>
    simp only [smallBD, Bool.and_eq_true] at h
    simp only [WritableD]
    exact ⟨fits_small k h.1.1, fits_small x h.1.2, fits_smallD xs h.2⟩
theorem fits_smallA (d : List (PStr × Val)) (h : smallBA d = true) : WritableA d := by
  match d with
  | [] => simp only [WritableA]
  | (k, x) :: xs =>
    simp only [smallBA, Bool.and_eq_true, decide_eq_true_eq] at h
    simp only [WritableA]
    exact ⟨by omega, fits_small x h.1.2, fits_smallA xs h.2⟩
end

end Verif
