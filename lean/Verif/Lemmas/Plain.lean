import Verif.Lemmas.Cbor
import Verif.Lemmas.FloatKey
import Verif.Spec.Data
/-! # Plain data on the wire -/

set_option linter.unusedSimpArgs false

namespace Verif

open Spec

/-! ### The specification against the codec's own predicates -/

theorem norm_scalar {k : Val} (h : scalar k = true) : k.wireNorm = k := by
  cases k <;> simp [scalar] at h <;> rfl

theorem hashable_scalar {k : Val} (h : scalar k = true) : k.hashable = true := by
  cases k <;> simp [scalar] at h <;> rfl

theorem keyEq_sameKey {a b : Val} : a.keyEq b = sameKey a b := (sameKey_keyEq a b).symm

mutual
theorem norm_plain (v : Val) (h : plain v = true) : v.wireNorm = toLists v := by
  match v, h with
  | .none, _ => rfl
  | .bool _, _ => rfl
  | .int _, _ => rfl
  | .float _, _ => rfl
  | .str _, _ => rfl
  | .bytes _, _ => rfl
  | .list l, h => simp only [plain] at h; simp only [Val.wireNorm, toLists, norm_plainL l h]
  | .tuple l, h => simp only [plain] at h; simp only [Val.wireNorm, toLists, norm_plainL l h]
  | .dict d, h =>
    simp only [plain, Bool.and_eq_true] at h
    simp only [Val.wireNorm, toLists, norm_plainD d h.1.1 h.1.2]
theorem norm_plainL (l : List Val) (h : plainL l = true) :
    Val.wireNormL l = toListsL l := by
  match l, h with
  | [], _ => rfl
  | x :: xs, h =>
    simp only [plainL, Bool.and_eq_true] at h
    simp only [Val.wireNormL, toListsL, norm_plain x h.1, norm_plainL xs h.2]
theorem norm_plainD (d : List (Val × Val)) (h : plainD d = true)
    (hs : d.all (fun kv => scalar kv.1) = true) : Val.wireNormD d = toListsD d := by
  match d, h, hs with
  | [], _, _ => rfl
  | (k, x) :: xs, h, hs =>
    simp only [plainD, Bool.and_eq_true] at h
    simp only [List.all_cons, Bool.and_eq_true] at hs
    simp only [Val.wireNormD, toListsD, norm_plain x h.1, norm_plainD xs h.2 hs.2,
      norm_scalar hs.1]
end

theorem toListsD_keys : ∀ d : List (Val × Val), (toListsD d).map Prod.fst = d.map Prod.fst
  | [] => rfl
  | (k, x) :: xs => by simp [toListsD, toListsD_keys xs]

theorem keysOk_of : ∀ d : List (Val × Val),
    (d.map Prod.fst).all scalar = true → distinctKeys (d.map Prod.fst) = true → keysOk d = true
  | [], _, _ => rfl
  | (k, x) :: xs, hs, hd => by
    simp only [List.map_cons, List.all_cons, Bool.and_eq_true] at hs
    simp only [List.map_cons, distinctKeys, Bool.and_eq_true] at hd
    simp only [keysOk, hashable_scalar hs.1, keysOk_of xs hs.2 hd.2, Bool.true_and, Bool.and_true]
    rw [List.all_eq_true]
    intro kv hkv
    have hmem : kv.1 ∈ xs.map Prod.fst := List.mem_map.mpr ⟨kv, hkv, rfl⟩
    have h1 := List.all_eq_true.mp hd.1 kv.1 hmem
    have h2 := List.all_eq_true.mp hs.2 kv.1 hmem
    rw [keyEq_sameKey]
    exact h1

mutual
theorem ok_plain (v : Val) (h : plain v = true) : v.wireOk = true := by
  match v, h with
  | .none, _ => rfl
  | .bool _, _ => rfl
  | .int _, _ => rfl
  | .float _, _ => rfl
  | .str _, _ => rfl
  | .bytes _, _ => rfl
  | .list l, h => simp only [plain] at h; simp only [Val.wireOk, ok_plainL l h]
  | .tuple l, h => simp only [plain] at h; simp only [Val.wireOk, ok_plainL l h]
  | .dict d, h =>
    simp only [plain, Bool.and_eq_true] at h
    have hk : keysOk (Val.wireNormD d) = true := by
      rw [norm_plainD d h.1.1 h.1.2]
      apply keysOk_of
      · rw [toListsD_keys, List.all_map]; exact h.1.2
      · rw [toListsD_keys]; exact h.2
    simp only [Val.wireOk, ok_plainD d h.1.1 h.1.2, hk, Bool.and_self]
theorem ok_plainL (l : List Val) (h : plainL l = true) : Val.wireOkL l = true := by
  match l, h with
  | [], _ => rfl
  | x :: xs, h =>
    simp only [plainL, Bool.and_eq_true] at h
    simp only [Val.wireOkL, ok_plain x h.1, ok_plainL xs h.2, Bool.and_self]
theorem ok_plainD (d : List (Val × Val)) (h : plainD d = true)
    (hs : d.all (fun kv => scalar kv.1) = true) : Val.wireOkD d = true := by
  match d, h, hs with
  | [], _, _ => rfl
  | (k, x) :: xs, h, hs =>
    simp only [plainD, Bool.and_eq_true] at h
    simp only [List.all_cons, Bool.and_eq_true] at hs
    have hk : k.wireOk = true := by
      have := hs.1
      cases k <;> simp [scalar] at this <;> rfl
    simp only [Val.wireOkD, ok_plain x h.1, ok_plainD xs h.2 hs.2, hk, Bool.and_self]
end

mutual
theorem wired_data (v : Val) (h : data v = true) : v.wireOk = true ∧ v.wireNorm = v := by
  match v, h with
  | .none, _ => exact ⟨rfl, rfl⟩
  | .bool _, _ => exact ⟨rfl, rfl⟩
  | .int _, _ => exact ⟨rfl, rfl⟩
  | .float _, _ => exact ⟨rfl, rfl⟩
  | .str _, _ => exact ⟨rfl, rfl⟩
  | .bytes _, _ => exact ⟨rfl, rfl⟩
  | .list l, h =>
    simp only [data] at h
    simp only [Val.wireOk, Val.wireNorm, wired_dataL l h, and_self]
  | .tag n v, h =>
    simp only [data, Bool.and_eq_true] at h
    obtain ⟨h1, h2⟩ := wired_data v h.2
    simp only [Val.wireOk, Val.wireNorm, h.1, h1, h2, Bool.and_self, and_self]
  | .dict d, h =>
    simp only [data, Bool.and_eq_true] at h
    obtain ⟨h1, h2⟩ := wired_dataD d h.1.1 h.1.2
    have hk : keysOk d = true := keysOk_of d (by
      have := h.1.2
      rw [List.all_eq_true] at this ⊢
      intro x hx
      obtain ⟨p, hp, rfl⟩ := List.mem_map.mp hx
      exact this p hp) h.2
    simp only [Val.wireOk, Val.wireNorm, h1, h2, hk, Bool.and_self, and_self]
theorem wired_dataL (l : List Val) (h : dataL l = true) :
    Val.wireOkL l = true ∧ Val.wireNormL l = l := by
  match l, h with
  | [], _ => exact ⟨rfl, rfl⟩
  | x :: xs, h =>
    simp only [dataL, Bool.and_eq_true] at h
    obtain ⟨h1, h2⟩ := wired_data x h.1
    obtain ⟨h3, h4⟩ := wired_dataL xs h.2
    simp only [Val.wireOkL, Val.wireNormL, h1, h2, h3, h4, Bool.and_self, and_self]
theorem wired_dataD (d : List (Val × Val)) (h : dataD d = true)
    (hs : d.all (fun kv => scalar kv.1) = true) :
    Val.wireOkD d = true ∧ Val.wireNormD d = d := by
  match d, h, hs with
  | [], _, _ => exact ⟨rfl, rfl⟩
  | (k, x) :: xs, h, hs =>
    simp only [dataD, Bool.and_eq_true] at h
    simp only [List.all_cons, Bool.and_eq_true] at hs
    obtain ⟨h1, h2⟩ := wired_data x h.1
    obtain ⟨h3, h4⟩ := wired_dataD xs h.2 hs.2
    have hk : k.wireOk = true := by
      cases k <;> first | rfl | (have := hs.1; simp [scalar] at this)
    simp only [Val.wireOkD, Val.wireNormD, hk, norm_scalar hs.1, h1, h2, h3, h4, Bool.and_self,
      and_self]
end

end Verif
