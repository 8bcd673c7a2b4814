import Verif.Lemmas.WireSlots
import Verif.Lemmas.PyEq
/-!
# What can be written has different keys
-/

set_option linter.unusedSimpArgs false

namespace Verif

open Spec

private theorem norm_num {a : Val} {x : Int} (h : numValue a = some x) : a.wireNorm = a := by
  cases a <;> first | (cases h; done) | rfl

theorem sameKey_norm {a b : Val} (h : sameKey a b = true) : a.wireNorm.keyEq b.wireNorm = true := by
  have hk := h
  unfold sameKey at h
  split at h
  · rename_i x y ha hb
    rw [norm_num ha, norm_num hb, ← sameKey_keyEq]
    exact hk
  · rw [beq_iff_eq] at h
    subst h
    unfold Val.keyEq
    simp
  · cases h

theorem wireNormD_mem {d : List (Val × Val)} {kv : Val × Val} (h : kv ∈ d) :
    (kv.1.wireNorm, kv.2.wireNorm) ∈ Val.wireNormD d := by
  induction d with
  | nil => cases h
  | cons p xs ih =>
    obtain ⟨k, x⟩ := p
    simp only [Val.wireNormD]
    rcases List.mem_cons.mp h with rfl | h
    · exact List.mem_cons_self
    · exact List.mem_cons_of_mem _ (ih h)

theorem distinct_of_keysOk : ∀ {d : List (Val × Val)}, keysOk (Val.wireNormD d) = true →
    distinctKeys (d.map Prod.fst) = true
  | [], _ => rfl
  | (k, x) :: rest, h => by
    simp only [Val.wireNormD, keysOk, Bool.and_eq_true] at h
    simp only [List.map_cons, distinctKeys, Bool.and_eq_true]
    refine ⟨List.all_eq_true.mpr ?_, distinct_of_keysOk h.2⟩
    intro l hl
    obtain ⟨kv, hkv, rfl⟩ := List.mem_map.mp hl
    have := List.all_eq_true.mp h.1.2 _ (wireNormD_mem hkv)
    simp only [Bool.not_eq_true'] at this ⊢
    cases hs : sameKey k kv.1 with
    | false => rfl
    | true => rw [sameKey_norm hs] at this; cases this

theorem wireNormF_mem {d : List (PStr × Val)} {kv : PStr × Val} (h : kv ∈ d) :
    (.str kv.1, kv.2.wireNorm) ∈ Val.wireNormF d := by
  induction d with
  | nil => cases h
  | cons p xs ih =>
    obtain ⟨k, x⟩ := p
    simp only [Val.wireNormF]
    rcases List.mem_cons.mp h with rfl | h
    · exact List.mem_cons_self
    · exact List.mem_cons_of_mem _ (ih h)

theorem nodup_of_keysOk : ∀ {d : List (PStr × Val)}, keysOk (Val.wireNormF d) = true → (d.map Prod.fst).Nodup
  | [], _ => List.nodup_nil
  | (k, x) :: rest, h => by
    simp only [Val.wireNormF, keysOk, Bool.and_eq_true] at h
    simp only [List.map_cons, List.nodup_cons]
    refine ⟨fun hm => ?_, nodup_of_keysOk h.2⟩
    obtain ⟨kv, hkv, rfl⟩ := List.mem_map.mp hm
    have := List.all_eq_true.mp h.1.2 _ (wireNormF_mem hkv)
    simp [Val.keyEq] at this

mutual
theorem keyed_of_wireOk (v : Val) (h : v.wireOk = true) : Keyed v := by
  cases v with
  | list l => simp only [Val.wireOk] at h; simp only [Keyed]; exact keyedL_of_wireOk l h
  | tuple l => simp only [Val.wireOk] at h; simp only [Keyed]; exact keyedL_of_wireOk l h
  | dict d =>
    simp only [Val.wireOk, Bool.and_eq_true] at h
    simp only [Keyed]
    exact ⟨distinct_of_keysOk h.2, keyedD_of_wireOk d h.1⟩
  | fdict c fs =>
    simp only [Val.wireOk, Bool.and_eq_true] at h
    simp only [Keyed]
    exact ⟨nodup_of_keysOk h.2, keyedF_of_wireOk fs h.1⟩
  | tag n w =>
    simp only [Val.wireOk, Bool.and_eq_true] at h
    simp only [Keyed]
    exact keyed_of_wireOk w h.2
  | cont => simp [Val.wireOk] at h
  | msg => simp [Val.wireOk] at h
  | _ => simp [Keyed]
theorem keyedL_of_wireOk (l : List Val) (h : Val.wireOkL l = true) : KeyedL l := by
  cases l with
  | nil => simp [KeyedL]
  | cons x xs =>
    simp only [Val.wireOkL, Bool.and_eq_true] at h
    simp only [KeyedL]
    exact ⟨keyed_of_wireOk x h.1, keyedL_of_wireOk xs h.2⟩
theorem keyedD_of_wireOk (d : List (Val × Val)) (h : Val.wireOkD d = true) : KeyedD d := by
  cases d with
  | nil => simp [KeyedD]
  | cons p xs =>
    obtain ⟨k, x⟩ := p
    simp only [Val.wireOkD, Bool.and_eq_true] at h
    simp only [KeyedD]
    exact ⟨keyed_of_wireOk k h.1.1, keyed_of_wireOk x h.1.2, keyedD_of_wireOk xs h.2⟩
theorem keyedF_of_wireOk (d : List (PStr × Val)) (h : Val.wireOkF d = true) : KeyedF d := by
  cases d with
  | nil => simp [KeyedF]
  | cons p xs =>
    obtain ⟨k, x⟩ := p
    simp only [Val.wireOkF, Bool.and_eq_true] at h
    simp only [KeyedF]
    exact ⟨keyed_of_wireOk x h.1, keyedF_of_wireOk xs h.2⟩
end

end Verif
