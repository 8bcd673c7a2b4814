import Verif.Spec.Undated
import Verif.Spec.RoundTrip
import Verif.Lemmas.Volume
import Verif.Lemmas.MadeWritable
import Verif.Lemmas.Arrived
/-!
# What was received is small enough to be sent on
-/

set_option linter.unusedSimpArgs false

namespace Verif

open Spec

/-- Small and without points in time. -/
def Mild (v : Val) : Prop := volume v < 2 ^ 62 ∧ Undated v

def MildA (as : Attrs) : Prop := volumeF as < 2 ^ 62 ∧ UndatedA as

theorem volumeL_length : ∀ (l : List Val), l.length ≤ volumeL l
  | [] => by simp [volumeL]
  | x :: xs => by
    have := volumeL_length xs
    have := volume_pos x
    simp only [volumeL, List.length_cons]; omega

theorem volumeD_length : ∀ (l : List (Val × Val)), l.length ≤ volumeD l
  | [] => by simp [volumeD]
  | (k, x) :: xs => by
    have := volumeD_length xs
    have := volume_pos x
    simp only [volumeD, List.length_cons]; omega

theorem volumeF_length : ∀ (l : Attrs), l.length ≤ volumeF l
  | [] => by simp [volumeF]
  | (k, x) :: xs => by
    have := volumeF_length xs
    have := volume_pos x
    simp only [volumeF, List.length_cons]; omega

theorem mild_fields : ∀ {as : Attrs}, MildA as → ∀ {k x}, (k, x) ∈ as → Mild x
  | (k', x') :: rest, h, k, x, hm => by
    unfold MildA at h
    simp only [volumeF, UndatedA] at h
    rcases List.mem_cons.mp hm with e | hm
    · cases e
      exact ⟨by omega, h.2.1⟩
    · exact mild_fields (as := rest) ⟨by omega, h.2.2⟩ hm

theorem mild_list {l : List Val} (h : Mild (.list l)) : ∀ x ∈ l, Mild x := by
  unfold Mild at h
  simp only [volume, Undated] at h
  obtain ⟨h1, h2⟩ := h
  replace h1 : volumeL l < 2 ^ 62 := by omega
  intro x hx
  induction l with
  | nil => cases hx
  | cons y ys ih =>
    simp only [volumeL, UndatedL] at h1 h2
    rcases List.mem_cons.mp hx with rfl | hx
    · exact ⟨by omega, h2.1⟩
    · exact ih h2.2 (by omega) hx

/-- A number of so many bytes. -/
theorem octets_lt {n k : Nat} (h : n.log2 / 8 < k) : n < 256 ^ k := by
  by_cases h0 : n = 0
  · subst h0; exact Nat.pow_pos (by decide)
  have h1 : n < 2 ^ (n.log2 + 1) := Nat.lt_log2_self
  refine Nat.lt_of_lt_of_le h1 ?_
  rw [show (256 : Nat) = 2 ^ 8 from rfl, ← Nat.pow_mul]
  exact Nat.pow_le_pow_right (by decide) (by omega)

mutual
theorem data_writable (v : Val) (h : data v = true) (hv : volume v < 2 ^ 62) (hu : Undated v) : Writable v := by
  match v with
  | .none => simp only [Writable]
  | .bool _ => simp only [Writable]
  | .int i =>
    simp only [Writable, volume] at *
    generalize hk : (2 : Nat) ^ 64 - 1 = k
    exact octets_lt (by omega)
  | .float _ => simp only [Writable]
  | .str s => simp only [Writable, volume] at *; omega
  | .bytes b => simp only [Writable, volume] at *; omega
  | .list l =>
    simp only [Writable, volume, data, Undated] at *
    have := volumeL_length l
    exact ⟨by omega, data_writableL l h (by omega) hu⟩
  | .dict d =>
    simp only [Writable, volume, data, Undated, Bool.and_eq_true] at *
    have := volumeD_length d
    exact ⟨by omega, data_writableD d h.1.1 (fun k x hm => by
      have := List.all_eq_true.mp h.1.2 _ hm
      exact this) (by omega) hu⟩
  | .tag n w =>
    simp only [Writable, volume, data, Undated, Bool.and_eq_true, decide_eq_true_eq] at *
    exact ⟨h.1.2, hu.1, data_writable w h.2 (by omega) hu.2⟩
  | .tuple _ | .enum .. | .fdict .. | .cont .. | .mask _ | .msg .. => simp [data] at h
theorem data_writableL (l : List Val) (h : dataL l = true) (hv : volumeL l < 2 ^ 62) (hu : UndatedL l) :
    WritableL l := by
  match l with
  | [] => simp only [WritableL]
  | x :: xs =>
    simp only [WritableL, volumeL, dataL, UndatedL, Bool.and_eq_true] at *
    exact ⟨data_writable x h.1 (by omega) hu.1, data_writableL xs h.2 (by omega) hu.2⟩
theorem data_writableD (d : List (Val × Val)) (h : dataD d = true)
    (hk : ∀ k x, (k, x) ∈ d → scalar k = true) (hv : volumeD d < 2 ^ 62) (hu : UndatedD d) :
    WritableD d := by
  match d with
  | [] => simp only [WritableD]
  | (k, x) :: xs =>
    have hs := hk k x (List.mem_cons_self ..)
    simp only [WritableD, volumeD, dataD, UndatedD, Bool.and_eq_true] at *
    refine ⟨?_, data_writable x h.1 (by omega) hu.2.1,
      data_writableD xs h.2 (fun k x hm => hk k x (List.mem_cons_of_mem _ hm)) (by omega) hu.2.2⟩
    cases k with
    | none => simp only [Writable]
    | bool _ => simp only [Writable]
    | int i =>
      simp only [Writable, volume] at *
      generalize hk : (2 : Nat) ^ 64 - 1 = k
      exact octets_lt (by omega)
    | float _ => simp only [Writable]
    | str s => simp only [Writable, volume] at *; omega
    | bytes b => simp only [Writable, volume] at *; omega
    | _ => simp [scalar] at hs
end

theorem data_mild {v : Val} (h : Data v) (hm : Mild v) : Writable v := data_writable v h hm.1 hm.2

theorem int_mild {i : Int} (h : Mild (.int i)) : Writable (.int i) := data_mild (by unfold Data; rfl) h

theorem enum_writable {e : EnumId} {s : PStr} (h : s ∈ e.values) : Writable (.enum e s) := by
  have : ∀ s ∈ e.values, s.length < 100 := by cases e <;> decide
  have := this s h
  simp only [Writable]; omega

theorem fields_writable {c : ContId} {P : PStr → Val → Prop} {v : Val} (h : Fields c P v) (hm : Mild v)
    (hP : ∀ k x, P k x → Mild x → Writable x) : Writable v := by
  obtain ⟨fs, rfl, hn, hf⟩ := h
  have hm' : MildA fs := by
    unfold Mild at hm
    simp only [volume, Undated] at hm
    exact ⟨by omega, hm.2⟩
  have := volumeF_length fs
  have hl := hm'.1
  simp only [Writable]
  refine ⟨by omega, fitsA_mem.mpr fun k x hkx => ⟨?_, ?_⟩⟩
  · exact slot_names_short c k (by
      have : k ∈ fs.map Prod.fst := List.mem_map_of_mem (f := Prod.fst) hkx
      rw [hn] at this; exact this)
  · rcases hf k x hkx with ⟨rfl, _⟩ | hp
    · simp only [Writable]
    · exact hP k x hp (mild_fields hm' hkx)

theorem items_writable {c : FDictId} {items : Attrs} (hn : DeclaredKeys c items) (hm : Mild (.fdict c items))
    (hP : ∀ k x, (k, x) ∈ items → Mild x → Writable x) : Writable (.fdict c items) := by
  have hm' : MildA items := by
    unfold Mild at hm
    simp only [volume, Undated] at hm
    exact ⟨by omega, hm.2⟩
  have := volumeF_length items
  have hl := hm'.1
  simp only [Writable]
  refine ⟨by omega, fitsA_mem.mpr fun k x hkx => ⟨?_, hP k x hkx (mild_fields hm' hkx)⟩⟩
  have hk : k ∈ dictKeys c := (hn.2 k).mp (List.mem_map_of_mem (f := Prod.fst) hkx)
  have : ∀ k ∈ dictKeys c, k.length < 100 := by cases c <;> decide
  have := this k hk
  omega

theorem simple_mild {E : Env} {c : ContId} {v : Val} (h : SimpleOk E c v) (hm : Mild v) : Writable v :=
  fields_writable h hm fun _ _ hp hm => data_mild hp.1 hm

theorem dict_mild {E : Env} {c : FDictId} {v : Val} (h : DictOk E c v) (hm : Mild v) : Writable v := by
  obtain ⟨items, rfl, hn, hi⟩ := h
  exact items_writable hn hm fun k x hkx hm => data_mild (hi k x hkx).2 hm

theorem cpu_mild {E : Env} {v : Val} (h : CpuOk E v) (hm : Mild v) : Writable v :=
  fields_writable h hm fun _ _ hp hm => by
    rcases hp with ⟨_, h⟩ | ⟨_, h⟩ <;> exact dict_mild h hm

theorem stats_mild {E : Env} {v : Val} (h : StatsOk E v) (hm : Mild v) : Writable v :=
  fields_writable h hm fun _ _ hp hm => by
    rcases hp with ⟨_, h⟩ | ⟨_, h⟩ | ⟨_, h⟩ | ⟨_, h⟩
    · exact simple_mild h hm
    · exact cpu_mild h hm
    · exact simple_mild h hm
    · exact simple_mild h hm

theorem header_mild {E : Env} {v : Val} (h : HeaderOk E v) (hm : Mild v) : Writable v :=
  fields_writable h hm fun _ _ hp hm => by
    split at hp
    · obtain ⟨b, rfl⟩ := hp
      have := hm.1
      simp only [Writable, volume] at *; omega
    split at hp
    · obtain ⟨s, hs, rfl⟩ := hp
      exact enum_writable hs
    split at hp
    · exact simple_mild hp hm
    · exact data_mild hp.1 hm

theorem peer_mild {E : Env} {v : Val} (h : PeerOk E v) (hm : Mild v) : Writable v := by
  obtain ⟨items, rfl, hn, hi⟩ := h
  refine items_writable hn hm fun k x hkx hm => ?_
  have := (hi k x hkx).2
  split at this
  · exact simple_mild this hm
  · exact data_mild this hm

theorem file_mild {E : Env} {v : Val} (h : FileOk E v) (hm : Mild v) : Writable v := by
  obtain ⟨items, rfl, hn, hi⟩ := h
  refine items_writable hn hm fun k x hkx hm => ?_
  obtain ⟨h1, h2⟩ := hi k x hkx
  by_cases hk : k = p!"category"
  · subst hk
    obtain ⟨s, hs, rfl⟩ := h1 rfl
    have : ∀ s ∈ [p!"results", p!"resources"], s ∈ EnumId.ftCategory.values := by decide
    exact enum_writable (this s hs)
  · exact data_mild (h2 hk) hm

theorem list_mild {P : Val → Prop} {v : Val} (h : ListOf P v) (hm : Mild v)
    (hP : ∀ x, P x → Mild x → Writable x) : Writable v := by
  obtain ⟨l, rfl, hl⟩ := h
  have := volumeL_length l
  have h1 := hm.1
  simp only [volume] at h1
  simp only [Writable]
  exact ⟨by omega, fitsL_mem.mpr fun x hx => hP x (hl x hx) (mild_list hm x hx)⟩

theorem ite_either {c : Prop} [Decidable c] {a b P : Prop} (h : if c then a else b) (h1 : a → P) (h2 : b → P) : P := by
  by_cases hc : c
  · rw [if_pos hc] at h; exact h1 h
  · rw [if_neg hc] at h; exact h2 h

theorem field_mild {E : Env} {c : Cls} {name : PStr} {v : Val} (h : FieldOk E c name v) (hm : Mild v) :
    Writable v := by
  have hnone : Writable .none := by simp only [Writable]
  unfold FieldOk at h
  refine ite_either h (fun h => ?_) fun h => ?_
  · rcases h with ⟨h, _⟩ | h
    · exact data_mild h hm
    · exact simple_mild h hm
  refine ite_either h (fun h => list_mild h hm fun _ => peer_mild) fun h => ?_
  refine ite_either h (fun h => list_mild h hm fun _ => header_mild) fun h => ?_
  refine ite_either h (fun h => ?_) fun h => ?_
  · rcases h with rfl | h
    · exact hnone
    · exact header_mild h hm
  refine ite_either h (fun h => ?_) fun h => ?_
  · rcases h with rfl | ⟨n, rfl⟩
    · exact hnone
    · exact int_mild hm
  refine ite_either h (fun h => ?_) fun h => ?_
  · obtain ⟨n, _, rfl⟩ := h
    exact int_mild hm
  refine ite_either h (fun h => dict_mild h hm) fun h => ?_
  refine ite_either h (fun h => ?_) fun h => ?_
  · obtain ⟨n, rfl⟩ := h
    exact int_mild hm
  refine ite_either h (fun h => ?_) fun h => ?_
  · rcases h with rfl | h
    · exact hnone
    · exact stats_mild h hm
  refine ite_either h (fun h => list_mild h hm fun _ => file_mild) fun h => ?_
  refine ite_either h (fun h => ?_) fun h => ?_
  · subst h; exact hnone
  cases he : lookupName name c.enumSlots with
  | some e =>
    rw [he] at h
    rcases h with rfl | ⟨s, hs, rfl⟩
    · exact hnone
    · exact enum_writable hs
  | none =>
    rw [he] at h
    exact data_mild h hm

theorem payload_names_short (c : Cls) : ∀ k ∈ c.payload, 4 * k.length < 2 ^ 64 := by
  have : ∀ k ∈ c.payload, k.length < 100 := by cases c <;> decide
  intro k hk
  have := this k hk
  omega

/-- Fields that hold what is declared, small and without points in time, can be written. -/
theorem typed_mild {E : Env} {c : Cls} {as : Attrs} (h : WellTyped E c as) (hm : MildA as) : WritableA as := by
  induction h with
  | mk c as names fields slots heads nested ih =>
    refine fitsA_mem.mpr fun k x hkx => ⟨payload_names_short c k ?_, ?_⟩
    · rw [← names]; exact List.mem_map_of_mem (f := Prod.fst) hkx
    have hx := mild_fields hm hkx
    cases hs : lookupName k c.msgSlots with
    | none => exact field_mild (fields k x hkx hs).1 hx
    | some sd =>
      have one : ∀ y ∈ members x, isMsg sd.cls y = true → Mild y → Writable y := by
        intro y hy hi hym
        obtain ⟨ty, ts, enc, sig, bs, rfl⟩ := isMsg_cases hi
        obtain ⟨d1, d2, d3, d4⟩ := heads k sd x ty ts enc sig bs hkx hs hy
        unfold Mild at hym
        simp only [volume, Undated] at hym
        obtain ⟨hv, u1, u2, u3, u4, u5⟩ := hym
        have := volumeF_length bs
        simp only [Writable]
        exact ⟨data_writable ty d1 (by omega) u1, data_writable ts d2 (by omega) u2,
          data_writable enc d3 (by omega) u3, data_writable sig d4 (by omega) u4, by omega,
          ih k sd x ty ts enc sig bs hkx hs hy ⟨by omega, u5⟩⟩
      have hslot := slots k sd x hkx hs
      unfold SlotOk at hslot
      split at hslot
      · obtain ⟨l, rfl, _, hl⟩ := hslot
        have := volumeL_length l
        have h1 := hx.1
        simp only [volume] at h1
        simp only [Writable]
        exact ⟨by omega, fitsL_mem.mpr fun y hy => one y hy (hl y hy) (mild_list hx y hy)⟩
      · rcases hslot with ⟨rfl, _⟩ | hi
        · simp only [Writable]
        · obtain ⟨ty, ts, enc, sig, bs, rfl⟩ := isMsg_cases hi
          exact one _ (by simp [members]) hi hx

end Verif
