import Verif.Lemmas.Forward
import Verif.Props.Reload
import Verif.Props.Sends
import Verif.Props.Volume
/-! # C57: what was received can be passed on -/

set_option linter.unusedSimpArgs false

namespace Verif.Props

open Verif Spec

private theorem mildA_append {as bs : Attrs} (h : MildA (as ++ bs)) : MildA as := by
  induction as with
  | nil => exact ⟨by simp [volumeF], by simp [UndatedA]⟩
  | cons p rest ih =>
    obtain ⟨k, x⟩ := p
    unfold MildA at h
    simp only [List.cons_append, volumeF, UndatedA] at h
    obtain ⟨h1, h2⟩ := ih ⟨by omega, h.2.2⟩
    have : volumeF rest ≤ volumeF (rest ++ bs) := by
      clear h h1 h2 ih
      induction rest with
      | nil => simp [volumeF]
      | cons q rest ih => simp only [List.cons_append, volumeF]; omega
    exact ⟨by simp only [volumeF]; omega, by simp only [UndatedA]; exact ⟨h.2.1, h2⟩⟩

/-- C57: a received message that lacks no mandatory field and holds no point in time is dumped again, for
whatever recipient one can encrypt for, as long as no key to sign with is given (it is signed
already, see C17).  Frames of 2^57 bytes and more, which no computer can hold, are left out. -/
theorem received_dumps (E : Env) (X : EciesEnv) (encrypt : Bytes → Bytes → Res Bytes) (data : Bytes)
    (priv pub priv' rpub : Option Bytes) (ct : Bool) (now : Int) (m : Msg)
    (hload : (load E (fun k c => eciesDecrypt X c k []) (some data) priv pub ct now).2 = .ok m)
    (hsize : data.length < 2 ^ 57) (hfull : Complete m) (hdate : Undated m.val)
    (hpriv : priv' = none ∨ priv' = some [])
    (henc : ∀ k p, rpub = some k → k ≠ [] → ∃ c, encrypt k p = .ok c) :
    ∃ b m', dump E encrypt m priv' rpub = (.ok b, m') := by
  have hw := loaded_wellTyped E _ data priv pub ct now m hload hfull
  obtain ⟨as, t, _, hty, hts, _, t2, hsig, _⟩ := loaded_arrived hload
  have hvol := load_volume hload
  have hm : MildA m.attrs := by
    simp only [Msg.val, volume, Undated] at hvol hdate
    exact ⟨by omega, hdate.2.2.2.2⟩
  have hwr : WritableA m.attrs := by
    unfold WellTypedMsg at hw
    split at hw
    · obtain ⟨as, v, e, hw⟩ := hw
      rw [e] at hm ⊢
      refine fitsA_mem.mpr fun k x hkx => ?_
      rcases List.mem_append.mp hkx with hkx | hkx
      · exact fitsA_mem.mp (typed_mild hw (mildA_append hm)) k x hkx
      · have hx := mild_fields hm (List.mem_append_right as hkx)
        rw [List.mem_singleton] at hkx
        cases hkx
        exact ⟨by decide, data_mild (by unfold Data; rfl) hx⟩
    · exact typed_mild hw hm
  refine dump_succeeds E encrypt m priv' rpub t hw hwr hty hts ?_ (Or.inr ⟨_, hsig, ?_⟩) ?_ henc
  · have : maxTimestamp < 2 ^ 64 := by decide +kernel
    omega
  · rcases hpriv with h | h
    · exact Or.inl h
    · exact Or.inr (Or.inl h)
  · rintro k _ rfl hk
    rcases hpriv with h | h
    · cases h
    · injection h with h; exact absurd h hk

/-- C57: and the next receiver has the same message: class, timestamp, signature and all fields at every
depth. -/
theorem received_passed_on (E : Env) (X : EciesEnv) (L : EciesEnv.Laws X) (encrypt dec' : Bytes → Bytes → Res Bytes)
    (data : Bytes) (priv pub priv' rpub rpriv : Option Bytes) (ct ct' : Bool) (now now' : Int) (m : Msg)
    (hload : (load E (fun k c => eciesDecrypt X c k []) (some data) priv pub ct now).2 = .ok m)
    (hsize : data.length < 2 ^ 57) (hfull : Complete m) (hdate : Undated m.val)
    (hpriv : priv' = none ∨ priv' = some [])
    (htime : ct' = true → verifyTime now' (frameTime data) = .ok ())
    (hdec : ∀ k p, rpub = some k → ∃ c, encrypt k p = .ok c ∧ c ≠ [] ∧ loadDecrypt dec' rpriv c = .ok p) :
    ∃ b m', dump E encrypt m priv' rpub = (.ok b, m') ∧ m' = { m with enc := m'.enc } ∧
      (load E dec' (some b) rpriv none ct' now').2 = .ok m' := by
  obtain ⟨b, m', hd⟩ := received_dumps E X encrypt data priv pub priv' rpub ct now m hload hsize hfull hdate hpriv
    (fun k p h _ => ⟨_, (hdec k p h).choose_spec.1⟩)
  have h0 : ∀ k p, eciesDecrypt X [] k [] ≠ .ok p := by
    intro k p h
    have := (ecies_decrypt_decision X L [] k [] p).mp h
    exact absurd this.1 (by decide)
  obtain ⟨h1, h2⟩ := forwarded_loads E encrypt _ dec' data b priv pub priv' rpub rpriv ct ct' now now' m m' hload
    hfull h0 hd htime (fun k p c h hc => by
      obtain ⟨c', e, h3⟩ := hdec k p h
      rw [hc] at e
      injection e with e
      exact e ▸ h3)
  exact ⟨b, m', hd, h2, h1⟩

/-! ### Witnesses -/

private def valueFrame (value : Bytes) : Bytes :=
  match packHeader Cls.RandVal.typeId (.int 1500000000) (.bool false) with
  | .ok hd => hd ++ List.replicate 65 9 ++ [0x81, 0x82, 0x68] ++ p!"rand_val".map (fun c => UInt8.ofNat c.toNat) ++ value
  | .error _ => []

private def valueMsg (v : Val) : Msg :=
  ⟨.RandVal, .int Cls.RandVal.typeId, .int 1500000000, .bool false, .bytes (List.replicate 65 9), [(p!"rand_val", v)]⟩

/-- A message that meets the hypotheses: one with a tagged number. -/
example : (load toyEnv (fun k c => eciesDecrypt toyX c k []) (some (valueFrame [0xc5, 7])) none none false 0).2 =
      .ok (valueMsg (.tag 5 (.int 7))) ∧ (valueFrame [0xc5, 7]).length < 2 ^ 57 ∧
    Undated (valueMsg (.tag 5 (.int 7))).val := by
  refine ⟨by decide +kernel, by decide +kernel, ?_⟩
  simp [valueMsg, Msg.val, Undated, UndatedA]

/-- Without `Undated` the claim is false: a point in time can be received but not sent. -/
theorem date_not_dumped :
    ∃ m, (load toyEnv (fun k c => eciesDecrypt toyX c k []) (some (valueFrame [0xc1, 7])) none none false 0).2 = .ok m ∧
      (dump toyEnv (fun _ x => .ok x) m none none).1 = .error .serializationError :=
  ⟨valueMsg (.tag 1 (.int 7)), by decide +kernel, by decide +kernel⟩

end Verif.Props
