import Verif.Lemmas.Frame
import Verif.Lemmas.Cbor
/-! # Lemmas about `serialize` -/

set_option linter.unusedSimpArgs false

namespace Verif

open Spec

/-- What a successful `Message.serialize` has done. -/
structure Dumped (E : Env) (m : Msg) (k : Option Bytes) (f : Option (Bytes → Res Bytes))
    (b : Bytes) (m' : Msg) where
  slots : Val
  payload : Bytes
  hd : Bytes
  sg : Bytes
  body : Bytes
  hslots : m.slots = .ok slots
  hpayload : dumps slots = .ok payload
  hm : m' = ⟨m.cls, m.ty, m.ts, .bool (m.cls.encrypt && f.isSome), .bytes sg, m.attrs⟩
  hhd : packHeader m.cls.typeId m.ts (.bool (m.cls.encrypt && f.isSome)) = .ok hd
  hb : b = hd ++ sg ++ body
  hbody : (m.cls.encrypt = true ∧ ∃ g, f = some g ∧ g payload = .ok body) ∨
    ((m.cls.encrypt && f.isSome) = false ∧ body = payload)
  hsig : (m.sig = .bytes sg ∧ (givenKey k = none ∨ sg = [])) ∨
    (m.sig = .none ∧
      ((m.cls.sign = true ∧ ∃ key h, givenKey k = some key ∧ shortHashOf E m payload = .ok h ∧
          E.ecdsaSign key h = .ok sg) ∨
        ((m.cls.sign = false ∨ givenKey k = none) ∧ sg = fakeSig)))

theorem shortHashOf_congr (E : Env) (m m' : Msg) (p : Bytes) (h1 : m'.cls = m.cls)
    (h2 : m'.ty = m.ty) (h3 : m'.ts = m.ts) (h4 : m'.attrs = m.attrs) :
    shortHashOf E m' p = shortHashOf E m p := by
  unfold shortHashOf
  rw [h1, h2, h3, h4]

theorem signFor_ok {E : Env} {m m2 : Msg} {p : Bytes} {k : Option Bytes}
    (hg : ((givenKey k).isSome && m.sig.truthy) = false) (h : signFor E m p k = .ok m2)
    (sg : Bytes) (hs : m2.sig = .bytes sg) :
    m2 = { m with sig := .bytes sg } ∧
    ((m.sig = .bytes sg ∧ (givenKey k = none ∨ sg = [])) ∨
    (m.sig = .none ∧
      ((m.cls.sign = true ∧ ∃ key h, givenKey k = some key ∧ shortHashOf E m p = .ok h ∧
          E.ecdsaSign key h = .ok sg) ∨
        ((m.cls.sign = false ∨ givenKey k = none) ∧ sg = fakeSig)))) := by
  unfold signFor at h
  by_cases hn : m.sig = .none
  · rw [if_pos hn] at h
    split at h
    · rename_i key hk
      split at h
      · cases h
      rename_i hh hx
      split at h
      · cases h
      rename_i s hs'
      injection h with h
      subst h
      simp only at hs
      injection hs with hs
      subst hs
      refine ⟨rfl, Or.inr ⟨hn, Or.inl ?_⟩⟩
      by_cases hc : m.cls.sign = true
      · rw [if_pos hc] at hk
        exact ⟨hc, key, hh, hk, hx, hs'⟩
      · rw [if_neg hc] at hk; cases hk
    · rename_i hk
      injection h with h
      subst h
      simp only at hs
      injection hs with hs
      subst hs
      refine ⟨rfl, Or.inr ⟨hn, Or.inr ⟨?_, rfl⟩⟩⟩
      by_cases hc : m.cls.sign = true
      · rw [if_pos hc] at hk
        exact Or.inr hk
      · left; simpa using hc
  · rw [if_neg hn] at h
    injection h with h
    subst h
    refine ⟨by rw [← hs], Or.inl ⟨hs, ?_⟩⟩
    rw [hs] at hg
    cases hk : givenKey k with
    | none => left; rfl
    | some key =>
      right
      rw [hk] at hg
      cases sg with
      | nil => rfl
      | cons x xs => simp [Val.truthy] at hg

theorem joinFrame_ok {m : Msg} {p b : Bytes} (h : joinFrame m p = .ok b) :
    ∃ hd sg, packHeader m.cls.typeId m.ts m.enc = .ok hd ∧ m.sig = .bytes sg ∧
      b = hd ++ sg ++ p := by
  unfold joinFrame at h
  split at h
  · cases h
  rename_i hd hx
  split at h
  · rename_i sg hs
    injection h with h
    exact ⟨hd, sg, hx, hs, h.symm⟩
  · cases h

/-- Analysis of a successful `Message.serialize`. -/
theorem serializeBase_ok {E : Env} {m m' : Msg} {k : Option Bytes}
    {f : Option (Bytes → Res Bytes)} {b : Bytes} (h : serializeBase E m k f = (.ok b, m')) :
    Nonempty (Dumped E m k f b m') := by
  unfold serializeBase at h
  split at h
  · simp at h
  rename_i hg
  have hg : ((givenKey k).isSome && m.sig.truthy) = false := by simpa using hg
  dsimp only at h
  split at h
  · simp at h
  rename_i s hs
  split at h
  · simp at h
  rename_i p hp
  split at h
  · simp at h
  rename_i m2 hm2
  have hs' : m.slots = .ok s := hs
  have fin : ∀ body, joinFrame m2 body = .ok b → m2 = m' →
      ((m.cls.encrypt = true ∧ ∃ g, f = some g ∧ g p = .ok body) ∨
        ((m.cls.encrypt && f.isSome) = false ∧ body = p)) → Nonempty (Dumped E m k f b m') := by
    intro body hj hmm hb
    obtain ⟨hd, sg, h1, h2, h3⟩ := joinFrame_ok hj
    obtain ⟨e1, e2⟩ := signFor_ok (by exact hg) hm2 sg h2
    subst e1
    exact ⟨{ slots := s, payload := p, hd := hd, sg := sg, body := body, hslots := hs',
             hpayload := hp, hm := hmm.symm, hhd := h1, hb := h3, hbody := hb,
             hsig := e2 }⟩
  have henc : m2.enc = .bool (m.cls.encrypt && f.isSome) := by
    unfold signFor at hm2
    split at hm2
    · split at hm2
      · split at hm2
        · cases hm2
        split at hm2
        · cases hm2
        · injection hm2 with hm2; subst hm2; rfl
      · injection hm2 with hm2; subst hm2; rfl
    · injection hm2 with hm2; subst hm2; rfl
  rw [henc] at h
  split at h
  · rename_i hf
    simp only [Prod.mk.injEq] at h
    refine fin p h.1 h.2 (Or.inr ⟨?_, rfl⟩)
    cases hc : (m.cls.encrypt && f.isSome) with
    | false => rfl
    | true =>
      rw [hc] at hf
      simp [Val.truthy] at hf
      simp [hf] at hc
  · rename_i g hf
    have hc : (m.cls.encrypt && f.isSome) = true ∧ f = some g := by
      cases hc : (m.cls.encrypt && f.isSome) with
      | false => rw [hc] at hf; simp [Val.truthy] at hf
      | true => rw [hc] at hf; simp [Val.truthy] at hf; exact ⟨rfl, hf⟩
    split at h
    · simp at h
    rename_i c hgc
    simp only [Prod.mk.injEq] at h
    have : m.cls.encrypt = true := by
      have := hc.1; simp at this; exact this.1
    exact fin c h.1 h.2 (Or.inl ⟨this, g, hc.2, hgc⟩)

/-- `serialize` in terms of `Message.serialize`. -/
theorem serialize_ok {E : Env} {m m' : Msg} {k : Option Bytes}
    {f : Option (Bytes → Res Bytes)} {b : Bytes} (h : serialize E m k f = (.ok b, m')) :
    (m.cls ≠ .Hello ∧ Nonempty (Dumped E m k f b m')) ∨
    (m.cls = .Hello ∧ ∃ b0 v, Nonempty (Dumped E m k f b0 m') ∧
      getAttr m.attrs p!"_version" = .str v ∧ b = b0 ++ packPascal (asciiReplace v)) := by
  unfold serialize at h
  by_cases hc : m.cls = .Hello
  · rw [if_pos hc] at h
    right
    refine ⟨hc, ?_⟩
    cases hx : serializeBase E m k f with
    | mk r m1 =>
      rw [hx] at h
      cases r with
      | error e => simp at h
      | ok b0 =>
        simp only at h
        have hd := serializeBase_ok hx
        obtain ⟨d⟩ := hd
        have ha : m1.attrs = m.attrs := by rw [d.hm]
        rw [ha] at h
        split at h
        · rename_i v hv
          simp only [Prod.mk.injEq, Except.ok.injEq] at h
          obtain ⟨h1, h2⟩ := h
          subst h2
          exact ⟨b0, v, ⟨d⟩, hv, h1.symm⟩
        · simp at h
  · rw [if_neg hc] at h
    exact Or.inl ⟨hc, serializeBase_ok h⟩

theorem packHeader_ok {ty : Nat} {ts enc : Val} {hd : Bytes} (h : packHeader ty ts enc = .ok hd) :
    ∃ t : Nat, ts.structInt = some (t : Int) ∧ t < 2 ^ 64 ∧ ty < 2 ^ 16 ∧ hd.length = 11 ∧
      hd = toBE 2 ty ++ toBE 8 t ++ [if enc.truthy then 1 else 0] := by
  unfold packHeader at h
  split at h
  · cases h
  rename_i t ht
  split at h
  · cases h
  split at h
  · cases h
  rename_i h1 h2
  injection h with h
  refine ⟨t.toNat, ?_, by omega, by omega, ?_, h.symm⟩
  · rw [ht]; congr 1; omega
  · rw [← h]; simp

/-- The parts of a frame. -/
theorem frame_parts {ty : Nat} {ts enc : Val} {hd : Bytes} (h : packHeader ty ts enc = .ok hd)
    (sg body : Bytes) (hs : sg.length = 65) :
    frameType (hd ++ sg ++ body) = ty ∧ ts.structInt = some (frameTime (hd ++ sg ++ body) : Int) ∧
    frameFlag (hd ++ sg ++ body) = enc.truthy ∧ frameSig (hd ++ sg ++ body) = sg ∧
    frameBody (hd ++ sg ++ body) = body ∧ (hd ++ sg ++ body).length = 76 + body.length := by
  obtain ⟨t, ht, hlt, hty, hl, he⟩ := packHeader_ok h
  have l2 : (toBE 2 ty).length = 2 := toBE_length 2 ty
  have l8 : (toBE 8 t).length = 8 := toBE_length 8 t
  refine ⟨?_, ?_, ?_, ?_, ?_, ?_⟩
  · rw [frameType, bigEndian_eq, he]
    have : (toBE 2 ty ++ toBE 8 t ++ [if enc.truthy = true then 1 else 0] ++ sg ++ body).take 2
        = toBE 2 ty := by
      simp [List.append_assoc, List.take_append, l2]
    rw [this, ofBE_toBE (n := 2) (x := ty) (by omega)]
  · rw [ht, frameTime, bigEndian_eq, he]
    have : ((toBE 2 ty ++ toBE 8 t ++ [if enc.truthy = true then 1 else 0] ++ sg ++ body).drop 2).take 8
        = toBE 8 t := by
      simp [List.append_assoc, List.drop_append, List.take_append, l2, l8]
    rw [this, ofBE_toBE (n := 8) (x := t) (by omega)]
  · rw [frameFlag, he]
    have : (toBE 2 ty ++ toBE 8 t ++ [if enc.truthy = true then 1 else 0] ++ sg ++ body).drop 10
        = (if enc.truthy = true then 1 else 0) :: (sg ++ body) := by
      simp [List.append_assoc, List.drop_append, List.take_append, l2, l8]
    rw [this]
    cases enc.truthy <;> simp
  · simp [frameSig, List.append_assoc, List.drop_append, List.take_append, hl, hs]
  · simp [frameBody, List.append_assoc, List.drop_append, List.take_append, hl, hs]
  · simp [hl, hs]; omega

theorem signFor_keeps {E : Env} {m m2 : Msg} {p : Bytes} {k : Option Bytes}
    (h : signFor E m p k = .ok m2) :
    m2.cls = m.cls ∧ m2.ty = m.ty ∧ m2.ts = m.ts ∧ m2.enc = m.enc ∧ m2.attrs = m.attrs ∧
      (m.sig ≠ .none → m2.sig = m.sig) := by
  unfold signFor at h
  split at h
  · rename_i hn
    split at h
    · split at h
      · cases h
      split at h
      · cases h
      · injection h with h; subst h; exact ⟨rfl, rfl, rfl, rfl, rfl, fun c => absurd hn c⟩
    · injection h with h; subst h; exact ⟨rfl, rfl, rfl, rfl, rfl, fun c => absurd hn c⟩
  · injection h with h; subst h; exact ⟨rfl, rfl, rfl, rfl, rfl, fun _ => rfl⟩

/-- Whatever the outcome, `serialize` touches nothing but the flag and a missing signature. -/
theorem serializeBase_keeps (E : Env) (m : Msg) (k : Option Bytes) (f : Option (Bytes → Res Bytes)) :
    let m' := (serializeBase E m k f).2
    m'.cls = m.cls ∧ m'.ty = m.ty ∧ m'.ts = m.ts ∧ m'.attrs = m.attrs ∧
      (m.sig ≠ .none → m'.sig = m.sig) := by
  unfold serializeBase
  dsimp only
  split
  · exact ⟨rfl, rfl, rfl, rfl, fun _ => rfl⟩
  split
  · exact ⟨rfl, rfl, rfl, rfl, fun _ => rfl⟩
  split
  · exact ⟨rfl, rfl, rfl, rfl, fun _ => rfl⟩
  split
  · exact ⟨rfl, rfl, rfl, rfl, fun _ => rfl⟩
  rename_i m2 hm2
  obtain ⟨h1, h2, h3, _, h5, h6⟩ := signFor_keeps hm2
  split
  · exact ⟨h1, h2, h3, h5, h6⟩
  split
  · exact ⟨h1, h2, h3, h5, h6⟩
  · exact ⟨h1, h2, h3, h5, h6⟩

theorem serialize_state (E : Env) (m : Msg) (k : Option Bytes) (f : Option (Bytes → Res Bytes)) :
    (serialize E m k f).2 = (serializeBase E m k f).2 := by
  unfold serialize
  split
  · split
    · rename_i hx; rw [hx]
    · rename_i hx
      rw [hx]
      split <;> rfl
  · rfl

theorem serialize_keeps (E : Env) (m : Msg) (k : Option Bytes) (f : Option (Bytes → Res Bytes)) :
    let m' := (serialize E m k f).2
    m'.cls = m.cls ∧ m'.ty = m.ty ∧ m'.ts = m.ts ∧ m'.attrs = m.attrs ∧
      (m.sig ≠ .none → m'.sig = m.sig) := by
  rw [serialize_state]
  exact serializeBase_keeps E m k f

end Verif
