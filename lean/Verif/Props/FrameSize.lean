import Verif.Props.RoundTrip
import Verif.Props.Session
/-! # How long a frame is and what it determines -/

namespace Verif.Props

open Verif Spec

private theorem ecies_length {X : EciesEnv} (L : EciesEnv.Laws X) {e p iv data shared ct : Bytes}
    (h : eciesEncrypt X e iv data p shared = .ok ct) : ct.length = data.length + 113 := by
  obtain ⟨h1, h2, _, km, body, _, _, _, hb, rfl⟩ := ecies_encrypt_layout X L e p iv data shared ct h
  simp only [List.length_append, h1, h2, L.hmac_len, hb, L.enc_len]
  omega

private theorem givenKey_some {pub : Option Bytes} {k : Bytes} (h : givenKey pub = some k) :
    pub = some k ∧ k ≠ [] := by
  cases pub with
  | none => cases h
  | some k' =>
    cases k' with
    | nil => cases h
    | cons x xs =>
      simp only [givenKey, Option.some.injEq] at h
      exact ⟨by rw [h], by rw [← h]; simp⟩

private theorem givenKey_none {pub : Option Bytes} (h : givenKey pub = none) :
    ¬ ∃ k, pub = some k ∧ k ≠ [] := by
  rintro ⟨k, rfl, hk⟩
  cases k with
  | nil => exact hk rfl
  | cons x xs => cases h

/-- C82: whatever was sent before, a frame is its payload and 76 bytes; 113 more if the class is
encrypted and there is a key to encrypt for, and 32 more for `Hello`.  The payload is the CBOR text
of the fields, so the length of the frame tells its length and nothing else. -/
theorem frame_size (E : Env) (X : EciesEnv) (L : EciesEnv.Laws X) (draw : Nat → Bytes) (timeout : Int)
    (created : Nat → Int) (history : List Send) (now : Int) (iv : Bytes) (m m' : Msg)
    (priv pub : Option Bytes) (b : Bytes)
    (h : dump E (fun k p => ((sendRun E X draw timeout (.fresh created) history).encrypt X draw
      timeout 0 now iv k p).1) m priv pub = (.ok b, m'))
    (hsig : ∀ s, m'.sig = .bytes s → s.length = 65) :
    ∃ fields payload, m.slots = .ok fields ∧ dumps fields = .ok payload ∧
      ((m.cls.encrypt = true ∧ ∃ k, pub = some k ∧ k ≠ []) →
        b.length = 76 + payload.length + 113 + (if m.cls = .Hello then 32 else 0)) ∧
      (¬ (m.cls.encrypt = true ∧ ∃ k, pub = some k ∧ k ≠ []) →
        b.length = 76 + payload.length + (if m.cls = .Hello then 32 else 0) ∧
        (b.drop 76).take payload.length = payload) := by
  have key : ∀ b0, Nonempty (Dumped E m priv ((givenKey pub).map fun k p =>
        ((sendRun E X draw timeout (.fresh created) history).encrypt X draw timeout 0 now iv k p).1) b0 m') →
      ∀ t, b = b0 ++ t → t.length = (if m.cls = .Hello then 32 else 0) →
      ∃ fields payload, m.slots = .ok fields ∧ dumps fields = .ok payload ∧
      ((m.cls.encrypt = true ∧ ∃ k, pub = some k ∧ k ≠ []) →
        b.length = 76 + payload.length + 113 + (if m.cls = .Hello then 32 else 0)) ∧
      (¬ (m.cls.encrypt = true ∧ ∃ k, pub = some k ∧ k ≠ []) →
        b.length = 76 + payload.length + (if m.cls = .Hello then 32 else 0) ∧
        (b.drop 76).take payload.length = payload) := by
    rintro b0 ⟨⟨sl, pl, hd, sg, bd, hsl, hpl, hm, hhd, hb, hbody, _⟩⟩ t hbt ht
    have hl := hsig sg (by rw [hm])
    have hh : hd.length = 11 := (packHeader_ok hhd).elim fun _ h => h.2.2.2.1
    refine ⟨sl, pl, hsl, hpl, ?_, ?_⟩
    · rintro ⟨he, hk⟩
      rcases hbody with ⟨_, g, hg, hgp⟩ | ⟨hf, _⟩
      · cases hgk : givenKey pub with
        | none => exact absurd hk (givenKey_none hgk)
        | some k =>
          rw [hgk] at hg
          simp only [Option.map_some, Option.some.injEq] at hg
          subst hg
          obtain ⟨i, hi⟩ := session_seals E X draw timeout created history 0 now iv k pl bd hgp
          have := ecies_length L hi
          rw [hbt, hb]
          simp only [List.length_append, hh, hl, ht, this]
          omega
      · cases hgk : givenKey pub with
        | none => exact absurd hk (givenKey_none hgk)
        | some k => rw [hgk, he] at hf; simp at hf
    · intro hn
      rcases hbody with ⟨he, g, hg, _⟩ | ⟨_, hbp⟩
      · cases hgk : givenKey pub with
        | none => rw [hgk] at hg; cases hg
        | some k => exact absurd ⟨he, k, givenKey_some hgk⟩ hn
      · rw [hbt, hb, hbp]
        refine ⟨by simp only [List.length_append, hh, hl, ht], ?_⟩
        rw [List.append_assoc, List.drop_left' (by simp [hh, hl]), List.take_left]
  unfold dump at h
  rcases serialize_ok h with ⟨hc, hd⟩ | ⟨hc, b0, v, hd, _, hb⟩
  · exact key b hd [] (by simp) (by simp [hc])
  · exact key b0 hd _ hb (by rw [packPascal_length]; simp [hc])

private theorem packPascal_inj {v w : PStr} (hv : v.length ≤ 31 ∧ ∀ c ∈ v, c.toNat < 128)
    (hw : w.length ≤ 31 ∧ ∀ c ∈ w, c.toNat < 128)
    (h : packPascal (asciiReplace v) = packPascal (asciiReplace w)) : v = w := by
  have h1 := fieldVersion_pack (asciiReplace v) (by simpa [asciiReplace] using hv.1)
  have h2 := fieldVersion_pack (asciiReplace w) (by simpa [asciiReplace] using hw.1)
  rw [h, h2] at h1
  rw [← asciiDecode_replace v hv.2, ← asciiDecode_replace w hw.2, h1]

/-- The parts of a dump that determine its message. -/
private theorem dumped_parts {E : Env} {f : Bytes → Bytes → Res Bytes} {d : Bytes → Res Bytes}
    {m m' : Msg} {priv pub : Option Bytes} {b : Bytes}
    (hd : Nonempty (Dumped E m priv ((givenKey pub).map f) b m'))
    (hdec : ∀ k p c, pub = some k → f k p = .ok c → d c = .ok p)
    (hsig : ∀ s, m'.sig = .bytes s → s.length = 65) :
    frameType b = m.cls.typeId ∧ m.ts.structInt = some (frameTime b : Int) ∧
    m'.sig = .bytes (frameSig b) ∧ m'.enc = .bool (frameFlag b) ∧ m'.ty = m.ty ∧ m'.ts = m.ts ∧
    m'.attrs = m.attrs ∧ m'.cls = m.cls ∧
    ∃ sl pl, m.slots = .ok sl ∧ dumps sl = .ok pl ∧
      (if frameFlag b then d (frameBody b) else .ok (frameBody b)) = .ok pl := by
  obtain ⟨⟨sl, pl, hd, sg, bd, hsl, hpl, hm, hhd, hb, hbody, _⟩⟩ := hd
  have hl := hsig sg (by rw [hm])
  obtain ⟨p1, p2, p3, p4, p5, p6⟩ := frame_parts hhd sg bd hl
  rw [← hb] at p1 p2 p3 p4 p5 p6
  simp only [Val.truthy] at p3
  refine ⟨p1, p2, by rw [hm, p4], by rw [hm, p3], by rw [hm], by rw [hm], by rw [hm], by rw [hm],
    sl, pl, hsl, hpl, ?_⟩
  rw [p3, p5]
  rcases hbody with ⟨he, g, hg, hgp⟩ | ⟨he, rfl⟩
  · cases hk : givenKey pub with
    | none => rw [hk] at hg; cases hg
    | some k =>
      rw [hk] at hg
      simp only [Option.map_some, Option.some.injEq] at hg
      subst hg
      simp only [he, Option.map_some, Option.isSome_some, Bool.and_self, if_true]
      exact hdec k pl bd (givenKey_some hk).1 hgp
  · rw [he]; rfl

/-- C83: a frame is the frame of one message only.  Two well-typed messages that give the same
frame, even if sealed by different senders' functions `f` and `g` as long as one decryption function
`d` undoes both, have the same class, time and signature and the same fields down to the last attachment.
The version of a `Hello` is covered if it fits its 31 bytes and is ASCII. -/
theorem frame_identifies (E : Env) (f g : Bytes → Bytes → Res Bytes) (d : Bytes → Res Bytes)
    (m m' n n' : Msg) (priv priv2 pub pub2 : Option Bytes) (b : Bytes)
    (hm : dump E f m priv pub = (.ok b, m')) (hn : dump E g n priv2 pub2 = (.ok b, n'))
    (wm : WellTypedMsg E m) (wn : WellTypedMsg E n)
    (hf : ∀ k p c, pub = some k → f k p = .ok c → d c = .ok p)
    (hg : ∀ k p c, pub2 = some k → g k p = .ok c → d c = .ok p)
    (sm : ∀ s, m'.sig = .bytes s → s.length = 65) (sn : ∀ s, n'.sig = .bytes s → s.length = 65)
    (vm : ∀ v, getAttr m.attrs p!"_version" = .str v → v.length ≤ 31 ∧ ∀ c ∈ v, c.toNat < 128)
    (vn : ∀ v, getAttr n.attrs p!"_version" = .str v → v.length ≤ 31 ∧ ∀ c ∈ v, c.toNat < 128) :
    m'.cls = n'.cls ∧ m'.ts.structInt = n'.ts.structInt ∧ m'.enc = n'.enc ∧ m'.sig = n'.sig ∧
    m'.attrs = n'.attrs := by
  have same : ∀ b0, Nonempty (Dumped E m priv ((givenKey pub).map f) b0 m') →
      Nonempty (Dumped E n priv2 ((givenKey pub2).map g) b0 n') → ∀ as as',
      WellTyped E m.cls as → serAttrs m.cls m.attrs = serAttrs m.cls as →
      WellTyped E n.cls as' → serAttrs n.cls n.attrs = serAttrs n.cls as' →
      m'.cls = n'.cls ∧ m'.ts.structInt = n'.ts.structInt ∧ m'.enc = n'.enc ∧ m'.sig = n'.sig ∧
      as = as' := by
    intro b0 h1 h2 as as' w1 e1 w2 e2
    obtain ⟨a1, a2, a3, a4, a5, a6, a7, a8, sl, pl, a9, a10, a11⟩ := dumped_parts h1 hf sm
    obtain ⟨c1, c2, c3, c4, c5, c6, c7, c8, sl', pl', c9, c10, c11⟩ := dumped_parts h2 hg sn
    have hc : m.cls = n.cls := typeId_inj (a1.symm.trans c1)
    rw [a11] at c11
    injection c11 with c11
    subst c11
    refine ⟨by rw [a8, c8, hc], by rw [a6, c6, a2, c2], by rw [a4, c4], by rw [a3, c3], ?_⟩
    have q1 := parse_wellTyped w1 e1 a9 a10 ⟨0, 0, false⟩ [] none
    have q2 := parse_wellTyped w2 e2 c9 c10 ⟨0, 0, false⟩ [] none
    rw [← hc, q1] at q2
    simp only [Except.ok.injEq, Msg.mk.injEq, versionAttr, List.append_nil] at q2
    exact q2.2.2.2.2.2
  obtain ⟨as, w1, e1, s1⟩ := wellTyped_split wm
  obtain ⟨as', w2, e2, s2⟩ := wellTyped_split wn
  have km := serialize_keeps E m priv ((givenKey pub).map f)
  have kn := serialize_keeps E n priv2 ((givenKey pub2).map g)
  unfold dump at hm hn
  rw [hm] at km
  rw [hn] at kn
  rw [km.2.2.2.1, kn.2.2.2.1]
  rcases serialize_ok hm with ⟨nm, dm⟩ | ⟨im, bm, v, dm, gm, em⟩ <;>
    rcases serialize_ok hn with ⟨nn, dn⟩ | ⟨iN, bn, w, dn, gn, en⟩
  · obtain ⟨r1, r2, r3, r4, r5⟩ := same b dm dn as as' w1 e1 w2 e2
    refine ⟨r1, r2, r3, r4, ?_⟩
    rcases s1 with ⟨_, s1⟩ | ⟨s1, _⟩
    · rcases s2 with ⟨_, s2⟩ | ⟨s2, _⟩
      · rw [s1, s2, r5]
      · exact absurd s2 nn
    · exact absurd s1 nm
  · have t1 := (dumped_parts dm hf sm).1
    have : frameType b = n.cls.typeId := by
      have := (dumped_parts dn hg sn).1
      obtain ⟨⟨sl, pl, hd, sg, bd, hsl, hpl, hm, hhd, hb, hbody, _⟩⟩ := dn
      have hl := sn sg (by rw [hm])
      have q := (frame_parts hhd sg (bd ++ packPascal (asciiReplace w)) hl).1
      rw [← List.append_assoc, ← hb, ← en] at q
      exact q
    rw [t1] at this
    exact absurd ((typeId_inj this).trans iN) nm
  · have t1 := (dumped_parts dn hg sn).1
    have : frameType b = m.cls.typeId := by
      obtain ⟨⟨sl, pl, hd, sg, bd, hsl, hpl, hm, hhd, hb, hbody, _⟩⟩ := dm
      have hl := sm sg (by rw [hm])
      have q := (frame_parts hhd sg (bd ++ packPascal (asciiReplace v)) hl).1
      rw [← List.append_assoc, ← hb, ← em] at q
      exact q
    rw [t1] at this
    exact absurd ((typeId_inj this).trans im) nn
  · rw [em] at en
    obtain ⟨hb, hp⟩ := List.append_inj' en (by rw [packPascal_length, packPascal_length])
    subst hb
    have hv := packPascal_inj (vm v gm) (vn w gn) hp
    subst hv
    obtain ⟨r1, r2, r3, r4, r5⟩ := same bm dm dn as as' w1 e1 w2 e2
    refine ⟨r1, r2, r3, r4, ?_⟩
    rcases s1 with ⟨s1, _⟩ | ⟨_, x, s1, g1⟩
    · exact absurd im s1
    · rcases s2 with ⟨s2, _⟩ | ⟨_, y, s2, g2⟩
      · exact absurd iN s2
      · rw [gm] at g1
        rw [gn] at g2
        injection g1 with g1
        injection g2 with g2
        rw [s1, s2, r5, ← g1, ← g2]

/-! ### The hypotheses can be met -/

private def exRand (sig : Val) : Msg :=
  ⟨.RandVal, .int Cls.RandVal.typeId, .int 1500000000, .bool false, sig, [(p!"rand_val", .int 7)]⟩

private def exFrame (pub : Option Bytes) : Res Bytes × Msg :=
  dump toyEnv (fun k p => ((sendRun toyEnv toyX (fun i => [UInt8.ofNat (i + 1)]) 3600
    (.fresh fun _ => 0) []).encrypt toyX (fun i => [UInt8.ofNat (i + 1)]) 3600 0 50
    (List.replicate 16 9) k p).1) (exRand .none) (some (List.replicate 32 7)) pub

/-- 201 bytes in a sealed frame, 88 in a plain one: 113 apart. -/
example : (exFrame (some ((toyX.pub [2]).drop 1))).1.toOption.map List.length = some 201 ∧
    (exFrame none).1.toOption.map List.length = some 88 := by decide +kernel

private theorem exSig65 (pub : Option Bytes)
    (h : (match (exFrame pub).2.sig with
      | .bytes s => s.length == 65
      | _ => false) = true) : ∀ s, (exFrame pub).2.sig = .bytes s → s.length = 65 := by
  intro s hs
  rw [hs] at h
  simpa using h

example (b : Bytes) (hb : (exFrame (some ((toyX.pub [2]).drop 1))).1 = .ok b) :
    ∃ fields payload, (exRand .none).slots = .ok fields ∧ dumps fields = .ok payload ∧
      b.length = 76 + payload.length + 113 := by
  obtain ⟨f, p, h1, h2, h3, _⟩ := frame_size toyEnv toyX toyX_laws (fun i => [UInt8.ofNat (i + 1)])
    3600 (fun _ => 0) [] 50 (List.replicate 16 9) (exRand .none) _ (some (List.replicate 32 7))
    (some ((toyX.pub [2]).drop 1)) b (Prod.ext hb rfl)
    (exSig65 (some ((toyX.pub [2]).drop 1)) (by decide +kernel))
  exact ⟨f, p, h1, h2, h3 ⟨rfl, _, rfl, by decide⟩⟩

/-- The sender signs a message and dumps it; somebody else dumps a message that has this
signature already.  The frames are the same, and so are the messages. -/
example : ∃ b m' n', dump toyEnv (fun _ p => .ok p) (exRand .none) (some (List.replicate 32 7)) none = (.ok b, m') ∧
    dump toyEnv (fun _ p => .ok p) (exRand m'.sig) none none = (.ok b, n') ∧
    WellTypedMsg toyEnv (exRand .none) ∧ WellTypedMsg toyEnv (exRand m'.sig) ∧
    m'.attrs = n'.attrs := by
  have wt : ∀ s, WellTypedMsg toyEnv (exRand s) := by
    intro s
    refine ⟨_, _, rfl, ?_, ?_, ?_, ?_⟩
    · intro name v h _
      simp only [exRand, List.mem_cons, List.not_mem_nil, or_false, Prod.mk.injEq] at h
      obtain ⟨rfl, rfl⟩ := h
      exact ⟨by simp [FieldOk, exRand, Cls.nodeSlots, Cls.enumSlots, lookupName, Data, data], by rfl⟩
    · intro name sd v _ h; cases h
    · intro name sd v _ _ _ _ _ _ h; cases h
    · intro name sd v _ _ _ _ _ _ h; cases h
  have hd : ∃ b, (exFrame none).1 = .ok b := by
    have : (exFrame none).1.isOk = true := by decide +kernel
    revert this
    cases (exFrame none).1 with
    | ok b => exact fun _ => ⟨b, rfl⟩
    | error _ => exact fun h => by cases h
  obtain ⟨b, hb⟩ := hd
  have e1 : dump toyEnv (fun _ p => .ok p) (exRand .none) (some (List.replicate 32 7)) none =
      (.ok b, (exFrame none).2) := Prod.ext hb rfl
  have e2 : dump toyEnv (fun _ p => .ok p) (exRand (exFrame none).2.sig) none none =
      (.ok b, exRand (exFrame none).2.sig) := by
    rw [← hb]
    have : (decide ((dump toyEnv (fun _ p => .ok p) (exRand (exFrame none).2.sig) none none) =
      ((exFrame none).1, exRand (exFrame none).2.sig))) = true := by decide +kernel
    exact of_decide_eq_true this
  refine ⟨b, _, _, e1, e2, wt _, wt _, ?_⟩
  exact (frame_identifies toyEnv (fun _ p => .ok p) (fun _ p => .ok p) .ok _ _ _ _ _ _ none none b e1 e2
    (wt _) (wt _) (by intro k p c h; cases h) (by intro k p c h; cases h) (exSig65 none (by decide +kernel))
    (exSig65 none (by decide +kernel)) (by intro v h; cases h) (by intro v h; cases h)).2.2.2.2

end Verif.Props
