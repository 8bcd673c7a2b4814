import Verif.Spec.Relay
import Verif.Props.Reload
/-!
# C105: frames that are passed on do not change
-/

namespace Verif.Props

open Verif Spec

private theorem dumped_plain {E : Env} {m m' n n' : Msg} {k j : Option Bytes} {b c : Bytes}
    (x : Dumped E m k none b m') (y : Dumped E n j none c n') (hc : m.cls = n.cls) (ht : m.ts = n.ts)
    (ha : m.attrs = n.attrs) (hs : m'.sig = n'.sig) : b = c := by
  have h1 := x.hm
  have h2 := y.hm
  have e1 : x.body = x.payload := by
    rcases x.hbody with ⟨_, g, h, _⟩ | ⟨_, h⟩
    · cases h
    · exact h
  have e2 : y.body = y.payload := by
    rcases y.hbody with ⟨_, g, h, _⟩ | ⟨_, h⟩
    · cases h
    · exact h
  have e3 : m.slots = n.slots := by unfold Msg.slots; rw [hc, ha]
  have e4 : x.slots = y.slots := by
    have := x.hslots
    rw [e3, y.hslots] at this
    injection this with this
    exact this.symm
  have e5 : x.payload = y.payload := by
    have := x.hpayload
    rw [e4, y.hpayload] at this
    injection this with this
    exact this.symm
  have e6 : x.hd = y.hd := by
    have := x.hhd
    rw [hc, ht, y.hhd] at this
    injection this with this
    exact this.symm
  rw [h1, h2] at hs
  injection hs with hs
  exact x.hb.trans (by rw [e1, e5, e6, hs, ← e2]; exact y.hb.symm)

/-- Dumped again, without encryption, a message that was dumped so gives the same frame. -/
private theorem dump_again {E : Env} {encrypt : Bytes → Bytes → Res Bytes} {m m' n : Msg} {k j : Option Bytes}
    {b c : Bytes} (h : dump E encrypt m k none = (.ok b, m')) (h' : dump E encrypt m' j none = (.ok c, n)) : c = b := by
  have e1 : serialize E m k none = (.ok b, m') := h
  have e2 : serialize E m' j none = (.ok c, n) := h'
  have key : ∀ {b c : Bytes}, Dumped E m k none b m' → Dumped E m' j none c n →
      b = c ∧ m.cls = m'.cls ∧ m.attrs = m'.attrs := by
    intro b c x y
    have hm := x.hm
    have hn := y.hm
    have hsig : m'.sig = n.sig := by
      rcases y.hsig with ⟨h, _⟩ | ⟨h, _⟩
      · exact h.trans (congrArg Msg.sig hn).symm
      · rw [hm] at h; cases h
    refine ⟨dumped_plain x y ?_ ?_ ?_ hsig, ?_, ?_⟩ <;> rw [hm]
  rcases serialize_ok e1 with ⟨_, ⟨x⟩⟩ | ⟨h1, b0, v, ⟨x⟩, hv, rfl⟩ <;>
    rcases serialize_ok e2 with ⟨_, ⟨y⟩⟩ | ⟨h2, c0, w, ⟨y⟩, hw, rfl⟩
  · exact (key x y).1.symm
  · exact absurd ((key x y).2.1.trans h2) ‹_›
  · exact absurd ((key x y).2.1.symm.trans h1) ‹_›
  · obtain ⟨a1, _, a3⟩ := key x y
    rw [a3, hw] at hv
    injection hv with hv
    rw [a1, hv]

private theorem base_repeats {E : Env} {m m' : Msg} {k : Option Bytes} {b : Bytes} (x : Dumped E m k none b m') :
    serializeBase E m' none none = (.ok b, m') := by
  have e1 : x.body = x.payload := by
    rcases x.hbody with ⟨_, g, h, _⟩ | ⟨_, h⟩
    · cases h
    · exact h
  have hm := x.hm
  have hb := x.hb
  have hs := x.hslots
  have hp := x.hpayload
  have hh := x.hhd
  generalize x.sg = sg at hm hb
  rw [e1] at hb
  generalize x.payload = pl at hb hp
  generalize x.slots = sl at hs hp
  generalize x.hd = hd at hb hh
  clear e1 x
  subst hm hb
  unfold serializeBase
  rw [if_neg (by simp [givenKey])]
  have hs' : Msg.slots ⟨m.cls, m.ty, m.ts, .bool (m.cls.encrypt && (none : Option (Bytes → Res Bytes)).isSome), .bytes sg, m.attrs⟩ = .ok sl := hs
  dsimp only
  rw [hs']
  dsimp only
  rw [hp]
  dsimp only
  unfold signFor
  dsimp only
  rw [if_neg (by simp)]
  dsimp only
  rw [if_neg (by simp [Val.truthy])]
  dsimp only
  unfold joinFrame
  dsimp only
  rw [hh]

private theorem dump_repeats {E : Env} {encrypt : Bytes → Bytes → Res Bytes} {m m' : Msg} {k : Option Bytes}
    {b : Bytes} (h : dump E encrypt m k none = (.ok b, m')) : dump E encrypt m' none none = (.ok b, m') := by
  have e1 : serialize E m k none = (.ok b, m') := h
  show serialize E m' none none = _
  unfold serialize
  rcases serialize_ok e1 with ⟨hc, ⟨x⟩⟩ | ⟨hc, b0, v, ⟨x⟩, hv, rfl⟩
  · have : m'.cls = m.cls := by rw [x.hm]
    rw [if_neg (by rw [this]; exact hc)]
    exact base_repeats x
  · have h1 : m'.cls = m.cls := by rw [x.hm]
    have h2 : m'.attrs = m.attrs := by rw [x.hm]
    rw [if_pos (h1.trans hc), base_repeats x]
    dsimp only
    rw [h2, hv]

/-- C105: once a frame was passed on, further nodes that pass it on do not change it. -/
theorem relay_fixed (E : Env) (encrypt dec : Bytes → Bytes → Res Bytes) (hdec0 : ∀ k p, dec k [] ≠ .ok p)
    (a b c : Bytes) (h1 : Hop E encrypt dec a b) (h2 : Hops E encrypt dec b c) : c = b := by
  have key : ∀ {a b c : Bytes}, Hop E encrypt dec a b → Hop E encrypt dec b c → c = b := by
    rintro a b c ⟨priv, pub, ct, now, k, m1, m2, hl, hd⟩ ⟨priv', pub', ct', now', k', m3, m4, hl', hd'⟩
    obtain ⟨rfl, _⟩ := forwarded_same E encrypt dec dec a b priv pub pub' k none priv' ct ct' now now' m1 m2 m3 hl
      hdec0 hd (fun _ _ _ h => by cases h) hl'
    exact dump_again hd hd'
  induction h2 generalizing a with
  | here => rfl
  | next h h3 ih =>
    have e := key h1 h
    subst e
    exact ih _ h

private theorem load_untimed {E : Env} {dec : Bytes → Bytes → Res Bytes} {data : Bytes} {priv pub : Option Bytes}
    {ct : Bool} {now : Int} {m : Msg} (h : (load E dec (some data) priv pub ct now).2 = .ok m) :
    (load E dec (some data) priv none false now).2 = .ok m := by
  obtain ⟨hlen, hmin, hmax, c, hc, _⟩ := load_ok h
  have h3 := load_key_filters E dec data priv pub ct now m h
  cases ct with
  | false => exact h3
  | true =>
    have hmin' : newYear 40 < frameTime data := by rw [← min_is_2010]; exact hmin
    have hmax' : frameTime data < newYear 1040 := by rw [← max_is_3010]; exact hmax
    rw [load_freshness E dec data hlen hmin' hmax' ⟨_, hc⟩] at h3
    split at h3
    · cases h3
    split at h3
    · cases h3
    exact h3

private theorem checked_same {E : Env} {m n : Msg} (h : taskChecks E m = .ok n) : n = m := by
  unfold taskChecks at h
  repeat' split at h
  all_goals first | cases h; rfl | cases h

/-- C105: the frame of a well-formed message that is sent unencrypted is never changed. -/
theorem sent_fixed (E : Env) (encrypt dec : Bytes → Bytes → Res Bytes) (hdec0 : ∀ k p, dec k [] ≠ .ok p)
    (m m' : Msg) (priv : Option Bytes) (b c : Bytes) (t : Nat)
    (hdump : dump E encrypt m priv none = (.ok b, m')) (hw : WellTypedMsg E m)
    (hty : m.ty = .int m.cls.typeId) (hts : m.ts = .int t) (hrange : minTimestamp < t ∧ t < maxTimestamp)
    (hsg : ∀ s, m'.sig = .bytes s → s.length = 65)
    (hver : ∀ v, getAttr m.attrs p!"_version" = .str v → m.cls = .Hello →
      v.length ≤ 31 ∧ (∀ c ∈ v, c.toNat < 128) ∧ verifyVersion E.version v = .ok ())
    (h : Hops E encrypt dec b c) : c = b := by
  cases h with
  | here => rfl
  | next h h2 =>
    rename_i b1
    have e : b1 = b := by
      obtain ⟨rpriv, pub, ct, now, k, m1, m2, hl, hd⟩ := h
      obtain ⟨_, hrt⟩ := dump_load_roundtrip_partial E encrypt dec m m' priv none rpriv b t false now hdump hw hty hts
        hrange (by simp) hsg hver (fun _ _ _ h => by cases h)
      rw [load_untimed hl] at hrt
      have := checked_same hrt.symm
      subst this
      exact dump_again hdump hd
    subst e
    exact relay_fixed E encrypt dec hdec0 _ _ _ h h2

/-- C105: and if no mandatory field is missing, the frame passed on can be passed on again. -/
theorem relay_goes_on (E : Env) (encrypt dec : Bytes → Bytes → Res Bytes) (hdec0 : ∀ k p, dec k [] ≠ .ok p)
    (a b : Bytes) (priv pub key : Option Bytes) (ct : Bool) (now : Int) (m m' : Msg)
    (hl : (load E dec (some a) priv pub ct now).2 = .ok m) (hc : Complete m)
    (hd : dump E encrypt m key none = (.ok b, m')) : Hop E encrypt dec b b := by
  obtain ⟨h1, h2⟩ := forwarded_loads E encrypt dec dec a b priv pub key none none ct false now now m m' hl hc hdec0 hd
    (by simp) (fun _ _ _ h => by cases h)
  exact ⟨none, none, false, now, none, m', m', h1, dump_repeats hd⟩

/-! ### Examples -/

/-- Decryption that refuses the empty string. -/
private def refuseEmpty (_ x : Bytes) : Res Bytes := if x = [] then .error .decryptionError else .ok x

/-- A `RandVal` with a field `RandVal` does not know, and the number in three bytes although it fits the first. -/
private def strangeFrame : Bytes :=
  match packHeader Cls.RandVal.typeId (.int 1500000000) (.bool false) with
  | .ok hd => hd ++ List.replicate 65 9 ++ [0x82, 0x82, 0x68] ++ p!"rand_val".map (fun c => UInt8.ofNat c.toNat) ++
      [0x19, 0, 5] ++ [0x82, 0x61, 0x78, 0x01]
  | .error _ => []

/-- What it becomes when it is passed on. -/
private def plainFrame : Bytes :=
  match packHeader Cls.RandVal.typeId (.int 1500000000) (.bool false) with
  | .ok hd => hd ++ List.replicate 65 9 ++ [0x81, 0x82, 0x68] ++ p!"rand_val".map (fun c => UInt8.ofNat c.toNat) ++ [5]
  | .error _ => []

private def strangeMsg : Msg :=
  ⟨.RandVal, .int Cls.RandVal.typeId, .int 1500000000, .bool false, .bytes (List.replicate 65 9), [(p!"rand_val", .int 5)]⟩

/-- The first node that passes a frame on may change it; the following do not. -/
theorem first_relay : Hop toyEnv (fun _ x => .ok x) refuseEmpty strangeFrame plainFrame ∧
    strangeFrame ≠ plainFrame ∧ Hops toyEnv (fun _ x => .ok x) refuseEmpty strangeFrame plainFrame := by
  have h : Hop toyEnv (fun _ x => .ok x) refuseEmpty strangeFrame plainFrame :=
    ⟨none, none, false, 0, none, strangeMsg, strangeMsg, by decide +kernel, by decide +kernel⟩
  exact ⟨h, by decide +kernel, .next h (.here _)⟩

example : ∀ k p, refuseEmpty k [] ≠ .ok p := by intro k p h; cases h

/-- The frame of a well-formed message without gaps, and a node that passes it on. -/
example : dump toyEnv (fun _ x => .ok x) strangeMsg none none = (.ok plainFrame, strangeMsg) ∧
    WellTypedMsg toyEnv strangeMsg ∧ Complete strangeMsg ∧
    Hop toyEnv (fun _ x => .ok x) refuseEmpty plainFrame plainFrame := by
  refine ⟨by decide +kernel, ?_, ⟨?_, ?_⟩, none, none, false, 0, none, strangeMsg, strangeMsg, by decide +kernel,
    by decide +kernel⟩
  · refine ⟨_, _, rfl, ?_, ?_, ?_, ?_⟩
    · intro name v h _
      simp only [strangeMsg, List.mem_cons, List.not_mem_nil, or_false, Prod.mk.injEq] at h
      obtain ⟨rfl, rfl⟩ := h
      exact ⟨by simp [FieldOk, strangeMsg, Cls.nodeSlots, Cls.enumSlots, lookupName, Data, data], by rfl⟩
    · intro name sd v _ h; cases h
    · intro name sd v _ _ _ _ _ _ h; cases h
    · intro name sd v _ _ _ _ _ _ h; cases h
  · intro name hn hm
    simp only [strangeMsg, Cls.payload, List.mem_cons, List.not_mem_nil, or_false] at hn
    subst hn
    cases hm
  · have key : ∀ {name : PStr} {i : Nat} {y : Val}, ¬ (members (getAttr strangeMsg.attrs name))[i]? = some y := by
      intro name i y h
      unfold strangeMsg getAttr lookupName at h
      split at h
      · rename_i w hw
        split at hw
        · injection hw with hw; subst hw; simp [members] at h
        · cases hw
      · simp [members] at h
    intro path x h
    cases h with
    | here h => exact absurd h key
    | deeper h _ => exact absurd h key

end Verif.Props
