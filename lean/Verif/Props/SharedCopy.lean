import Verif.Lemmas.Objects
import Verif.Lemmas.Toy
import Verif.Props.Crypto
/-!
# C104: a signed copy and later changes of the original
-/

namespace Verif.Props

open Verif Spec

private theorem signed {E : Env} {m m' : Msg} {priv : Bytes}
    (h : m.signMessage E priv = .ok m') : ∃ s hh, shortHash E m = .ok hh ∧
      E.ecdsaSign priv hh = .ok s ∧ m' = { m with sig := .bytes s } := by
  unfold Msg.signMessage at h
  split at h
  · cases h
  rename_i hh hhash
  split at h
  · cases h
  rename_i s hs
  injection h with h
  exact ⟨s, hh, hhash, hs, h.symm⟩

private theorem msg_shape {h : Objects} {a n : Nat} {c : Cls} {ty ts enc sig : Val} {attrs : Attrs}
    (hv : h.read n (.obj a) = some (.msg c ty ts enc sig attrs)) :
    ∃ m names rs vs, n = m + 1 ∧ h[a]? = some (.msg c ty ts enc sig names, rs) ∧ allSome (h.read m) rs = some vs ∧
      names.zip vs = attrs := by
  obtain ⟨m, s, rs, vs, e1, e2, e3, e4⟩ := read_obj_some hv
  cases s with
  | msg c' ty' ts' enc' sig' names =>
    simp only [Shape.value, Val.msg.injEq] at e4
    obtain ⟨rfl, rfl, rfl, rfl, rfl, e⟩ := e4
    exact ⟨m, names, rs, vs, e1, e2, e3, e.symm⟩
  | _ => cases e4

/-- What the copy is made of. -/
private theorem copy_made {E : Env} {h : Objects} {a : Nat} {m m' : Msg} {priv : Bytes}
    (hv : h.value (.obj a) = some m.val) (hs : m.sig = .none) (hm : m.signMessage E priv = .ok m') :
    ∃ names rs, h[a]? = some (.msg m.cls m.ty m.ts m.enc .none names, rs) ∧
      signedCopy E h a priv = .ok (h ++ [(.msg m.cls m.ty m.ts m.enc m'.sig names, rs)], .obj h.length) ∧
      Objects.read (h ++ [(.msg m.cls m.ty m.ts m.enc m'.sig names, rs)]) (h.length + 1) (.obj h.length) = some m'.val := by
  obtain ⟨c, ty, ts, enc, sig, attrs⟩ := m
  dsimp only at hs
  subst hs
  obtain ⟨n, names, rs, vs, e1, e2, e3, e4⟩ := msg_shape (n := h.length + 1) hv
  cases e1
  refine ⟨names, rs, e2, ?_, ?_⟩
  · unfold signedCopy
    rw [e2]
    dsimp only
    rw [if_pos rfl, hv]
    dsimp only [Msg.val]
    rw [hm]
  · have h4 : (h ++ [(Shape.msg c ty ts enc m'.sig names, rs)])[h.length]? =
        some (Shape.msg c ty ts enc m'.sig names, rs) := by simp
    dsimp only
    rw [read_obj h4, allSome_mono (fun x _ y hx => read_append hx) e3]
    obtain ⟨s, hh, _, _, rfl⟩ := signed hm
    simp only [Option.map, Shape.value, e4, Msg.val]

/-- C104: the copy is the message with the signature, a new object; the original is as it was. -/
theorem copy_value (E : Env) (h : Objects) (a : Nat) (m m' : Msg) (priv : Bytes)
    (hv : h.value (.obj a) = some m.val) (hs : m.sig = .none) (hm : m.signMessage E priv = .ok m') :
    ∃ h' r, signedCopy E h a priv = .ok (h', r) ∧ h'.value r = some m'.val ∧ r ≠ .obj a ∧
      h'.value (.obj a) = some m.val := by
  obtain ⟨names, rs, e1, e2, e3⟩ := copy_made hv hs hm
  refine ⟨_, _, e2, read_more e3 ?_, ?_, value_append hv⟩
  · rw [List.length_append]; omega
  · intro e
    have : a < h.length := by
      rcases Nat.lt_or_ge a h.length with h1 | h1
      · exact h1
      · rw [List.getElem?_eq_none h1] at e1; cases e1
    cases e
    omega

/-- C104: a signed message is not copied; signing that fails is reported. -/
theorem copy_else (E : Env) (h : Objects) (a : Nat) (m : Msg) (priv : Bytes) (hv : h.value (.obj a) = some m.val) :
    (m.sig ≠ .none → signedCopy E h a priv = .ok (h, .obj a)) ∧
    ∀ e, m.sig = .none → m.signMessage E priv = .error e → signedCopy E h a priv = .error e := by
  obtain ⟨c, ty, ts, enc, sig, attrs⟩ := m
  obtain ⟨n, names, rs, vs, e1, e2, e3, e4⟩ := msg_shape (n := h.length + 1) hv
  unfold signedCopy
  rw [e2]
  dsimp only
  refine ⟨fun h => if_neg h, fun e hs hm => ?_⟩
  rw [if_pos hs, hv]
  dsimp only [Msg.val]
  rw [hm]

/-- C104: whatever is assigned to the attributes of the original (or its signature), the copy stays the
same. -/
theorem copy_assign (E : Env) (h h' : Objects) (a : Nat) (m m' : Msg) (priv : Bytes) (r : Ref)
    (hv : h.value (.obj a) = some m.val) (hs : m.sig = .none) (hm : m.signMessage E priv = .ok m')
    (hc : signedCopy E h a priv = .ok (h', r)) (s : Shape) (rs : List Ref) :
    Objects.value (h'.set a (s, rs)) r = some m'.val := by
  obtain ⟨names, rs0, e1, e2, e3⟩ := copy_made hv hs hm
  rw [e2] at hc
  cases hc
  have hlt : a < h.length := by
    rcases Nat.lt_or_ge a h.length with h1 | h1
    · exact h1
    · rw [List.getElem?_eq_none h1] at e1; cases e1
  unfold Objects.value
  rw [read_agree (h := h ++ [(.msg m.cls m.ty m.ts m.enc m'.sig names, rs0)])]
  · exact read_more e3 (by simp)
  · intro b hb
    rw [List.getElem?_set_ne]
    rintro rfl
    cases hb with
    | here => omega
    | there e hq hb =>
      rw [List.getElem?_append_right (Nat.le_refl _), Nat.sub_self] at e
      cases e
      obtain ⟨_, _, rs', vs, e4, e5, e6, _⟩ := msg_shape (n := h.length + 1) hv
      rw [e1] at e5
      simp only [Option.some.injEq, Prod.mk.injEq] at e5
      obtain ⟨_, rfl⟩ := e5
      cases e4
      obtain ⟨w, hw⟩ := allSome_mem e6 hq
      refine no_loop e1 hv _ hq (reach_agree (h := h) (fun c hc => ?_) hb)
      obtain ⟨w', hw'⟩ := read_reach hw hc
      obtain ⟨_, s1, rs1, _, _, e7, _⟩ := read_obj_some hw'
      have : c < h.length := by
        rcases Nat.lt_or_ge c h.length with h1 | h1
        · exact h1
        · rw [List.getElem?_eq_none h1] at e7; cases e7
      rw [List.getElem?_append_left this]

/-- C104: a program that cannot reach the objects in the attributes of the message (all attributes may be
immutable: then this includes programs that have the original) leaves the copy as it is, and its
signature verifies. -/
theorem copy_stays_partial (E : Env) (h h' : Objects) (a : Nat) (m m' : Msg) (priv : Bytes) (r : Ref)
    (hv : h.value (.obj a) = some m.val) (hs : m.sig = .none) (hm : m.signMessage E priv = .ok m')
    (hc : signedCopy E h a priv = .ok (h', r)) (hcl : Closed h) (K : List Ref)
    (hK : ∀ b, Ref.obj b ∈ K → b < h.length)
    (hd : ∀ s rs, h[a]? = some (s, rs) → ∀ q ∈ rs, ∀ b, Reach h q b → ¬ ReachAny h K b)
    (h2 : Objects) (K2 : List Ref) (hst : Steps E (h', K) (h2, K2)) :
    h2.value r = some m'.val ∧ ∀ pub, pub.length = 64 →
      (∀ x s, E.sign priv (E.sha3 x) = .ok s → E.recover (.bytes s) (E.sha3 x) = some (4 :: pub)) →
      m'.verifySig E pub = .ok () := by
  obtain ⟨names, rs0, e1, e2, e3⟩ := copy_made hv hs hm
  rw [e2] at hc
  cases hc
  have hlt : a < h.length := by
    rcases Nat.lt_or_ge a h.length with h1 | h1
    · exact h1
    · rw [List.getElem?_eq_none h1] at e1; cases e1
  have hold : ∀ b, b < h.length → (h ++ [(Shape.msg m.cls m.ty m.ts m.enc m'.sig names, rs0)])[b]? = h[b]? :=
    fun b hb => List.getElem?_append_left hb
  have hnew : (h ++ [(Shape.msg m.cls m.ty m.ts m.enc m'.sig names, rs0)])[h.length]? =
      some (Shape.msg m.cls m.ty m.ts m.enc m'.sig names, rs0) := by simp
  have hin : ∀ q ∈ rs0, ∀ b, q = Ref.obj b → b < h.length := by
    rintro q hq b rfl
    exact hcl a _ _ e1 b hq
  have hA : Apart (h ++ [(Shape.msg m.cls m.ty m.ts m.enc m'.sig names, rs0)]) K (.obj h.length) := by
    refine ⟨?_, ?_, ?_, ?_⟩
    · intro b s rs e c hc
      rw [List.length_append]
      rcases Nat.lt_trichotomy b h.length with h1 | h1 | h1
      · rw [hold b h1] at e
        have := hcl b s rs e c hc
        omega
      · subst h1
        rw [hnew] at e
        cases e
        have := hin _ hc c rfl
        omega
      · rw [List.getElem?_eq_none (by simp; omega)] at e
        cases e
    · intro b hb
      have := hK b hb
      rw [List.length_append]
      omega
    · intro b e
      cases e
      simp
    · rintro b hb ⟨k, hk, hkb⟩
      have hkb' : Reach h k b := reach_agree (fun c hc => hold c (reach_lt hcl (fun d e => hK d (e ▸ hk)) hc)) hkb
      have hblt := reach_lt hcl (fun d e => hK d (e ▸ hk)) hkb'
      cases hb with
      | here => omega
      | there e hq hb =>
        rw [hnew] at e
        cases e
        exact hd _ _ e1 _ hq b (reach_agree (fun c hc => hold c (reach_lt hcl (hin _ hq) hc)) hb) ⟨k, hk, hkb'⟩
  obtain ⟨_, b, c⟩ := apart_steps hA hst
  refine ⟨value_same b c (read_more e3 (by simp)), fun pub hp law => ?_⟩
  obtain ⟨s, hh, hhash, hes, rfl⟩ := signed hm
  have : shortHash E { m with sig := .bytes s } = shortHash E m := rfl
  unfold Msg.verifySig verifySigWith
  rw [this, hhash]
  exact (ecdsa_verify_decision E pub hh (.bytes s)).1.mpr ⟨hp, law _ _ hes⟩

/-- A gossip whose list is an object of its own, and a dictionary. -/
private def gossips : Objects :=
  [(.list, [.atom (.str p!"a")]),
   (.msg .Gossip (.int 1011) (.int 5) (.bool false) .none [p!"gossip"], [.obj 0]),
   (.dict [], [])]

/-- C104, refuted: the copy is shallow (as `utils.py:45` says), so appending to a list of the original
while the copy waits in the queue changes the copy, and its signature no longer verifies, although it
did before. -/
theorem copy_stays_refuted : ∃ (E : Env) (h h' h2 : Objects) (a : Nat) (m m' m2 : Msg) (priv pub : Bytes) (r : Ref)
    (K2 : List Ref),
    h.value (.obj a) = some m.val ∧ m.sig = .none ∧ m.signMessage E priv = .ok m' ∧
    signedCopy E h a priv = .ok (h', r) ∧ h'.value r = some m'.val ∧ m'.verifySig E pub = .ok () ∧
    Steps E (h', [.obj a]) (h2, K2) ∧ h2.value r = some m2.val ∧ m2 ≠ m' ∧
    m2.verifySig E pub = .error .invalidSignature := by
  let sg : Val := .bytes (List.replicate 32 7 ++ toyEnv.sha3 (toyEnv.sha1
    [130, 25, 3, 243, 5, 129, 130, 102, 103, 111, 115, 115, 105, 112, 129, 97, 97]) ++ [0])
  let o1 : Obj := (.msg .Gossip (.int 1011) (.int 5) (.bool false) .none [p!"gossip"], [.obj 0])
  let h' : Objects := gossips ++ [(.msg .Gossip (.int 1011) (.int 5) (.bool false) sg [p!"gossip"], [.obj 0])]
  refine ⟨toyEnv, gossips, h', h'.set 0 (.list, [.atom (.str p!"a"), .atom (.str p!"b")]), 1,
    ⟨.Gossip, .int 1011, .int 5, .bool false, .none, [(p!"gossip", .list [.str p!"a"])]⟩,
    ⟨.Gossip, .int 1011, .int 5, .bool false, sg, [(p!"gossip", .list [.str p!"a"])]⟩,
    ⟨.Gossip, .int 1011, .int 5, .bool false, sg, [(p!"gossip", .list [.str p!"a", .str p!"b"])]⟩,
    List.replicate 32 7, List.replicate 64 7, .obj 3, [.obj 1], ?_⟩
  refine ⟨by decide +kernel, rfl, by decide +kernel, by decide +kernel, by decide +kernel, by decide +kernel,
    .more .none (.change ⟨.obj 1, by simp, .there (s := o1.1) (rs := o1.2) (r := .obj 0) rfl (by decide) .here⟩
      (fun r hr => ?_)), by decide +kernel, by decide +kernel, by decide +kernel⟩
  simp only [List.mem_cons, List.not_mem_nil, or_false] at hr
  rcases hr with rfl | rfl <;> trivial

/-- A program that only has the dictionary leaves the copy of the gossip as it is. -/
example : ∃ h' r m', signedCopy toyEnv gossips 1 (List.replicate 32 7) = .ok (h', r) ∧
    ∀ h2 K2, Steps toyEnv (h', [.obj 2]) (h2, K2) → h2.value r = some (Msg.val m') ∧
      m'.verifySig toyEnv (List.replicate 64 7) = .ok () := by
  let m : Msg := ⟨.Gossip, .int 1011, .int 5, .bool false, .none, [(p!"gossip", .list [.str p!"a"])]⟩
  have hv : gossips.value (.obj 1) = some m.val := by decide +kernel
  cases hm : m.signMessage toyEnv (List.replicate 32 7) with
  | error e =>
    have : (m.signMessage toyEnv (List.replicate 32 7)).isOk = true := by decide +kernel
    rw [hm] at this
    cases this
  | ok m' =>
  obtain ⟨h', r, e, hr, _⟩ := copy_value toyEnv gossips 1 m m' (List.replicate 32 7) hv rfl hm
  refine ⟨h', r, m', e, fun h2 K2 hst => ?_⟩
  have := copy_stays_partial toyEnv gossips h' 1 m m' (List.replicate 32 7) r hv rfl hm e ?_
    [.obj 2] ?_ ?_ h2 K2 hst
  · exact ⟨this.1, this.2 _ (by decide) fun x s hs => (toy_law x s hs).2⟩
  · intro a s rs e b hb
    match a, e with
    | 0, e => cases e; simp at hb
    | 1, e => cases e; simp at hb; subst hb; decide
    | 2, e => cases e; simp at hb
    | n + 3, e => cases e
  · intro b hb
    simp at hb
    subst hb
    decide
  · rintro s rs e q hq b hb ⟨k, hk, hkb⟩
    cases e
    rcases List.mem_singleton.mp hq with rfl
    rcases List.mem_singleton.mp hk with rfl
    cases hb with
    | here => cases hkb with
      | there e hq _ => cases e; cases hq
    | there e hq _ => cases e; rcases List.mem_singleton.mp hq with rfl; rename_i hb; cases hb

end Verif.Props
