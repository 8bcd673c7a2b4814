import Verif.Lemmas.Writable
import Verif.Props.RoundTrip
import Verif.Props.Made
/-!
# C95: a message that holds what its class declares can be sent
-/

set_option linter.unusedSimpArgs false

namespace Verif.Props

open Verif Spec

private theorem slots_written {E : Env} {m : Msg} (hw : WellTypedMsg E m) (hf : WritableA m.attrs) :
    ∃ s p, m.slots = .ok s ∧ dumps s = .ok p := by
  obtain ⟨as, hwt, hser, hv⟩ := wellTyped_split hw
  obtain ⟨l, h1, h2, _⟩ := wellTyped_nested hwt
  have hn : m.attrs.length < 2 ^ 64 := by
    have hl : as.length = m.cls.payload.length := by
      cases hwt with | mk _ _ names => rw [← names, List.length_map]
    have hp : m.cls.payload.length < 100 := by cases m.cls <;> decide
    rcases hv with ⟨_, he⟩ | ⟨_, v, he, _⟩ <;> rw [he]
    · omega
    · simp only [List.length_append, List.length_cons, List.length_nil]; omega
  rw [← hser] at h1
  obtain ⟨h3, h4⟩ := fits_serAttrs _ _ _ hf h1
  obtain ⟨b, hb⟩ := dumps_fits (v := .list l) (by simpa only [Val.wireOk] using h2)
    (by simp only [Writable]; exact ⟨Nat.lt_of_le_of_lt h4 hn, h3⟩)
  exact ⟨.list l, b, by unfold Msg.slots; rw [h1], hb⟩

private theorem small_int {n : Nat} (h : n < 2 ^ 64) : Writable (.int n) := by
  simp only [Writable, Int.natAbs_natCast]
  exact small_pow h

private theorem digest_made (E : Env) (m : Msg) (p : Bytes) (ty t : Nat) (hty : m.ty = .int ty)
    (hts : m.ts = .int t) (hy : ty < 2 ^ 64) (ht : t < 2 ^ 64)
    (hv : m.cls = .Hello → ∃ v, getAttr m.attrs p!"_version" = .str v) :
    ∃ h, shortHashOf E m p = .ok h := by
  obtain ⟨b, hb⟩ := dumps_fits (v := .list [.int ty, .int t])
    (by simp [Val.wireOk, Val.wireOkL])
    (by simp only [Writable, WritableL]; exact ⟨by simp, small_int hy, small_int ht, trivial⟩)
  unfold shortHashOf hashInput
  rw [hty, hts, hb]
  dsimp only
  split
  · rename_i hc
    obtain ⟨v, hv⟩ := hv hc
    rw [hv]
    exact ⟨_, rfl⟩
  · exact ⟨_, rfl⟩

private theorem base_made {E : Env} {m : Msg} {priv : Option Bytes} {f : Option (Bytes → Res Bytes)}
    {t : Nat} (hw : WellTypedMsg E m) (hf : WritableA m.attrs)
    (hty : m.ty = .int m.cls.typeId) (hts : m.ts = .int t) (ht : t < 2 ^ 64)
    (hsig : m.sig = .none ∨ ∃ s, m.sig = .bytes s ∧ (priv = none ∨ priv = some [] ∨ s = []))
    (hsign : ∀ k h, priv = some k → k ≠ [] → ∃ s, E.sign k (E.sha3 h) = .ok s)
    (henc : ∀ g p, f = some g → ∃ c, g p = .ok c) :
    ∃ b m', serializeBase E m priv f = (.ok b, m') ∧ m'.attrs = m.attrs := by
  obtain ⟨s, p, hs, hp⟩ := slots_written hw hf
  have hver : m.cls = .Hello → ∃ v, getAttr m.attrs p!"_version" = .str v := by
    intro hc
    obtain ⟨_, _, _, h⟩ := wellTyped_split hw
    rcases h with ⟨h, _⟩ | ⟨_, v, _, h⟩
    · exact absurd hc h
    · exact ⟨v, h⟩
  have hkey : ∀ k, givenKey priv = some k → priv = some k ∧ k ≠ [] := by
    intro k hk
    unfold givenKey at hk
    repeat' split at hk
    all_goals cases hk
    all_goals exact ⟨rfl, by simp⟩
  have hg : ((givenKey priv).isSome && m.sig.truthy) = false := by
    rcases hsig with h | ⟨s, h, h' | h' | h'⟩
    · rw [h]; simp [Val.truthy]
    · rw [h']; simp [givenKey]
    · rw [h']; simp [givenKey]
    · rw [h, h']; simp [Val.truthy]
  have hsg : ∀ m1 : Msg, m1.cls = m.cls → m1.ty = m.ty → m1.ts = m.ts → m1.sig = m.sig →
      m1.attrs = m.attrs →
      ∃ m2 sg, signFor E m1 p priv = .ok m2 ∧ m2.sig = .bytes sg ∧ m2.cls = m.cls ∧ m2.ts = m.ts ∧
        m2.attrs = m.attrs := by
    intro m1 e1 e2 e3 e4 e5
    unfold signFor
    split
    · rename_i hn
      split
      · rename_i k hk
        split at hk
        · obtain ⟨hk1, hk2⟩ := hkey k hk
          obtain ⟨h, hh⟩ := digest_made E m1 p m.cls.typeId t (by rw [e2, hty]) (by rw [e3, hts])
            (Nat.lt_trans (typeId_lt _) (by decide)) ht (by rw [e1, e5]; exact hver)
          obtain ⟨sg, hsg⟩ := hsign k h hk1 hk2
          rw [hh]
          simp only [Env.ecdsaSign, hsg]
          exact ⟨_, sg, rfl, rfl, e1, e3, e5⟩
        · cases hk
      · exact ⟨_, _, rfl, rfl, e1, e3, e5⟩
    · rename_i hn
      rcases hsig with h | ⟨sg, h, _⟩
      · exact absurd (e4.trans h) hn
      · exact ⟨m1, sg, rfl, e4.trans h, e1, e3, e5⟩
  have hj : ∀ (m2 : Msg) sg q, m2.sig = .bytes sg → m2.cls = m.cls → m2.ts = m.ts →
      ∃ b, joinFrame m2 q = .ok b := by
    intro m2 sg q h1 h2 h3
    unfold joinFrame packHeader
    rw [h1, h2, h3, hts]
    simp only [Val.structInt]
    rw [if_neg (Nat.not_le.mpr (typeId_lt _)), if_neg (by omega)]
    exact ⟨_, rfl⟩
  unfold serializeBase
  rw [if_neg (by rw [hg]; simp)]
  dsimp only
  have hs1 : ({ m with enc := .bool (m.cls.encrypt && f.isSome) } : Msg).slots = .ok s := hs
  rw [hs1]
  dsimp only
  rw [hp]
  dsimp only
  obtain ⟨m2, sg, h1, h2, h3, h4, h5⟩ := hsg { m with enc := .bool (m.cls.encrypt && f.isSome) }
    rfl rfl rfl rfl rfl
  rw [h1]
  dsimp only
  split
  · obtain ⟨b, hb⟩ := hj m2 sg p h2 h3 h4
    exact ⟨b, m2, by rw [hb], h5⟩
  · rename_i g hgf
    split at hgf
    · obtain ⟨c, hc⟩ := henc g p hgf
      rw [hc]
      obtain ⟨b, hb⟩ := hj m2 sg c h2 h3 h4
      exact ⟨b, m2, by dsimp only; rw [hb], h5⟩
    · cases hgf

/-- C95: a message that holds what its class declares, with sizes the codec can write, is always
dumped, provided its time stamp is one a header can hold, it has no signature yet (or no key is
given), and signing and encrypting with the given keys do not fail. -/
theorem dump_succeeds (E : Env) (encrypt : Bytes → Bytes → Res Bytes) (m : Msg)
    (priv pub : Option Bytes) (t : Nat) (hw : WellTypedMsg E m) (hf : WritableA m.attrs)
    (hty : m.ty = .int m.cls.typeId) (hts : m.ts = .int t) (ht : t < 2 ^ 64)
    (hsig : m.sig = .none ∨ ∃ s, m.sig = .bytes s ∧ (priv = none ∨ priv = some [] ∨ s = []))
    (hsign : ∀ k h, priv = some k → k ≠ [] → ∃ s, E.sign k (E.sha3 h) = .ok s)
    (henc : ∀ k p, pub = some k → k ≠ [] → ∃ c, encrypt k p = .ok c) :
    ∃ b m', dump E encrypt m priv pub = (.ok b, m') := by
  have henc' : ∀ g p, (givenKey pub).map encrypt = some g → ∃ c, g p = .ok c := by
    intro g p hg
    cases pub with
    | none => simp [givenKey] at hg
    | some k =>
      cases k with
      | nil => simp [givenKey] at hg
      | cons x xs =>
        simp only [givenKey, Option.map_some, Option.some.injEq] at hg
        subst hg
        exact henc (x :: xs) p rfl (by simp)
  obtain ⟨b, m', hb, ha⟩ := base_made hw hf hty hts ht hsig hsign henc'
  unfold dump serialize
  split
  · rename_i hc
    rw [hb]
    dsimp only
    obtain ⟨_, _, _, h⟩ := wellTyped_split hw
    rcases h with ⟨h, _⟩ | ⟨_, v, _, h⟩
    · exact absurd hc h
    · rw [ha, h]
      exact ⟨_, m', rfl⟩
  · exact ⟨b, m', hb⟩

/-- C95: such a message has a digest, and can be signed with any key that signs. -/
theorem digest_succeeds (E : Env) (m : Msg) (t : Nat) (hw : WellTypedMsg E m) (hf : WritableA m.attrs)
    (hty : m.ty = .int m.cls.typeId) (hts : m.ts = .int t) (ht : t < 2 ^ 64) :
    (∃ h, shortHash E m = .ok h) ∧
    ∀ key, (∀ h, ∃ s, E.sign key (E.sha3 h) = .ok s) → ∃ s, m.signMessage E key = .ok { m with sig := .bytes s } := by
  obtain ⟨s, p, hs, hp⟩ := slots_written hw hf
  obtain ⟨h, hh⟩ := digest_made E m p m.cls.typeId t hty hts (Nat.lt_trans (typeId_lt _) (by decide)) ht (by
    intro hc
    obtain ⟨_, _, _, h⟩ := wellTyped_split hw
    rcases h with ⟨h, _⟩ | ⟨_, v, _, h⟩
    · exact absurd hc h
    · exact ⟨v, h⟩)
  have hd : shortHash E m = .ok h := by
    unfold shortHash
    rw [hs]; dsimp only
    rw [hp]; dsimp only
    exact hh
  refine ⟨⟨h, hd⟩, fun key hk => ?_⟩
  obtain ⟨s, hs⟩ := hk h
  refine ⟨s, ?_⟩
  unfold Msg.signMessage Env.ecdsaSign
  rw [hd]; dsimp only
  rw [hs]

/-- C95: and what is sent arrives: there is a frame, and loading it gives the message as `dump` left
it, with all its fields, unless the validation of its class refuses it.  (As everywhere, but for an
empty list of messages and the `conn_id` of a `StartSessionResponse`, which such a message does not
hold.) -/
theorem sent_arrives (E : Env) (encrypt dec : Bytes → Bytes → Res Bytes) (m : Msg)
    (priv rpub rpriv : Option Bytes) (t : Nat) (ct : Bool) (now : Int)
    (hw : WellTypedMsg E m) (hf : WritableA m.attrs)
    (hty : m.ty = .int m.cls.typeId) (hts : m.ts = .int t)
    (hrange : minTimestamp < t ∧ t < maxTimestamp)
    (htime : ct = true → verifyTime now t = .ok ())
    (hsig : m.sig = .none ∨ ∃ s, m.sig = .bytes s ∧ s.length = 65 ∧ (priv = none ∨ priv = some []))
    (hsign : ∀ k h, priv = some k → k ≠ [] → ∃ s, E.sign k (E.sha3 h) = .ok s ∧ s.length = 65)
    (hver : ∀ v, getAttr m.attrs p!"_version" = .str v → m.cls = .Hello →
      v.length ≤ 31 ∧ (∀ c ∈ v, c.toNat < 128) ∧ verifyVersion E.version v = .ok ())
    (hdec : ∀ k p, rpub = some k → k ≠ [] → ∃ c, encrypt k p = .ok c ∧ c ≠ [] ∧ loadDecrypt dec rpriv c = .ok p) :
    ∃ b m', dump E encrypt m priv rpub = (.ok b, m') ∧
      (m'.cls = m.cls ∧ m'.ty = m.ty ∧ m'.ts = m.ts ∧ m'.attrs = m.attrs) ∧
      (load E dec (some b) rpriv none ct now).2 = taskChecks E m' := by
  have ht : t < 2 ^ 64 := Nat.lt_trans hrange.2 (by decide)
  obtain ⟨b, m', hdump⟩ := dump_succeeds E encrypt m priv rpub t hw hf hty hts ht
    (by rcases hsig with h | ⟨s, h, _, h'⟩
        · exact Or.inl h
        · exact Or.inr ⟨s, h, by rcases h' with h' | h' <;> simp [h']⟩)
    (fun k h h1 h2 => by obtain ⟨s, hs, _⟩ := hsign k h h1 h2; exact ⟨s, hs⟩)
    (fun k p h1 h2 => by obtain ⟨c, hc, _⟩ := hdec k p h1 h2; exact ⟨c, hc⟩)
  have hgk : ∀ k, givenKey priv = some k → priv = some k ∧ k ≠ [] := by
    intro k hk
    unfold givenKey at hk
    repeat' split at hk
    all_goals cases hk
    all_goals exact ⟨rfl, by simp⟩
  have hsg : ∀ s, m'.sig = .bytes s → s.length = 65 := by
    intro s hms
    have k0 : ∀ b0, Nonempty (Dumped E m priv ((givenKey rpub).map encrypt) b0 m') → s.length = 65 := by
      rintro b0 ⟨⟨_, _, _, sg, _, _, _, hm, _, _, _, hsig'⟩⟩
      rw [hm] at hms
      simp only [Val.bytes.injEq] at hms
      subst hms
      rcases hsig' with ⟨a, _⟩ | ⟨_, ⟨_, k', x, a, _, hsx⟩ | ⟨_, a⟩⟩
      · rcases hsig with h | ⟨s', h, hl, _⟩
        · rw [h] at a; cases a
        · rw [h] at a; injection a with a; rw [← a]; exact hl
      · obtain ⟨h1, h2⟩ := hgk k' a
        obtain ⟨s', hs', hl⟩ := hsign k' x h1 h2
        unfold Env.ecdsaSign at hsx
        rw [hs'] at hsx
        injection hsx with hsx
        rw [← hsx]; exact hl
      · rw [a]; simp [fakeSig, sigLen]
    have hd' : serialize E m priv ((givenKey rpub).map encrypt) = (.ok b, m') := hdump
    rcases serialize_ok hd' with ⟨_, hd⟩ | ⟨_, b0, v, hd, _⟩
    · exact k0 _ hd
    · exact k0 _ hd
  have fin : ∀ rp, givenKey rp = givenKey rpub → (∀ k, rp = some k → k ≠ []) →
      (m'.cls = m.cls ∧ m'.ty = m.ty ∧ m'.ts = m.ts ∧ m'.attrs = m.attrs) ∧
        (load E dec (some b) rpriv none ct now).2 = taskChecks E m' := by
    intro rp hrp hne
    have hd' : dump E encrypt m priv rp = (.ok b, m') := by
      unfold dump at hdump ⊢
      rw [hrp]; exact hdump
    obtain ⟨hk, hl⟩ := dump_load_roundtrip_partial E encrypt dec m m' priv rp rpriv b t ct now hd' hw
      hty hts hrange htime hsg hver (by
        intro k p c h1 h2
        have hk : rpub = some k := by
          subst h1
          have hne := hne k rfl
          cases k with
          | nil => exact absurd rfl hne
          | cons x xs =>
            cases rpub with
            | none => cases hrp
            | some y =>
              cases y with
              | nil => cases hrp
              | cons y ys => simp only [givenKey] at hrp; exact hrp.symm
        obtain ⟨c', hc, h3, h4⟩ := hdec k p hk (hne k h1)
        rw [hc] at h2
        injection h2 with h2
        subst h2
        exact ⟨h3, h4⟩)
    exact ⟨⟨hk.1, hk.2.1, hk.2.2.1, hk.2.2.2.1⟩, hl⟩
  refine ⟨b, m', hdump, ?_⟩
  cases rpub with
  | none => exact fin none rfl (fun k h => nomatch h)
  | some k =>
    cases k with
    | nil => exact fin none rfl (fun k h => nomatch h)
    | cons x xs => exact fin _ rfl (fun k h => by injection h with h; rw [← h]; simp)

/-- C95: so every message whose class has no validation of its own arrives. -/
theorem sent_loads (E : Env) (encrypt dec : Bytes → Bytes → Res Bytes) (m : Msg)
    (priv rpub rpriv : Option Bytes) (t : Nat) (ct : Bool) (now : Int)
    (hw : WellTypedMsg E m) (hf : WritableA m.attrs) (hc : m.cls.isTask = false)
    (hty : m.ty = .int m.cls.typeId) (hts : m.ts = .int t)
    (hrange : minTimestamp < t ∧ t < maxTimestamp)
    (htime : ct = true → verifyTime now t = .ok ())
    (hsig : m.sig = .none ∨ ∃ s, m.sig = .bytes s ∧ s.length = 65 ∧ (priv = none ∨ priv = some []))
    (hsign : ∀ k h, priv = some k → k ≠ [] → ∃ s, E.sign k (E.sha3 h) = .ok s ∧ s.length = 65)
    (hver : ∀ v, getAttr m.attrs p!"_version" = .str v → m.cls = .Hello →
      v.length ≤ 31 ∧ (∀ c ∈ v, c.toNat < 128) ∧ verifyVersion E.version v = .ok ())
    (hdec : ∀ k p, rpub = some k → k ≠ [] → ∃ c, encrypt k p = .ok c ∧ c ≠ [] ∧ loadDecrypt dec rpriv c = .ok p) :
    ∃ b m', (dump E encrypt m priv rpub).1 = .ok b ∧
      (load E dec (some b) rpriv none ct now).2 = .ok m' ∧ m'.cls = m.cls ∧ m'.attrs = m.attrs := by
  obtain ⟨b, m', h1, ⟨h2, _, _, h3⟩, h4⟩ := sent_arrives E encrypt dec m priv rpub rpriv t ct now hw hf hty hts
    hrange htime hsig hsign hver hdec
  refine ⟨b, m', by rw [h1], ?_, h2, h3⟩
  rw [h4]
  unfold taskChecks
  rw [if_neg (by rw [h2, hc]; simp)]

/-! ### Messages that meet the hypotheses: all that factories make in the examples -/

private theorem toy_small : ∀ c ∈ Cls.all, (match toyMake c [] with
    | .ok m => smallBA m.attrs && decide (m.ty = .int c.typeId) && decide (m.ts = .int 1500000000) && decide (m.cls = c)
    | .error _ => true) = true := by decide +kernel

example (c : Cls) (m : Msg) (h : toyMake c [] = .ok m) (h1 : c ≠ .ForcePayment) (h2 : c ≠ .ForcePaymentRejected) :
    WellTypedMsg toyEnv m ∧ WritableA m.attrs ∧ m.ty = .int m.cls.typeId ∧ m.ts = .int 1500000000 := by
  have hs := toy_small c (every_cls c)
  rw [h] at hs
  simp only [Bool.and_eq_true, decide_eq_true_eq] at hs
  obtain ⟨⟨⟨hf, hty⟩, hts⟩, hc⟩ := hs
  refine ⟨made_wellTyped toyEnv _ _ toyDraws c [] m toyDraws_members List.nodup_nil ?_ h
    ⟨fun e => absurd (hc.symm.trans e) h1, fun e => absurd (hc.symm.trans e) h2⟩,
    fits_smallA _ hf, by rw [hc, hty], hts⟩
  exact ⟨fun _ _ _ _ h => (nomatch h), fun _ _ h => (nomatch h), fun _ _ h => (nomatch h),
    fun _ _ _ h => (nomatch h), fun _ h => (nomatch h)⟩

/-- The other hypotheses in an instance: signing, encrypting and reading go through. -/
example : (match toyMake .ForceGetTaskResult [] with
    | .ok m => (match dump toyEnv (fun k d => .ok (k ++ d)) { m with sig := .none } (some (toySk 7)) (some [1, 2]) with
      | (.ok b, m') => decide (m'.attrs = m.attrs) &&
        decide ((load toyEnv (fun k d => .ok (d.drop k.length)) (some b) (some [3, 4]) none true 1500000100000000).2 = .ok m')
      | _ => false)
    | .error _ => false) = true := by decide +kernel

end Verif.Props
