import Verif.Lemmas.Load
import Verif.Lemmas.Serialize
import Verif.Props.Cbor
import Verif.Props.Crypto
import Verif.Lemmas.Toy
/-!
# C04, C05, C06, C21: signatures and the `Hello` version
-/

set_option linter.unusedSimpArgs false

namespace Verif.Props

open Verif Spec

/-! ### C06 -/

/-- C06: equal hash inputs come from equal type, timestamp and payload. -/
theorem digest_binds (t1 t2 s1 s2 : Int) (p1 p2 x : Bytes)
    (h1 : hashInput (.int t1) (.int s1) p1 = .ok x)
    (h2 : hashInput (.int t2) (.int s2) p2 = .ok x) : t1 = t2 ∧ s1 = s2 ∧ p1 = p2 := by
  unfold hashInput at h1 h2
  split at h1
  · cases h1
  rename_i a ha
  split at h2
  · cases h2
  rename_i b hb
  injection h1 with h1
  injection h2 with h2
  obtain ⟨e1, _, e3⟩ := codec_prefix_free _ _ a b p1 p2
    (by simp [plain, plainL]) (by simp [plain, plainL]) ha hb (h1.trans h2.symm)
  simp only [toLists, toListsL, Val.list.injEq, List.cons.injEq, Val.int.injEq, and_true] at e1
  exact ⟨e1.1, e1.2, e3⟩

/-- C06, for the header fields of nested messages, which can be any data: equal hash inputs
come from equal payloads and header fields that decode to the same data. -/
theorem digest_binds_plain (t1 t2 s1 s2 : Val) (p1 p2 x : Bytes)
    (ht1 : plain t1 = true) (ht2 : plain t2 = true) (hs1 : plain s1 = true) (hs2 : plain s2 = true)
    (h1 : hashInput t1 s1 p1 = .ok x) (h2 : hashInput t2 s2 p2 = .ok x) :
    toLists t1 = toLists t2 ∧ toLists s1 = toLists s2 ∧ p1 = p2 := by
  unfold hashInput at h1 h2
  split at h1
  · cases h1
  rename_i a ha
  split at h2
  · cases h2
  rename_i b hb
  injection h1 with h1
  injection h2 with h2
  obtain ⟨e1, _, e3⟩ := codec_prefix_free _ _ a b p1 p2 (by simp [plain, plainL, ht1, hs1])
    (by simp [plain, plainL, ht2, hs2]) ha hb (h1.trans h2.symm)
  simp only [toLists, toListsL, Val.list.injEq, List.cons.injEq, and_true] at e1
  exact ⟨e1.1, e1.2, e3⟩

/-- C06: dumping the same message with the same private key for two recipients (or none)
gives the same signature. -/
theorem signature_ignores_recipient (E : Env) (encrypt : Bytes → Bytes → Res Bytes) (m m1 m2 : Msg)
    (priv pub1 pub2 : Option Bytes) (b1 b2 : Bytes)
    (h1 : dump E encrypt m priv pub1 = (.ok b1, m1))
    (h2 : dump E encrypt m priv pub2 = (.ok b2, m2)) : m1.sig = m2.sig := by
  have key : ∀ f g b c, Nonempty (Dumped E m priv f b m1) → Nonempty (Dumped E m priv g c m2) →
      m1.sig = m2.sig := by
    rintro f g b c ⟨⟨sl, pl, hd, sg, body, hsl, hpl, hm, _, _, _, hsig⟩⟩
      ⟨⟨sl', pl', hd', sg', body', hsl', hpl', hm', _, _, _, hsig'⟩⟩
    rw [hsl] at hsl'
    injection hsl' with e; subst e
    rw [hpl] at hpl'
    injection hpl' with e; subst e
    have : sg = sg' := by
      rcases hsig with ⟨a, _⟩ | ⟨a, ⟨b, k, h, c, d, e⟩ | ⟨b, c⟩⟩ <;>
        rcases hsig' with ⟨a', _⟩ | ⟨a', ⟨b', k', h', c', d', e'⟩ | ⟨b', c'⟩⟩
      · rw [a] at a'; injection a'
      · rw [a] at a'; cases a'
      · rw [a] at a'; cases a'
      · rw [a] at a'; cases a'
      · rw [c] at c'; injection c' with c'; subst c'
        rw [d] at d'; injection d' with d'; subst d'
        rw [e] at e'; injection e'
      · rcases b' with b' | b'
        · rw [b] at b'; cases b'
        · rw [c] at b'; cases b'
      · rw [a] at a'; cases a'
      · rcases b with b | b
        · rw [b] at b'; cases b'
        · rw [b] at c'; cases c'
      · rw [c, c']
    rw [hm, hm', this]
  unfold dump at h1 h2
  rcases serialize_ok h1 with ⟨_, d1⟩ | ⟨_, c1, _, d1, _⟩ <;>
    rcases serialize_ok h2 with ⟨_, d2⟩ | ⟨_, c2, _, d2, _⟩
  · exact key _ _ _ _ d1 d2
  · exact key _ _ _ _ d1 d2
  · exact key _ _ _ _ d1 d2
  · exact key _ _ _ _ d1 d2

/-- C06: the digest of a message does not depend on its own flag. -/
theorem digest_ignores_flag (E : Env) (m : Msg) (e : Val) :
    shortHash E { m with enc := e } = shortHash E m := by
  unfold shortHash
  rfl

/-- C06 is limited to the message's own flag: the flags of nested messages are part of the
parent's payload, so re-encoding a nested message for another recipient changes what the
parent's signature must cover. -/
theorem nested_flag_in_digest :
    ∃ (m m' : Msg) (p p' : Bytes),
      m.attrs = [(p!"remove_tasks", .list [.msg .RemoveTask (.int 1007) (.int 5) (.bool true)
        .none [(p!"task_id", .str p!"t")]])] ∧
      m'.attrs = [(p!"remove_tasks", .list [.msg .RemoveTask (.int 1007) (.int 5) (.bool false)
        .none [(p!"task_id", .str p!"t")]])] ∧
      m.cls = .RemoveTaskContainer ∧ m'.cls = .RemoveTaskContainer ∧
      (∃ s, m.slots = .ok s ∧ dumps s = .ok p) ∧ (∃ s, m'.slots = .ok s ∧ dumps s = .ok p') ∧
      p ≠ p' := by
  refine ⟨⟨.RemoveTaskContainer, .int 1017, .int 7, .bool false, .none, _⟩,
    ⟨.RemoveTaskContainer, .int 1017, .int 7, .bool false, .none, _⟩, _, _, rfl, rfl, rfl, rfl,
    ⟨_, rfl, rfl⟩, ⟨_, rfl, rfl⟩, by decide⟩

/-! ### C05 -/

/-- The digest `load` checks a signature against, in terms of the received frame. -/
theorem loaded_digest {E : Env} {c : Cls} {data p : Bytes} {m : Msg} {slots : Val}
    {x : Bytes} (hc : c.typeId = frameType data)
    (hv : c = .Hello → verifyVersion E.version
      (asciiDecodeReplace (fieldVersion (versionField data))) = .ok ())
    (hcon : construct E c ⟨frameType data, frameTime data, frameFlag data⟩
      (frameSig (unversioned data))
      (if c = .Hello then some (asciiDecodeReplace (fieldVersion (versionField data))) else none)
      slots = .ok m)
    (hh : shortHashOf E m p = .ok x) :
    m.cls = c ∧ m.ty = .int (frameType data) ∧ m.ts = .int (frameTime data) ∧
    m.sig = .bytes (frameSig (unversioned data)) ∧ m.enc = .bool (frameFlag data) ∧
    ∃ hd, dumps (.list [.int (frameType data), .int (frameTime data)]) = .ok hd ∧
      x = E.sha1 (hd ++ p) ++ versionBytes data := by
  obtain ⟨as, ha, hm⟩ := construct_ok hcon
  subst hm
  refine ⟨rfl, rfl, rfl, rfl, rfl, ?_⟩
  unfold shortHashOf hashInput at hh
  simp only at hh
  split at hh
  · cases hh
  rename_i hx hin
  split at hin
  · cases hin
  rename_i hd hdm
  injection hin with hin
  refine ⟨hd, hdm, ?_⟩
  by_cases h0 : c = .Hello
  · subst h0
    simp only [if_true] at hh
    rw [version_attr _ ha] at hh
    simp only at hh
    injection hh with hh
    rw [← hh, ← hin, asciiReplace_decode _ (verifyVersion_ascii (hv rfl))]
    unfold versionBytes
    rw [if_pos (show frameType data = 0 by rw [← hc]; rfl)]
  · simp only [if_neg h0] at hh
    injection hh with hh
    have : frameType data ≠ 0 := by
      intro e
      apply h0
      apply typeId_inj
      rw [hc, e]; rfl
    unfold versionBytes
    rw [if_neg this, ← hh, ← hin]; simp

/-- C05: whenever `load` with a sender key returns a message of a signed class, the key has 64
bytes and the signature bytes of the frame recover to exactly that key over the digest of the
received type, timestamp and payload (deciphered if the flag is set), followed for `Hello` by
the version bytes of its trailer; and the returned message carries that type, timestamp and
signature. -/
theorem load_authenticates (E : Env) (dec : Bytes → Bytes → Res Bytes) (data key : Bytes)
    (priv : Option Bytes) (ct : Bool) (now : Int) (m : Msg) (hk : key ≠ [])
    (h : (load E dec (some data) priv (some key) ct now).2 = .ok m) (hs : m.cls.sign = true) :
    key.length = 64 ∧ m.cls.typeId = frameType data ∧ m.ty = .int (frameType data) ∧
    m.ts = .int (frameTime data) ∧ m.sig = .bytes (frameSig (unversioned data)) ∧
    ∃ payload hd, Payload (loadDecrypt dec priv) data payload ∧
      dumps (.list [.int (frameType data), .int (frameTime data)]) = .ok hd ∧
      E.recover (.bytes (frameSig (unversioned data)))
        (E.sha3 (E.sha1 (hd ++ payload) ++ versionBytes data)) = some (4 :: key) := by
  obtain ⟨_, _, _, c, hc, _, p, version, hp, hver, hv, hparse, _⟩ := load_ok h
  obtain ⟨slots, hl, hcon, hver'⟩ := parsePayload_ok hparse
  subst hver
  have hmc : m.cls = c := by
    obtain ⟨as, _, hm⟩ := construct_ok hcon
    rw [hm]
  have hgk : givenKey (some key) = some key := by
    cases key with
    | nil => exact absurd rfl hk
    | cons x xs => rfl
  rw [hmc] at hs
  obtain ⟨x, hx, hve⟩ := hver' key (by rw [if_pos hs, hgk])
  obtain ⟨e1, e2, e3, e4, _, hd, hdm, e5⟩ := loaded_digest hc hv hcon hx
  obtain ⟨k1, k2⟩ := (ecdsa_verify_decision E key x m.sig).1.mp hve
  refine ⟨k1, by rw [hmc, hc], e2, e3, e4, p, hd, hp, hdm, ?_⟩
  rw [← e5, ← e4]
  exact k2

/-- C05: a sender key only filters: what `load` returns with a sender key it also returns
without one. -/
theorem load_key_filters (E : Env) (dec : Bytes → Bytes → Res Bytes) (data : Bytes)
    (priv pub : Option Bytes) (ct : Bool) (now : Int) (m : Msg)
    (h : (load E dec (some data) priv pub ct now).2 = .ok m) :
    (load E dec (some data) priv none ct now).2 = .ok m := by
  refine (load_rel (fun x y => ∀ m, x = .ok m → y = .ok m) (pub1 := pub) (pub2 := none)
    (fun e m h => h) ?_ ?_).2 m h
  · intro x y hxy m hm
    unfold Logged.andThen at hm ⊢
    cases x with
    | error e => cases hm
    | ok a => rw [hxy a rfl]; exact hm
  · intro c p hc hp
    dsimp only
    intro m hm
    obtain ⟨slots, hl, hcon, _⟩ := parsePayload_ok hm
    unfold parsePayload
    rw [hl]
    simp only
    rw [hcon]
    simp only
    by_cases hs : c.sign = true
    · rw [if_pos hs]; rfl
    · rw [if_neg hs]

/-! ### C04 -/

/-- What the receiver sees of a dumped frame. -/
private theorem dumped_view_slots {E : Env} {encrypt dec : Bytes → Bytes → Res Bytes} {m m' : Msg}
    {priv rpub rpriv : Option Bytes} {b : Bytes} {t : Int}
    (hdump : dump E encrypt m priv rpub = (.ok b, m'))
    (hsg : ∀ s, m'.sig = .bytes s → s.length = 65)
    (hty : m.ty = .int m.cls.typeId) (hts : m.ts = .int t)
    (hver : ∀ v, getAttr m.attrs p!"_version" = .str v → m.cls = .Hello → v.length ≤ 31)
    (hdec : ∀ k p c, rpub = some k → encrypt k p = .ok c → loadDecrypt dec rpriv c = .ok p) :
    ∃ payload sg, m'.sig = .bytes sg ∧ frameType b = m.cls.typeId ∧ frameSig (unversioned b) = sg ∧
      (∀ p, Payload (loadDecrypt dec rpriv) b p → p = payload) ∧
      (∀ s, m.sig = .none → m.cls.sign = true → ∀ key, givenKey priv = some key →
        ∃ x, shortHashOf E m payload = .ok x ∧ E.ecdsaSign key x = .ok sg ∧
        ∀ m1, construct E m.cls ⟨frameType b, frameTime b, frameFlag b⟩ (frameSig (unversioned b))
          (if m.cls = .Hello then some (asciiDecodeReplace (fieldVersion (versionField b))) else none)
          s = .ok m1 → shortHashOf E m1 payload = .ok x ∧ m1.sig = .bytes sg) ∧
      ∃ sl, m.slots = .ok sl ∧ dumps sl = .ok payload := by
  have gk : ∀ {g}, Option.map encrypt (givenKey rpub) = some g → ∃ k, rpub = some k ∧ g = encrypt k := by
    intro g hg
    cases hk : givenKey rpub with
    | none => rw [hk] at hg; cases hg
    | some k =>
      rw [hk] at hg
      simp only [Option.map_some, Option.some.injEq] at hg
      refine ⟨k, ?_, hg.symm⟩
      cases rpub with
      | none => cases hk
      | some k' =>
        cases k' with
        | nil => cases hk
        | cons x xs => simp only [givenKey] at hk; exact hk
  have sigpart : ∀ {payload sg : Bytes} {k : Option Bytes},
      ((m.sig = .bytes sg ∧ (givenKey priv = none ∨ sg = [])) ∨
      (m.sig = .none ∧
      ((m.cls.sign = true ∧ ∃ key h, givenKey priv = some key ∧ shortHashOf E m payload = .ok h ∧
          E.ecdsaSign key h = .ok sg) ∨
        ((m.cls.sign = false ∨ givenKey priv = none) ∧ sg = fakeSig)))) →
      m.sig = .none → m.cls.sign = true → ∀ key, givenKey priv = some key →
        ∃ x, shortHashOf E m payload = .ok x ∧ E.ecdsaSign key x = .ok sg := by
    intro payload sg k hsig hn hs key hk
    rcases hsig with ⟨a, _⟩ | ⟨_, ⟨_, k', x, a, hx, hsx⟩ | ⟨a | a, _⟩⟩
    · rw [hn] at a; cases a
    · rw [hk] at a; injection a with a; subst a; exact ⟨x, hx, hsx⟩
    · rw [hs] at a; cases a
    · rw [hk] at a; cases a
  unfold dump at hdump
  rcases serialize_ok hdump with ⟨hne, ⟨⟨sl, pl, hd, sg, body, hsl, hpl, hm, hhd, hb, hbody, hsig⟩⟩⟩ |
    ⟨heq, b0, v, ⟨⟨sl, pl, hd, sg, body, hsl, hpl, hm, hhd, hb0, hbody, hsig⟩⟩, hv, hb⟩
  · have hl := hsg sg (by rw [hm])
    obtain ⟨p1, p2, p3, p4, p5, _⟩ := frame_parts hhd sg body hl
    rw [← hb] at p1 p2 p3 p4 p5
    have ht0 : frameType b ≠ 0 := by
      rw [p1]; intro e; exact hne (typeId_inj (by rw [e]; rfl))
    have hu : unversioned b = b := by unfold unversioned; rw [if_neg ht0]
    have htime : t = frameTime b := by
      rw [hts] at p2; simp only [Val.structInt] at p2; injection p2
    refine ⟨pl, sg, by rw [hm], p1, by rw [hu, p4], ?_, ?_, sl, hsl, hpl⟩
    · intro p hp
      unfold Payload at hp
      rw [hu, p5, p3] at hp
      rcases hbody with ⟨he, g, hg, hgp⟩ | ⟨he, hbp⟩
      · have : (m.cls.encrypt && (Option.map encrypt (givenKey rpub)).isSome) = true := by
          rw [he, hg]; rfl
        rw [this] at hp
        obtain ⟨k, hk, hge⟩ := gk hg
        subst hge
        simp only [Val.truthy, if_true] at hp
        rw [hdec k pl body hk hgp] at hp
        injection hp with hp
        exact hp.symm
      · rw [he] at hp
        simp only [Val.truthy, Bool.false_eq_true, if_false] at hp
        rw [hp, hbp]
    · intro s hn hs key hk
      obtain ⟨x, hx, hsx⟩ := sigpart (k := none) hsig hn hs key hk
      refine ⟨x, hx, hsx, ?_⟩
      intro m1 hcon
      obtain ⟨as, ha, hm1⟩ := construct_ok hcon
      refine ⟨?_, by rw [hm1, hu, p4]⟩
      rw [← hx]
      unfold shortHashOf
      rw [hm1]
      simp only [if_neg hne]
      rw [hty, hts, p1, htime]
  · have hl := hsg sg (by rw [hm])
    obtain ⟨p1, p2, p3, p4, p5, p6⟩ := frame_parts hhd sg (body ++ packPascal (asciiReplace v)) hl
    have hb' : b = hd ++ sg ++ (body ++ packPascal (asciiReplace v)) := by rw [hb, hb0]; simp
    rw [← hb'] at p1 p2 p3 p4 p5 p6
    have ht0 : frameType b = 0 := by rw [p1, heq]; rfl
    have hlen : b.length - 32 = b0.length := by
      rw [hb, List.length_append, packPascal_length]; omega
    have hu : unversioned b = b0 := by
      unfold unversioned; rw [if_pos ht0, hlen, hb]; simp
    have hvf : versionField b = packPascal (asciiReplace v) := by
      unfold versionField; rw [hlen, hb]; simp
    obtain ⟨q1, _, _, q4, q5, _⟩ := frame_parts hhd sg body hl
    rw [← hb0] at q1 q4 q5
    have htime : t = frameTime b := by
      rw [hts] at p2; simp only [Val.structInt] at p2; injection p2
    have hbp : body = pl := by
      rcases hbody with ⟨he, _⟩ | ⟨_, hbp⟩
      · rw [heq] at he; cases he
      · exact hbp
    have hflag : frameFlag b = false := by rw [p3, heq]; rfl
    refine ⟨pl, sg, by rw [hm], p1, by rw [hu, q4], ?_, ?_, sl, hsl, hpl⟩
    · intro p hp
      unfold Payload at hp
      rw [hflag, hu, q5] at hp
      simp only [Bool.false_eq_true, if_false] at hp
      rw [hp, hbp]
    · intro s hn hs key hk
      obtain ⟨x, hx, hsx⟩ := sigpart (k := none) hsig hn hs key hk
      refine ⟨x, hx, hsx, ?_⟩
      intro m1 hcon
      rw [if_pos heq] at hcon
      obtain ⟨as, ha, hm1⟩ := construct_ok hcon
      refine ⟨?_, by rw [hm1, hu, q4]⟩
      rw [← hx]
      unfold shortHashOf
      rw [hm1]
      simp only [if_pos heq]
      rw [version_attr _ ha, hty, hts, p1, htime, hv]
      simp only
      have hlv : (asciiReplace v).length ≤ 31 := by
        simp only [asciiReplace, List.length_map]; exact hver v hv heq
      rw [hvf, fieldVersion_pack _ hlv, asciiReplace_ascii]

private theorem dumped_view {E : Env} {encrypt dec : Bytes → Bytes → Res Bytes} {m m' : Msg}
    {priv rpub rpriv : Option Bytes} {b : Bytes} {t : Int}
    (hdump : dump E encrypt m priv rpub = (.ok b, m'))
    (hsg : ∀ s, m'.sig = .bytes s → s.length = 65)
    (hty : m.ty = .int m.cls.typeId) (hts : m.ts = .int t)
    (hver : ∀ v, getAttr m.attrs p!"_version" = .str v → m.cls = .Hello → v.length ≤ 31)
    (hdec : ∀ k p c, rpub = some k → encrypt k p = .ok c → loadDecrypt dec rpriv c = .ok p) :
    ∃ payload sg, m'.sig = .bytes sg ∧ frameType b = m.cls.typeId ∧ frameSig (unversioned b) = sg ∧
      (∀ p, Payload (loadDecrypt dec rpriv) b p → p = payload) ∧
      (∀ s, m.sig = .none → m.cls.sign = true → ∀ key, givenKey priv = some key →
        ∃ x, shortHashOf E m payload = .ok x ∧ E.ecdsaSign key x = .ok sg ∧
        ∀ m1, construct E m.cls ⟨frameType b, frameTime b, frameFlag b⟩ (frameSig (unversioned b))
          (if m.cls = .Hello then some (asciiDecodeReplace (fieldVersion (versionField b))) else none)
          s = .ok m1 → shortHashOf E m1 payload = .ok x ∧ m1.sig = .bytes sg) := by
  obtain ⟨p, sg, h1, h2, h3, h4, h5, _⟩ := dumped_view_slots hdump hsg hty hts hver hdec
  exact ⟨p, sg, h1, h2, h3, h4, h5⟩

/-- The payload the receiver of a dumped frame decodes. -/
theorem dumped_payload {E : Env} {encrypt dec : Bytes → Bytes → Res Bytes} {m m' : Msg}
    {priv rpub rpriv : Option Bytes} {b : Bytes} {t : Int}
    (hdump : dump E encrypt m priv rpub = (.ok b, m'))
    (hsg : ∀ s, m'.sig = .bytes s → s.length = 65)
    (hty : m.ty = .int m.cls.typeId) (hts : m.ts = .int t)
    (hver : ∀ v, getAttr m.attrs p!"_version" = .str v → m.cls = .Hello → v.length ≤ 31)
    (hdec : ∀ k p c, rpub = some k → encrypt k p = .ok c → loadDecrypt dec rpriv c = .ok p) :
    ∃ payload sl, frameType b = m.cls.typeId ∧ m.slots = .ok sl ∧ dumps sl = .ok payload ∧
      ∀ p, Payload (loadDecrypt dec rpriv) b p → p = payload := by
  obtain ⟨p, sg, h1, h2, h3, h4, h5, sl, h6, h7⟩ := dumped_view_slots hdump hsg hty hts hver hdec
  exact ⟨p, sl, h2, h6, h7, h4⟩

/-- C04 (the signer's key): a message of a signed class dumped with a private key passes the
signature check of `load` under the matching public key: whatever the recipient, the clock and
the rest of the checks, the outcome is the one without a sender key.  (`law` says what the
signature scheme promises for the key pair; a `Hello` version must fit its 31 bytes.) -/
theorem signed_dump_verifies (E : Env) (encrypt dec : Bytes → Bytes → Res Bytes) (m m' : Msg)
    (key pub : Bytes) (rpub rpriv : Option Bytes) (b : Bytes) (t : Int) (ct : Bool) (now : Int)
    (law : ∀ x s, E.sign key (E.sha3 x) = .ok s →
      s.length = 65 ∧ E.recover (.bytes s) (E.sha3 x) = some (4 :: pub))
    (hpub : pub.length = 64) (hkey : key ≠ [])
    (hdec : ∀ k p c, rpub = some k → encrypt k p = .ok c → loadDecrypt dec rpriv c = .ok p)
    (hs : m.cls.sign = true) (hsig : m.sig = .none)
    (hty : m.ty = .int m.cls.typeId) (hts : m.ts = .int t)
    (hver : ∀ v, getAttr m.attrs p!"_version" = .str v → m.cls = .Hello → v.length ≤ 31)
    (hdump : dump E encrypt m (some key) rpub = (.ok b, m')) :
    load E dec (some b) rpriv (some pub) ct now = load E dec (some b) rpriv none ct now := by
  have hgk : givenKey (some key) = some key := by
    cases key with
    | nil => exact absurd rfl hkey
    | cons x xs => rfl
  have hsg : ∀ s, m'.sig = .bytes s → s.length = 65 := by
    intro s hms
    have k0 : ∀ b0, Nonempty (Dumped E m (some key) ((givenKey rpub).map encrypt) b0 m') →
        s.length = 65 := by
      rintro b0 ⟨⟨_, _, _, sg, _, _, _, hm, _, _, _, hsig'⟩⟩
      rw [hm] at hms
      simp only [Val.bytes.injEq] at hms
      subst hms
      rcases hsig' with ⟨a, _⟩ | ⟨_, ⟨_, k', x, a, hx, hsx⟩ | ⟨_, a⟩⟩
      · rw [hsig] at a; cases a
      · rw [hgk] at a; injection a with a; subst a; exact (law x _ hsx).1
      · rw [a]; simp [fakeSig, sigLen]
    unfold dump at hdump
    rcases serialize_ok hdump with ⟨_, hd⟩ | ⟨_, b0, v, hd, _⟩
    · exact k0 _ hd
    · exact k0 _ hd
  obtain ⟨payload, sg, _, hft, hfs, hpl, hrest⟩ := dumped_view hdump hsg hty hts hver hdec
  have r := load_rel Eq (E := E) (dec := dec) (data := b) (priv := rpriv) (pub1 := some pub)
    (pub2 := none) (ct := ct) (now := now) (fun _ => rfl) (fun x y h => by rw [h]) (by
      intro c p hc hp
      have hcm : c = m.cls := typeId_inj (by rw [hc, hft])
      have := hpl p hp
      subst this
      subst hcm
      dsimp only
      unfold parsePayload
      cases hl : loads p with
      | error e => rfl
      | ok s =>
        simp only
        cases hcon : construct E m.cls ⟨frameType b, frameTime b, frameFlag b⟩
            (frameSig (unversioned b)) (if m.cls = .Hello then
              some (asciiDecodeReplace (fieldVersion (versionField b))) else none) s with
        | error e => rfl
        | ok m1 =>
          simp only
          obtain ⟨x, hx, hsx, hm1⟩ := hrest s hsig hs key hgk
          obtain ⟨h1, h2⟩ := hm1 m1 hcon
          have hgp : givenKey (some pub) = some pub := by
            cases pub with
            | nil => simp at hpub
            | cons x xs => rfl
          rw [if_pos hs, if_pos hs, hgp]
          simp only
          rw [h1, h2]
          simp only
          rw [(ecdsa_verify_decision E pub x (.bytes sg)).1.mpr ⟨hpub, (law x _ hsx).2⟩]
          rfl)
  exact Prod.ext r.1 r.2

/-- C04 (any other key): under any other 64-byte public key the same frame is refused: with
`InvalidSignature` if it is acceptable otherwise, and never accepted. -/
theorem signed_dump_other_key (E : Env) (encrypt dec : Bytes → Bytes → Res Bytes) (m m' : Msg)
    (key pub other : Bytes) (rpub rpriv : Option Bytes) (b : Bytes) (t : Int) (ct : Bool) (now : Int)
    (law : ∀ x s, E.sign key (E.sha3 x) = .ok s →
      s.length = 65 ∧ E.recover (.bytes s) (E.sha3 x) = some (4 :: pub))
    (hkey : key ≠ []) (hother : other.length = 64) (hne : other ≠ pub)
    (hdec : ∀ k p c, rpub = some k → encrypt k p = .ok c → loadDecrypt dec rpriv c = .ok p)
    (hs : m.cls.sign = true) (hsig : m.sig = .none)
    (hty : m.ty = .int m.cls.typeId) (hts : m.ts = .int t)
    (hver : ∀ v, getAttr m.attrs p!"_version" = .str v → m.cls = .Hello → v.length ≤ 31)
    (hdump : dump E encrypt m (some key) rpub = (.ok b, m')) :
    (load E dec (some b) rpriv (some other) ct now).2 = .error .invalidSignature ∨
    ∃ e, (load E dec (some b) rpriv none ct now).2 = .error e ∧
      (load E dec (some b) rpriv (some other) ct now).2 = .error e := by
  have hgk : givenKey (some key) = some key := by
    cases key with
    | nil => exact absurd rfl hkey
    | cons x xs => rfl
  have hsg : ∀ s, m'.sig = .bytes s → s.length = 65 := by
    intro s hms
    have k0 : ∀ b0, Nonempty (Dumped E m (some key) ((givenKey rpub).map encrypt) b0 m') →
        s.length = 65 := by
      rintro b0 ⟨⟨_, _, _, sg, _, _, _, hm, _, _, _, hsig'⟩⟩
      rw [hm] at hms
      simp only [Val.bytes.injEq] at hms
      subst hms
      rcases hsig' with ⟨a, _⟩ | ⟨_, ⟨_, k', x, a, hx, hsx⟩ | ⟨_, a⟩⟩
      · rw [hsig] at a; cases a
      · rw [hgk] at a; injection a with a; subst a; exact (law x _ hsx).1
      · rw [a]; simp [fakeSig, sigLen]
    unfold dump at hdump
    rcases serialize_ok hdump with ⟨_, hd⟩ | ⟨_, b0, v, hd, _⟩
    · exact k0 _ hd
    · exact k0 _ hd
  obtain ⟨payload, sg, _, hft, hfs, hpl, hrest⟩ := dumped_view hdump hsg hty hts hver hdec
  refine (load_rel (fun x y => y = .error .invalidSignature ∨ ∃ e, x = .error e ∧ y = .error e)
    (E := E) (dec := dec) (data := b) (priv := rpriv) (pub1 := none)
    (pub2 := some other) (ct := ct) (now := now) (fun e => Or.inr ⟨e, rfl, rfl⟩) ?_ ?_).2
  · intro x y h
    rcases h with h | ⟨e, h1, h2⟩
    · left; rw [h]; rfl
    · right; exact ⟨e, by rw [h1]; rfl, by rw [h2]; rfl⟩
  · intro c p hc hp
    have hcm : c = m.cls := typeId_inj (by rw [hc, hft])
    have := hpl p hp
    subst this
    subst hcm
    dsimp only
    unfold parsePayload
    cases hl : loads p with
    | error e => right; exact ⟨e, rfl, rfl⟩
    | ok s =>
      simp only
      cases hcon : construct E m.cls ⟨frameType b, frameTime b, frameFlag b⟩
          (frameSig (unversioned b)) (if m.cls = .Hello then
            some (asciiDecodeReplace (fieldVersion (versionField b))) else none) s with
      | error e => right; exact ⟨e, rfl, rfl⟩
      | ok m1 =>
        left
        simp only
        obtain ⟨x, hx, hsx, hm1⟩ := hrest s hsig hs key hgk
        obtain ⟨h1, h2⟩ := hm1 m1 hcon
        have hgp : givenKey (some other) = some other := by
          cases other with
          | nil => simp at hother
          | cons x xs => rfl
        rw [if_pos hs, hgp]
        simp only
        rw [h1, h2]
        simp only
        rw [(ecdsa_verify_decision E other x (.bytes sg)).2.2 hother (by
          rw [(law x _ hsx).2]
          intro e
          injection e with e
          injection e with _ e
          exact hne e.symm)]

/-! ### C21 -/

/-- C21: a `Hello` frame ends in a 32-byte version field. A version of at most 31 characters is written
there after its length, with a question mark for each character that is not ASCII and zeros up to the
end; if it is ASCII the version read from the field is the one written. -/
theorem hello_trailer (E : Env) (encrypt : Bytes → Bytes → Res Bytes) (m m' : Msg)
    (priv pub : Option Bytes) (b : Bytes) (hc : m.cls = .Hello)
    (h : dump E encrypt m priv pub = (.ok b, m')) :
    ∃ v, getAttr m.attrs p!"_version" = .str v ∧ 32 ≤ b.length ∧
      (v.length ≤ 31 →
        versionField b = UInt8.ofNat v.length ::
          (v.map (fun c => UInt8.ofNat (if c.toNat < 128 then c else '?').toNat) ++
            List.replicate (31 - v.length) 0) ∧
        ((∀ c ∈ v, c.toNat < 128) → asciiDecodeReplace (fieldVersion (versionField b)) = v)) := by
  unfold dump at h
  rcases serialize_ok h with ⟨hne, _⟩ | ⟨_, b0, v, _, hv, hb⟩
  · exact absurd hc hne
  refine ⟨v, hv, ?_, ?_⟩
  · rw [hb, List.length_append, packPascal_length]; omega
  · intro hl
    have hlen : b.length - 32 = b0.length := by
      rw [hb, List.length_append, packPascal_length]; omega
    have hvf : versionField b = packPascal (asciiReplace v) := by
      unfold versionField; rw [hlen, hb]; simp
    refine ⟨?_, fun ha => ?_⟩
    · have hmap : asciiReplace v =
          v.map fun c => UInt8.ofNat (if c.toNat < 128 then c else '?').toNat := by
        unfold asciiReplace
        apply List.map_congr_left
        intro c _
        split <;> rfl
      rw [hvf, hmap]
      unfold packPascal
      rw [List.length_map, Nat.min_eq_left hl, List.take_of_length_le (by simpa using hl)]
    rw [hvf, fieldVersion_pack _ (by simpa [asciiReplace] using hl), asciiDecode_replace v ha]

/-- C21: the version of a loaded `Hello` is the one in the version field of its frame,
whatever the payload contains, and it is compatible with ours. -/
theorem hello_version_from_trailer (E : Env) (dec : Bytes → Bytes → Res Bytes) (data : Bytes)
    (priv pub : Option Bytes) (ct : Bool) (now : Int) (m : Msg)
    (h : (load E dec (some data) priv pub ct now).2 = .ok m) (hc : m.cls = .Hello) :
    getAttr m.attrs p!"_version" = .str (asciiDecodeReplace (fieldVersion (versionField data))) ∧
    verifyVersion E.version (asciiDecodeReplace (fieldVersion (versionField data))) = .ok () := by
  obtain ⟨_, _, _, c, hct, _, p, version, hp, hver, hv, hparse, _⟩ := load_ok h
  obtain ⟨slots, hl, hcon, _⟩ := parsePayload_ok hparse
  obtain ⟨as, ha, hm⟩ := construct_ok hcon
  have : c = .Hello := by rw [hm] at hc; exact hc
  subst this
  refine ⟨?_, hv rfl⟩
  rw [hm, hver]
  exact version_attr _ ha

/-- C21: a `Hello` frame past the header and time gate whose version field does not hold a
version compatible with ours is refused before anything is deciphered or parsed, with
`VersionMismatchError` (given that our own version is well-formed). -/
theorem hello_bad_version (E : Env) (dec : Bytes → Bytes → Res Bytes) (data : Bytes)
    (priv pub : Option Bytes) (now : Int) (hl : 76 < data.length) (ht : frameType data = 0)
    (h1 : minTimestamp < frameTime data) (h2 : frameTime data < maxTimestamp)
    (ours : Ver) (how : ours.Wf) (hE : E.version = ours.text)
    (hv : verifyVersion E.version (asciiDecodeReplace (fieldVersion (versionField data))) ≠ .ok ()) :
    load E dec (some data) priv pub false now = ([], .error .versionMismatch) := by
  have hv' : verifyVersion E.version (asciiDecodeReplace (fieldVersion (versionField data)))
      = .error .versionMismatch := by
    rw [hE] at hv ⊢
    exact (verify_version_decision ours how _).2 hv
  unfold load
  rw [deserialize_frame E data _ false now pub hl .Hello h1 h2 (by rw [ht]; rfl)]
  simp only [timeGate, Bool.false_eq_true, if_false]
  unfold dwh
  simp only [if_true]
  have hl2 : (data.drop hdrLen).drop ((data.drop hdrLen).length - versionLen) =
      data.drop (data.length - versionLen) := by
    rw [List.drop_drop, List.length_drop]
    congr 1
    simp [hdrLen, versionLen]; omega
  rw [hl2, unpackPascal_eq data (by omega)]
  simp only
  rw [hv']

/-- C21: the version is covered by the signature: `Hello` messages with the same digest have
the same version, for ASCII versions, given that sha1 digests have 20 bytes. -/
theorem hello_version_signed (E : Env) (m m' : Msg) (p p' : Bytes) (v v' : PStr) (x : Bytes)
    (h20 : ∀ b, (E.sha1 b).length = 20) (hc : m.cls = .Hello) (hc' : m'.cls = .Hello)
    (hv : getAttr m.attrs p!"_version" = .str v) (hv' : getAttr m'.attrs p!"_version" = .str v')
    (ha : ∀ c ∈ v, c.toNat < 128) (ha' : ∀ c ∈ v', c.toNat < 128)
    (h : shortHashOf E m p = .ok x) (h' : shortHashOf E m' p' = .ok x) : v = v' := by
  unfold shortHashOf at h h'
  rw [hv] at h
  rw [hv'] at h'
  split at h
  · cases h
  split at h'
  · cases h'
  simp only [if_pos hc, if_pos hc'] at h h'
  injection h with h
  injection h' with h'
  have e := h.trans h'.symm
  have := (List.append_inj e (by rw [h20, h20])).2
  rw [← asciiDecode_replace v ha, ← asciiDecode_replace v' ha', this]

/-! ### Non-vacuity -/

private def hello : Msg := ⟨.Hello, .int 0, .int 1500000000, .bool false, .none,
  [(p!"rand_val", .none), (p!"proto_id", .int 31), (p!"node_info", .none), (p!"port", .none),
   (p!"client_ver", .str p!"x"), (p!"solve_challenge", .none), (p!"challenge", .none),
   (p!"difficulty", .none), (p!"metadata", .none), (p!"_version", .str p!"1.2.3")]⟩

private def longHello : Msg := ⟨.Hello, .int 0, .int 1500000000, .bool false, .none,
  [(p!"rand_val", .none), (p!"proto_id", .int 31), (p!"node_info", .none), (p!"port", .none),
   (p!"client_ver", .str p!"x"), (p!"solve_challenge", .none), (p!"challenge", .none),
   (p!"difficulty", .none), (p!"metadata", .none),
   (p!"_version", .str p!"1.2.3+abcdefghijklmnopqrstuvwxyzabcdef")]⟩

/-- C04, C21: the bound on the version is needed.  The digest covers the whole version but the
frame carries only its first 31 bytes, so a `Hello` of a longer version fails to load with the
signer's own key, though it loads without a key. -/
theorem long_version_refuted :
    ∃ (E : Env) (m m' m'' : Msg) (key pub b : Bytes),
      (∀ x s, E.sign key (E.sha3 x) = .ok s →
        s.length = 65 ∧ E.recover (.bytes s) (E.sha3 x) = some (4 :: pub)) ∧ m.sig = .none ∧ m.cls = .Hello ∧ m.ty = .int 0 ∧
      dump E (fun _ d => .ok d) m (some key) none = (.ok b, m') ∧
      (load E (fun _ d => .ok d) (some b) none none false 0).2 = .ok m'' ∧
      (load E (fun _ d => .ok d) (some b) none (some pub) false 0).2 = .error .invalidSignature := by
  refine ⟨toyEnv, longHello, _, { longHello with
      sig := .bytes (List.replicate 32 7 ++ (asciiReplace p!"1.2.3+abcdefghijklmnopqrstuvwxyzabcdef").reverse.take 32 ++ [0])
      attrs := setName p!"_version" (.str p!"1.2.3+abcdefghijklmnopqrstuvwxy") longHello.attrs },
    List.replicate 32 7, List.replicate 64 7, _, ?_, rfl, rfl, rfl, rfl, ?_, ?_⟩
  · exact toy_law
  · decide +kernel
  · decide +kernel

/-- A signed `Hello` is dumped, loaded with the signer's key, and refused with another. -/
example :
    let r := dump toyEnv (fun _ d => .ok d) hello (some (List.replicate 32 7)) none
    ∃ b, r.1 = .ok b ∧
      (load toyEnv (fun _ d => .ok d) (some b) none (some (List.replicate 64 7)) false 0).2
        = .ok { hello with sig := .bytes (frameSig b) } ∧
      (load toyEnv (fun _ d => .ok d) (some b) none (some (List.replicate 64 8)) false 0).2
        = .error .invalidSignature := by
  refine ⟨_, rfl, ?_, ?_⟩ <;> decide +kernel

/-- Hash inputs exist: a type, a timestamp and a payload give a header followed by the payload. -/
example : ∃ x, hashInput (.int 1007) (.int 1500000000) [1, 2] = .ok x ∧
    x = [0x82, 0x19, 3, 239, 0x1a, 0x59, 0x68, 0x2f, 0, 1, 2] := ⟨_, rfl, by decide +kernel⟩

private def remove : Msg := ⟨.RemoveTask, .int 1007, .int 1500000000, .bool false, .none,
  [(p!"task_id", .str p!"x")]⟩

/-- Dumps of a message for two recipients and for none succeed: they differ and share their signature. -/
example :
    let f := fun pub => dump toyEnv (fun k d => .ok (k ++ d)) remove (some (List.replicate 32 7)) pub
    ∃ b1 b2 b3, (f (some [1])).1 = .ok b1 ∧ (f (some [2])).1 = .ok b2 ∧ (f none).1 = .ok b3 ∧
      b1 ≠ b2 ∧ b1 ≠ b3 ∧ b2 ≠ b3 ∧ frameSig b1 = frameSig b2 ∧ frameSig b1 = frameSig b3 ∧
      (f (some [1])).2.sig = .bytes (frameSig b1) := by
  refine ⟨_, _, _, rfl, rfl, rfl, ?_, ?_, ?_, ?_, ?_, ?_⟩ <;> decide +kernel

/-- An encrypted, signed message: the recipient's key undoes the encryption, the signer's key accepts it,
another refuses it. -/
example :
    let enc : Bytes → Bytes → Res Bytes := fun k d => .ok (k ++ d)
    let dec : Bytes → Bytes → Res Bytes := fun _ d => .ok (d.drop 1)
    (∀ k p c, some [9] = some k → enc k p = .ok c → loadDecrypt dec (some [5]) c = .ok p) ∧
    ∃ b, (dump toyEnv enc remove (some (List.replicate 32 7)) (some [9])).1 = .ok b ∧ frameFlag b = true ∧
      (load toyEnv dec (some b) (some [5]) (some (List.replicate 64 7)) false 0).2
        = .ok { remove with sig := .bytes (frameSig b), enc := .bool true } ∧
      (load toyEnv dec (some b) (some [5]) (some (List.replicate 64 8)) false 0).2
        = .error .invalidSignature := by
  refine ⟨?_, _, rfl, ?_, ?_, ?_⟩
  · intro k p c hk hc
    injection hk with hk
    subst hk
    injection hc with hc
    subst hc
    rfl
  all_goals decide +kernel

/-- A `Hello` of the next major version is dumped and refused by us. -/
example :
    let m := { hello with attrs := setName p!"_version" (.str p!"2.0.0") hello.attrs }
    ∃ b, (dump toyEnv (fun _ d => .ok d) m (some (List.replicate 32 7)) none).1 = .ok b ∧
      76 < b.length ∧ frameType b = 0 ∧ minTimestamp < frameTime b ∧ frameTime b < maxTimestamp ∧
      verifyVersion toyEnv.version (asciiDecodeReplace (fieldVersion (versionField b))) ≠ .ok () ∧
      load toyEnv (fun _ d => .ok d) (some b) none none false 0 = ([], .error .versionMismatch) := by
  refine ⟨_, rfl, ?_, ?_, ?_, ?_, ?_, ?_⟩ <;> decide +kernel

/-- The digests of a `Hello` under two versions differ, and so do those of two payloads. -/
example :
    let m := { hello with attrs := setName p!"_version" (.str p!"1.2.4") hello.attrs }
    (∀ b, (toyEnv.sha1 b).length = 20) ∧
    ∃ x y, shortHashOf toyEnv hello [1] = .ok x ∧ shortHashOf toyEnv m [1] = .ok y ∧ x ≠ y := by
  refine ⟨fun b => by simp [toyEnv], _, _, rfl, rfl, ?_⟩
  decide +kernel

end Verif.Props
