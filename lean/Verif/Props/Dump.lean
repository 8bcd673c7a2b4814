import Verif.Lemmas.Serialize
/-!
# C07, C08, C20: what `dump` emits

`dump E encrypt m privkey pubkey` gives the outcome and the message afterwards.
`encrypt pubkey data` is the encryption function.
-/

set_option linter.unusedSimpArgs false

namespace Verif.Props

open Verif Spec

/-! ### C07 -/

/-- The message after a series of dumps, each with its own keys, successful or not. -/
def afterDumps (E : Env) (encrypt : Bytes → Bytes → Res Bytes) :
    List (Option Bytes × Option Bytes) → Msg → Msg
  | [], m => m
  | (priv, pub) :: rest, m => afterDumps E encrypt rest (dump E encrypt m priv pub).2

/-- C07: dumping a message that carries a signature with a private key raises
`SignatureAlreadyExists` and leaves the message untouched. -/
theorem resign_refused (E : Env) (encrypt : Bytes → Bytes → Res Bytes) (m : Msg) (s key : Bytes)
    (pub : Option Bytes) (hs : m.sig = .bytes s) (hne : s ≠ []) (hk : key ≠ []) :
    dump E encrypt m (some key) pub = (.error .signatureAlreadyExists, m) := by
  have hb : ∀ f, serializeBase E m (some key) f = (.error .signatureAlreadyExists, m) := by
    intro f
    unfold serializeBase
    rw [if_pos]
    rw [hs]
    cases key with
    | nil => exact absurd rfl hk
    | cons x xs =>
      cases s with
      | nil => exact absurd rfl hne
      | cons y ys => rfl
  unfold dump serialize
  rw [hb]
  split <;> rfl

/-- C07: a dump that succeeds on a message carrying signature bytes emits exactly these bytes
after the header and keeps them on the message. -/
theorem existing_signature_emitted (E : Env) (encrypt : Bytes → Bytes → Res Bytes) (m m' : Msg)
    (s b : Bytes) (priv pub : Option Bytes) (hs : m.sig = .bytes s)
    (h : dump E encrypt m priv pub = (.ok b, m')) :
    m'.sig = .bytes s ∧ (b.drop 11).take s.length = s := by
  have key : ∀ b0, Nonempty (Dumped E m priv ((givenKey pub).map encrypt) b0 m') →
      m'.sig = .bytes s ∧ ∃ hd body, hd.length = 11 ∧ b0 = hd ++ s ++ body := by
    rintro b0 ⟨⟨d_slots, d_payload, d_hd, d_sg, d_body, d_hslots, d_hpayload, d_hm, d_hhd, d_hb, d_hbody, d_hsig⟩⟩
    have hsg : d_sg = s := by
      rcases d_hsig with ⟨h1, _⟩ | ⟨h1, _⟩
      · rw [hs] at h1; injection h1 with h1; exact h1.symm
      · rw [hs] at h1; cases h1
    refine ⟨by rw [d_hm, hsg], d_hd, d_body, ?_, ?_⟩
    · obtain ⟨_, _, _, _, hl, _⟩ := packHeader_ok d_hhd
      exact hl
    · rw [d_hb, hsg]
  unfold dump at h
  rcases serialize_ok h with ⟨_, hd⟩ | ⟨_, b0, v, hd, _, hb⟩
  · obtain ⟨h1, hd, body, hl, hb⟩ := key b hd
    refine ⟨h1, ?_⟩
    rw [hb]
    simp [List.append_assoc, List.drop_append, List.take_append, hl]
  · obtain ⟨h1, hd, body, hl, hb0⟩ := key b0 hd
    refine ⟨h1, ?_⟩
    rw [hb, hb0]
    simp [List.append_assoc, List.drop_append, List.take_append, hl]

/-- C07 (histories): whatever sequence of dumps with whatever keys is attempted on a message
that carries a signature, the signature and everything it covers stay the same. -/
theorem signature_never_overwritten (E : Env) (encrypt : Bytes → Bytes → Res Bytes)
    (hist : List (Option Bytes × Option Bytes)) :
    ∀ m : Msg, m.sig ≠ .none →
      let m' := afterDumps E encrypt hist m
      m'.sig = m.sig ∧ m'.cls = m.cls ∧ m'.ty = m.ty ∧ m'.ts = m.ts ∧ m'.attrs = m.attrs := by
  induction hist with
  | nil => intro m _; exact ⟨rfl, rfl, rfl, rfl, rfl⟩
  | cons kp rest ih =>
    obtain ⟨priv, pub⟩ := kp
    intro m hm
    obtain ⟨h1, h2, h3, h4, h5⟩ := serialize_keeps E m priv ((givenKey pub).map encrypt)
    have hs := h5 hm
    obtain ⟨i1, i2, i3, i4, i5⟩ := ih (dump E encrypt m priv pub).2
      (by unfold dump; rw [hs]; exact hm)
    refine ⟨i1.trans hs, i2.trans h1, i3.trans h2, i4.trans h3, i5.trans h4⟩

/-- C07: after the first successful dump, of a message signed before or not, the message
carries signature bytes, so they stay for good. -/
theorem first_dump_fixes_signature (E : Env) (encrypt : Bytes → Bytes → Res Bytes) (m m' : Msg)
    (b : Bytes) (priv pub : Option Bytes) (h : dump E encrypt m priv pub = (.ok b, m'))
    (hist : List (Option Bytes × Option Bytes)) :
    ∃ s, m'.sig = .bytes s ∧ (afterDumps E encrypt hist m').sig = .bytes s := by
  have key : ∀ b0, Nonempty (Dumped E m priv ((givenKey pub).map encrypt) b0 m') →
      ∃ s, m'.sig = .bytes s := by
    rintro b0 ⟨⟨d_slots, d_payload, d_hd, d_sg, d_body, d_hslots, d_hpayload, d_hm, d_hhd, d_hb, d_hbody, d_hsig⟩⟩
    exact ⟨d_sg, by rw [d_hm]⟩
  have hs : ∃ s, m'.sig = .bytes s := by
    unfold dump at h
    rcases serialize_ok h with ⟨_, hd⟩ | ⟨_, b0, v, hd, _, _⟩
    · exact key b hd
    · exact key b0 hd
  obtain ⟨s, hs⟩ := hs
  refine ⟨s, hs, ?_⟩
  rw [(signature_never_overwritten E encrypt hist m' (by rw [hs]; simp)).1, hs]

/-! ### C08 -/

/-- C08: a message without a signature that is dumped without a private key, or whose class is
not signed, gets 65 zero bytes as signature. -/
theorem unsigned_dump (E : Env) (encrypt : Bytes → Bytes → Res Bytes) (m m' : Msg) (b : Bytes)
    (priv pub : Option Bytes) (hs : m.sig = .none) (hu : priv = none ∨ m.cls.sign = false)
    (h : dump E encrypt m priv pub = (.ok b, m')) :
    frameSig b = List.replicate 65 0 ∧ m'.sig = .bytes (List.replicate 65 0) := by
  have key : ∀ b0, Nonempty (Dumped E m priv ((givenKey pub).map encrypt) b0 m') →
      m'.sig = .bytes (List.replicate 65 0) ∧
      ∃ hd body, hd.length = 11 ∧ b0 = hd ++ List.replicate 65 0 ++ body := by
    rintro b0 ⟨⟨d_slots, d_payload, d_hd, d_sg, d_body, d_hslots, d_hpayload, d_hm, d_hhd, d_hb, d_hbody, d_hsig⟩⟩
    have hsg : d_sg = List.replicate 65 0 := by
      rcases d_hsig with ⟨h1, _⟩ | ⟨_, ⟨h1, key, hh, h2, _⟩ | ⟨_, h1⟩⟩
      · rw [hs] at h1; cases h1
      · rcases hu with hu | hu
        · rw [hu] at h2; cases h2
        · rw [hu] at h1; cases h1
      · exact h1
    refine ⟨by rw [d_hm, hsg], d_hd, d_body, ?_, ?_⟩
    · obtain ⟨_, _, _, _, hl, _⟩ := packHeader_ok d_hhd
      exact hl
    · rw [d_hb, hsg]
  unfold dump at h
  rcases serialize_ok h with ⟨_, hd⟩ | ⟨_, b0, v, hd, _, hb⟩
  · obtain ⟨h1, hd, body, hl, hb⟩ := key b hd
    refine ⟨?_, h1⟩
    rw [hb]
    simp [frameSig, List.append_assoc, List.drop_append, List.take_append, hl]
  · obtain ⟨h1, hd, body, hl, hb0⟩ := key b0 hd
    refine ⟨?_, h1⟩
    rw [hb, hb0]
    simp [frameSig, List.append_assoc, List.drop_append, List.take_append, hl]

/-- The outcome of a load with the signature replaced. -/
def withSig (s : Bytes) : Res Msg → Res Msg
  | .ok m => .ok { m with sig := .bytes s }
  | .error e => .error e

private theorem unsigned_cls {c : Cls} (h : c.sign = false) :
    c ≠ .Hello ∧ c.isTask = false := by
  cases c <;> simp [Cls.sign] at h <;> simp [Cls.isTask]

private theorem parse_unsigned (E : Env) (c : Cls) (h : Header) (s1 s2 : Bytes)
    (pub1 pub2 : Option Bytes) (p : Bytes) (hc : c.sign = false) :
    parsePayload E c h s2 none pub2 p = withSig s2 (parsePayload E c h s1 none pub1 p) := by
  unfold parsePayload construct
  cases loads p with
  | error e => rfl
  | ok slots =>
    simp only [hc, Bool.false_eq_true, if_false]
    cases loadAttrs E (loadMsg E maxDepth) c slots with
    | error e => rfl
    | ok as => rfl

/-- C08: loading a frame of a class that is not signed gives the same outcome and the same
calls of the decryption function whatever the signature bytes and the sender key are, except
that the message carries the signature bytes of its frame. -/
theorem unsigned_load (E : Env) (dec : Bytes → Bytes → Res Bytes) (hd s1 s2 body : Bytes) (c : Cls)
    (hh : hd.length = 11) (h1 : s1.length = 65) (h2 : s2.length = 65)
    (hc : c.sign = false) (ht : frameType hd = c.typeId)
    (priv pub1 pub2 : Option Bytes) (ct : Bool) (now : Int) :
    load E dec (some (hd ++ s2 ++ body)) priv pub2 ct now =
      ((load E dec (some (hd ++ s1 ++ body)) priv pub1 ct now).1,
        withSig s2 (load E dec (some (hd ++ s1 ++ body)) priv pub1 ct now).2) := by
  have take11 : ∀ s : Bytes, (hd ++ s ++ body).take hdrLen = hd := by
    intro s; simp [hdrLen, List.append_assoc, List.take_append, hh]
  have drop11 : ∀ s : Bytes, (hd ++ s ++ body).drop hdrLen = s ++ body := by
    intro s; simp [hdrLen, List.append_assoc, List.drop_append, hh]
  unfold load deserialize
  simp only [take11, drop11]
  have hl : (hd ++ s2 ++ body).length = (hd ++ s1 ++ body).length := by simp [h1, h2]
  rw [hl]
  by_cases hsmall : (hd ++ s1 ++ body).length ≤ hdrLen + sigLen
  · simp only [if_pos hsmall]; rfl
  simp only [if_neg hsmall]
  cases hx : deserializeHeader hd with
  | error e => rfl
  | ok h =>
    simp only
    cases timeGate ct now h with
    | error e => rfl
    | ok u =>
      simp only
      have hty : h.type = c.typeId := by
        unfold deserializeHeader unpackHeader at hx
        simp only [hdrLen, hh, ne_eq, not_true, if_false] at hx
        split at hx
        · split at hx
          · injection hx with hx
            rw [← hx, ← ht, frameType, bigEndian_eq]
          · cases hx
        · cases hx
      rw [hty, ofType_typeId]
      simp only
      obtain ⟨hn, htask⟩ := unsigned_cls hc
      unfold dwh
      simp only [if_neg hn]
      have t65 : ∀ s : Bytes, s.length = 65 → (s ++ body).take sigLen = s := by
        intro s hs; simp [sigLen, List.take_append, hs]
      have d65 : ∀ s : Bytes, s.length = 65 → (s ++ body).drop sigLen = body := by
        intro s hs; simp [sigLen, List.drop_append, hs]
      unfold dwhBase
      rw [t65 s1 h1, t65 s2 h2, d65 s1 h1, d65 s2 h2]
      have tc : ∀ m : Msg, m.cls = c → taskChecks E m = .ok m := by
        intro m hm
        unfold taskChecks
        rw [hm, htask]; rfl
      have pc : ∀ s pub p m, parsePayload E c h s none pub p = .ok m → m.cls = c := by
        intro s pub p m hm
        unfold parsePayload construct at hm
        cases hl : loads p with
        | error e => rw [hl] at hm; cases hm
        | ok slots =>
          rw [hl] at hm
          simp only [hc, Bool.false_eq_true, if_false] at hm
          cases ha : loadAttrs E (loadMsg E maxDepth) c slots with
          | error e => rw [ha] at hm; cases hm
          | ok as => rw [ha] at hm; simp only at hm; injection hm with hm; rw [← hm]
      simp only [Logged.andThen]
      cases (decryptStep h.encrypted (loadDecrypt dec priv) body).2 with
      | error e => rfl
      | ok p =>
        simp only
        rw [parse_unsigned E c h s1 s2 pub1 pub2 p hc]
        cases hp : parsePayload E c h s1 none pub1 p with
        | error e => rfl
        | ok m =>
          simp only [withSig]
          have hm := pc _ _ _ _ hp
          rw [tc _ (show ({ m with sig := .bytes s2 } : Msg).cls = c from hm), tc m hm]

/-! ### C20 -/

/-- C20: the flag byte of an emitted frame is set exactly if a recipient key was given and the
class is neither `Hello` nor `Disconnect`; then the bytes after the signature are the
encryption, with that key, of the encoded slots; otherwise they are the encoded slots
themselves.  (A `Hello` frame has its 32-byte version field after that.) -/
theorem encryption_truthful (E : Env) (encrypt : Bytes → Bytes → Res Bytes) (m m' : Msg)
    (b : Bytes) (priv pub : Option Bytes)
    (h : dump E encrypt m priv pub = (.ok b, m')) (hsig : ∀ s, m'.sig = .bytes s → s.length = 65) :
    ∃ slots payload, m.slots = .ok slots ∧ dumps slots = .ok payload ∧
      ((∃ key, pub = some key ∧ key ≠ [] ∧ m.cls ≠ .Hello ∧ m.cls ≠ .Disconnect ∧
          frameFlag b = true ∧ m'.enc = .bool true ∧ encrypt key payload = .ok (frameBody b)) ∨
       ((pub = none ∨ pub = some [] ∨ m.cls = .Hello ∨ m.cls = .Disconnect) ∧
          frameFlag b = false ∧ m'.enc = .bool false ∧
          (if m.cls = .Hello then ∃ v : Bytes, v.length = 32 ∧ frameBody b = payload ++ v
           else frameBody b = payload))) := by
  have encIff : ∀ c : Cls, c.encrypt = true ↔ c ≠ .Hello ∧ c ≠ .Disconnect := by
    intro c; cases c <;> simp [Cls.encrypt]
  have keyIff : ∀ (k : Bytes), givenKey pub = some k ↔ pub = some k ∧ k ≠ [] := by
    intro k
    cases pub with
    | none => simp [givenKey]
    | some k' => cases k' with
      | nil =>
        simp only [givenKey]
        constructor
        · intro e; cases e
        · rintro ⟨e, hne⟩; injection e with e; exact absurd e.symm hne
      | cons x xs =>
        simp only [givenKey]
        constructor
        · intro e; injection e with e; subst e; exact ⟨rfl, by simp⟩
        · rintro ⟨e, _⟩; exact e
  have noKey : givenKey pub = none → pub = none ∨ pub = some [] := by
    intro hn
    cases pub with
    | none => exact Or.inl rfl
    | some k' => cases k' with
      | nil => exact Or.inr rfl
      | cons x xs => simp [givenKey] at hn
  unfold dump at h
  rcases serialize_ok h with ⟨hne, ⟨⟨d_slots, d_payload, d_hd, d_sg, d_body, d_hslots, d_hpayload, d_hm, d_hhd, d_hb, d_hbody, d_hsig⟩⟩⟩ | ⟨heq, b0, v, ⟨⟨d_slots, d_payload, d_hd, d_sg, d_body, d_hslots, d_hpayload, d_hm, d_hhd, d_hb, d_hbody, d_hsig⟩⟩, _, hb⟩
  · refine ⟨d_slots, d_payload, d_hslots, d_hpayload, ?_⟩
    obtain ⟨_, _, p3, _, p5, _⟩ := frame_parts d_hhd d_sg d_body (hsig _ (by rw [d_hm]))
    rw [← d_hb] at p3 p5
    rcases d_hbody with ⟨he, g, hg, hgp⟩ | ⟨he, hbp⟩
    · left
      cases hk : givenKey pub with
      | none => rw [hk] at hg; cases hg
      | some key =>
        obtain ⟨k1, k2⟩ := (keyIff key).mp hk
        rw [hk] at hg
        simp only [Option.map_some, Option.some.injEq] at hg
        subst hg
        have : (m.cls.encrypt && (Option.map encrypt (givenKey pub)).isSome) = true := by
          rw [he, hk]; rfl
        rw [this] at p3
        refine ⟨key, k1, k2, ((encIff _).mp he).1, ((encIff _).mp he).2, p3, ?_, ?_⟩
        · rw [d_hm, this]
        · rw [p5]; exact hgp
    · right
      rw [he] at p3
      refine ⟨?_, p3, by rw [d_hm, he], ?_⟩
      · cases hk : givenKey pub with
        | none => rcases noKey hk with h | h <;> simp [h]
        | some key =>
          rw [hk] at he
          simp only [Option.map_some, Option.isSome_some, Bool.and_true] at he
          by_cases h1 : m.cls = .Disconnect
          · simp [h1]
          · have := (encIff m.cls).mpr ⟨hne, h1⟩
            rw [he] at this; cases this
      · rw [if_neg hne, p5, hbp]
  · refine ⟨d_slots, d_payload, d_hslots, d_hpayload, Or.inr ⟨by simp [heq], ?_⟩⟩
    have hf : (m.cls.encrypt && (Option.map encrypt (givenKey pub)).isSome) = false := by
      rw [heq]; rfl
    have hbody : d_body = d_payload := by
      rcases d_hbody with ⟨he, _⟩ | ⟨_, hbp⟩
      · rw [heq] at he; cases he
      · exact hbp
    obtain ⟨_, _, p3, _, p5, _⟩ := frame_parts d_hhd d_sg (d_body ++ packPascal (asciiReplace v))
      (hsig _ (by rw [d_hm]))
    have hb' : b = d_hd ++ d_sg ++ (d_body ++ packPascal (asciiReplace v)) := by
      rw [hb, d_hb]; simp
    rw [← hb', hf] at p3
    rw [← hb'] at p5
    refine ⟨p3, by rw [d_hm, hf], ?_⟩
    rw [if_pos heq]
    refine ⟨packPascal (asciiReplace v), ?_, by rw [p5, hbody]⟩
    simp [packPascal]; omega

/-! ### Non-vacuity -/

/-- A fresh `RemoveTask`. -/
private def fresh : Msg := ⟨.RemoveTask, .int 1007, .int 1500000000, .bool false, .none,
  [(p!"task_id", .str p!"x")]⟩

private def toyEnv : Env where
  sha1 b := b.take 20
  sha3 b := b.take 32
  sign k h := .ok ((k ++ h ++ List.replicate 65 0).take 65)
  recover _ _ := none
  ipOk _ := true
  version := p!"1.0.0"

/-- An encrypted, signed dump succeeds, with a signature of 65 bytes, and a second attempt to
sign is refused. -/
example :
    let r := dump toyEnv (fun k d => .ok (k ++ d)) fresh (some [7]) (some [9])
    (∃ b, r.1 = .ok b ∧ frameFlag b = true ∧ frameBody b = 9 :: [0x81, 0x82, 0x67] ++
        p!"task_id".map (fun c => UInt8.ofNat c.toNat) ++ [0x61, 120]) ∧
      (∃ s, r.2.sig = .bytes s ∧ s.length = 65 ∧ s.head? = some 7) ∧
      (dump toyEnv (fun k d => .ok (k ++ d)) r.2 (some [7]) none).1
        = .error .signatureAlreadyExists := by
  refine ⟨⟨_, rfl, ?_, ?_⟩, ⟨_, rfl, ?_, ?_⟩, ?_⟩ <;> decide +kernel

/-- A message dumped without a private key carries zeros from then on: dumping it again with a key is refused,
dumping it again without one emits the same bytes. -/
example :
    let r := dump toyEnv (fun k d => .ok (k ++ d)) fresh none none
    ∃ b, r.1 = .ok b ∧ frameSig b = List.replicate 65 0 ∧ r.2.sig = .bytes (List.replicate 65 0) ∧
      (dump toyEnv (fun k d => .ok (k ++ d)) r.2 none none).1 = .ok b ∧
      (afterDumps toyEnv (fun k d => .ok (k ++ d)) [(some [7], none), (none, some [9]), (some [8], some [9])] r.2)
        = { r.2 with enc := .bool true } := by
  refine ⟨_, rfl, ?_, ?_, ?_, ?_⟩ <;> decide +kernel

/-- A `Ping`, whose class is not signed, loads with any signature bytes and any sender key. -/
example :
    let hd : Bytes := [0x03, 0xe9, 0, 0, 0, 0, 0x59, 0x68, 0x2f, 0, 0]
    let f := fun s pub => load toyEnv (fun _ d => .ok d) (some (hd ++ s ++ [0x80])) none pub false 0
    frameType hd = Cls.typeId .Ping ∧ Cls.sign .Ping = false ∧
      f (List.replicate 65 1) none = ([], .ok ⟨.Ping, .int 1001, .int 1500000000, .bool false,
        .bytes (List.replicate 65 1), []⟩) ∧
      f (List.replicate 65 2) (some (List.replicate 64 7)) = ([], .ok ⟨.Ping, .int 1001, .int 1500000000,
        .bool false, .bytes (List.replicate 65 2), []⟩) := by
  refine ⟨?_, ?_, ?_, ?_⟩ <;> decide +kernel

/-- A `Disconnect` stays in the clear though a recipient key is given. -/
example :
    let m : Msg := ⟨.Disconnect, .int 2, .int 1500000000, .bool true, .none, [(p!"reason", .none)]⟩
    let r := dump toyEnv (fun k d => .ok (k ++ d)) m (some [7]) (some [9])
    ∃ b, r.1 = .ok b ∧ frameFlag b = false ∧ r.2.enc = .bool false ∧
      frameBody b = [0x81, 0x82, 0x66] ++ p!"reason".map (fun c => UInt8.ofNat c.toNat) ++ [0xf6] := by
  refine ⟨_, rfl, ?_, ?_, ?_⟩ <;> decide +kernel

end Verif.Props
