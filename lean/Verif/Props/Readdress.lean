import Verif.Lemmas.Carried
import Verif.Lemmas.Load
import Verif.Lemmas.Toy
import Verif.Props.Ecies
/-!
# C75: who a message is for

A frame tells its receiver five things: type, timestamp, signature, flag and, once deciphered, the
payload.  The signature covers three of them, and the receiver's key is not among them.
-/

set_option linter.unusedSimpArgs false

namespace Verif.Props

open Verif Spec

private theorem timeGate_flag (ct : Bool) (now : Int) (a b : Nat) (f g : Bool) :
    timeGate ct now ⟨a, b, f⟩ = timeGate ct now ⟨a, b, g⟩ := rfl

/-- Loading a frame that is no `Hello`, with its payload. -/
private theorem load_payload (E : Env) (dec : Bytes → Bytes → Res Bytes) (data p : Bytes)
    (priv pub : Option Bytes) (ct : Bool) (now : Int) (hl : 76 < data.length)
    (h0 : frameType data ≠ 0) (hp : Payload (loadDecrypt dec priv) data p) :
    (load E dec (some data) priv pub ct now).2 =
      if minTimestamp < frameTime data ∧ frameTime data < maxTimestamp then
        match Cls.ofType (frameType data) with
        | none => .error .headerError
        | some c =>
          match timeGate ct now ⟨frameType data, frameTime data, frameFlag data⟩ with
          | .error e => .error e
          | .ok _ =>
            match parsePayload E c ⟨frameType data, frameTime data, frameFlag data⟩ (frameSig data) none
              pub p with
            | .error e => .error e
            | .ok m => taskChecks E m
      else .error .headerError := by
  by_cases hb : minTimestamp < frameTime data ∧ frameTime data < maxTimestamp ∧
      Registered (frameType data)
  · obtain ⟨h1, h2, c, hc⟩ := hb
    have h3 : Cls.ofType (frameType data) = some c := by rw [← hc]; exact ofType_typeId c
    have hne : c ≠ .Hello := by
      intro e; apply h0; rw [← hc, e]; rfl
    have hu : unversioned data = data := by unfold unversioned; rw [if_neg h0]
    rw [if_pos ⟨h1, h2⟩, h3]
    simp only
    unfold load
    rw [deserialize_frame E data _ ct now pub hl c h1 h2 h3]
    cases timeGate ct now ⟨frameType data, frameTime data, frameFlag data⟩ with
    | error e => rfl
    | ok u =>
      simp only
      unfold dwh
      rw [if_neg hne]
      unfold dwhBase Logged.andThen
      have e1 : (data.drop hdrLen).drop sigLen = frameBody data := by
        simp [frameBody, hdrLen, sigLen, List.drop_drop]
      have e2 : (data.drop hdrLen).take sigLen = frameSig data := by simp [frameSig, hdrLen, sigLen]
      rw [e1, e2]
      have hd : (decryptStep (frameFlag data) (loadDecrypt dec priv) (frameBody data)).2 = .ok p := by
        unfold Payload at hp
        rw [hu] at hp
        unfold decryptStep
        cases hf : frameFlag data with
        | true => simp only [hf, if_true] at hp ⊢; rw [hp]
        | false => simp only [hf, Bool.false_eq_true, if_false] at hp ⊢; rw [hp]
      dsimp only
      rw [hd]
      dsimp only
      cases parsePayload E c ⟨frameType data, frameTime data, frameFlag data⟩ (frameSig data) none
        pub p <;> rfl
  · unfold load
    rw [deserialize_badHeader _ _ _ _ _ _ hl hb]
    split
    · rename_i ht
      split
      · rfl
      · rename_i c hc
        exact absurd ⟨ht.1, ht.2, ofType_isSome.mp (by rw [hc]; rfl)⟩ hb
    · rfl

private theorem parse_flag (E : Env) (c : Cls) (a b : Nat) (f g : Bool) (sig : Bytes)
    (pub : Option Bytes) (p : Bytes) :
    (match parsePayload E c ⟨a, b, g⟩ sig none pub p with
      | .error e => .error e
      | .ok m => taskChecks E m) =
    (match parsePayload E c ⟨a, b, f⟩ sig none pub p with
      | .error e => .error e
      | .ok m => taskChecks E m : Res Msg).map fun m => { m with enc := .bool g } := by
  unfold parsePayload construct
  cases loads p with
  | error e => rfl
  | ok slots =>
    simp only
    cases loadAttrs E (loadMsg E maxDepth) c slots with
    | error e => rfl
    | ok as =>
      simp only
      have ht : taskChecks E ⟨c, .int a, .int b, .bool g, .bytes sig, as⟩ =
          (taskChecks E ⟨c, .int a, .int b, .bool f, .bytes sig, as⟩).map
            fun m => { m with enc := .bool g } := by
        have hv : isValid ⟨c, .int a, .int b, .bool g, .bytes sig, as⟩ =
            isValid ⟨c, .int a, .int b, .bool f, .bytes sig, as⟩ := rfl
        have he : verifyEthsig E ⟨c, .int a, .int b, .bool g, .bytes sig, as⟩ =
            verifyEthsig E ⟨c, .int a, .int b, .bool f, .bytes sig, as⟩ := rfl
        have hi : validateTaskId ⟨c, .int a, .int b, .bool g, .bytes sig, as⟩ =
            validateTaskId ⟨c, .int a, .int b, .bool f, .bytes sig, as⟩ := rfl
        unfold taskChecks
        rw [hv, he, hi]
        simp only
        split
        · cases isValid ⟨c, .int a, .int b, .bool f, .bytes sig, as⟩ with
          | error e => rfl
          | ok u =>
            simp only
            split
            · cases verifyEthsig E ⟨c, .int a, .int b, .bool f, .bytes sig, as⟩ with
              | error e => rfl
              | ok u =>
                simp only
                cases validateTaskId ⟨c, .int a, .int b, .bool f, .bytes sig, as⟩ <;> rfl
            · rfl
        · rfl
      cases (if c.sign then givenKey pub else none) with
      | none => exact ht
      | some k =>
        have hs : shortHashOf E ⟨c, .int a, .int b, .bool g, .bytes sig, as⟩ p =
            shortHashOf E ⟨c, .int a, .int b, .bool f, .bytes sig, as⟩ p := rfl
        simp only
        rw [hs]
        cases shortHashOf E ⟨c, .int a, .int b, .bool f, .bytes sig, as⟩ p with
        | error e => rfl
        | ok hash =>
          simp only
          cases E.ecdsaVerify k (.bytes sig) hash with
          | error e => rfl
          | ok u => exact ht

/-- C75: two frames (no `Hello`s) with the same type, timestamp, signature and payload, each
deciphered with its own receiver's key or not encrypted at all, are the same to their receivers,
who get the same message, but for its flag, or the same error. -/
theorem payload_decides (E : Env) (dec1 dec2 : Bytes → Bytes → Res Bytes) (d1 d2 p : Bytes)
    (priv1 priv2 pub : Option Bytes) (ct : Bool) (now : Int) (l1 : 76 < d1.length)
    (l2 : 76 < d2.length) (hty : frameType d2 = frameType d1) (hnz : frameType d1 ≠ 0)
    (htm : frameTime d2 = frameTime d1) (hsig : frameSig d2 = frameSig d1)
    (hp1 : Payload (loadDecrypt dec1 priv1) d1 p) (hp2 : Payload (loadDecrypt dec2 priv2) d2 p) :
    (load E dec2 (some d2) priv2 pub ct now).2 =
      (load E dec1 (some d1) priv1 pub ct now).2.map fun m => { m with enc := .bool (frameFlag d2) } := by
  rw [load_payload E dec1 d1 p priv1 pub ct now l1 hnz hp1,
    load_payload E dec2 d2 p priv2 pub ct now l2 (by rw [hty]; exact hnz) hp2, hty, htm, hsig]
  split
  · split
    · rfl
    · rename_i c hc
      rw [timeGate_flag ct now _ _ (frameFlag d2) (frameFlag d1)]
      split
      · rfl
      · exact parse_flag E c _ _ _ _ _ pub p
  · rfl

private theorem reframe (data c : Bytes) (h : 76 < data.length) :
    frameType (data.take 76 ++ c) = frameType data ∧ frameTime (data.take 76 ++ c) = frameTime data ∧
    frameFlag (data.take 76 ++ c) = frameFlag data ∧ frameSig (data.take 76 ++ c) = frameSig data ∧
    frameBody (data.take 76 ++ c) = c := by
  have hl : (data.take 76).length = 76 := by rw [List.length_take]; omega
  have key : ∀ i n, i + n ≤ 76 → ((data.take 76 ++ c).drop i).take n = (data.drop i).take n := by
    intro i n hin
    rw [List.drop_append_of_le_length (by omega), List.take_append_of_le_length (by
      rw [List.length_drop]; omega), List.drop_take, List.take_take, Nat.min_eq_left (by omega)]
  refine ⟨?_, ?_, ?_, ?_, ?_⟩
  · unfold frameType
    have := key 0 2 (by omega)
    rw [List.drop_zero, List.drop_zero] at this
    rw [this]
  · unfold frameTime; rw [key 2 8 (by omega)]
  · unfold frameFlag
    have := congrArg List.head? (key 10 1 (by omega))
    rw [List.head?_take, List.head?_take, if_neg (by omega), if_neg (by omega)] at this
    rw [this]
  · unfold frameSig; rw [key 11 65 (by omega)]
  · unfold frameBody
    rw [List.drop_append, hl]
    simp

/-- C75 refuted: whoever can read an encrypted message can seal it for anybody else, with any
ephemeral key of their own and without any key of the sender.  That third party accepts it, with
the sender's key, as the same message: that a signed message deciphers with the receiver's key does
not mean that it was sent to the receiver. -/
theorem readdressed_refuted (E : Env) (X : EciesEnv) (L : EciesEnv.Laws X)
    (data r1 : Bytes) (pub : Option Bytes) (ct : Bool) (now : Int) (m : Msg) (hr1 : r1 ≠ [])
    (hf : frameFlag data = true) (hc : m.cls ≠ .Hello)
    (h : (load E (fun k c => eciesDecrypt X c k []) (some data) (some r1) pub ct now).2 = .ok m)
    (r2 e iv : Bytes) (hr2 : r2 ≠ []) (A : EciesEnv.Agree X e r2) (hiv : iv.length = 16) :
    ∃ p c, eciesDecrypt X (frameBody data) r1 [] = .ok p ∧
      eciesEncrypt X e iv p ((X.pub r2).drop 1) [] = .ok c ∧
      (load E (fun k c => eciesDecrypt X c k []) (some (data.take 76 ++ c)) (some r2) pub ct now).2 =
        .ok m := by
  obtain ⟨hl, _, _, k, hk, _, p, version, hp, _, _, hparse, _⟩ := load_ok h
  obtain ⟨slots, _, hcon, _⟩ := parsePayload_ok hparse
  obtain ⟨as, _, hm⟩ := construct_ok hcon
  have hkm : k = m.cls := by rw [hm]
  have hnz : frameType data ≠ 0 := by
    rw [← hk, hkm]; exact typeId_ne_hello hc
  have henc : m.enc = .bool true := by rw [hm]; simp [hf]
  have hu : unversioned data = data := by unfold unversioned; rw [if_neg hnz]
  have hd : eciesDecrypt X (frameBody data) r1 [] = .ok p := by
    have hp := hp
    unfold Payload at hp
    rw [if_pos hf, hu] at hp
    unfold loadDecrypt at hp
    cases r1 with
    | nil => exact absurd rfl hr1
    | cons x xs => exact hp
  obtain ⟨c, hc1, hc2, hc3⟩ := ecies_round_trip X L e r2 iv p [] A hiv
  obtain ⟨f1, f2, f3, f4, f5⟩ := reframe data c hl
  refine ⟨p, c, hd, hc1, ?_⟩
  rw [payload_decides E _ _ data (data.take 76 ++ c) p (some r1) (some r2) pub ct now hl (by
      rw [List.length_append, List.length_take]; omega) f1 hnz f2 f4 hp (by
      unfold Payload
      rw [f3, if_pos hf]
      have hu2 : unversioned (data.take 76 ++ c) = data.take 76 ++ c := by
        unfold unversioned; rw [f1, if_neg hnz]
      rw [hu2, f5]
      unfold loadDecrypt
      cases r2 with
      | nil => exact absurd rfl hr2
      | cons x xs => exact hc3), h, f3, hf]
  show Except.ok _ = _
  rw [← henc]

/-- C75: what somebody who can read an encrypted message publishes in clear, everybody accepts with
the sender's key; only the flag differs. -/
theorem published (E : Env) (dec1 dec2 : Bytes → Bytes → Res Bytes) (data p : Bytes)
    (priv1 priv2 pub : Option Bytes) (ct : Bool) (now : Int) (m : Msg) (hc : m.cls ≠ .Hello)
    (hp : Payload (loadDecrypt dec1 priv1) data p) (hne : p ≠ [])
    (h : (load E dec1 (some data) priv1 pub ct now).2 = .ok m) :
    (load E dec2 (some (data.take 10 ++ [0] ++ frameSig data ++ p)) priv2 pub ct now).2 =
      .ok { m with enc := .bool false } := by
  obtain ⟨hl, _, _, k, hk, _, p', version, hp', _, _, hparse, _⟩ := load_ok h
  obtain ⟨slots, _, hcon, _⟩ := parsePayload_ok hparse
  obtain ⟨as, _, hm⟩ := construct_ok hcon
  have hkm : k = m.cls := by rw [hm]
  have hnz : frameType data ≠ 0 := by
    rw [← hk, hkm]; exact typeId_ne_hello hc
  have hsl : (frameSig data).length = 65 := by
    unfold frameSig; rw [List.length_take, List.length_drop]; omega
  have hl10 : (data.take 10).length = 10 := by rw [List.length_take]; omega
  have hpos := List.length_pos_iff.mpr hne
  have g1 : frameType (data.take 10 ++ [0] ++ frameSig data ++ p) = frameType data := by
    unfold frameType
    rw [List.append_assoc, List.append_assoc, List.take_append_of_le_length (by omega), List.take_take]
    simp
  have g2 : frameTime (data.take 10 ++ [0] ++ frameSig data ++ p) = frameTime data := by
    unfold frameTime
    rw [List.append_assoc, List.append_assoc, List.drop_append_of_le_length (by omega),
      List.take_append_of_le_length (by rw [List.length_drop]; omega), List.drop_take, List.take_take]
    simp
  have g3 : frameFlag (data.take 10 ++ [0] ++ frameSig data ++ p) = false := by
    unfold frameFlag
    rw [List.append_assoc, List.append_assoc, List.drop_append, hl10,
      List.drop_eq_nil_of_le (by omega)]
    simp
  have g4 : frameSig (data.take 10 ++ [0] ++ frameSig data ++ p) = frameSig data := by
    show ((data.take 10 ++ [0] ++ frameSig data ++ p).drop 11).take 65 = frameSig data
    rw [List.append_assoc, List.drop_append, List.drop_eq_nil_of_le (by simp; omega)]
    simp only [List.length_append, hl10, List.length_cons, List.length_nil, List.nil_append]
    rw [show 11 - (10 + (0 + 1)) = 0 from rfl, List.drop_zero, List.take_append_of_le_length (by omega),
      List.take_of_length_le (by omega)]
  have g5 : frameBody (data.take 10 ++ [0] ++ frameSig data ++ p) = p := by
    unfold frameBody
    rw [List.drop_append, List.drop_eq_nil_of_le (by simp; omega)]
    simp only [List.length_append, hl10, hsl, List.length_cons, List.length_nil, List.nil_append]
    rw [show 76 - (10 + (0 + 1) + 65) = 0 from rfl, List.drop_zero]
  rw [payload_decides E dec1 dec2 data _ p priv1 priv2 pub ct now hl (by
      simp only [List.length_append, hl10, hsl, List.length_cons, List.length_nil]; omega) g1 hnz g2 g4
      hp (by
      unfold Payload
      rw [g3]
      unfold unversioned
      rw [g1, if_neg hnz, g5]
      simp), h, g3]
  rfl

/-! ### Non-vacuity -/

private def secret : Msg :=
  ⟨.RemoveTask, .int Cls.RemoveTask.typeId, .int 1500000000, .bool false, .none,
    [(p!"task_id", .str p!"t")]⟩

/-- A message signed with key 7 and sealed for the holder of key `[2]`. -/
private def sealed : Bytes :=
  (dump toyEnv (fun k d => eciesEncrypt toyX [1] (List.replicate 16 9) d k []) secret
    (some (List.replicate 32 7)) (some ((toyX.pub [2]).drop 1))).1.toOption.getD []

/-- The hypotheses of `readdressed_refuted` can be met; the third party holds the key
`[3]`. -/
example : ∃ m, (load toyEnv (fun k c => eciesDecrypt toyX c k []) (some sealed) (some [2])
      (some (List.replicate 64 7)) false 0).2 = .ok m ∧ frameFlag sealed = true ∧ m.cls.sign = true ∧
    m.cls ≠ .Hello ∧ EciesEnv.Agree toyX [5] [3] := by
  refine ⟨⟨.RemoveTask, .int Cls.RemoveTask.typeId, .int 1500000000, .bool true,
    .bytes (frameSig sealed), secret.attrs⟩, by decide +kernel, by decide +kernel, rfl, by decide,
    toyX_agree _ _⟩

end Verif.Props
