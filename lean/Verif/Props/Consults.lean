import Verif.Props.KeyTrace
import Verif.Props.Meaning
import Verif.Lemmas.ToyMake
/-!
# C120: which signatures are looked at on arrival
-/

namespace Verif.Props

open Verif Spec

set_option smartUnfolding false in
private theorem nested_env {a a' b b' c c' d d' ip v v'} :
    loadMsg ⟨a, b, c, d, ip, v⟩ = loadMsg ⟨a', b', c', d', ip, v'⟩ := rfl

set_option smartUnfolding false in
private theorem attrs_env {a a' b b' c c' d d' ip v v'} :
    loadAttrs ⟨a, b, c, d, ip, v⟩ = loadAttrs ⟨a', b', c', d', ip, v'⟩ := rfl

/-- Constructing a message looks at the environment for addresses only. -/
private theorem construct_env {E E' : Env} (h : E.ipOk = E'.ipOk) : construct E = construct E' := by
  obtain ⟨a, b, c, d, ip, v⟩ := E
  obtain ⟨a', b', c', d', ip', v'⟩ := E'
  cases (h : ip = ip')
  funext cls hd sig version slots
  unfold construct
  rw [nested_env (a' := a') (b' := b') (c' := c') (d' := d') (v' := v'),
    attrs_env (a' := a') (b' := b') (c' := c') (d' := d') (v' := v')]

theorem digest_error {E E' : Env} {m : Msg} {p : Bytes} {e : Exc} (h : shortHashOf E m p = .error e) :
    shortHashOf E' m p = .error e := by
  unfold shortHashOf at h ⊢
  split at h
  · simpa using h
  · split at h
    · split at h
      · cases h
      · rename_i hh _ _
        rw [if_pos hh]
        simpa using h
    · cases h

theorem verify_alike {E E' : Env} {k : Bytes} {s : Val} {x x' : Bytes}
    (h : E.recover s (E.sha3 x) = E'.recover s (E'.sha3 x')) : E.ecdsaVerify k s x = E'.ecdsaVerify k s x' := by
  unfold Env.ecdsaVerify
  rw [h]

private theorem parse_env {E E' : Env} {c : Cls} {data payload : Bytes} {pub : Option Bytes}
    (hip : E.ipOk = E'.ipOk) (hver : E.version = E'.version) (hc : c.typeId = frameType data)
    (hv : c = .Hello → verifyVersion E.version (asciiDecodeReplace (fieldVersion (versionField data))) = .ok ())
    (h : ∀ key hd, pub = some key → key ≠ [] → Encoded (.list [.int (frameType data), .int (frameTime data)]) hd →
      E.recover (.bytes (frameSig (unversioned data))) (E.sha3 (E.sha1 (hd ++ payload) ++ versionBytes data)) =
      E'.recover (.bytes (frameSig (unversioned data))) (E'.sha3 (E'.sha1 (hd ++ payload) ++ versionBytes data))) :
    parsePayload E c ⟨frameType data, frameTime data, frameFlag data⟩ (frameSig (unversioned data))
      (frameVersion c data) pub payload =
    parsePayload E' c ⟨frameType data, frameTime data, frameFlag data⟩ (frameSig (unversioned data))
      (frameVersion c data) pub payload := by
  unfold parsePayload
  rw [construct_env hip]
  split
  · rfl
  rename_i slots hl
  split
  · rfl
  rename_i m hm
  split
  · rfl
  rename_i key hk
  obtain ⟨rfl, hne⟩ : pub = some key ∧ key ≠ [] := by
    split at hk
    · exact key_given.mp hk
    · cases hk
  cases hx : shortHashOf E m payload with
  | error e => rw [digest_error hx]
  | ok x =>
    cases hx' : shortHashOf E' m payload with
    | error e => rw [digest_error hx'] at hx; cases hx
    | ok x' =>
      unfold frameVersion at hm
      obtain ⟨_, _, _, hs, _, hd, d1, rfl⟩ := loaded_digest hc hv (by rw [construct_env hip]; exact hm) hx
      obtain ⟨_, _, _, _, _, hd', d1', rfl⟩ := loaded_digest hc (by rwa [← hver]) hm hx'
      rw [d1] at d1'
      cases d1'
      dsimp only
      rw [hs, verify_alike (h key hd rfl hne ((written_bytes _ _).mp d1))]

private theorem ethsig_env {E E' : Env} {m : Msg}
    (h : ∀ w : Msg, getAttr m.attrs p!"want_to_compute_task" = w.val → ∀ p d d', PayloadOf w p →
      DigestOf E w p d → DigestOf E' w p d' →
      E.recover (getAttr m.attrs p!"ethsig") (E.sha3 d) = E'.recover (getAttr m.attrs p!"ethsig") (E'.sha3 d')) :
    verifyEthsig E m = verifyEthsig E' m := by
  unfold verifyEthsig
  cases hw : (getAttr m.attrs p!"want_to_compute_task").asMsg with
  | none => rfl
  | some w =>
    dsimp only
    have hv : getAttr m.attrs p!"want_to_compute_task" = w.val := by
      revert hw
      cases getAttr m.attrs p!"want_to_compute_task" <;> simp [Val.asMsg]
      rintro rfl
      rfl
    split
    · rfl
    rename_i pk _
    unfold verifySigWith shortHash
    cases hs : w.slots with
    | error _ => rfl
    | ok s =>
      dsimp only
      cases hd : dumps s with
      | error _ => rfl
      | ok p =>
        dsimp only
        cases hx : shortHashOf E w p with
        | error e => rw [digest_error hx]
        | ok x =>
          cases hx' : shortHashOf E' w p with
          | error e => rw [digest_error hx'] at hx; cases hx
          | ok x' =>
            exact verify_alike (h w hv p x x' ((written_payload w p).mp ⟨s, hs, hd⟩) (digest_written.mp hx)
              (digest_written.mp hx'))

/-- C120: what `load` does with a frame depends on hashes and signatures only through two recoveries at
most: of the frame's own signature over the digest of the frame, if a sender is expected, and, if the frame
is read as a `TaskToCompute`, of its payment signature over the digest of the offer in it.  So two
signature schemes that agree there give the same message or the same exception, and call for the same
deciphering, whatever they make of all other signatures: nested messages, headers, notes. -/
theorem load_consults (E E' : Env) (dec : Bytes → Bytes → Res Bytes) (data : Bytes) (priv pub : Option Bytes)
    (ct : Bool) (now : Int) (hip : E.ipOk = E'.ipOk) (hver : E.version = E'.version)
    (hs : ∀ key payload hd, pub = some key → key ≠ [] → Opened dec priv data payload →
      Encoded (.list [.int (frameType data), .int (frameTime data)]) hd →
      E.recover (.bytes (frameSig (unversioned data))) (E.sha3 (E.sha1 (hd ++ payload) ++ versionBytes data)) =
      E'.recover (.bytes (frameSig (unversioned data))) (E'.sha3 (E'.sha1 (hd ++ payload) ++ versionBytes data)))
    (ht : ∀ m offer : Msg, m.cls = .TaskToCompute → ReadsFrame E dec data priv pub ct now m →
      getAttr m.attrs p!"want_to_compute_task" = offer.val → ∀ p d d', PayloadOf offer p →
      DigestOf E offer p d → DigestOf E' offer p d' →
      E.recover (getAttr m.attrs p!"ethsig") (E.sha3 d) = E'.recover (getAttr m.attrs p!"ethsig") (E'.sha3 d')) :
    load E dec (some data) priv pub ct now = load E' dec (some data) priv pub ct now := by
  rcases load_gates data ct now with ⟨hl, h1, h2, ⟨c, h3⟩, hg⟩ | ⟨r, hr⟩
  · rw [load_steps E dec data _ pub ct now c hl h1 h2 h3 hg, load_steps E' dec data _ pub ct now c hl h1 h2 h3 hg,
      ← hver]
    have hc := typeId_of_ofType h3
    split
    · rfl
    rename_i u hu
    have hv : c = .Hello → verifyVersion E.version (asciiDecodeReplace (fieldVersion (versionField data))) = .ok () := by
      intro h
      rwa [if_pos h] at hu
    unfold Logged.andThen
    refine Prod.ext rfl ?_
    dsimp only
    cases hd : (decryptStep (frameFlag data) (loadDecrypt dec priv) (frameBody (unversioned data))).2 with
    | error e => rfl
    | ok payload =>
      dsimp only
      have hp : Payload (loadDecrypt dec priv) data payload := by
        unfold Payload
        unfold decryptStep at hd
        cases hf : frameFlag data with
        | true =>
          simp only [hf, if_true] at hd ⊢
          split at hd
          · rename_i heq; rw [heq]; exact hd
          · split at hd <;> cases hd
        | false =>
          simp only [hf, Bool.false_eq_true, if_false] at hd ⊢
          cases hd; rfl
      have same := parse_env (E := E) (E' := E') (c := c) (data := data) (payload := payload) (pub := pub) hip hver
        hc hv (fun key hd a b e => hs key payload hd a b (frame_opened.mp hp) e)
      rw [← same]
      cases hm : parsePayload E c ⟨frameType data, frameTime data, frameFlag data⟩ (frameSig (unversioned data))
          (frameVersion c data) pub payload with
      | error e => rfl
      | ok m =>
        dsimp only
        by_cases hh : c = .Hello
        · rw [if_pos hh, if_pos hh]
        · rw [if_neg hh, if_neg hh]
          unfold taskChecks
          by_cases hcm : m.cls = .TaskToCompute
          · have hmc := parsePayload_cls hm
            have hca : Carries E dec data priv pub ct now m := by
              refine ((frame_carries (c := c) hh).mp ⟨hl, h1, h2, hc, hg, hv, payload, hp, ?_⟩).1
              exact hm
            have hr := (read_iff_carried E dec data priv pub ct now m (by rw [hcm]; decide)).mpr hca
            rw [ethsig_env fun w hw => ht m w hcm hr hw]
          · simp only [if_neg hcm]
  · rw [hr, hr]

/-- C120: without an expected sender no signature is looked at and nothing is hashed, except in a
`TaskToCompute` (type 2002). -/
theorem load_without_sender (E E' : Env) (dec : Bytes → Bytes → Res Bytes) (data : Bytes) (priv pub : Option Bytes)
    (ct : Bool) (now : Int) (hip : E.ipOk = E'.ipOk) (hver : E.version = E'.version) (hp : NoKey pub)
    (hn : frameType data ≠ 2002) :
    load E dec (some data) priv pub ct now = load E' dec (some data) priv pub ct now := by
  refine load_consults E E' dec data priv pub ct now hip hver ?_ ?_
  · rintro key _ _ rfl hne
    rcases hp with hp | hp
    · cases hp
    · cases hp; exact absurd rfl hne
  · rintro m _ hc ⟨e, he, hf, _, _, _, _, _, _, _, _, _, rfl⟩
    have : e.number = frameType data := hf.number
    have tab : ∀ e ∈ catalogue, e.cls = .TaskToCompute → e.number = 2002 := by decide +kernel
    exact absurd (this ▸ tab e he hc) hn

/-! ### Examples -/

private def plainLoad (E : Env) (data : Bytes) (pub : Option Bytes) : Logged Msg :=
  load E (fun _ d => .ok d) (some data) none pub false 0

/-- A frame with a task, sent without a signature of its own. -/
private def taskFrame : Bytes :=
  (do let m ← toyMake .TaskToCompute []
      (dump toyEnv (fun _ d => .ok d) m none none).1 : Res Bytes).toOption.getD []

private def paid : Val :=
  match (plainLoad toyEnv taskFrame none).2 with
  | .ok m => getAttr m.attrs p!"ethsig"
  | .error _ => .none

/-- A scheme that recovers nothing but the payment signature of this task. -/
private def only (sig : Val) : Env := { toyEnv with recover := fun s h => if s = sig then toyEnv.recover s h else none }

private theorem only_recovers (sig : Val) (h : Bytes) : toyEnv.recover sig h = (only sig).recover sig h :=
  (if_pos rfl).symm

private def onlyPaid : Env := only paid

attribute [local irreducible] paid

private theorem task_arrives : ∃ m, (plainLoad toyEnv taskFrame none).2 = .ok m := by
  have h : (plainLoad toyEnv taskFrame none).2.toOption.isSome = true := by decide +kernel
  cases e : (plainLoad toyEnv taskFrame none).2 with
  | error _ => rw [e] at h; cases h
  | ok m => exact ⟨m, rfl⟩

/-- The hypotheses can be met by different schemes, for a task that is accepted by both. -/
example : plainLoad toyEnv taskFrame none = plainLoad onlyPaid taskFrame none ∧
    (plainLoad onlyPaid taskFrame none).2.toOption.isSome = true ∧
    toyEnv.recover (.bytes (List.replicate 65 0)) (List.replicate 32 0) ≠
      onlyPaid.recover (.bytes (List.replicate 65 0)) (List.replicate 32 0) := by
  have same : plainLoad toyEnv taskFrame none = plainLoad onlyPaid taskFrame none := by
    refine load_consults toyEnv onlyPaid _ _ none none false 0 rfl rfl (fun _ _ _ h => by cases h) ?_
    intro m offer hc hr hw p d d' hp h1 h2
    obtain ⟨m', hm'⟩ := task_arrives
    have hca := (read_iff_carried _ _ _ _ _ _ _ m (by rw [hc]; decide)).mp hr
    obtain ⟨e, he, hcls⟩ := listed_cls m.cls
    have := (legible_carries toyEnv _ taskFrame none none false 0 e he (by rw [hcls, hc]; decide)).2 m hca hcls.symm
      m' hm'
    subst this
    have hpaid : getAttr m'.attrs p!"ethsig" = paid := by
      unfold paid
      rw [hm']
    have e1 := digest_written.mpr h1
    have e2 : shortHashOf toyEnv offer p = .ok d' := digest_written.mpr h2
    rw [e1] at e2
    cases e2
    rw [hpaid]
    exact only_recovers paid (toyEnv.sha3 d)
  refine ⟨same, ?_, by decide +kernel⟩
  rw [← same]
  decide +kernel

/-- A scheme that hashes everything to nothing and accepts no signature. -/
private def blind : Env := { toyEnv with sha1 := fun _ => [], sha3 := fun _ => [], recover := fun _ _ => none }

private def reportFrame : Bytes :=
  (do let m ← toyMake .ReportComputedTask []
      (dump toyEnv (fun _ d => .ok d) m none none).1 : Res Bytes).toOption.getD []

/-- It reads a report like any other. -/
example : plainLoad toyEnv reportFrame none = plainLoad blind reportFrame none ∧
    (plainLoad blind reportFrame none).2.toOption.isSome = true :=
  ⟨load_without_sender toyEnv blind _ reportFrame none none false 0 rfl rfl (.inl rfl) (by decide +kernel),
    by decide +kernel⟩

/-- With a sender, that scheme refuses it: the frame's own signature is looked at. -/
example : (plainLoad blind reportFrame (some (toyVk 7))).2.toOption = none := by decide +kernel

end Verif.Props
