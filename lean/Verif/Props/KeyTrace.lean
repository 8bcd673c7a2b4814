import Verif.Spec.KeyTrace
import Verif.Props.Writes
import Verif.Props.Notes
import Verif.Lemmas.LoadSteps
import Verif.Lemmas.ToyMake
/-!
# C119: private keys leave no trace but signatures
-/

namespace Verif.Props

open Verif Spec

/-- C39, C119: what is signed for a task header. -/
theorem header_digest (E : Env) (fs : Attrs) (digest : Bytes) :
    headerHash E fs = .ok digest ↔ HeaderDigest E fs digest := by
  have key : ∀ d, toDictF .taskHeader fs = .ok d ↔ Described (.cont .taskHeader fs) (.dict d) := by
    intro d
    rw [← described_iff, toDict]
    cases toDictF .taskHeader fs <;> simp
  unfold headerHash HeaderDigest
  constructor
  · intro h
    split at h
    · cases h
    · rename_i d hd
      split at h
      · cases h
      · rename_i b hb
        injection h with h
        exact ⟨d, b, (key d).mp hd, (written_bytes _ _).mp hb, h.symm⟩
  · rintro ⟨d, b, h1, h2, rfl⟩
    rw [(key d).mpr h1]
    dsimp only
    rw [(written_bytes _ _).mpr h2]

private theorem signFor_alike {E : Env} {m : Msg} {payload k k' : Bytes} (hk : k ≠ []) (hk' : k' ≠ [])
    (h : ∀ digest, DigestOf E m payload digest → SignAlike E k k' digest) :
    signFor E m payload (some k) = signFor E m payload (some k') := by
  unfold signFor
  rw [key_given.mpr ⟨rfl, hk⟩, key_given.mpr ⟨rfl, hk'⟩]
  by_cases hs : m.sig = .none
  · simp only [hs, if_true]
    cases m.cls.sign with
    | false => rfl
    | true =>
      simp only [if_true]
      cases hh : shortHashOf E m payload with
      | error _ => rfl
      | ok d =>
        have := h d (digest_written.mp hh)
        unfold SignAlike at this
        simp only [Env.ecdsaSign, this]
  · simp only [hs, if_false]

private theorem digest_flag {E : Env} {m : Msg} {enc : Val} {payload d : Bytes}
    (h : DigestOf E { m with enc := enc } payload d) : DigestOf E m payload d := by
  obtain ⟨hd, version, h1, h2, rfl⟩ := h
  refine ⟨hd, version, h1, ?_, rfl⟩
  cases h2 with
  | hello a b => exact .hello a b
  | other a => exact .other a

/-- C119: two private keys that sign the digest of the message alike are interchangeable in `dump`: the
same frame or the same exception, and the same message afterwards. -/
theorem dump_key_trace (E : Env) (encrypt : Bytes → Bytes → Res Bytes) (m : Msg) (k k' : Bytes)
    (pub : Option Bytes) (hk : k ≠ []) (hk' : k' ≠ [])
    (h : ∀ payload digest, PayloadOf m payload → DigestOf E m payload digest → SignAlike E k k' digest) :
    dump E encrypt m (some k) pub = dump E encrypt m (some k') pub := by
  have base : ∀ f, serializeBase E m (some k) f = serializeBase E m (some k') f := by
    intro f
    unfold serializeBase
    rw [key_given.mpr ⟨rfl, hk⟩, key_given.mpr ⟨rfl, hk'⟩]
    simp only [Option.isSome_some, Bool.true_and]
    split
    · rfl
    · split
      · rfl
      · rename_i s hs
        split
        · rfl
        · rename_i payload hp
          have hp' : PayloadOf m payload := (written_payload m payload).mp ⟨s, hs, hp⟩
          rw [signFor_alike hk hk' fun d hd => h payload d hp' (digest_flag hd)]
  unfold dump serialize
  rw [base]

/-- C119: the same for `sign_message`. -/
theorem sign_key_trace (E : Env) (m : Msg) (k k' : Bytes)
    (h : ∀ payload digest, PayloadOf m payload → DigestOf E m payload digest → SignAlike E k k' digest) :
    m.signMessage E k = m.signMessage E k' := by
  unfold Msg.signMessage
  cases hh : shortHash E m with
  | error _ => rfl
  | ok d =>
    obtain ⟨payload, h1, h2⟩ := (written_digest E m d).mp hh
    have := h payload d h1 h2
    unfold SignAlike at this
    simp only [Env.ecdsaSign, this]

/-- C119: the same for `copy_and_sign`, with all objects afterwards. -/
theorem copy_key_trace (E : Env) (heap : Heap) (r : Nat) (k k' : Bytes)
    (h : ∀ m, heap[r]? = some m → ∀ payload digest, PayloadOf m payload → DigestOf E m payload digest →
      SignAlike E k k' digest) : copyAndSign E heap r k = copyAndSign E heap r k' := by
  unfold copyAndSign
  cases hm : heap[r]? with
  | none => rfl
  | some m =>
    dsimp only
    split
    · unfold signAt
      rw [List.getElem?_append_right (Nat.le_refl _), Nat.sub_self, List.getElem?_cons_zero]
      dsimp only
      rw [sign_key_trace E m k k' (h m hm)]
    · rfl

/-- C119: the same for the signature of a task header. -/
theorem header_key_trace (E : Env) (fs : Attrs) (k k' : Bytes)
    (h : ∀ digest, HeaderDigest E fs digest → SignAlike E k k' digest) : headerSign E fs k = headerSign E fs k' := by
  unfold headerSign
  cases hh : headerHash E fs with
  | error _ => rfl
  | ok d =>
    have := h d ((header_digest E fs d).mp hh)
    unfold SignAlike at this
    simp only [Env.ecdsaSign, this]

/-- C119: the same for the payment signature of a task, which is made for its offer. -/
theorem ethsig_key_trace (E : Env) (m : Msg) (k k' : Bytes)
    (h : ∀ offer : Msg, getAttr m.attrs p!"want_to_compute_task" = offer.val → ∀ payload digest,
      PayloadOf offer payload → DigestOf E offer payload digest → SignAlike E k k' digest) :
    generateEthsig E m k = generateEthsig E m k' := by
  unfold generateEthsig
  split
  · rfl
  · cases hw : (getAttr m.attrs p!"want_to_compute_task").asMsg with
    | none => rfl
    | some w =>
      dsimp only
      have hv : getAttr m.attrs p!"want_to_compute_task" = w.val := by
        revert hw
        cases getAttr m.attrs p!"want_to_compute_task" <;> simp [Val.asMsg]
        rintro rfl
        rfl
      cases hh : shortHash E w with
      | error _ => rfl
      | ok d =>
        obtain ⟨payload, h1, h2⟩ := (written_digest E w d).mp hh
        have := h w hv payload d h1 h2
        unfold SignAlike at this
        simp only [Env.ecdsaSign, this]

private theorem signed_alike {X : EthEnv} {t : Terms} {k k' : Bytes} {o : Res Val}
    (h : ∀ d, NoteHash X t d → X.signHash d k = X.signHash d k') (hs : NoteSigned X t k o) :
    NoteSigned X t k' o := by
  cases hs with
  | unhashed a => exact .unhashed a
  | unsigned a b => exact .unsigned a (h _ a ▸ b)
  | big a b c => exact .big a (h _ a ▸ b) c
  | signed a b c d e f => exact .signed a (h _ a ▸ b) c d e f

private theorem both_signed {X : EthEnv} {m m' : Msg} {contract : PStr} {k k' : Bytes} {o : Res Unit}
    (hc : ∀ t d, ConcentTerms X m contract t → NoteHash X t d → X.signHash d k = X.signHash d k')
    (hp : ∀ t d, ProviderTerms X m contract t → NoteHash X t d → X.signHash d k = X.signHash d k')
    (hs : BothSigned X m contract k o m') : BothSigned X m contract k' o m' := by
  have c : ∀ {o}, ConcentSignature X m contract k o → ConcentSignature X m contract k' o := by
    intro o h
    cases h with
    | termless a => exact .termless a
    | signed a b => exact .signed a (signed_alike (hc _ · a) b)
  have p : ∀ {o}, ProviderSignature X m contract k o → ProviderSignature X m contract k' o := by
    intro o h
    cases h with
    | termless a => exact .termless a
    | signed a b => exact .signed a (signed_alike (hp _ · a) b)
  cases hs with
  | none a => exact .none (c a)
  | half a b => exact .half (c a) (p b)
  | both a b => exact .both (c a) (p b)

/-- C119: the same for the promissory notes of a task, with the message afterwards. -/
theorem notes_key_trace (X : EthEnv) (m : Msg) (contract : PStr) (k k' : Bytes) (hc : m.cls = .TaskToCompute)
    (hd : ∃ v, DescribedId (getAttr m.attrs p!"compute_task_def") v)
    (h : ∀ t d, ConcentTerms X m contract t ∨ ProviderTerms X m contract t → NoteHash X t d →
      X.signHash d k = X.signHash d k') :
    signAllNotesOn X m contract k = signAllNotesOn X m contract k' := by
  cases hs : signAllNotesOn X m contract k with
  | mk o m' =>
    refine ((both_notes_signing X m m' contract k' o hc hd).mpr ?_).symm
    exact both_signed (fun t d a => h t d (.inl a)) (fun t d a => h t d (.inr a))
      ((both_notes_signing X m m' contract k o hc hd).mp hs)

/-- C119: the same for the promissory note of a result. -/
theorem result_note_key_trace (X : EthEnv) (m rej rct t : Msg) (contract : PStr) (k k' : Bytes)
    (h0 : getAttr m.attrs p!"subtask_results_rejected" = rej.val) (h1 : rej.cls = .SubtaskResultsRejected)
    (h2 : getAttr rej.attrs p!"report_computed_task" = rct.val) (h3 : rct.cls = .ReportComputedTask)
    (h4 : getAttr rct.attrs p!"task_to_compute" = t.val) (h5 : t.cls = .TaskToCompute)
    (hd : ∃ v, DescribedId (getAttr t.attrs p!"compute_task_def") v)
    (h : ∀ terms d, ResultTerms t contract terms → NoteHash X terms d → X.signHash d k = X.signHash d k') :
    signSrvNote X m contract k = signSrvNote X m contract k' := by
  have hk := result_note_signing X m rej rct t contract k h0 h1 h2 h3 h4 h5 hd
  have hk' := result_note_signing X m rej rct t contract k' h0 h1 h2 h3 h4 h5 hd
  cases hs : signSrvNote X m contract k with
  | error e =>
    refine ((hk'.1 e).mpr ?_).symm
    rcases (hk.1 e).mp hs with a | ⟨terms, a, b⟩
    · exact .inl a
    · exact .inr ⟨terms, a, signed_alike (h terms · a) b⟩
  | ok m' =>
    obtain ⟨terms, s, a, b, c⟩ := (hk.2 m').mp hs
    exact ((hk'.2 m').mpr ⟨terms, s, a, signed_alike (h terms · a) b, c⟩).symm

/-- C119: what `load` does depends on the private key only through what it makes of the one ciphertext:
the bytes after the signature, if the frame says that they are enciphered. -/
theorem load_key_trace (E : Env) (dec : Bytes → Bytes → Res Bytes) (data : Bytes) (k k' : Bytes)
    (pub : Option Bytes) (ct : Bool) (now : Int) (hk : k ≠ []) (hk' : k' ≠ [])
    (h : frameFlag data = true → dec k (frameBody (unversioned data)) = dec k' (frameBody (unversioned data))) :
    load E dec (some data) (some k) pub ct now = load E dec (some data) (some k') pub ct now := by
  rcases load_gates data ct now with ⟨hl, h1, h2, ⟨c, h3⟩, ht⟩ | ⟨r, hr⟩
  · rw [load_steps E dec data _ pub ct now c hl h1 h2 h3 ht, load_steps E dec data _ pub ct now c hl h1 h2 h3 ht]
    have : decryptStep (frameFlag data) (loadDecrypt dec (some k)) (frameBody (unversioned data)) =
        decryptStep (frameFlag data) (loadDecrypt dec (some k')) (frameBody (unversioned data)) := by
      unfold decryptStep loadDecrypt
      rw [key_given.mpr ⟨rfl, hk⟩, key_given.mpr ⟨rfl, hk'⟩]
      cases hf : frameFlag data with
      | false => rfl
      | true => simp only [if_true, h hf]
    rw [this]
  · rw [hr, hr]

/-! ### Examples -/

/-- A signer that looks at the first byte of a key only. -/
private def careless : Env := { toyEnv with sign := fun k h => toyEnv.sign (k.take 1) h }

private def value : Msg := ⟨.RandVal, .int 1, .int 1500000000, .bool false, .none, [(p!"rand_val", .int 5)]⟩

/-- The hypotheses can be met by different keys, for a message that is sent. -/
example : dump careless (fun _ d => .ok d) value (some [1, 2]) none = dump careless (fun _ d => .ok d) value (some [1, 3]) none ∧
    (dump careless (fun _ d => .ok d) value (some [1, 2]) none).1.toOption.isSome = true ∧
    value.signMessage careless [1, 2] = value.signMessage careless [1, 3] ∧
    copyAndSign careless [value] 0 [1, 2] = copyAndSign careless [value] 0 [1, 3] :=
  ⟨dump_key_trace careless _ value [1, 2] [1, 3] none (by simp) (by simp) fun _ _ _ _ => rfl, by decide +kernel,
    sign_key_trace careless value [1, 2] [1, 3] fun _ _ _ _ => rfl,
    copy_key_trace careless [value] 0 [1, 2] [1, 3] fun _ _ _ _ _ _ => rfl⟩

/-- Keys that sign differently give different frames. -/
example : (dump toyEnv (fun _ d => .ok d) value (some [1, 2]) none).1.toOption ≠
    (dump toyEnv (fun _ d => .ok d) value (some [1, 3]) none).1.toOption := by decide +kernel

/-- A task with an offer and a header, for the other signatures. -/
example : ((do
      let m ← toyMake .TaskToCompute []
      let n ← generateEthsig careless m [1, 2]
      let n' ← generateEthsig careless m [1, 3]
      return (n == n', getAttr n.attrs p!"ethsig" == getAttr m.attrs p!"ethsig")) : Res (Bool × Bool))
    = .ok (true, false) := by decide +kernel

/-- A cipher that looks at the first byte of the key only, and an enciphered frame. -/
example :
    let dec : Bytes → Bytes → Res Bytes := fun k d => if k.take 1 = [1] then .ok (d.drop 1) else .error .valueError
    let data := [0, 2, 0, 0, 0, 0, 0x59, 0x68, 0x2f, 0, 1] ++ List.replicate 65 0 ++ [9, 0x80]
    load toyEnv dec (some data) (some [1, 2]) none false 0 = load toyEnv dec (some data) (some [1, 3]) none false 0 ∧
    (load toyEnv dec (some data) (some [1, 2]) none false 0).2.toOption.isSome = true :=
  ⟨load_key_trace toyEnv _ _ [1, 2] [1, 3] none false 0 (by simp) (by simp) fun _ => rfl, by decide +kernel⟩

/-- A scheme for notes that looks at the length of a key only. -/
private def lengthEth : EthEnv where
  defunctHash _ := .ok [1, 2]
  signHash h priv := if priv = [] then .error .valueError else .ok (27, h.length, priv.length)
  recoverHash _ _ _ _ := .error .valueError
  address _ := .ok p!"0xaaaaaaaaaaaaaaaaaaaaaaaaaaaaaaaaaaaaaaaa"

private def noted : Msg := ⟨.TaskToCompute, .int 2002, .int 1, .bool false, .none,
  [(p!"requestor_ethereum_public_key", .int 1), (p!"price", .int 9),
    (p!"compute_task_def", .dict [(.str p!"subtask_id", .str p!"01020304-0506-0708-090a-0b0c0d0e0f10")]),
    (p!"want_to_compute_task", .msg .WantToComputeTask (.int 2001) (.int 1) (.bool false) .none
      [(p!"provider_ethereum_address", .str p!"0xcccccccccccccccccccccccccccccccccccccccc")]),
    (p!"concent_promissory_note_sig", .none), (p!"promissory_note_sig", .none)]⟩

private def notedResult : Msg := ⟨.SubtaskResultsVerify, .int 4017, .int 1, .bool false, .none,
  [(p!"subtask_results_rejected", .msg .SubtaskResultsRejected (.int 2012) (.int 1) (.bool false) .none
    [(p!"report_computed_task", .msg .ReportComputedTask (.int 2008) (.int 1) (.bool false) .none
      [(p!"task_to_compute", noted.val)])]), (p!"concent_promissory_note_sig", .none)]⟩

private def contractAt : PStr := p!"0xdddddddddddddddddddddddddddddddddddddddd"

/-- Notes signed with different keys that this scheme does not tell apart. -/
example : signAllNotesOn lengthEth noted contractAt [1, 2] = signAllNotesOn lengthEth noted contractAt [1, 3] ∧
    (signAllNotesOn lengthEth noted contractAt [1, 2]).1 = .ok () ∧
    signSrvNote lengthEth notedResult contractAt [1, 2] = signSrvNote lengthEth notedResult contractAt [1, 3] ∧
    (signSrvNote lengthEth notedResult contractAt [1, 2]).toOption.isSome = true :=
  ⟨notes_key_trace lengthEth noted contractAt [1, 2] [1, 3] rfl ⟨_, .entry rfl⟩ fun _ _ _ _ => rfl,
    by decide +kernel,
    result_note_key_trace lengthEth notedResult ⟨.SubtaskResultsRejected, .int 2012, .int 1, .bool false, .none, _⟩
      ⟨.ReportComputedTask, .int 2008, .int 1, .bool false, .none, _⟩ noted contractAt [1, 2] [1, 3]
      rfl rfl rfl rfl rfl rfl ⟨_, .entry rfl⟩ fun _ _ _ _ => rfl,
    by decide +kernel⟩

end Verif.Props
