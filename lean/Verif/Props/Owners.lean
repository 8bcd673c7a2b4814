import Verif.Spec.Owners
import Verif.Lemmas.Hex
import Verif.Lemmas.Ownership
import Verif.Props.Unsent
import Verif.Props.Ownership
/-!
# C114: what checking the owners of a task message says

`verify_owners` succeeds exactly if everything it looks at is right, and otherwise reports the first fault.
-/

set_option linter.unusedSimpArgs false

namespace Verif.Props

open Verif Spec

/-! ### Keys -/

private theorem key_in {v : Val} {k : Bytes} : decodeHex v = .ok k ↔ KeyIn v k := by
  constructor
  · intro h
    cases v with
    | str s =>
      simp only [decodeHex] at h
      split at h
      · exact .text ((unhexlify_iff _ _).mp h)
      · cases h
    | bytes b => exact .bytes ((unhexlify_iff _ _).mp h)
    | enum e s =>
      simp only [decodeHex] at h
      split at h
      · rename_i he; exact .member he ((unhexlify_iff _ _).mp h)
      · cases h
    | _ => cases h
  · intro h
    cases h with
    | text h =>
      simp only [decodeHex]
      rw [if_pos (hexText_ascii h)]
      exact (unhexlify_iff _ _).mpr h
    | bytes h => exact (unhexlify_iff _ _).mpr h
    | member he h =>
      simp only [decodeHex]
      rw [if_pos he]
      exact (unhexlify_iff _ _).mpr h

private theorem unhex_none {s : PStr} (h : ∀ k, ¬ HexText s k) : unhexlify s = .error .binasciiError := by
  cases hu : unhexlify s with
  | ok k => exact absurd ((unhexlify_iff _ _).mp hu) (h k)
  | error x => rw [unhexlify_error hu]

private theorem unhex_some {s : PStr} {x : Exc} (h : unhexlify s = .error x) :
    x = .binasciiError ∧ ∀ k, ¬ HexText s k :=
  ⟨unhexlify_error h, fun k hk => by rw [(unhexlify_iff _ _).mpr hk] at h; cases h⟩

private theorem no_key_in {v : Val} {x : Exc} : decodeHex v = .error x ↔ NoKeyIn v x := by
  constructor
  · intro h
    cases v with
    | str s =>
      simp only [decodeHex] at h
      split at h
      · rename_i ha
        obtain ⟨rfl, hn⟩ := unhex_some h
        exact .text (by simpa using ha) hn
      · rename_i ha
        injection h with h
        rw [← h]
        exact .foreign (by simpa using ha)
    | bytes b =>
      obtain ⟨rfl, hn⟩ := unhex_some h
      exact .bytes hn
    | enum e s =>
      simp only [decodeHex] at h
      split at h
      · rename_i he
        obtain ⟨rfl, hn⟩ := unhex_some h
        exact .member he hn
      · rename_i he
        injection h with h
        rw [← h]
        exact .other nofun nofun fun e' s' h' => by rintro ⟨⟩; exact he h'
    | _ =>
      injection h with h
      rw [← h]
      exact .other nofun nofun nofun
  · intro h
    cases h with
    | other a b c =>
      cases v with
      | str s => exact absurd rfl (a s)
      | bytes s => exact absurd rfl (b s)
      | enum e s =>
        simp only [decodeHex]
        rw [if_neg fun he => c e s he rfl]
      | _ => rfl
    | foreign h =>
      simp only [decodeHex]
      rw [if_neg (by simpa using h)]
    | text a h =>
      simp only [decodeHex]
      rw [if_pos (by simpa using a)]
      exact unhex_none h
    | bytes h => exact unhex_none h
    | member he h =>
      simp only [decodeHex]
      rw [if_pos he]
      exact unhex_none h

/-! ### Digests and signatures -/

/-- C114: the digest of a message cannot be had for exactly these reasons. -/
theorem digest_raises (E : Env) (m : Msg) (x : Exc) : shortHash E m = .error x ↔ NoDigest m x := by
  unfold shortHash
  constructor
  · intro h
    cases hs : m.slots with
    | error y => rw [hs] at h; injection h with h; rw [← h]; exact .field ((unsent_fields _ _).mp hs)
    | ok s =>
      rw [hs] at h
      dsimp only at h
      obtain ⟨l, rfl, hl⟩ := slots_sent.mp hs
      cases hd : dumps (.list l) with
      | error y =>
        rw [hd] at h
        injection h with h
        obtain ⟨rfl, hn⟩ := unwritable_bytes.mp hd
        rw [← h]
        exact .payload hl hn
      | ok payload =>
        rw [hd] at h
        dsimp only at h
        have hp : PayloadOf m payload := ⟨l, hl, encoded_iff.mp hd⟩
        rcases digest_unwritten.mp h with ⟨rfl, hn⟩ | ⟨rfl, ⟨b, hb⟩, hv⟩
        · exact .head hp hn
        · exact .version hp hb hv
  · intro h
    cases h with
    | field h => rw [(unsent_fields _ _).mpr h]
    | payload hl hn =>
      rw [slots_sent.mpr ⟨_, rfl, hl⟩]
      dsimp only
      rw [unwritable_bytes.mpr ⟨rfl, hn⟩]
    | head hp hn =>
      obtain ⟨s, hs, hd⟩ := (written_payload _ _).mpr hp
      rw [hs]; dsimp only; rw [hd]
      exact digest_unwritten.mpr (.inl ⟨rfl, hn⟩)
    | version hp hb hv =>
      obtain ⟨s, hs, hd⟩ := (written_payload _ _).mpr hp
      rw [hs]; dsimp only; rw [hd]
      exact digest_unwritten.mpr (.inr ⟨rfl, ⟨_, hb⟩, hv⟩)

private theorem has_digest {E : Env} {m : Msg} {d : Bytes} : shortHash E m = .ok d ↔ HasDigest E m d :=
  written_digest E m d

private theorem not_made {E : Env} {k d : Bytes} {s : Val} {x : Exc} :
    E.ecdsaVerify k s d = .error x ↔ NotMadeBy E k s d x := by
  by_cases hl : k.length = 64
  · by_cases hm : MadeBy E k s d
    · rw [ecdsaVerify_ok.mpr ⟨hl, hm⟩]
      refine ⟨nofun, fun h => ?_⟩
      cases h with
      | length h => exact absurd hl h
      | forged _ h => exact absurd hm h
    · rw [ecdsaVerify_else hl hm]
      constructor
      · intro h; injection h with h; rw [← h]; exact .forged hl hm
      · intro h
        cases h with
        | length h => exact absurd hl h
        | forged _ _ => rfl
  · unfold Env.ecdsaVerify
    rw [if_pos hl]
    constructor
    · intro h; injection h with h; rw [← h]; exact .length hl
    · intro h
      cases h with
      | length h => rfl
      | forged h _ => exact absurd h hl

/-- C114: `verify_signature` of one message. -/
theorem signature_raises (E : Env) (m : Msg) (k : Bytes) (x : Exc) : m.verifySig E k = .error x ↔
    NoDigest m x ∨ ∃ d, HasDigest E m d ∧ NotMadeBy E k m.sig d x := by
  unfold Msg.verifySig verifySigWith
  cases hd : shortHash E m with
  | error y =>
    have hy := (digest_raises E m y).mp hd
    dsimp only
    constructor
    · intro h; injection h with h; rw [← h]; exact .inl hy
    · rintro (h | ⟨d, h, _⟩)
      · rw [(digest_raises E m x).mpr h] at hd; injection hd with hd; rw [hd]
      · rw [has_digest.mpr h] at hd; cases hd
  | ok d =>
    dsimp only
    constructor
    · intro h; exact .inr ⟨d, has_digest.mp hd, not_made.mp h⟩
    · rintro (h | ⟨d', h, hm⟩)
      · rw [(digest_raises E m x).mpr h] at hd; cases hd
      · rw [has_digest.mpr h] at hd; injection hd with hd; subst hd; exact not_made.mpr hm

/-- C114: `sign_message`. -/
theorem signing_raises (E : Env) (m : Msg) (priv : Bytes) (x : Exc) : m.signMessage E priv = .error x ↔
    NoDigest m x ∨ ∃ d, HasDigest E m d ∧ E.ecdsaSign priv d = .error x := by
  unfold Msg.signMessage
  cases hd : shortHash E m with
  | error y =>
    have hy := (digest_raises E m y).mp hd
    dsimp only
    constructor
    · intro h; injection h with h; rw [← h]; exact .inl hy
    · rintro (h | ⟨d, h, _⟩)
      · rw [(digest_raises E m x).mpr h] at hd; injection hd with hd; rw [hd]
      · rw [has_digest.mpr h] at hd; cases hd
  | ok d =>
    dsimp only
    cases hs : E.ecdsaSign priv d with
    | error y =>
      dsimp only
      constructor
      · intro h; injection h with h; rw [← h]; exact .inr ⟨d, has_digest.mp hd, hs⟩
      · rintro (h | ⟨d', h, hm⟩)
        · rw [(digest_raises E m x).mpr h] at hd; cases hd
        · rw [has_digest.mpr h] at hd; injection hd with hd; subst hd
          rw [hs] at hm; injection hm with hm; rw [hm]
    | ok s =>
      refine ⟨nofun, ?_⟩
      rintro (h | ⟨d', h, hm⟩)
      · rw [(digest_raises E m x).mpr h] at hd; cases hd
      · rw [has_digest.mpr h] at hd; injection hd with hd; subst hd
        rw [hs] at hm; cases hm

/-! ### Task headers -/

private theorem header_dict {fs : Attrs} {d : List (Val × Val)} :
    toDictF .taskHeader fs = .ok d ↔ Described (.cont .taskHeader fs) (.dict d) := by
  rw [← described_iff]
  unfold toDict
  dsimp only
  cases toDictF .taskHeader fs <;> simp

private theorem header_nodict {fs : Attrs} {x : Exc} :
    toDictF .taskHeader fs = .error x ↔ NumberMask (.cont .taskHeader fs) ∧ x = .typeError := by
  have h : toDictF .taskHeader fs = .error x ↔ Indescribable (.cont .taskHeader fs) x := by
    rw [← indescribable_iff]
    unfold toDict
    dsimp only
    cases toDictF .taskHeader fs <;> simp
  rw [h]
  constructor
  · intro hi
    cases hi with
    | stranger hs => exact absurd rfl (hs _ _)
    | mask hm => exact ⟨hm, rfl⟩
  · rintro ⟨hm, rfl⟩; exact .mask hm

private theorem header_digest {E : Env} {fs : Attrs} {d : Bytes} : headerHash E fs = .ok d ↔ HeaderDigest E fs d := by
  unfold headerHash HeaderDigest
  constructor
  · intro h
    cases hd : toDictF .taskHeader fs with
    | error x => rw [hd] at h; cases h
    | ok l =>
      rw [hd] at h
      dsimp only at h
      split at h
      · cases h
      · rename_i b hb
        injection h with h
        exact ⟨l, b, header_dict.mp hd, encoded_iff.mp hb, h.symm⟩
  · rintro ⟨l, b, h1, h2, rfl⟩
    rw [header_dict.mpr h1]
    dsimp only
    rw [encoded_iff.mpr h2]

private theorem no_header_digest {E : Env} {fs : Attrs} {x : Exc} :
    headerHash E fs = .error x ↔ NoHeaderDigest fs x := by
  unfold headerHash
  constructor
  · intro h
    cases hd : toDictF .taskHeader fs with
    | error y =>
      rw [hd] at h
      injection h with h
      obtain ⟨hm, rfl⟩ := header_nodict.mp hd
      rw [← h]
      exact .mask hm
    | ok l =>
      rw [hd] at h
      dsimp only at h
      split at h
      · rename_i y hy
        injection h with h
        obtain ⟨rfl, hn⟩ := unwritable_bytes.mp hy
        rw [← h]
        exact .bytes (header_dict.mp hd) hn
      · cases h
  · intro h
    cases h with
    | mask h => rw [header_nodict.mpr ⟨h, rfl⟩]
    | bytes h hn =>
      rw [header_dict.mpr h]
      dsimp only
      rw [unwritable_bytes.mpr ⟨rfl, hn⟩]

/-- The first part of `TaskToCompute.validate_ownership`. -/
private def headerCheck (E : Env) (m : Msg) : Res Unit :=
  match attrOf (getAttr m.attrs p!"want_to_compute_task") p!"task_header" with
  | .error e => .error e
  | .ok th =>
    match th with
    | .cont .taskHeader fs =>
      match decodeHex (getAttr m.attrs p!"requestor_public_key") with
      | .error e => .error e
      | .ok rk => headerVerifyF E fs rk
    | _ => .error .attributeError

private theorem header_at {E : Env} {m : Msg} {fs : Attrs} (h : HeaderAt m fs) : headerCheck E m =
    match decodeHex (getAttr m.attrs p!"requestor_public_key") with
    | .error e => .error e
    | .ok rk => headerVerifyF E fs rk := by
  obtain ⟨w, hw, hf⟩ := h
  unfold headerCheck
  rw [hw, attrOf_val, hf]

private theorem header_lost {E : Env} {m : Msg} (h : ∀ fs, ¬ HeaderAt m fs) :
    headerCheck E m = .error .attributeError := by
  unfold headerCheck
  split
  · rename_i e he
    unfold attrOf at he
    split at he
    · cases he
    · injection he with he; rw [he]
  · rename_i th ht
    obtain ⟨w, hw, rfl⟩ := attrOf_ok ht
    split
    · rename_i fs hfs; exact absurd ⟨w, hw, hfs⟩ (h fs)
    · rfl

private theorem header_unique {m : Msg} {fs fs' : Attrs} (h : HeaderAt m fs) (h' : HeaderAt m fs') : fs = fs' := by
  obtain ⟨w, hw, hf⟩ := h
  obtain ⟨w', hw', hf'⟩ := h'
  have := msg_val_inj (hw.symm.trans hw')
  subst this
  rw [hf] at hf'
  injection hf'

private theorem header_ok {E : Env} {m : Msg} : headerCheck E m = .ok () ↔ HeaderVouched E m := by
  by_cases hx : ∃ fs, HeaderAt m fs
  · obtain ⟨fs, hfs⟩ := hx
    rw [header_at hfs]
    unfold headerVerifyF
    constructor
    · intro h
      split at h
      · cases h
      · rename_i k hk
        split at h
        · cases h
        · rename_i hs
          split at h
          · cases h
          · rename_i d hd
            obtain ⟨hl, hm⟩ := ecdsaVerify_ok.mp h
            exact ⟨fs, k, d, hfs, key_in.mp hk, hl, hs, header_digest.mp hd, hm⟩
    · rintro ⟨fs', k, d, hfs', hk, hl, hs, hd, hm⟩
      cases header_unique hfs hfs'
      rw [key_in.mpr hk]
      dsimp only
      rw [if_neg hs, header_digest.mpr hd]
      exact ecdsaVerify_ok.mpr ⟨hl, hm⟩
  · have hn : ∀ fs, ¬ HeaderAt m fs := fun fs h => hx ⟨fs, h⟩
    rw [header_lost hn]
    refine ⟨nofun, ?_⟩
    rintro ⟨fs, _, _, h, _⟩
    exact absurd h (hn fs)

private theorem header_error {E : Env} {m : Msg} {x : Exc} : headerCheck E m = .error x ↔ HeaderFault E m x := by
  constructor
  · intro h
    by_cases hx : ∃ fs, HeaderAt m fs
    · obtain ⟨fs, hfs⟩ := hx
      rw [header_at hfs] at h
      unfold headerVerifyF at h
      split at h
      · rename_i y hy; injection h with h; rw [← h]; exact .key hfs (no_key_in.mp hy)
      · rename_i k hk
        split at h
        · rename_i hs; injection h with h; rw [← h]; exact .unsigned hfs (key_in.mp hk) hs
        · rename_i hs
          split at h
          · rename_i y hy
            injection h with h
            rw [← h]
            exact .digest hfs (key_in.mp hk) hs (no_header_digest.mp hy)
          · rename_i d hd
            exact .signature hfs (key_in.mp hk) hs (header_digest.mp hd) (not_made.mp h)
    · have hn : ∀ fs, ¬ HeaderAt m fs := fun fs h => hx ⟨fs, h⟩
      rw [header_lost hn] at h
      injection h with h
      rw [← h]
      exact .missing hn
  · intro h
    cases h with
    | missing h => exact header_lost h
    | key hfs h => rw [header_at hfs, no_key_in.mpr h]
    | unsigned hfs hk hs =>
      rw [header_at hfs, key_in.mpr hk]
      dsimp only [headerVerifyF]
      rw [if_pos hs]
    | digest hfs hk hs hd =>
      rw [header_at hfs, key_in.mpr hk]
      dsimp only [headerVerifyF]
      rw [if_neg hs, no_header_digest.mpr hd]
    | signature hfs hk hs hd hm =>
      rw [header_at hfs, key_in.mpr hk]
      dsimp only [headerVerifyF]
      rw [if_neg hs, header_digest.mpr hd]
      exact not_made.mpr hm

/-! ### Senders -/

private theorem attr_error {v : Val} {n : PStr} {x : Exc} :
    attrOf v n = .error x ↔ x = .attributeError ∧ ∀ t : Msg, v ≠ t.val := by
  constructor
  · intro h
    refine ⟨?_, fun t e => ?_⟩
    · unfold attrOf at h
      split at h
      · cases h
      · injection h with h; exact h.symm
    · rw [e, attrOf_val] at h; cases h
  · rintro ⟨rfl, h⟩
    unfold attrOf
    split
    · rename_i c ty ts enc sig attrs; exact absurd rfl (h ⟨c, ty, ts, enc, sig, attrs⟩)
    · rfl

private theorem provider_value {m : Msg} {v : Val} :
    ttcProviderKey m.taskToCompute = .ok v ↔ ProviderValue m v := by
  unfold ttcProviderKey
  constructor
  · intro h
    split at h
    · cases h
    · rename_i o ho
      obtain ⟨t, ht, rfl⟩ := attrOf_ok ho
      obtain ⟨w, hw, rfl⟩ := attrOf_ok h
      exact .mk ht hw
  · rintro ⟨ht, hw⟩
    rw [ht, attrOf_val]
    dsimp only
    rw [hw, attrOf_val]

private theorem provider_lost {m : Msg} {x : Exc} :
    ttcProviderKey m.taskToCompute = .error x ↔ x = .attributeError ∧ ∀ v, ¬ ProviderValue m v := by
  constructor
  · intro h
    refine ⟨?_, fun v hv => by rw [provider_value.mpr hv] at h; cases h⟩
    unfold ttcProviderKey at h
    split at h
    · rename_i y hy; injection h with h; rw [← h]; exact (attr_error.mp hy).1
    · exact (attr_error.mp h).1
  · rintro ⟨rfl, h⟩
    cases hk : ttcProviderKey m.taskToCompute with
    | ok v => exact absurd (provider_value.mp hk) (h v)
    | error y =>
      unfold ttcProviderKey at hk
      split at hk
      · rename_i z hz; injection hk with hk; rw [← hk, (attr_error.mp hz).1]
      · rw [(attr_error.mp hk).1]

private theorem requestor_value {m : Msg} {v : Val} :
    attrOf m.taskToCompute p!"requestor_public_key" = .ok v ↔ RequestorValue m v := by
  constructor
  · intro h
    obtain ⟨t, ht, rfl⟩ := attrOf_ok h
    exact .mk ht
  · rintro ⟨ht⟩
    rw [ht, attrOf_val]

private theorem requestor_lost {m : Msg} {x : Exc} : attrOf m.taskToCompute p!"requestor_public_key" = .error x ↔
    x = .attributeError ∧ ∀ v, ¬ RequestorValue m v := by
  rw [attr_error]
  refine and_congr_right fun _ => ⟨fun h v hv => ?_, fun h t e => h _ (.mk e)⟩
  cases hv with
  | mk e => exact h _ e

private theorem parties_ok {m : Msg} {p r : Bytes} : ownerKeys m = .ok (p, r) ↔ PartiesOf m p r := by
  unfold ownerKeys
  constructor
  · intro h
    split at h
    · cases h
    · rename_i v hv
      split at h
      · cases h
      · rename_i p' hp
        split at h
        · cases h
        · rename_i rv hr
          split at h
          · cases h
          · rename_i r' hr'
            injection h with h
            injection h with h1 h2
            subst h1; subst h2
            obtain ⟨t, ht, rfl⟩ := attrOf_ok hr
            cases provider_value.mp hv with
            | mk ht' hw =>
              cases msg_val_inj (ht.symm.trans ht')
              exact ⟨t, _, ht, hw, key_in.mp hp, key_in.mp hr'⟩
  · rintro ⟨t, w, ht, hw, hp, hr⟩
    rw [provider_value.mpr (.mk ht hw)]
    dsimp only
    rw [key_in.mpr hp]
    dsimp only
    rw [requestor_value.mpr (.mk ht)]
    dsimp only
    rw [key_in.mpr hr]

private theorem parties_error {m : Msg} {x : Exc} : ownerKeys m = .error x ↔ PartiesUnknown m x := by
  unfold ownerKeys
  constructor
  · intro h
    split at h
    · rename_i y hy
      injection h with h
      rw [← h]
      obtain ⟨rfl, hn⟩ := provider_lost.mp hy
      by_cases ht : ∃ t : Msg, m.taskToCompute = t.val
      · obtain ⟨t, ht⟩ := ht
        exact .offer ht fun w hw => hn _ (.mk ht hw)
      · exact .task fun t e => ht ⟨t, e⟩
    · rename_i v hv
      cases provider_value.mp hv with
      | mk ht hw =>
        split at h
        · rename_i y hy; injection h with h; rw [← h]; exact .provider ht hw (no_key_in.mp hy)
        · rename_i p hp
          rw [requestor_value.mpr (.mk ht)] at h
          dsimp only at h
          split at h
          · rename_i y hy; injection h with h; rw [← h]; exact .requestor ht hw (key_in.mp hp) (no_key_in.mp hy)
          · cases h
  · intro h
    cases h with
    | task h =>
      rw [provider_lost.mpr ⟨rfl, fun v hv => by cases hv with | mk e _ => exact h _ e⟩]
    | offer ht h =>
      rw [provider_lost.mpr ⟨rfl, fun v hv => by
        cases hv with
        | mk e hw => cases msg_val_inj (ht.symm.trans e); exact h _ hw⟩]
    | provider ht hw h =>
      rw [provider_value.mpr (.mk ht hw)]
      dsimp only
      rw [no_key_in.mpr h]
    | requestor ht hw hp h =>
      rw [provider_value.mpr (.mk ht hw)]
      dsimp only
      rw [key_in.mpr hp]
      dsimp only
      rw [requestor_value.mpr (.mk ht)]
      dsimp only
      rw [no_key_in.mpr h]

private theorem key_of {p r k : Bytes} {concent : Option Bytes} {o : Owner} :
    ownerKey (p, r) concent o = some k ↔ SenderKey p r concent o k := by
  constructor
  · intro h
    cases o with
    | provider => injection h with h; subst h; exact .provider
    | requestor => injection h with h; subst h; exact .requestor
    | concent => exact .concent h
  · intro h
    cases h with
    | provider => rfl
    | requestor => rfl
    | concent h => exact h

private theorem keyless {p r : Bytes} {concent : Option Bytes} {o : Owner} :
    ownerKey (p, r) concent o = none ↔ o = .concent ∧ concent = none := by
  cases o <;> simp [ownerKey]

private theorem excluded_step {E : Env} {m : Msg} {p r d : Bytes} {concent : Option Bytes} {o : Owner} {rest : List Owner}
    (hd : HasDigest E m d) (h : Excluded E m p r concent d o) :
    tryOwners E m (p, r) concent (o :: rest) = tryOwners E m (p, r) concent rest := by
  obtain ⟨k, hk, hl, hm⟩ := h
  rw [tryOwners, has_digest.mpr hd]
  dsimp only
  rw [key_of.mpr hk]
  dsimp only
  rw [ecdsaVerify_else hl hm]

private theorem excluded_steps {E : Env} {m : Msg} {p r d : Bytes} {concent : Option Bytes} {rest : List Owner}
    (hd : HasDigest E m d) : ∀ {before : List Owner}, (∀ q ∈ before, Excluded E m p r concent d q) →
    tryOwners E m (p, r) concent (before ++ rest) = tryOwners E m (p, r) concent rest
  | [], _ => rfl
  | o :: before, h => by
    rw [List.cons_append, excluded_step hd (h o (by simp))]
    exact excluded_steps hd fun q hq => h q (by simp [hq])

private theorem try_first {E : Env} {m : Msg} {p r d : Bytes} {concent : Option Bytes} (hd : HasDigest E m d) :
    ∀ (l : List Owner), (∀ q ∈ l, Excluded E m p r concent d q) ∨ ∃ before o after, l = before ++ o :: after ∧
      (∀ q ∈ before, Excluded E m p r concent d q) ∧ ¬ Excluded E m p r concent d o
  | [] => .inl (by simp)
  | o :: l => by
    by_cases ho : Excluded E m p r concent d o
    · rcases try_first hd l with h | ⟨before, q, after, rfl, h1, h2⟩
      · exact .inl fun q hq => by
          rcases List.mem_cons.mp hq with rfl | hq
          · exact ho
          · exact h q hq
      · exact .inr ⟨o :: before, q, after, rfl, fun q' hq => by
          rcases List.mem_cons.mp hq with rfl | hq
          · exact ho
          · exact h1 q' hq, h2⟩
    · exact .inr ⟨[], o, l, rfl, by simp, ho⟩

private theorem senders_table : ∀ e ∈ catalogue, e.cls.expectedOwners = e.senders ∧
    (e.cls.isTask = true → e.senders ≠ []) := by decide +kernel

private theorem sender_of {m : Msg} : ∃ e ∈ catalogue, e.cls = m.cls ∧ m.cls.expectedOwners = e.senders := by
  obtain ⟨e, he, hc⟩ := listed_cls m.cls
  exact ⟨e, he, hc, by rw [← hc]; exact (senders_table e he).1⟩

private theorem senders_are {m : Msg} {e : Entry} (he : e ∈ catalogue) (hc : e.cls = m.cls) :
    m.cls.expectedOwners = e.senders := by rw [← hc]; exact (senders_table e he).1

private theorem senders_some {m : Msg} (ht : m.cls.isTask = true) : m.cls.expectedOwners ≠ [] := by
  obtain ⟨e, he, hc, hs⟩ := sender_of (m := m)
  rw [hs]
  exact (senders_table e he).2 (by rw [hc]; exact ht)

private theorem sender_ok {E : Env} {m : Msg} {concent : Option Bytes} (ht : m.cls.isTask = true) :
    baseOwnership E m concent = .ok () ↔ SenderVouched E concent m := by
  constructor
  · intro h
    unfold baseOwnership at h
    split at h
    · cases h
    · rename_i keys hk
      obtain ⟨p, r⟩ := keys
      obtain ⟨e, he, hc, hs⟩ := sender_of (m := m)
      cases hh : shortHash E m with
      | error y =>
        exfalso
        cases ho : m.cls.expectedOwners with
        | nil => exact senders_some ht ho
        | cons o l => rw [ho, tryOwners, hh] at h; cases h
      | ok d =>
        have hd := has_digest.mp hh
        rcases try_first (p := p) (r := r) (concent := concent) hd m.cls.expectedOwners with hx | ⟨before, o, after, hl, hb, hn⟩
        · have := excluded_steps (rest := []) hd hx
          rw [List.append_nil] at this
          rw [this] at h
          cases h
        · rw [hl, excluded_steps hd hb, tryOwners, hh] at h
          dsimp only at h
          cases hko : ownerKey (p, r) concent o with
          | none => rw [hko] at h; cases h
          | some k =>
            rw [hko] at h
            dsimp only at h
            cases hv : E.ecdsaVerify k m.sig d with
            | ok _ =>
              obtain ⟨a, b⟩ := ecdsaVerify_ok.mp hv
              exact ⟨e, he, hc, p, r, d, before, o, after, k, parties_ok.mp hk, hd, by rw [← hs, hl], hb,
                key_of.mp hko, a, b⟩
            | error y =>
              rw [hv] at h
              cases not_made.mp hv with
              | length _ => cases h
              | forged a b => exact absurd ⟨k, key_of.mp hko, a, b⟩ hn
  · rintro ⟨e, he, hc, p, r, d, before, o, after, k, hp, hd, hl, hb, hk, h64, hm⟩
    unfold baseOwnership
    rw [parties_ok.mpr hp]
    dsimp only
    rw [senders_are he hc, hl, excluded_steps hd hb, tryOwners, has_digest.mpr hd]
    dsimp only
    rw [key_of.mpr hk]
    dsimp only
    rw [ecdsaVerify_ok.mpr ⟨h64, hm⟩]

private theorem sender_error {E : Env} {m : Msg} {concent : Option Bytes} {x : Exc} (ht : m.cls.isTask = true) :
    baseOwnership E m concent = .error x ↔ SenderFault E concent m x := by
  constructor
  · intro h
    unfold baseOwnership at h
    split at h
    · rename_i y hy; injection h with h; rw [← h]; exact .parties (parties_error.mp hy)
    · rename_i keys hk
      obtain ⟨p, r⟩ := keys
      have hp := parties_ok.mp hk
      obtain ⟨e, he, hc, hs⟩ := sender_of (m := m)
      cases hh : shortHash E m with
      | error y =>
        cases ho : m.cls.expectedOwners with
        | nil => exact absurd ho (senders_some ht)
        | cons o l =>
          rw [ho, tryOwners, hh] at h
          injection h with h
          rw [← h]
          exact .digest hp ((digest_raises _ _ _).mp hh)
      | ok d =>
        have hd := has_digest.mp hh
        rcases try_first (p := p) (r := r) (concent := concent) hd m.cls.expectedOwners with hx | ⟨before, o, after, hl, hb, hn⟩
        · have := excluded_steps (rest := []) hd hx
          rw [List.append_nil] at this
          rw [this] at h
          injection h with h
          rw [← h]
          exact .nobody hp hd he hc (by rw [← hs]; exact hx)
        · rw [hl, excluded_steps hd hb, tryOwners, hh] at h
          dsimp only at h
          cases hko : ownerKey (p, r) concent o with
          | none =>
            rw [hko] at h
            injection h with h
            rw [← h]
            obtain ⟨rfl, hcn⟩ := keyless.mp hko
            exact .keyless hp hd he hc (by rw [← hs, hl]) hb hcn
          | some k =>
            rw [hko] at h
            dsimp only at h
            cases hv : E.ecdsaVerify k m.sig d with
            | ok _ => rw [hv] at h; cases h
            | error y =>
              rw [hv] at h
              cases not_made.mp hv with
              | length a =>
                injection h with h
                rw [← h]
                exact .length hp hd he hc (by rw [← hs, hl]) hb (key_of.mp hko) a
              | forged a b => exact absurd ⟨k, key_of.mp hko, a, b⟩ hn
  · intro h
    unfold baseOwnership
    cases h with
    | parties h => rw [parties_error.mpr h]
    | digest hp h =>
      rw [parties_ok.mpr hp]
      dsimp only
      cases ho : m.cls.expectedOwners with
      | nil => exact absurd ho (senders_some ht)
      | cons o l => rw [tryOwners, (digest_raises _ _ _).mpr h]
    | keyless hp hd he hc hl hb hn =>
      rw [parties_ok.mpr hp]
      dsimp only
      rw [senders_are he hc, hl, excluded_steps hd hb, tryOwners, has_digest.mpr hd]
      dsimp only
      rw [keyless.mpr ⟨rfl, hn⟩]
    | length hp hd he hc hl hb hk hn =>
      rw [parties_ok.mpr hp]
      dsimp only
      rw [senders_are he hc, hl, excluded_steps hd hb, tryOwners, has_digest.mpr hd]
      dsimp only
      rw [key_of.mpr hk]
      dsimp only
      rw [not_made.mpr (.length hn)]
    | nobody hp hd he hc hx =>
      rw [parties_ok.mpr hp]
      dsimp only
      have := excluded_steps (rest := []) hd hx
      rw [List.append_nil] at this
      rw [senders_are he hc, this]
      rfl

private theorem validate_split {E : Env} {m : Msg} {concent : Option Bytes} : validateOwnership E m concent =
    if m.cls = .TaskToCompute then
      match headerCheck E m with
      | .error e => .error e
      | .ok _ => baseOwnership E m concent
    else baseOwnership E m concent := by
  unfold validateOwnership headerCheck
  split
  · cases attrOf (getAttr m.attrs p!"want_to_compute_task") p!"task_header" with
    | error e => rfl
    | ok th =>
      cases th with
      | cont c fs =>
        cases c <;> first
          | rfl
          | (dsimp only
             cases decodeHex (getAttr m.attrs p!"requestor_public_key") with
             | error _ => rfl
             | ok k => rfl)
      | _ => rfl
  · rfl

/-- C114: one task message passes exactly if it is signed by one of those that may send it, as its
`TaskToCompute` names them, and the header of a `TaskToCompute` by the requestor. -/
theorem validate_ok (E : Env) (m : Msg) (concent : Option Bytes) (ht : m.cls.isTask = true) :
    validateOwnership E m concent = .ok () ↔ Vouched E concent m := by
  rw [validate_split]
  unfold Vouched
  split
  · rename_i hc
    cases hh : headerCheck E m with
    | error e =>
      refine ⟨nofun, ?_⟩
      rintro ⟨h, _⟩
      rw [header_ok.mpr (h hc)] at hh
      cases hh
    | ok u =>
      dsimp only
      rw [sender_ok ht]
      exact ⟨fun h => ⟨fun _ => header_ok.mp hh, h⟩, fun h => h.2⟩
  · rename_i hc
    rw [sender_ok ht]
    exact ⟨fun h => ⟨fun h' => absurd h' hc, h⟩, fun h => h.2⟩

/-- C114: what is wrong with one task message. -/
theorem validate_raises (E : Env) (m : Msg) (concent : Option Bytes) (x : Exc) (ht : m.cls.isTask = true) :
    validateOwnership E m concent = .error x ↔ Disowned E concent m x := by
  rw [validate_split]
  split
  · rename_i hc
    cases hh : headerCheck E m with
    | error e =>
      dsimp only
      constructor
      · intro h; injection h with h; rw [← h]; exact .header hc (header_error.mp hh)
      · intro h
        cases h with
        | header _ h => rw [header_error.mpr h] at hh; injection hh with hh; rw [hh]
        | sender h _ => rw [header_ok.mpr (h hc)] at hh; cases hh
    | ok u =>
      dsimp only
      rw [sender_error ht]
      constructor
      · exact fun h => .sender (fun _ => header_ok.mp hh) h
      · intro h
        cases h with
        | header _ h => rw [header_error.mpr h] at hh; cases hh
        | sender _ h => exact h
  · rename_i hc
    rw [sender_error ht]
    constructor
    · exact fun h => .sender (fun h' => absurd h' hc) h
    · intro h
      cases h with
      | header h _ => exact absurd h hc
      | sender _ h => exact h

/-! ### Chains -/

private theorem inside_msg {c : Cls} {ty ts enc sig : Val} {attrs : Attrs} {w : Val}
    (h : Inside (.msg c ty ts enc sig attrs) w) : c.isTask = true ∧
      (w = .msg c ty ts enc sig attrs ∨ ∃ kv ∈ attrs, Inside kv.2 w) := by
  cases h with
  | refl _ _ _ _ _ h => exact ⟨h, .inl rfl⟩
  | step h hm hi => exact ⟨h, .inr ⟨_, hm, hi⟩⟩

mutual
private theorem chain_ok (E : Env) (concent : Option Bytes) : ∀ (v : Val),
    chainV E concent v = .ok () ↔ AllVouched E concent v
  | .msg c ty ts enc sig attrs => by
    unfold chainV
    by_cases hc : c.isTask = true
    · rw [if_pos hc]
      have hall : AllVouched E concent (.msg c ty ts enc sig attrs) ↔
          Vouched E concent ⟨c, ty, ts, enc, sig, attrs⟩ ∧ ∀ kv ∈ attrs, AllVouched E concent kv.2 := by
        constructor
        · intro h
          exact ⟨h ⟨c, ty, ts, enc, sig, attrs⟩ (.refl _ _ _ _ _ hc), fun kv hkv w hw => h w (.step hc hkv hw)⟩
        · rintro ⟨h1, h2⟩ w hw
          rcases (inside_msg hw).2 with e | ⟨kv, hkv, hi⟩
          · have : w = ⟨c, ty, ts, enc, sig, attrs⟩ := msg_val_inj e
            rw [this]; exact h1
          · exact h2 kv hkv w hi
      rw [hall, ← chain_all E concent attrs, ← validate_ok E ⟨c, ty, ts, enc, sig, attrs⟩ concent hc]
      cases validateOwnership E ⟨c, ty, ts, enc, sig, attrs⟩ concent with
      | error e => simp
      | ok u => simp
    · rw [if_neg hc]
      refine ⟨fun _ w hw => absurd (inside_msg hw).1 hc, fun _ => rfl⟩
  | .none | .bool _ | .int _ | .float _ | .str _ | .bytes _ | .enum _ _ | .mask _ | .list _ | .tuple _ | .dict _
  | .fdict _ _ | .cont _ _ | .tag _ _ => by
    unfold chainV
    exact ⟨fun _ w hw => (by cases hw), fun _ => rfl⟩
private theorem chain_all (E : Env) (concent : Option Bytes) : ∀ (as : Attrs),
    chainA E concent as = .ok () ↔ ∀ kv ∈ as, AllVouched E concent kv.2
  | [] => by unfold chainA; simp
  | (n, v) :: rest => by
    unfold chainA
    have h1 := chain_ok E concent v
    have h2 := chain_all E concent rest
    cases hv : chainV E concent v with
    | error e =>
      refine ⟨nofun, fun h => ?_⟩
      rw [h1.mpr (h (n, v) (by simp))] at hv
      cases hv
    | ok u =>
      dsimp only
      rw [h2]
      have hv' := h1.mp hv
      constructor
      · intro h kv hkv
        rcases List.mem_cons.mp hkv with rfl | hkv
        · exact hv'
        · exact h kv hkv
      · exact fun h kv hkv => h kv (by simp [hkv])
end

private theorem chain_skip {E : Env} {concent : Option Bytes} {name : PStr} {v : Val} {after : Attrs} {x : Exc}
    (h : chainV E concent v = .error x) : ∀ {before : Attrs}, (∀ kv ∈ before, AllVouched E concent kv.2) →
    chainA E concent (before ++ (name, v) :: after) = .error x
  | [], _ => by
    rw [List.nil_append, chainA, h]
  | (n, w) :: before, hb => by
    rw [List.cons_append, chainA, (chain_ok E concent w).mpr (hb (n, w) (by simp))]
    exact chain_skip h fun kv hkv => hb kv (by simp [hkv])

private theorem fault_chain {E : Env} {concent : Option Bytes} {v : Val} {x : Exc}
    (h : ChainFault E concent v x) : chainV E concent v = .error x := by
  induction h with
  | here ht h =>
    rw [Msg.val, chainV, if_pos ht, (validate_raises E _ concent _ ht).mpr h]
  | inside hc hv hb _ ih =>
    rw [chainV, if_pos hc, (validate_ok E _ concent hc).mpr hv]
    exact chain_skip ih hb

mutual
private theorem chain_fault (E : Env) (concent : Option Bytes) : ∀ (v : Val) (x : Exc),
    chainV E concent v = .error x → ChainFault E concent v x
  | .msg c ty ts enc sig attrs, x => by
    intro h
    rw [chainV] at h
    by_cases hc : c.isTask = true
    · rw [if_pos hc] at h
      cases hv : validateOwnership E ⟨c, ty, ts, enc, sig, attrs⟩ concent with
      | error e =>
        rw [hv] at h
        injection h with h
        subst h
        exact .here (m := ⟨c, ty, ts, enc, sig, attrs⟩) hc ((validate_raises _ _ _ _ hc).mp hv)
      | ok u =>
        rw [hv] at h
        dsimp only at h
        obtain ⟨before, name, w, after, rfl, hb, hw⟩ := chain_faults E concent attrs x h
        exact .inside hc ((validate_ok _ _ _ hc).mp hv) hb hw
    · rw [if_neg hc] at h; cases h
  | .none, _ | .bool _, _ | .int _, _ | .float _, _ | .str _, _ | .bytes _, _ | .enum _ _, _ | .mask _, _ | .list _, _
  | .tuple _, _ | .dict _, _ | .fdict _ _, _ | .cont _ _, _ | .tag _ _, _ => by
    intro h
    unfold chainV at h
    cases h
private theorem chain_faults (E : Env) (concent : Option Bytes) : ∀ (as : Attrs) (x : Exc),
    chainA E concent as = .error x → ∃ before name v after, as = before ++ (name, v) :: after ∧
      (∀ kv ∈ before, AllVouched E concent kv.2) ∧ ChainFault E concent v x
  | [], _ => by intro h; rw [chainA] at h; cases h
  | (n, v) :: rest, x => by
    intro h
    rw [chainA] at h
    have h1 := chain_fault E concent v
    have h2 := chain_faults E concent rest x
    cases hv : chainV E concent v with
    | error e =>
      rw [hv] at h
      injection h with h
      subst h
      exact ⟨[], n, v, rest, rfl, by simp, h1 _ hv⟩
    | ok u =>
      rw [hv] at h
      obtain ⟨before, name, w, after, rfl, hb, hw⟩ := h2 h
      refine ⟨(n, v) :: before, name, w, after, rfl, fun kv hkv => ?_, hw⟩
      rcases List.mem_cons.mp hkv with rfl | hkv
      · exact (chain_ok E concent _).mp hv
      · exact hb kv hkv
end

private theorem role_ok {Value : Val → Prop} {expected : Option Bytes} {actual : Res Val}
    (hok : ∀ {v}, actual = .ok v ↔ Value v) : checkRole expected actual = .ok () ↔ RoleRight Value expected := by
  rcases expected with _ | (_ | ⟨a, as⟩)
  · simp [checkRole, RoleRight, NoKey]
  · simp [checkRole, RoleRight, NoKey]
  · unfold checkRole RoleRight
    dsimp only
    constructor
    · intro h
      split at h
      · cases h
      · rename_i v
        split at h
        · cases h
        · rename_i b hb
          split at h
          · rename_i e
            exact .inr ⟨_, v, rfl, hok.mp rfl, e ▸ key_in.mp hb⟩
          · cases h
    · rintro (h | ⟨k, v, e, hv, hk⟩)
      · rcases h with h | h <;> cases h
      · injection e with e
        rw [hok.mpr hv]
        dsimp only
        rw [key_in.mpr hk]
        dsimp only
        rw [if_pos e]

private theorem role_error {Value : Val → Prop} {expected : Option Bytes} {actual : Res Val} {x : Exc}
    (hok : ∀ {v}, actual = .ok v ↔ Value v)
    (hno : ∀ {y}, actual = .error y ↔ y = .attributeError ∧ ∀ v, ¬ Value v) :
    checkRole expected actual = .error x ↔ RoleFault Value expected x := by
  by_cases hk : NoKey expected
  · have : checkRole expected actual = .ok () := (role_ok hok).mpr (.inl hk)
    rw [this]
    refine ⟨nofun, fun h => ?_⟩
    cases h with
    | missing h _ => exact absurd hk h
    | nokey h _ _ => exact absurd hk h
    | mismatch h _ _ _ _ => exact absurd hk h
  · rcases expected with _ | (_ | ⟨a, as⟩)
    · exact absurd (.inl rfl) hk
    · exact absurd (.inr rfl) hk
    · unfold checkRole
      dsimp only
      constructor
      · intro h
        split at h
        · rename_i y
          injection h with h
          obtain ⟨rfl, hn⟩ := hno.mp rfl
          rw [← h]
          exact .missing hk hn
        · rename_i v
          split at h
          · rename_i y hy
            injection h with h
            rw [← h]
            exact .nokey hk (hok.mp rfl) (no_key_in.mp hy)
          · rename_i b hb
            split at h
            · cases h
            · rename_i e
              injection h with h
              rw [← h]
              exact .mismatch hk (hok.mp rfl) (key_in.mp hb) rfl fun e' => e e'.symm
      · intro h
        cases h with
        | missing _ h => rw [hno.mpr ⟨rfl, h⟩]
        | nokey _ hv h =>
          rw [hok.mpr hv]
          dsimp only
          rw [no_key_in.mpr h]
        | mismatch _ hv h e hne =>
          injection e with e
          rw [hok.mpr hv]
          dsimp only
          rw [key_in.mpr h]
          dsimp only
          rw [if_neg fun e' => hne (e'.symm.trans e)]

/-- C114: `verify_owners` succeeds exactly if the expected parties are those named and all task messages in the
message are in order. -/
theorem owners_ok (E : Env) (m : Msg) (provider requestor concent : Option Bytes) :
    verifyOwners E m provider requestor concent = .ok () ↔ RoleRight (ProviderValue m) provider ∧
      RoleRight (RequestorValue m) requestor ∧ AllVouched E concent m.val := by
  rw [← role_ok (provider_value (m := m)), ← role_ok (requestor_value (m := m)), ← chain_ok]
  unfold verifyOwners
  cases checkRole provider (ttcProviderKey m.taskToCompute) with
  | error e => simp
  | ok u =>
    dsimp only
    cases checkRole requestor (attrOf m.taskToCompute p!"requestor_public_key") with
    | error e => simp
    | ok u => simp

/-- C114: and otherwise reports the first fault. -/
theorem owners_raises (E : Env) (m : Msg) (provider requestor concent : Option Bytes) (x : Exc) :
    verifyOwners E m provider requestor concent = .error x ↔ OwnersFault E m provider requestor concent x := by
  have p1 := fun {e} => role_ok (expected := e) (provider_value (m := m))
  have p2 := fun {e x} => role_error (expected := e) (x := x) (provider_value (m := m)) provider_lost
  have r1 := fun {e} => role_ok (expected := e) (requestor_value (m := m))
  have r2 := fun {e x} => role_error (expected := e) (x := x) (requestor_value (m := m)) requestor_lost
  unfold verifyOwners
  constructor
  · intro h
    cases hp : checkRole provider (ttcProviderKey m.taskToCompute) with
    | error e => rw [hp] at h; injection h with h; rw [← h]; exact .provider (p2.mp hp)
    | ok u =>
      rw [hp] at h
      dsimp only at h
      cases hr : checkRole requestor (attrOf m.taskToCompute p!"requestor_public_key") with
      | error e => rw [hr] at h; injection h with h; rw [← h]; exact .requestor (p1.mp hp) (r2.mp hr)
      | ok u =>
        rw [hr] at h
        exact .chain (p1.mp hp) (r1.mp hr) (chain_fault E concent _ _ h)
  · intro h
    cases h with
    | provider h => rw [p2.mpr h]
    | requestor h1 h => rw [p1.mpr h1]; dsimp only; rw [r2.mpr h]
    | chain h1 h2 h => rw [p1.mpr h1]; dsimp only; rw [r1.mpr h2]; exact fault_chain h

/-- C114: so there is always one answer: either nothing is wrong, or there is a first fault, and only one. -/
theorem owners_one_fault (E : Env) (m : Msg) (provider requestor concent : Option Bytes) :
    ((∀ x, ¬ OwnersFault E m provider requestor concent x) ↔ RoleRight (ProviderValue m) provider ∧
      RoleRight (RequestorValue m) requestor ∧ AllVouched E concent m.val) ∧
    ∀ x y, OwnersFault E m provider requestor concent x → OwnersFault E m provider requestor concent y → x = y := by
  constructor
  · rw [← owners_ok]
    cases hv : verifyOwners E m provider requestor concent with
    | error x =>
      refine ⟨fun h => absurd ((owners_raises _ _ _ _ _ _).mp hv) (h x), nofun⟩
    | ok u =>
      refine ⟨fun _ => rfl, fun _ x h => ?_⟩
      rw [(owners_raises _ _ _ _ _ _).mpr h] at hv
      cases hv
  · intro x y hx hy
    have := ((owners_raises _ _ _ _ _ _).mpr hx).symm.trans ((owners_raises _ _ _ _ _ _).mpr hy)
    injection this

/-- C114: a message that Concent may have sent cannot be checked without the key of Concent unless one of the
others signed it, and `TypeError` is no answer about owners. -/
theorem concent_key_needed (E : Env) (m : Msg) (p r d : Bytes) (hm : m.cls.isTask = true) (hp : PartiesOf m p r)
    (hd : HasDigest E m d) (e : Entry) (he : e ∈ catalogue) (hc : e.cls = m.cls) (hs : .concent ∈ e.senders)
    (hx : ∀ o ∈ e.senders, o ≠ .concent → Excluded E m p r none d o) (ht : m.cls ≠ .TaskToCompute) :
    verifyOwners E m none none none = .error .typeError := by
  have table : ∀ e ∈ catalogue, .concent ∈ e.senders →
      ∃ before, e.senders = before ++ [.concent] ∧ .concent ∉ before := by
    have : ∀ e ∈ catalogue, .concent ∈ e.senders →
        e.senders = e.senders.dropLast ++ [.concent] ∧ .concent ∉ e.senders.dropLast := by decide +kernel
    exact fun e he h => ⟨_, this e he h⟩
  obtain ⟨before, hb, hnb⟩ := table e he hs
  refine (owners_raises _ _ _ _ _ _).mpr (.chain (.inl (.inl rfl)) (.inl (.inl rfl)) (.here hm
    (.sender (fun h => absurd h ht) (.keyless hp hd he hc (before := before) (after := []) hb (fun q hq => ?_) rfl))))
  refine hx q (by rw [hb]; simp [hq]) ?_
  rintro rfl
  exact hnb hq

/-! ### Examples -/

/-- A chain of three messages in order; with the key of somebody else for the provider; and its outer message without a
signature. -/
example : RoleRight (ProviderValue exampleChain) (some (List.replicate 64 7)) ∧
    RoleRight (RequestorValue exampleChain) (some (List.replicate 64 5)) ∧ AllVouched toyEnv none exampleChain.val :=
  (owners_ok toyEnv exampleChain (some (List.replicate 64 7)) (some (List.replicate 64 5)) none).mp (by decide +kernel)

example : OwnersFault toyEnv exampleChain (some (List.replicate 64 5)) none none .ownershipMismatch :=
  (owners_raises _ _ _ _ _ _).mp (by decide +kernel)

private def unsignedChain : Msg := { exampleChain with sig := .none }

example : OwnersFault toyEnv unsignedChain none none (some (List.replicate 64 3)) .invalidSignature ∧
    OwnersFault toyEnv unsignedChain none none (some [3]) .invalidKeys ∧
    OwnersFault toyEnv unsignedChain none none none .typeError :=
  ⟨(owners_raises _ _ _ _ _ _).mp (by decide +kernel), (owners_raises _ _ _ _ _ _).mp (by decide +kernel),
   (owners_raises _ _ _ _ _ _).mp (by decide +kernel)⟩

/-- The hypotheses of `concent_key_needed` hold of that one. -/
example : ∃ p r d e, unsignedChain.cls.isTask = true ∧ PartiesOf unsignedChain p r ∧
    HasDigest toyEnv unsignedChain d ∧ e ∈ catalogue ∧ e.cls = unsignedChain.cls ∧ .concent ∈ e.senders ∧
    (∀ o ∈ e.senders, o ≠ .concent → Excluded toyEnv unsignedChain p r none d o) ∧
    unsignedChain.cls ≠ .TaskToCompute := by
  obtain ⟨d, hd⟩ : ∃ d, shortHash toyEnv unsignedChain = .ok d := by
    cases h : shortHash toyEnv unsignedChain with
    | ok d => exact ⟨d, rfl⟩
    | error x =>
      have : (shortHash toyEnv unsignedChain).isOk = true := by decide +kernel
      rw [h] at this
      cases this
  obtain ⟨e, he, hc, hs⟩ := sender_of (m := unsignedChain)
  have ho : unsignedChain.cls.expectedOwners = [.requestor, .concent] := by decide +kernel
  rw [ho] at hs
  refine ⟨List.replicate 64 7, List.replicate 64 5, d, e, by decide +kernel, parties_ok.mp (by decide +kernel),
    has_digest.mp hd, he, hc, by rw [← hs]; simp, ?_, by decide +kernel⟩
  rw [← hs]
  intro o ho hne
  cases o with
  | requestor => exact ⟨_, .requestor, by simp, by simp [MadeBy, unsignedChain, toyEnv]⟩
  | provider => simp at ho
  | concent => exact absurd rfl hne

end Verif.Props
