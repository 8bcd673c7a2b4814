import Verif.Spec.CipherFaults
import Verif.Props.Ecies
import Verif.Lemmas.Frame
import Verif.Lemmas.Toy
/-!
# C118: why a ciphertext is refused (`cryptography.py:294-365`)
-/

set_option linter.unusedSimpArgs false

namespace Verif.Props

open Verif Spec

private theorem starts (data : Bytes) : data.take 1 = [4] ↔ data.head? = some 4 := by
  cases data with
  | nil => simp
  | cons x xs => simp

private theorem middle (data : Bytes) : (data.take (data.length - 32)).drop 65 = ctMiddle data := by
  unfold ctMiddle
  rw [List.drop_take]
  congr 1

/-- C118: `decrypt` raises an exception exactly if that is what is wrong with the ciphertext. -/
theorem cipher_refusal (X : EciesEnv) (L : EciesEnv.Laws X) (data priv shared : Bytes) (e : Exc) :
    eciesDecrypt X data priv shared = .error e ↔ CipherFault X data priv shared e := by
  have back : ∀ e, CipherFault X data priv shared e → eciesDecrypt X data priv shared = .error e := by
    intro e hf
    unfold eciesDecrypt
    cases hf with
    | start h => rw [if_pos (fun h' => h ((starts data).mp h'))]
    | point h hk =>
      unfold ctPoint at hk
      rw [if_neg (by simpa using (starts data).mpr h), hk]
    | secret h hk hl =>
      unfold ctPoint at hk
      rw [if_neg (by simpa using (starts data).mpr h), hk]
      dsimp only
      rw [if_pos hl]
    | noTag h hk hl hs =>
      unfold ctPoint at hk
      rw [if_neg (by simpa using (starts data).mpr h), hk]
      dsimp only
      rw [if_neg (by simpa using hl), derivedKeys_eq X L]
      dsimp only
      rw [if_pos (by rw [List.length_drop]; omega)]
    | tag h hk hl hs ht =>
      unfold ctPoint at hk
      rw [if_neg (by simpa using (starts data).mpr h), hk]
      dsimp only
      rw [if_neg (by simpa using hl), derivedKeys_eq X L]
      dsimp only
      rw [if_neg (by rw [List.length_drop]; omega), middle, if_pos (fun h' => ht h'.symm)]
    | short h hk hl hs ht hn =>
      unfold ctPoint at hk
      rw [if_neg (by simpa using (starts data).mpr h), hk]
      dsimp only
      rw [if_neg (by simpa using hl), derivedKeys_eq X L]
      dsimp only
      rw [if_neg (by rw [List.length_drop]; omega), middle, if_neg (fun h' => h' ht.symm)]
      split
      · rfl
      rename_i hiv
      rw [if_pos]
      simp only [List.length_drop, List.length_take] at hiv ⊢
      omega
  refine ⟨fun he => ?_, back e⟩
  have found : (∃ m, eciesDecrypt X data priv shared = .ok m) ∨ ∃ e, CipherFault X data priv shared e := by
    by_cases h : data.head? = some 4
    rotate_left
    · exact .inr ⟨_, .start h⟩
    cases hk : X.ecdh priv (ctPoint data) with
    | error e => exact .inr ⟨_, .point h hk⟩
    | ok km =>
      by_cases hl : km.length = 32
      rotate_left
      · exact .inr ⟨_, .secret h hk hl⟩
      by_cases hs : data.length < 32
      · exact .inr ⟨_, .noTag h hk hl hs⟩
      by_cases ht : ctTag data = X.hmac (macKey X km) (ctMiddle data ++ shared)
      rotate_left
      · exact .inr ⟨_, .tag h hk hl (by omega) ht⟩
      by_cases hn : data.length < 113
      · exact .inr ⟨_, .short h hk hl (by omega) ht hn⟩
      refine .inl ⟨_, (ecies_decrypt_decision X L data priv shared _).mpr
        ⟨by omega, h, km, hk, hl, ?_, rfl⟩⟩
      rw [ht]
      congr 2
      unfold ctMiddle ctIv ctBody
      rw [show data.length - 97 = 16 + (data.length - 113) by omega, List.take_add, List.drop_drop]
  rcases found with ⟨m, h⟩ | ⟨e', h⟩
  · rw [h] at he; cases he
  · rw [back e' h] at he
    injection he with he
    subst he
    exact h

/-- C118: if agreement needs an uncompressed point of 65 bytes and gives 32, then every ciphertext is
refused with `DecryptionError`, or with what agreement raises - except ciphertexts of 65 to 112 bytes with
a right tag. -/
theorem cipher_refusal_kinds (X : EciesEnv) (L : EciesEnv.Laws X)
    (curve : ∀ k p km, X.ecdh k (4 :: p) = .ok km → km.length = 32 ∧ p.length = 64)
    (data priv shared : Bytes) (e : Exc) (h : eciesDecrypt X data priv shared = .error e) :
    e = .decryptionError ∨ X.ecdh priv (ctPoint data) = .error e ∨
    e = .assertionError ∧ 65 ≤ data.length ∧ data.length < 113 ∧
      ∃ km, X.ecdh priv (ctPoint data) = .ok km ∧
        ctTag data = X.hmac (macKey X km) (ctMiddle data ++ shared) := by
  have len : ∀ km, data.head? = some 4 → X.ecdh priv (ctPoint data) = .ok km →
      km.length = 32 ∧ 65 ≤ data.length := by
    intro km h4 hk
    unfold ctPoint at hk
    cases data with
    | nil => cases h4
    | cons x xs =>
      simp only [List.head?_cons, Option.some.injEq] at h4
      subst h4
      rw [List.take_succ_cons] at hk
      obtain ⟨a, b⟩ := curve _ _ _ hk
      refine ⟨a, ?_⟩
      simp only [List.length_take, List.length_cons] at b ⊢
      omega
  cases (cipher_refusal X L data priv shared e).mp h with
  | start => exact .inl rfl
  | point h hk => exact .inr (.inl hk)
  | secret h4 hk hl => exact absurd (len _ h4 hk).1 hl
  | noTag h4 hk hl hs => have := (len _ h4 hk).2; omega
  | tag => exact .inl rfl
  | short h4 hk hl hs ht hn => exact .inr (.inr ⟨rfl, (len _ h4 hk).2, hn, _, hk, ht⟩)

/-- C118: such ciphertexts need no secret: with any ephemeral key, any fewer than 16 bytes after its point
and a tag of them make one, which `decrypt` refuses with `AssertionError`. -/
theorem short_cipher_made (X : EciesEnv) (L : EciesEnv.Laws X) (e p mid shared : Bytes)
    (A : EciesEnv.Agree X e p) (hm : mid.length < 16) :
    ∃ c km data, X.compress ((X.pub p).drop 1) = .ok c ∧ X.ecdh e c = .ok km ∧
      data = X.pub e ++ mid ++ X.hmac (macKey X km) (mid ++ shared) ∧
      eciesDecrypt X data p shared = .error .assertionError := by
  obtain ⟨raw, hpub, hraw⟩ := A.pub_e
  obtain ⟨c, km, hc, he, hd, hkl⟩ := A.secret
  refine ⟨c, km, _, hc, he, rfl, (cipher_refusal X L _ p shared _).mpr ?_⟩
  have hpl : (X.pub e).length = 65 := by rw [hpub]; simp [hraw]
  generalize htag : X.hmac (macKey X km) (mid ++ shared) = tag
  have htl : tag.length = 32 := by rw [← htag]; exact L.hmac_len _ _
  have hlen : (X.pub e ++ mid ++ tag).length = 97 + mid.length := by
    simp only [List.length_append, hpl, htl]; omega
  have p1 : ctPoint (X.pub e ++ mid ++ tag) = X.pub e := by
    unfold ctPoint
    rw [List.append_assoc, ← hpl, List.take_left]
  have p2 : ctMiddle (X.pub e ++ mid ++ tag) = mid := by
    unfold ctMiddle
    rw [hlen, List.append_assoc, ← hpl, List.drop_left, Nat.add_sub_cancel_left, List.take_left]
  have p3 : ctTag (X.pub e ++ mid ++ tag) = tag := by
    unfold ctTag
    rw [hlen, show 97 + mid.length - 32 = (X.pub e ++ mid).length by
      simp only [List.length_append, hpl]; omega, List.drop_left]
  exact .short (by rw [hpub]; rfl) (by rw [p1]; exact hd) hkl (by omega) (by rw [p2, p3, htag]) (by omega)

/-- C118: `encrypt` raises an exception exactly if that is what is wrong with the keys or the
initialisation vector, whatever the data. -/
theorem seal_refusal (X : EciesEnv) (L : EciesEnv.Laws X) (ephem iv data raw shared : Bytes) (e : Exc) :
    eciesEncrypt X ephem iv data raw shared = .error e ↔ SealFault X ephem iv raw e := by
  constructor
  · intro h
    unfold eciesEncrypt ephemKeys at h
    cases hc : X.compress raw with
    | error e' =>
      rw [hc] at h
      injection h with h
      subst h
      exact .key hc
    | ok pk =>
      rw [hc] at h
      dsimp only at h
      cases hk : X.ecdh ephem pk with
      | error e' =>
        rw [hk] at h
        injection h with h
        subst h
        exact .point hc hk
      | ok km =>
        rw [hk] at h
        dsimp only at h
        by_cases hl : km.length = 32
        rotate_left
        · rw [if_pos hl] at h
          injection h with h
          subst h
          exact .length hc hk (.inl hl)
        rw [if_neg (by simpa using hl), derivedKeys_eq X L] at h
        dsimp only at h
        unfold eciesSeal at h
        by_cases hi : iv.length = 16
        rotate_left
        · rw [if_pos hi] at h
          injection h with h
          subst h
          exact .length hc hk (.inr (.inl hi))
        rw [if_neg (by simpa using hi)] at h
        dsimp only at h
        rw [if_neg (by simp [L.enc_len]), if_neg (by simp [L.hmac_len])] at h
        by_cases hp : (X.pub ephem).length = 65
        rotate_left
        · rw [if_pos (by simp only [List.length_append, L.enc_len, L.hmac_len, hi]; omega)] at h
          injection h with h
          subst h
          exact .length hc hk (.inr (.inr hp))
        rw [if_neg (by simp only [List.length_append, L.enc_len, L.hmac_len, hi]; omega)] at h
        cases h
  · intro h
    unfold eciesEncrypt ephemKeys
    cases h with
    | key h => rw [h]
    | point h hk => rw [h]; dsimp only; rw [hk]
    | @length pk km h hk hl =>
      rw [h]
      dsimp only
      rw [hk]
      dsimp only
      by_cases h1 : km.length = 32
      rotate_left
      · rw [if_pos h1]
      rw [if_neg (by simpa using h1), derivedKeys_eq X L]
      dsimp only
      unfold eciesSeal
      by_cases h2 : iv.length = 16
      rotate_left
      · rw [if_pos h2]
      rw [if_neg (by simpa using h2)]
      dsimp only
      rw [if_neg (by simp [L.enc_len]), if_neg (by simp [L.hmac_len]),
        if_pos (by simp only [List.length_append, L.enc_len, L.hmac_len, h2]; omega)]

/-- C118: whatever is wrong with the ciphertext in a frame, `load` asks once for it to be deciphered and
raises `DecryptionError` (given that agreement raises no other `MessageError`). -/
theorem load_refuses_cipher (E : Env) (X : EciesEnv) (L : EciesEnv.Laws X) (data key : Bytes)
    (pub : Option Bytes) (now : Int) (c : Cls) (hl : 76 < data.length) (hc : c.typeId = frameType data)
    (hh : c ≠ .Hello) (h1 : minTimestamp < frameTime data) (h2 : frameTime data < maxTimestamp)
    (hf : frameFlag data = true) (hk : key ≠ [])
    (curve : ∀ k p e, X.ecdh k p = .error e → e.isMessageError = false) (e : Exc)
    (h : CipherFault X (frameBody data) key [] e) :
    load E (fun k d => eciesDecrypt X d k []) (some data) (some key) pub false now =
      ([frameBody data], .error .decryptionError) := by
  have hd := (cipher_refusal X L (frameBody data) key [] e).mpr h
  have he : (if e.isMessageError = true then e else .decryptionError) = .decryptionError := by
    cases h with
    | start | tag => rfl
    | secret | noTag | short => rfl
    | point h hk => rw [curve _ _ _ hk]; rfl
  unfold load
  rw [deserialize_frame E data _ false now pub hl c h1 h2 (by rw [← hc]; exact ofType_typeId c)]
  simp only [timeGate, Bool.false_eq_true, if_false]
  unfold dwh
  rw [if_neg hh]
  unfold dwhBase decryptStep Logged.andThen
  have hgk : givenKey (some key) = some key := by
    cases key with
    | nil => exact absurd rfl hk
    | cons x xs => rfl
  have hb : (data.drop hdrLen).drop sigLen = frameBody data := by
    rw [List.drop_drop]; rfl
  simp only [hf, if_true, hb, loadDecrypt, hgk, hd]
  by_cases hm : e.isMessageError = true
  · rw [if_pos hm] at he ⊢
    rw [he]
  · rw [if_neg hm]

/-- A ciphertext of each kind of fault. -/
example :
    let tagged (mid : Bytes) : Bytes := toyX.pub [1] ++ mid ++ toyX.hmac (macKey toyX (3 :: List.replicate 31 0)) mid
    eciesDecrypt toyX [] [2] [] = .error .decryptionError ∧
    eciesDecrypt toyX [4, 1] [2] [] = .error .assertionError ∧
    eciesDecrypt toyX (toyX.pub [1] ++ List.replicate 50 5) [2] [] = .error .decryptionError ∧
    eciesDecrypt toyX (tagged [5]) [2] [] = .error .assertionError ∧
    eciesDecrypt toyX (tagged (List.replicate 16 5)) [2] [] = .ok [] := by
  refine ⟨?_, ?_, ?_, ?_, ?_⟩ <;> decide +kernel

/-- Agreement that needs a point of 65 bytes on a "curve". -/
private def pickyX : EciesEnv := { toyX with
  ecdh := fun k p => if p.length = 65 then toyX.ecdh k p else .error .valueError }

private theorem pickyX_laws : EciesEnv.Laws pickyX := ⟨toyX_laws.1, toyX_laws.2, toyX_laws.3, toyX_laws.4, toyX_laws.5⟩

/-- The hypotheses about agreement can be met; a short point is refused with what it raises. -/
example : (∀ k p km, pickyX.ecdh k (4 :: p) = .ok km → km.length = 32 ∧ p.length = 64) ∧
    (∀ k p e, pickyX.ecdh k p = .error e → e.isMessageError = false) ∧
    eciesDecrypt pickyX [4, 1, 2] [2] [] = .error .valueError := by
  refine ⟨?_, ?_, by decide +kernel⟩
  · intro k p km h
    simp only [pickyX] at h
    split at h
    · rename_i hl
      simp only [toyX] at h
      injection h with h
      subst h
      simp only [List.length_cons] at hl
      exact ⟨by simp, by omega⟩
    · cases h
  · intro k p e h
    simp only [pickyX] at h
    split at h
    · cases h
    · injection h with h; subst h; rfl

/-- A frame whose ciphertext is a right tag and nothing else is refused with `DecryptionError`. -/
example :
    let data : Bytes := [0x03, 0xef, 0, 0, 0, 0, 0x59, 0x68, 0x2f, 0, 1] ++ List.replicate 65 0 ++
      (toyX.pub [1] ++ toyX.hmac (macKey toyX (3 :: List.replicate 31 0)) [])
    76 < data.length ∧ frameType data = Cls.typeId .RemoveTask ∧ frameFlag data = true ∧
      load toyEnv (fun k d => eciesDecrypt toyX d k []) (some data) (some [2]) none false 0 =
        ([frameBody data], .error .decryptionError) := by
  refine ⟨?_, ?_, ?_, ?_⟩ <;> decide +kernel

/-- Nothing can be encrypted with a vector of a wrong length. -/
example : eciesEncrypt toyX [1] [9] [5] ((toyX.pub [2]).drop 1) [] = .error .assertionError := by decide +kernel

end Verif.Props
