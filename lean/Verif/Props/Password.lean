import Verif.Lemmas.Bytes
import Verif.Props.Eccx
/-!
# C99: keys from passwords
-/

namespace Verif.Props

open Verif

/-- C99: what has a key is text or bytes; the key has 32 bytes, and that of a text is that of its UTF-8
encoding (given that Keccak-256 has 32 bytes). -/
theorem password_key (keccak : Bytes → Bytes) (h32 : ∀ b, (keccak b).length = 32) (seed : Val) (k : Bytes)
    (h : mkPrivkey keccak seed = .ok k) :
    k.length = 32 ∧ ((∃ b, seed = .bytes b ∧ k = keccak b) ∨
      (∃ s, (seed = .str s ∨ ∃ e, seed = .enum e s) ∧ mkPrivkey keccak (.bytes (utf8Enc s)) = .ok k)) := by
  unfold mkPrivkey strToBytes at h
  cases seed <;> first | (cases h; done) | skip
  case bytes b =>
    injection h with h
    exact ⟨by rw [← h]; exact h32 _, .inl ⟨b, rfl, h.symm⟩⟩
  case str s =>
    exact ⟨by injection h with h; rw [← h]; exact h32 _, .inr ⟨s, .inl rfl, h⟩⟩
  case enum e s =>
    dsimp only at h
    by_cases hs : e.isStringEnum = true
    · rw [if_pos hs] at h
      exact ⟨by injection h with h; rw [← h]; exact h32 _, .inr ⟨s, .inr ⟨e, rfl⟩, h⟩⟩
    · rw [if_neg hs] at h; cases h

/-- C99: two passwords with the same key are a collision of Keccak-256: their encodings differ and have
the same hash. -/
theorem password_collision (keccak : Bytes → Bytes) (s s' : PStr) (k : Bytes) (hne : s ≠ s')
    (h : mkPrivkey keccak (.str s) = .ok k) (h' : mkPrivkey keccak (.str s') = .ok k) :
    utf8Enc s ≠ utf8Enc s' ∧ keccak (utf8Enc s) = keccak (utf8Enc s') := by
  refine ⟨fun e => hne (utf8Enc_inj e), ?_⟩
  have := h.trans h'.symm
  injection this

/-- C99: `ECCx(mk_privkey(seed))` always comes to an end, the same one each time whatever is generated
meanwhile; if it is a pair its private key is that of the password. -/
theorem password_pair (P : EccPrims) (keccak : Bytes → Bytes) (h32 : ∀ b, (keccak b).length = 32)
    (seed : Val) (k : Bytes) (h : mkPrivkey keccak seed = .ok k) :
    ∃ r, (∀ gen, Ends P (some k) gen r) ∧ (∀ gen r', Ends P (some k) gen r' → r' = r) ∧
      (∀ e, r = .ok e → e.priv = k) ∧
      ((∃ b pub, P.point k = .ok (b :: pub) ∧ pub.length = 64 ∧
        P.checkKey k (pub.take 32) (pub.drop 32) = 0) ↔ ∃ e, r = .ok e) := by
  have hk := (password_key keccak h32 seed k h).1
  have val : ∃ r, ∀ gen : Nat → Ecc, eccx P (some k) gen 1 = some r := by
    cases hp : privtopub P k with
    | error e => exact ⟨.error e, fun gen => by unfold eccx; simp only [hp]⟩
    | ok pub =>
      by_cases hc : P.checkKey k (pub.take 32) (pub.drop 32) < 0
      · exact ⟨.error .otherError, fun gen => by unfold eccx; simp only [hp, eccxLoop, eccInit, if_pos hc]⟩
      · refine ⟨if Ecc.hasValidKeys P ⟨k, pub.take 32, pub.drop 32⟩ then .ok ⟨k, pub.take 32, pub.drop 32⟩
          else .error .cryptoError, fun gen => ?_⟩
        unfold eccx
        simp only [hp, eccxLoop, eccInit, if_neg hc]
        rw [if_neg (by simp [hk])]
        split <;> rfl
  obtain ⟨r, hr⟩ := val
  have hends : ∀ gen, Ends P (some k) gen r := fun gen => ⟨1, hr gen⟩
  refine ⟨r, hends, fun gen r' h' => eccx_outcome_unique P _ gen _ _ h' (hends gen), ?_, ?_⟩
  · intro e he
    subst he
    exact ((eccx_valid P _ _ e (hends fun _ => ⟨[], [], []⟩)).2.2.2 k rfl).1
  · constructor
    · rintro ⟨b, pub, hp, hl, hc⟩
      have := eccx_given_partial P k pub b (fun _ => ⟨[], [], []⟩) hk hp hl hc
      exact ⟨_, (eccx_outcome_unique P _ _ _ _ this (hends _)).symm⟩
    · rintro ⟨e, rfl⟩
      obtain ⟨_, h2, h3, h4⟩ := eccx_valid P _ _ e (hends fun _ => ⟨[], [], []⟩)
      obtain ⟨h5, b, h6⟩ := h4 k rfl
      exact ⟨b, _, h6, h2, by rw [← h5]; exact h3⟩

/-- Non-vacuity: a text, its bytes, and a number. -/
example :
    let keccak : Bytes → Bytes := fun b => (b ++ List.replicate 32 0).take 32
    (∀ b, (keccak b).length = 32) ∧
    mkPrivkey keccak (.str p!"ć") = .ok (0xc4 :: 0x87 :: List.replicate 30 0) ∧
    mkPrivkey keccak (.bytes [0xc4, 0x87]) = .ok (0xc4 :: 0x87 :: List.replicate 30 0) ∧
    mkPrivkey keccak (.int 5) = .error .typeError := by
  refine ⟨fun b => by simp, ?_⟩
  decide +kernel

end Verif.Props
