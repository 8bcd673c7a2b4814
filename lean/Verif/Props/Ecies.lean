import Verif.Spec.Ecies
import Verif.Lemmas.Bytes
/-!
# C24, C25, C26, C27: ECIES and its key manager (`cryptography.py:205-365`)
-/

set_option linter.unusedSimpArgs false

namespace Verif.Props

open Verif Spec

/-! ### C27 -/

private theorem ckdfBlocks_length (X : EciesEnv) (L : EciesEnv.Laws X) (km s1 : Bytes) :
    ∀ n i, (ckdfBlocks X km s1 i n).length = 32 * n
  | 0, _ => rfl
  | n + 1, i => by
    rw [ckdfBlocks, List.length_append, L.sha256_len, ckdfBlocks_length X L km s1 n]; omega

/-- Length of the derived key: the requested one exactly for lengths up to 32 and from 57
to 64, otherwise fewer bytes.  (The library requests 32.)  Missing for the full claim:
all other lengths, refuted below. -/
theorem ckdf_length_partial (X : EciesEnv) (L : EciesEnv.Laws X) (km s1 : Bytes) (n : Nat) :
    ((ckdf X km n s1).length = n ↔ n ≤ 32 ∨ 57 ≤ n ∧ n ≤ 64) ∧ (ckdf X km n s1).length ≤ n := by
  unfold ckdf ckdfRounds
  rw [List.length_take, ckdfBlocks_length X L]
  omega

/-- Refutation: 33 requested bytes give 32. -/
theorem ckdf_length_refuted (X : EciesEnv) (L : EciesEnv.Laws X) (km s1 : Bytes) :
    (ckdf X km 33 s1).length = 32 := by
  unfold ckdf ckdfRounds
  rw [List.length_take, ckdfBlocks_length X L]
  rfl

/-! ### Derived keys -/

theorem derivedKeys_eq (X : EciesEnv) (L : EciesEnv.Laws X) (km : Bytes) :
    derivedKeys X km = .ok (cipherKey X km, macKey X km) := by
  have hb : toBE 4 1 = [0, 0, 0, 1] := by decide
  have hk : ckdf X km 32 [] = X.sha256 ([0, 0, 0, 1] ++ km) := by
    unfold ckdf
    have : ckdfRounds 32 = 1 := rfl
    rw [this]
    simp only [ckdfBlocks, Nat.zero_add, List.append_nil, hb]
    rw [List.take_of_length_le]
    rw [L.sha256_len]; exact Nat.le_refl _
  unfold derivedKeys
  simp only
  rw [hk, if_neg (by simp [L.sha256_len]), if_neg (by simp [L.sha256_len])]
  rfl

/-! ### C25 -/

/-- `decrypt` returns a text exactly if the ciphertext has at least 113 bytes, starts
with `04`, its point agrees on a 32-byte secret with the private key, and its last 32
bytes are the MAC, under the key of that secret, of everything between the point and the
tag followed by the associated data; the text is then the deciphered body. -/
theorem ecies_decrypt_decision (X : EciesEnv) (L : EciesEnv.Laws X) (data priv shared m : Bytes) :
    eciesDecrypt X data priv shared = .ok m ↔
      113 ≤ data.length ∧ data.head? = some 4 ∧
      ∃ km, X.ecdh priv (ctPoint data) = .ok km ∧ km.length = 32 ∧
        ctTag data = X.hmac (macKey X km) (ctIv data ++ ctBody data ++ shared) ∧
        m = X.aesDec (cipherKey X km) (ctIv data) (ctBody data) := by
  have hhead : data.take 1 = [4] ↔ data.head? = some 4 := by
    cases data with
    | nil => simp
    | cons x xs => simp
  have hmid : 113 ≤ data.length →
      (data.take (data.length - 32)).drop 65 = ctIv data ++ ctBody data ∧
      (data.take (data.length - 32)).drop 81 = ctBody data := by
    intro hl
    unfold ctIv ctBody
    constructor
    · rw [List.drop_take]
      have e : data.length - 32 - 65 = 16 + (data.length - 113) := by omega
      rw [e, List.take_add, List.drop_drop]
    · rw [List.drop_take]
      congr 1
  unfold eciesDecrypt
  by_cases h4 : data.take 1 = [4]
  rotate_left
  · rw [if_pos h4]
    constructor
    · intro h; cases h
    · rintro ⟨_, h, _⟩; exact absurd (hhead.mpr h) h4
  rw [if_neg (by simpa using h4)]
  cases hk : X.ecdh priv (data.take 65) with
  | error e =>
    simp only
    constructor
    · intro h; cases h
    · rintro ⟨_, _, km, h, _⟩
      unfold ctPoint at h; rw [hk] at h; cases h
  | ok km =>
    simp only
    by_cases hkl : km.length = 32
    rotate_left
    · rw [if_pos hkl]
      constructor
      · intro h; cases h
      · rintro ⟨_, _, km', h, hl, _⟩
        unfold ctPoint at h; rw [hk] at h; injection h with h; subst h; exact absurd hl hkl
    rw [if_neg (by simpa using hkl), derivedKeys_eq X L]
    simp only [List.length_drop, List.length_take]
    by_cases hl : 113 ≤ data.length
    rotate_left
    · constructor
      · intro h
        split at h
        · cases h
        · split at h
          · cases h
          · split at h
            · cases h
            · split at h
              · cases h
              · omega
      · rintro ⟨h, _⟩; exact absurd h hl
    obtain ⟨m1, m2⟩ := hmid hl
    rw [m1, m2, if_neg (by omega)]
    by_cases hm : X.hmac (macKey X km) (ctIv data ++ ctBody data ++ shared) = ctTag data
    rotate_left
    · rw [if_pos (by simpa [ctTag] using hm)]
      constructor
      · intro h; cases h
      · rintro ⟨_, _, km', h, _, ht, _⟩
        unfold ctPoint at h; rw [hk] at h; injection h with h; subst h
        exact absurd ht.symm hm
    rw [if_neg (by simpa [ctTag] using hm), if_neg (by omega), if_neg (by simp [ctBody]; omega)]
    rw [if_neg (by rw [L.dec_len]; simp [ctBody]; omega)]
    constructor
    · intro h
      injection h with h
      exact ⟨hl, hhead.mp h4, km, hk, hkl, hm.symm, h.symm⟩
    · rintro ⟨_, _, km', h, _, _, hmm⟩
      unfold ctPoint at h; rw [hk] at h; injection h with h; subst h
      rw [hmm]; rfl

/-- Integrity: two accepted ciphertexts with the same point and the same tag carry, under
the MAC key of that point's secret, equal MACs of what they authenticate.  So a ciphertext
with modified IV, body or associated data and the original tag is accepted only in case of
a MAC collision. -/
theorem ecies_tamper (X : EciesEnv) (L : EciesEnv.Laws X) (d1 d2 priv s1 s2 m1 m2 : Bytes)
    (h1 : eciesDecrypt X d1 priv s1 = .ok m1) (h2 : eciesDecrypt X d2 priv s2 = .ok m2)
    (hp : ctPoint d1 = ctPoint d2) (ht : ctTag d1 = ctTag d2) :
    ∃ km, X.ecdh priv (ctPoint d1) = .ok km ∧
      X.hmac (macKey X km) (ctIv d1 ++ ctBody d1 ++ s1) =
        X.hmac (macKey X km) (ctIv d2 ++ ctBody d2 ++ s2) := by
  obtain ⟨_, _, km, hk, _, a, _⟩ := (ecies_decrypt_decision X L _ _ _ _).mp h1
  obtain ⟨_, _, km', hk', _, b, _⟩ := (ecies_decrypt_decision X L _ _ _ _).mp h2
  rw [hp, hk'] at hk
  injection hk with hk
  subst hk
  exact ⟨km', by rw [hp, hk'], by rw [← a, ht, b]⟩

/-! ### C24 -/

/-- Round trip and overhead: for key pairs that agree, encryption of any data to the
recipient's public key with any 16-byte IV succeeds, is 113 bytes longer than the data,
and decrypts to the data with the same associated data. -/
theorem ecies_round_trip (X : EciesEnv) (L : EciesEnv.Laws X) (e p iv data shared : Bytes)
    (A : EciesEnv.Agree X e p) (hiv : iv.length = 16) :
    ∃ ct, eciesEncrypt X e iv data ((X.pub p).drop 1) shared = .ok ct ∧
      ct.length = data.length + 113 ∧ eciesDecrypt X ct p shared = .ok data := by
  obtain ⟨raw, hpub, hraw⟩ := A.pub_e
  obtain ⟨c, km, hc, he, hd, hkl⟩ := A.secret
  have hkeys : ephemKeys X e ((X.pub p).drop 1) = .ok (cipherKey X km, macKey X km, X.pub e) := by
    unfold ephemKeys
    rw [hc]; simp only
    rw [he]; simp only
    rw [if_neg (by simpa using hkl), derivedKeys_eq X L]
  have hpl : (X.pub e).length = 65 := by rw [hpub]; simp [hraw]
  let ct := X.aesEnc (cipherKey X km) iv data
  have hcl : ct.length = data.length := L.enc_len _ _ _
  have hdrop : (X.pub e ++ iv ++ ct).drop 65 = iv ++ ct := by
    rw [List.append_assoc, ← hpl, List.drop_left]
  let tag := X.hmac (macKey X km) (iv ++ ct ++ shared)
  have htl : tag.length = 32 := L.hmac_len _ _
  let out := X.pub e ++ iv ++ ct ++ tag
  have hol : out.length = data.length + 113 := by
    simp only [out, List.length_append, hpl, hiv, hcl, htl]; omega
  have henc : eciesEncrypt X e iv data ((X.pub p).drop 1) shared = .ok out := by
    unfold eciesEncrypt
    rw [hkeys]
    simp only
    unfold eciesSeal
    rw [if_neg (by simpa using hiv)]
    simp only
    rw [if_neg (by simpa using L.enc_len _ _ _), hdrop, if_neg (by simpa using L.hmac_len _ _),
      if_neg]
    rw [Decidable.not_not]
    rw [show (X.pub e ++ iv ++ X.aesEnc (cipherKey X km) iv data ++ X.hmac (macKey X km)
      (iv ++ ct ++ shared)) = out from rfl, hol]
    omega
  refine ⟨out, henc, hol, ?_⟩
  rw [ecies_decrypt_decision X L]
  have p1 : ctPoint out = X.pub e := by
    simp only [ctPoint, out, List.append_assoc]
    rw [← hpl, List.take_left]
  have d65 : out.drop 65 = iv ++ (ct ++ tag) := by
    simp only [out, List.append_assoc]
    rw [← hpl, List.drop_left]
  have p2 : ctIv out = iv := by
    rw [ctIv, d65, ← hiv, List.take_left]
  have d81 : out.drop 81 = ct ++ tag := by
    have : out.drop 81 = (out.drop 65).drop 16 := by rw [List.drop_drop]
    rw [this, d65, ← hiv, List.drop_left]
  have p3 : ctBody out = ct := by
    rw [ctBody, d81, hol]
    have : data.length + 113 - 113 = ct.length := by omega
    rw [this, List.take_left]
  have p4 : ctTag out = tag := by
    rw [ctTag, hol]
    have : data.length + 113 - 32 = (X.pub e ++ iv ++ ct).length := by
      simp only [List.length_append, hpl, hiv, hcl]; omega
    rw [this]
    simp only [out]
    rw [List.drop_left]
  refine ⟨by omega, ?_, km, ?_, hkl, ?_, ?_⟩
  · simp only [out, hpub]; rfl
  · rw [p1]; exact hd
  · rw [p2, p3, p4]
  · rw [p2, p3]; exact (L.dec_enc _ _ _).symm

/-- The exact layout of a ciphertext: point, IV, body, tag, under the keys of the secret that the
ephemeral key and the recipient's share. -/
theorem ecies_encrypt_layout (X : EciesEnv) (L : EciesEnv.Laws X) (e p iv data shared ct : Bytes)
    (h : eciesEncrypt X e iv data p shared = .ok ct) :
    iv.length = 16 ∧ (X.pub e).length = 65 ∧
    ∃ pk km body, X.compress p = .ok pk ∧ X.ecdh e pk = .ok km ∧ km.length = 32 ∧
      body = X.aesEnc (cipherKey X km) iv data ∧
      ct = X.pub e ++ iv ++ body ++ X.hmac (macKey X km) (iv ++ body ++ shared) := by
  unfold eciesEncrypt at h
  cases hk : ephemKeys X e p with
  | error er => rw [hk] at h; cases h
  | ok keys =>
    rw [hk] at h
    simp only at h
    unfold ephemKeys at hk
    split at hk
    · cases hk
    rename_i pk hpk
    split at hk
    · cases hk
    rename_i km hkm
    split at hk
    · cases hk
    rename_i hkl
    simp only [ne_eq, Decidable.not_not] at hkl
    rw [derivedKeys_eq X L] at hk
    injection hk with hk
    subst hk
    unfold eciesSeal at h
    split at h
    · cases h
    rename_i hiv
    simp only [ne_eq, Decidable.not_not] at hiv
    simp only at h
    split at h
    · cases h
    split at h
    · cases h
    split at h
    · cases h
    rename_i hlen
    injection h with h
    simp only [ne_eq, Decidable.not_not, List.length_append, L.enc_len, L.hmac_len, hiv] at hlen
    have hpl : (X.pub e).length = 65 := by omega
    refine ⟨hiv, hpl, pk, km, _, hpk, hkm, hkl, rfl, ?_⟩
    have hdrop : (X.pub e ++ iv ++ X.aesEnc (cipherKey X km) iv data).drop 65 =
        iv ++ X.aesEnc (cipherKey X km) iv data := by
      rw [List.append_assoc, ← hpl, List.drop_left]
    rw [hdrop] at h
    exact h.symm

/-- A toy environment that satisfies the laws. -/
def toyX : EciesEnv where
  pub k := 4 :: (List.replicate 32 0 ++ (k ++ List.replicate 32 0).take 32)
  ecdh k p := .ok (((k ++ List.replicate 32 0).take 32).zipWith (· + ·)
    (((p.drop 33) ++ List.replicate 32 0).take 32))
  compress raw := .ok (4 :: raw)
  sha256 b := (b ++ List.replicate 32 0).take 32
  hmac k b := ((k ++ b) ++ List.replicate 32 0).take 32
  aesEnc k _ b := b.map (· + k.headD 0)
  aesDec k _ b := b.map (· - k.headD 0)

theorem toyX_laws : EciesEnv.Laws toyX where
  sha256_len b := by simp [toyX]
  hmac_len k b := by simp [toyX]; omega
  enc_len k iv b := by simp [toyX]
  dec_len k iv b := by simp [toyX]
  dec_enc k iv b := by simp [toyX, Function.comp_def]

private theorem zipWith_add_comm (a b : Bytes) : a.zipWith (· + ·) b = b.zipWith (· + ·) a := by
  rw [List.zipWith_comm]
  congr 1
  funext x y
  exact UInt8.add_comm _ _

theorem toyX_agree (e p : Bytes) : EciesEnv.Agree toyX e p where
  pub_e := ⟨_, rfl, by simp⟩
  secret := by
    have h : ∀ k : Bytes, (((toyX.pub k).drop 33 ++ List.replicate 32 0).take 32 : Bytes) =
        (k ++ List.replicate 32 0).take 32 := by
      intro k
      have : (toyX.pub k).drop 33 = (k ++ List.replicate 32 0).take 32 := by
        simp [toyX]
      rw [this, List.take_append_of_le_length (by simp)]
      rw [List.take_of_length_le (by simp)]
    refine ⟨toyX.pub p, _, rfl, rfl, ?_, ?_⟩
    · simp only [toyX] at h ⊢
      rw [h, h, zipWith_add_comm]
    · simp [toyX]

/-- Non-vacuity: the hypotheses of the round trip are met by the toy environment, and
decryption accepts and refuses. -/
example (data shared : Bytes) :
    ∃ ct, eciesEncrypt toyX [1] (List.replicate 16 9) data ((toyX.pub [2]).drop 1) shared = .ok ct ∧
      ct.length = data.length + 113 ∧ eciesDecrypt toyX ct [2] shared = .ok data :=
  ecies_round_trip toyX toyX_laws [1] [2] (List.replicate 16 9) data shared (toyX_agree [1] [2])
    (by simp)

example : eciesDecrypt toyX (5 :: List.replicate 120 0) [2] [] = .error .decryptionError := by
  decide

/-! ### C26 -/

/-- A sequence of call times does not go backwards. -/
def Monotone (start : Int) : List (Nat × Bytes × Int) → Prop
  | [] => True
  | (_, _, t) :: rest => start ≤ t ∧ Monotone t rest

/-- A fresh process: empty cache, no key drawn; manager `i` was created at time
`created i`. -/
def fresh (created : Nat → Int) : KeyState := ⟨[], created, 0⟩

/-- Invariant of the key cache at time `T`. -/
private structure Inv (created : Nat → Int) (s : KeyState) (T : Int) : Prop where
  entry : ∀ e ∈ s.cache, s.lastCleanup e.mgr ≤ e.created ∧ e.created ≤ T ∧ e.key < s.drawn
  last : ∀ m, s.lastCleanup m = created m ∨ s.lastCleanup m ≤ T
  uniq : ∀ e ∈ s.cache, ∀ f ∈ s.cache, e.key = f.key → e = f

private theorem Inv.mono {created : Nat → Int} {s : KeyState} {T T' : Int} (h : Inv created s T)
    (ht : T ≤ T') : Inv created s T' where
  entry e he := ⟨(h.entry e he).1, by have := (h.entry e he).2.1; omega, (h.entry e he).2.2⟩
  last m := (h.last m).imp id fun x => by omega
  uniq := h.uniq

/-- One call, by cases: either an entry of the cache for the same manager and key is used
and the cache holds the same entries, or a new key is drawn. -/
private theorem call_cases (timeout : Int) (s : KeyState) (m : Nat) (k : Bytes) (now : Int) :
    (∃ e ∈ s.cache, e.mgr = m ∧ e.pubkey = k ∧ (s.call timeout m k now).1 = e ∧
      (s.call timeout m k now).2.lastCleanup = s.lastCleanup ∧
      (s.call timeout m k now).2.drawn = s.drawn ∧
      e ∈ (s.call timeout m k now).2.cache ∧
      ∀ x ∈ (s.call timeout m k now).2.cache, x ∈ s.cache) ∨
    ((s.call timeout m k now).1 = ⟨m, k, s.drawn, now⟩ ∧
      (s.call timeout m k now).2.drawn = s.drawn + 1 ∧
      ⟨m, k, s.drawn, now⟩ ∈ (s.call timeout m k now).2.cache ∧
      ((s.lastCleanup m < now - timeout ∧
        (s.call timeout m k now).2.cache = [⟨m, k, s.drawn, now⟩] ∧
        (s.call timeout m k now).2.lastCleanup = fun i => if i = m then now else s.lastCleanup i) ∨
       (now - timeout ≤ s.lastCleanup m ∧
        (s.call timeout m k now).2.lastCleanup = s.lastCleanup ∧
        ∀ x ∈ (s.call timeout m k now).2.cache, x = ⟨m, k, s.drawn, now⟩ ∨ x ∈ s.cache))) := by
  unfold KeyState.call
  cases hf : s.cache.find? fun e => e.mgr == m && e.pubkey == k with
  | some e =>
    left
    have hm := List.mem_of_find?_eq_some hf
    have hp := List.find?_some hf
    simp only [Bool.and_eq_true, beq_iff_eq] at hp
    refine ⟨e, hm, hp.1, hp.2, rfl, rfl, rfl, List.mem_cons_self, ?_⟩
    intro x hx
    rcases List.mem_cons.mp hx with rfl | hx
    · exact hm
    · exact (List.mem_filter.mp hx).1
  | none =>
    right
    simp only
    by_cases hc : s.lastCleanup m < now - timeout
    · rw [if_pos hc]
      exact ⟨rfl, rfl, List.mem_cons_self, Or.inl ⟨hc, rfl, rfl⟩⟩
    · rw [if_neg hc]
      refine ⟨rfl, rfl, ?_, Or.inr ⟨by omega, rfl, ?_⟩⟩
      · simp [cacheSize]
      · intro x hx
        rcases List.mem_cons.mp (List.mem_of_mem_take hx) with h | h
        · exact Or.inl h
        · exact Or.inr h

private theorem Inv.call {created : Nat → Int} {s : KeyState} {T : Int} (h : Inv created s T)
    (timeout : Int) (m : Nat) (k : Bytes) (now : Int) (ht : T ≤ now) (hm : created m ≤ now) :
    Inv created (s.call timeout m k now).2 now := by
  have hlm : s.lastCleanup m ≤ now := by
    rcases h.last m with e | e <;> omega
  rcases call_cases timeout s m k now with
    ⟨e, he, _, _, _, hl, hd, _, hsub⟩ | ⟨_, hd, _, (⟨_, hcache, hl⟩ | ⟨_, hl, hsub⟩)⟩
  · constructor
    · intro x hx
      have := (h.mono ht).entry x (hsub x hx)
      rw [hl, hd]; exact this
    · intro i; rw [hl]; exact (h.mono ht).last i
    · intro x hx y hy; exact h.uniq x (hsub x hx) y (hsub y hy)
  · constructor
    · intro x hx
      rw [hcache] at hx
      simp at hx
      subst hx
      rw [hl, hd]
      simp
    · intro i
      rw [hl]
      simp only
      split
      · exact Or.inr (Int.le_refl _)
      · exact (h.mono ht).last i
    · intro x hx y hy _
      rw [hcache] at hx hy
      simp at hx hy
      rw [hx, hy]
  · constructor
    · intro x hx
      rw [hl, hd]
      rcases hsub x hx with rfl | hx
      · exact ⟨hlm, Int.le_refl _, by simp⟩
      · have := (h.mono ht).entry x hx
        exact ⟨this.1, this.2.1, by omega⟩
    · intro i; rw [hl]; exact (h.mono ht).last i
    · intro x hx y hy e
      rcases hsub x hx with rfl | hx <;> rcases hsub y hy with rfl | hy
      · rfl
      · have := (h.entry y hy).2.2; simp at e; omega
      · have := (h.entry x hx).2.2; simp at e; omega
      · exact h.uniq x hx y hy e

private theorem Inv.run {created : Nat → Int} (timeout : Int) (rest l : List (Nat × Bytes × Int)) :
    ∀ {s : KeyState} {T : Int}, Inv created s T → Monotone T (l ++ rest) →
      (∀ c ∈ l, created c.1 ≤ c.2.2) →
      ∃ T', Inv created (s.run timeout l).2 T' ∧ Monotone T' rest := by
  induction l with
  | nil => intro s T h hm _; exact ⟨T, h, hm⟩
  | cons c rest' ih =>
    obtain ⟨m, k, t⟩ := c
    intro s T h hm hc
    exact ih (h.call timeout m k t hm.1 (hc (m, k, t) (by simp))) hm.2
      (fun c hc' => hc c (by simp [hc']))

private theorem fresh_inv (created : Nat → Int) (T : Int) : Inv created (fresh created) T where
  entry e he := by simp [fresh] at he
  last m := Or.inl rfl
  uniq e he := by simp [fresh] at he

/-- While the clean-up time of `m` is at least `a`, every key used by `m` is younger. -/
private theorem run_created {created : Nat → Int} (timeout : Int) (m : Nat) (a : Int)
    (ht : 0 ≤ timeout) (l : List (Nat × Bytes × Int)) :
    ∀ {s : KeyState} {T : Int}, Inv created s T → Monotone T l → (∀ c ∈ l, created c.1 ≤ c.2.2) →
      a ≤ s.lastCleanup m → ∀ u ∈ (s.run timeout l).1, u.2.mgr = m → a ≤ u.2.created := by
  induction l with
  | nil => intro s T _ _ _ _ u hu; simp [KeyState.run] at hu
  | cons c rest ih =>
    obtain ⟨m', k, t⟩ := c
    intro s T h hm hc ha u hu hum
    have h' := h.call timeout m' k t hm.1 (hc (m', k, t) (by simp))
    have hc' := call_cases timeout s m' k t
    have ha' : a ≤ (s.call timeout m' k t).2.lastCleanup m := by
      rcases hc' with ⟨_, _, _, _, _, hl, _⟩ | ⟨_, _, _, (⟨hlt, _, hl⟩ | ⟨_, hl, _⟩)⟩
      · rw [hl]; exact ha
      · rw [hl]
        simp only
        split
        · rename_i e; rw [← e] at hlt; omega
        · exact ha
      · rw [hl]; exact ha
    have hin : (s.call timeout m' k t).1 ∈ (s.call timeout m' k t).2.cache := by
      rcases hc' with ⟨e, _, _, _, he, _, _, hin, _⟩ | ⟨he, _, hin, _⟩
      · rw [he]; exact hin
      · rw [he]; exact hin
    simp only [KeyState.run] at hu
    rcases List.mem_cons.mp hu with rfl | hu
    · have := (h'.entry _ hin).1
      simp only at hum ⊢
      rw [hum] at this
      omega
    · exact ih h' hm.2 (fun c hc'' => hc c (by simp [hc''])) ha' u hu hum

/-- Expiry, as far as it holds: whenever a manager draws a new key at time `t`, from then
on it uses no key created more than `timeout` before `t`.  Equivalently, a key used after
its time means that its manager has drawn no key since the key expired.  Holds for every
schedule of calls by any number of managers with a clock that does not go backwards.
Missing for the full claim: a call that finds its key in the cache does not check the
age, refuted below. -/
theorem ephem_expiry_partial (created : Nat → Int) (timeout T : Int) (ht : 0 ≤ timeout)
    (before after : List (Nat × Bytes × Int)) (m : Nat) (k : Bytes) (t : Int)
    (hm : Monotone T (before ++ (m, k, t) :: after))
    (hc : ∀ c ∈ before ++ (m, k, t) :: after, created c.1 ≤ c.2.2) :
    let s := ((fresh created).run timeout before).2
    let s' := (s.call timeout m k t).2
    s'.drawn ≠ s.drawn →
    ∀ u ∈ (s'.run timeout after).1, u.2.mgr = m → t - timeout ≤ u.2.created := by
  intro s s' hd
  obtain ⟨T', hi, hm'⟩ := Inv.run timeout ((m, k, t) :: after) before (fresh_inv created T) hm
    (fun c hx => hc c (by simp [hx]))
  refine run_created timeout m (t - timeout) ht after
    (hi.call timeout m k t hm'.1 (hc (m, k, t) (by simp))) hm'.2 (fun c hx => hc c (by simp [hx])) ?_
  rcases call_cases timeout s m k t with
    ⟨_, _, _, _, _, _, hdd, _⟩ | ⟨_, _, _, (⟨_, _, hl⟩ | ⟨hle, hl, _⟩)⟩
  · exact absurd hdd hd
  · show t - timeout ≤ s'.lastCleanup m
    rw [hl]; simp; omega
  · show t - timeout ≤ s'.lastCleanup m
    rw [hl]; exact hle

/-- Refutation: with any timeout, a key created at time 0 is still used at any later
time `t`, if the same recipient was the only one in between. -/
theorem ephem_expiry_refuted (timeout t : Int) (k : Bytes) (h0 : 0 ≤ timeout) :
    ((fresh fun _ => 0).run timeout [(0, k, 0), (0, k, t)]).1 =
      [(0, ⟨0, k, 0, 0⟩), (t, ⟨0, k, 0, 0⟩)] := by
  have : ¬ (timeout < 0) := by omega
  simp [KeyState.run, KeyState.call, fresh, cacheSize, this]

/-- Every call uses a key created for the same manager and recipient, and keys are not
shared: two uses of one key are uses of the same entry (same manager, recipient and time
of creation). -/
theorem ephem_keys_separate (created : Nat → Int) (timeout T : Int)
    (l : List (Nat × Bytes × Int)) (hm : Monotone T l) (hc : ∀ c ∈ l, created c.1 ≤ c.2.2) :
    (((fresh created).run timeout l).1.map fun u => (u.2.mgr, u.2.pubkey, u.1)) = l ∧
    (∀ u ∈ ((fresh created).run timeout l).1, u.2.created ≤ u.1) ∧
    ∀ u ∈ ((fresh created).run timeout l).1, ∀ v ∈ ((fresh created).run timeout l).1,
      u.2.key = v.2.key → u.2 = v.2 := by
  have key : ∀ (l : List (Nat × Bytes × Int)) {s : KeyState} {T : Int}, Inv created s T →
      Monotone T l → (∀ c ∈ l, created c.1 ≤ c.2.2) →
      ((s.run timeout l).1.map fun u => (u.2.mgr, u.2.pubkey, u.1)) = l ∧
      (∀ u ∈ (s.run timeout l).1, u.2.created ≤ u.1) ∧
      (∀ u ∈ (s.run timeout l).1, u.2 ∈ s.cache ∨ s.drawn ≤ u.2.key) ∧
      ∀ u ∈ (s.run timeout l).1, ∀ v ∈ (s.run timeout l).1, u.2.key = v.2.key → u.2 = v.2 := by
    intro l
    induction l with
    | nil => intro s T _ _ _; simp [KeyState.run]
    | cons c rest ih =>
      obtain ⟨m, k, t⟩ := c
      intro s T h hm hc
      have h' := h.call timeout m k t hm.1 (hc (m, k, t) (by simp))
      obtain ⟨i1, i2, i3, i4⟩ := ih h' hm.2 (fun c hx => hc c (by simp [hx]))
      have hcc := call_cases timeout s m k t
      have hin : (s.call timeout m k t).1 ∈ (s.call timeout m k t).2.cache := by
        rcases hcc with ⟨e, _, _, _, he, _, _, hin, _⟩ | ⟨he, _, hin, _⟩
        · rw [he]; exact hin
        · rw [he]; exact hin
      have hself : (s.call timeout m k t).1.mgr = m ∧ (s.call timeout m k t).1.pubkey = k ∧
          ((s.call timeout m k t).1 ∈ s.cache ∨ s.drawn ≤ (s.call timeout m k t).1.key) := by
        rcases hcc with ⟨e, hm, h1, h2, he, _⟩ | ⟨he, _⟩
        · rw [he]; exact ⟨h1, h2, Or.inl hm⟩
        · rw [he]; exact ⟨rfl, rfl, Or.inr (Nat.le_refl _)⟩
      have hsub : ∀ x ∈ (s.call timeout m k t).2.cache, x ∈ s.cache ∨ s.drawn ≤ x.key := by
        intro x hx
        rcases hcc with ⟨e, _, _, _, _, _, _, _, hs⟩ | ⟨_, _, _, (⟨_, hs, _⟩ | ⟨_, _, hs⟩)⟩
        · exact Or.inl (hs x hx)
        · rw [hs] at hx; simp at hx; rw [hx]; exact Or.inr (Nat.le_refl _)
        · rcases hs x hx with rfl | hx
          · exact Or.inr (Nat.le_refl _)
          · exact Or.inl hx
      have hdr : s.drawn ≤ (s.call timeout m k t).2.drawn := by
        rcases hcc with ⟨e, _, _, _, _, _, hd, _⟩ | ⟨_, hd, _⟩ <;> omega
      have cross : ∀ v ∈ ((s.call timeout m k t).2.run timeout rest).1,
          (s.call timeout m k t).1.key = v.2.key → (s.call timeout m k t).1 = v.2 := by
        intro v hv e
        rcases i3 v hv with hvc | hvd
        · exact h'.uniq _ hin _ hvc e
        · have := (h'.entry _ hin).2.2; omega
      simp only [KeyState.run]
      refine ⟨?_, ?_, ?_, ?_⟩
      · simp [i1, hself.1, hself.2.1]
      · intro u hu
        rcases List.mem_cons.mp hu with rfl | hu
        · exact (h'.entry _ hin).2.1
        · exact i2 u hu
      · intro u hu
        rcases List.mem_cons.mp hu with rfl | hu
        · exact hself.2.2
        · rcases i3 u hu with hx | hx
          · exact hsub _ hx
          · exact Or.inr (by omega)
      · intro u hu v hv e
        rcases List.mem_cons.mp hu with rfl | hu <;> rcases List.mem_cons.mp hv with rfl | hv
        · rfl
        · exact cross v hv e
        · exact (cross u hu e.symm).symm
        · exact i4 u hu v hv e
  obtain ⟨a, b, _, d⟩ := key l (fresh_inv created T) hm hc
  exact ⟨a, b, d⟩

/-- Non-vacuity: after an hour a second recipient makes the first one's key be replaced. -/
example : ((fresh fun _ => 0).run 3600 [(0, [1], 0), (0, [2], 4000), (0, [1], 4001)]).1 =
    [(0, ⟨0, [1], 0, 0⟩), (4000, ⟨0, [2], 1, 4000⟩), (4001, ⟨0, [1], 2, 4001⟩)] := by decide

end Verif.Props
