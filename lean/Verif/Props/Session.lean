import Verif.Model.Session
import Verif.Props.Ecies
import Verif.Props.RoundTrip
import Verif.Lemmas.Load
import Verif.Lemmas.Slots
import Verif.Lemmas.Toy
import Verif.Props.Auth
/-!
# C66, C67: sending and receiving encrypted messages (`shortcuts.py`, `cryptography.py:205-365`)
-/

namespace Verif.Props

open Verif Spec

/-! ### C66: the key manager with its cached keys -/

/-- Every cached triple is what its recipient's public key and one of the keys drawn so far
give. -/
private def Made (X : EciesEnv) (draw : Nat → Bytes) (s : LiveKeys) : Prop :=
  ∀ e ∈ s.cache, ∃ i, i < s.drawn ∧ ephemKeys X (draw i) e.pubkey = .ok e.keys

private theorem cleaned_cache {timeout : Int} {s : LiveKeys} {mgr : Nat} {now : Int} {e : LiveEntry}
    (h : e ∈ (s.cleaned timeout mgr now).cache) : e ∈ s.cache := by
  unfold LiveKeys.cleaned at h
  split at h
  · cases h
  · exact h

private theorem ephemKey_made {X : EciesEnv} {draw : Nat → Bytes} {timeout : Int} {s : LiveKeys}
    (h : Made X draw s) (mgr : Nat) (k : Bytes) (now : Int) :
    Made X draw (s.ephemKey X draw timeout mgr k now).2 ∧
    s.drawn ≤ (s.ephemKey X draw timeout mgr k now).2.drawn ∧
    ∀ keys, (s.ephemKey X draw timeout mgr k now).1 = .ok keys →
      ∃ i, i < (s.ephemKey X draw timeout mgr k now).2.drawn ∧
        ephemKeys X (draw i) k = .ok keys := by
  unfold LiveKeys.ephemKey
  split
  · rename_i e he
    have hm := List.mem_of_find?_eq_some he
    have hk := List.find?_some he
    simp only [Bool.and_eq_true, beq_iff_eq] at hk
    refine ⟨?_, Nat.le_refl _, ?_⟩
    · intro x hx
      simp only [List.mem_cons] at hx
      rcases hx with rfl | hx
      · exact h _ hm
      · exact h _ (List.mem_filter.mp hx).1
    · intro keys hkeys
      injection hkeys with hkeys
      obtain ⟨i, hi, hx⟩ := h e hm
      rw [hk.2] at hx
      exact ⟨i, hi, by rw [hx, hkeys]⟩
  · simp only
    split
    · refine ⟨?_, Nat.le_succ _, ?_⟩
      · intro x hx
        obtain ⟨i, hi, hx⟩ := h x (cleaned_cache hx)
        exact ⟨i, Nat.lt_succ_of_lt hi, hx⟩
      · intro keys hk; cases hk
    · rename_i keys hk
      refine ⟨?_, Nat.le_succ _, ?_⟩
      · intro x hx
        have hx := List.mem_of_mem_take hx
        simp only [List.mem_cons] at hx
        rcases hx with rfl | hx
        · exact ⟨s.drawn, Nat.lt_succ_self _, hk⟩
        · obtain ⟨i, hi, hx⟩ := h x (cleaned_cache hx)
          exact ⟨i, Nat.lt_succ_of_lt hi, hx⟩
      · intro keys' hk'
        injection hk' with hk'
        subst hk'
        exact ⟨s.drawn, Nat.lt_succ_self _, hk⟩

private theorem encrypt_made {X : EciesEnv} {draw : Nat → Bytes} {timeout : Int} {s : LiveKeys}
    (h : Made X draw s) (mgr : Nat) (now : Int) (iv k data : Bytes) :
    Made X draw (s.encrypt X draw timeout mgr now iv k data).2 ∧
    ∀ c, (s.encrypt X draw timeout mgr now iv k data).1 = .ok c →
      ∃ i, eciesEncrypt X (draw i) iv data k [] = .ok c := by
  have := ephemKey_made h mgr k now (timeout := timeout)
  unfold LiveKeys.encrypt
  cases hx : s.ephemKey X draw timeout mgr k now with
  | mk r s' =>
    rw [hx] at this
    cases r with
    | error e => exact ⟨this.1, fun c hc => by cases hc⟩
    | ok keys =>
      refine ⟨this.1, fun c hc => ?_⟩
      obtain ⟨i, _, hi⟩ := this.2.2 keys rfl
      exact ⟨i, by unfold eciesEncrypt; rw [hi]; exact hc⟩

private theorem sendRun_made {E : Env} {X : EciesEnv} {draw : Nat → Bytes} {timeout : Int} :
    ∀ (l : List Send) {s : LiveKeys}, Made X draw s → Made X draw (sendRun E X draw timeout s l)
  | [], _, h => h
  | a :: rest, s, h => by
    unfold sendRun
    refine sendRun_made rest ?_
    unfold sendStep
    dsimp only
    split
    · exact (encrypt_made h _ _ _ _ _).1
    · exact h

/-- Whatever was sent before, and whenever: a successful encryption for `k` is one under a key drawn
by this process and agreed with `k`. -/
theorem session_seals (E : Env) (X : EciesEnv) (draw : Nat → Bytes) (timeout : Int)
    (created : Nat → Int) (history : List Send) (mgr : Nat) (now : Int) (iv k data c : Bytes)
    (h : ((sendRun E X draw timeout (.fresh created) history).encrypt X draw timeout mgr now
      iv k data).1 = .ok c) :
    ∃ i, eciesEncrypt X (draw i) iv data k [] = .ok c :=
  (encrypt_made (sendRun_made history (fun e he => by cases he)) mgr now iv k data).2 c h

/-- What `dump` gives depends on the encryption function only through its value on the payload that
`encryptArg` names (and on none if it names none). -/
theorem dump_encrypts_once (E : Env) (f g : Bytes → Bytes → Res Bytes) (m : Msg)
    (priv pub : Option Bytes)
    (h : ∀ k p, givenKey pub = some k → encryptArg E m priv true = some p → f k p = g k p) :
    dump E f m priv pub = dump E g m priv pub := by
  have base : serializeBase E m priv ((givenKey pub).map f) =
      serializeBase E m priv ((givenKey pub).map g) := by
    cases hk : givenKey pub with
    | none => rfl
    | some k =>
      have h := fun p => h k p hk
      unfold encryptArg at h
      unfold serializeBase
      simp only [Option.map_some, Option.isSome_some, Bool.and_true] at h ⊢
      split
      · rfl
      rename_i hg
      rw [if_neg hg] at h
      split
      · rfl
      rename_i s hs
      rw [hs] at h
      simp only at h
      split
      · rfl
      rename_i p hp
      rw [hp] at h
      simp only at h
      split
      · rfl
      rename_i m2 hm2
      rw [hm2] at h
      simp only at h
      by_cases ht : m2.enc.truthy = true
      · rw [if_pos ht] at h
        rw [if_pos ht, if_pos ht]
        simp only
        rw [h p rfl]
      · rw [if_neg ht, if_neg ht]
  unfold dump serialize
  rw [base]

/-- C66 (partial): in a process that has sent any messages to anybody at any times, with whatever
outcomes, a frame dumped for a recipient whose key agrees with the keys drawn is loaded by that
recipient as it was left by `dump`, unless the validation of its class refuses it.  Missing, because
false: as in C02 (`dump_load_roundtrip_partial`). -/
theorem session_delivers_partial (E : Env) (X : EciesEnv) (L : EciesEnv.Laws X)
    (draw : Nat → Bytes) (timeout : Int) (created : Nat → Int) (history : List Send) (a : Send)
    (rpriv : Bytes) (m' : Msg) (b : Bytes) (t : Nat) (ct : Bool) (now : Int)
    (A : ∀ i, EciesEnv.Agree X (draw i) rpriv)
    (hne : rpriv ≠ [])
    (hpub : a.pubkey = some ((X.pub rpriv).drop 1))
    (hdump : (sendStep E X draw timeout (sendRun E X draw timeout (.fresh created) history) a).1 =
      (.ok b, m'))
    (hw : WellTypedMsg E a.msg)
    (hty : a.msg.ty = .int a.msg.cls.typeId) (hts : a.msg.ts = .int t)
    (hrange : minTimestamp < t ∧ t < maxTimestamp)
    (htime : ct = true → verifyTime now t = .ok ())
    (hsg : ∀ s, m'.sig = .bytes s → s.length = 65)
    (hver : ∀ v, getAttr a.msg.attrs p!"_version" = .str v → a.msg.cls = .Hello →
      v.length ≤ 31 ∧ (∀ c ∈ v, c.toNat < 128) ∧ verifyVersion E.version v = .ok ()) :
    (m'.cls = a.msg.cls ∧ m'.ty = a.msg.ty ∧ m'.ts = a.msg.ts ∧ m'.attrs = a.msg.attrs ∧
      (a.msg.sig ≠ .none → m'.sig = a.msg.sig)) ∧
    (load E (fun k c => eciesDecrypt X c k []) (some b) (some rpriv) none ct now).2 =
      taskChecks E m' := by
  refine dump_load_roundtrip_partial E _ _ a.msg m' a.privkey a.pubkey (some rpriv) b t ct now
    hdump hw hty hts hrange htime hsg hver ?_
  intro k p c hk hc
  obtain ⟨i, hi⟩ := session_seals E X draw timeout created history 0 a.now a.iv k p c hc
  rw [hpub] at hk
  injection hk with hk
  subst hk
  have hiv : a.iv.length = 16 := (ecies_encrypt_layout X L _ _ _ _ _ _ hi).1
  obtain ⟨c', h1, h2, h3⟩ := ecies_round_trip X L (draw i) rpriv a.iv p [] (A i) hiv
  rw [hi] at h1
  injection h1 with h1
  subst h1
  refine ⟨?_, ?_⟩
  · intro hn
    rw [hn] at h2
    simp only [List.length_nil] at h2
    omega
  · unfold loadDecrypt
    cases rpriv with
    | nil => exact absurd rfl hne
    | cons x xs => exact h3

/-! Refinement of the abstract cache of C26. -/

/-- Two lists correspond entry by entry. -/
private inductive All2 {α β : Type} (R : α → β → Prop) : List α → List β → Prop
  | nil : All2 R [] []
  | cons {a b l₁ l₂} : R a b → All2 R l₁ l₂ → All2 R (a :: l₁) (b :: l₂)

/-- The entry of the live cache that stands for an abstract one. -/
private def Stands (X : EciesEnv) (draw : Nat → Bytes) (a : CacheEntry) (e : LiveEntry) : Prop :=
  e.mgr = a.mgr ∧ e.pubkey = a.pubkey ∧ ephemKeys X (draw a.key) a.pubkey = .ok e.keys

private theorem stands_find {X : EciesEnv} {draw : Nat → Bytes} (m : Nat) (k : Bytes) :
    ∀ {as : List CacheEntry} {es : List LiveEntry}, All2 (Stands X draw) as es →
      match as.find? fun e => e.mgr == m && e.pubkey == k,
        es.find? fun e => e.mgr == m && e.pubkey == k with
      | none, none => True
      | some a, some e => Stands X draw a e
      | _, _ => False
  | _, _, .nil => by simp
  | _, _, .cons (a := a) (b := e) (l₁ := as) (l₂ := es) h hs => by
    have ih := stands_find m k hs
    have h1 : (e.mgr == m && e.pubkey == k) = (a.mgr == m && a.pubkey == k) := by rw [h.1, h.2.1]
    rw [List.find?_cons, List.find?_cons, h1]
    cases (a.mgr == m && a.pubkey == k) with
    | true => exact h
    | false => exact ih

private theorem stands_filter {X : EciesEnv} {draw : Nat → Bytes} (m : Nat) (k : Bytes) :
    ∀ {as : List CacheEntry} {es : List LiveEntry}, All2 (Stands X draw) as es →
      All2 (Stands X draw) (as.filter fun x => !(x.mgr == m && x.pubkey == k))
        (es.filter fun x => !(x.mgr == m && x.pubkey == k))
  | _, _, .nil => .nil
  | _, _, .cons (a := a) (b := e) (l₁ := as) (l₂ := es) h hs => by
    have ih := stands_filter m k hs
    have h1 : (e.mgr == m && e.pubkey == k) = (a.mgr == m && a.pubkey == k) := by rw [h.1, h.2.1]
    rw [List.filter_cons, List.filter_cons, h1]
    cases (a.mgr == m && a.pubkey == k) with
    | true => exact ih
    | false => exact .cons h ih

private theorem stands_take {X : EciesEnv} {draw : Nat → Bytes} :
    ∀ (n : Nat) {as : List CacheEntry} {es : List LiveEntry}, All2 (Stands X draw) as es →
      All2 (Stands X draw) (as.take n) (es.take n)
  | 0, _, _, _ => by simpa using All2.nil
  | _ + 1, _, _, .nil => by simpa using All2.nil
  | n + 1, _, _, .cons h hs => by
    rw [List.take_succ_cons, List.take_succ_cons]
    exact .cons h (stands_take n hs)

/-- The live state that stands for an abstract one. -/
private def Sim (X : EciesEnv) (draw : Nat → Bytes) (a : KeyState) (s : LiveKeys) : Prop :=
  All2 (Stands X draw) a.cache s.cache ∧ s.lastCleanup = a.lastCleanup ∧ s.drawn = a.drawn

private theorem sim_call {X : EciesEnv} {draw : Nat → Bytes} {timeout : Int} {a : KeyState}
    {s : LiveKeys} (h : Sim X draw a s) (m : Nat) (k : Bytes) (now : Int)
    (hv : ∃ keys, ephemKeys X (draw a.drawn) k = .ok keys) :
    (s.ephemKey X draw timeout m k now).1 =
      ephemKeys X (draw (a.call timeout m k now).1.key) k ∧
    Sim X draw (a.call timeout m k now).2 (s.ephemKey X draw timeout m k now).2 := by
  obtain ⟨hc, hl, hd⟩ := h
  obtain ⟨keys, hkeys⟩ := hv
  have hf := stands_find m k hc
  unfold LiveKeys.ephemKey KeyState.call
  cases ha : a.cache.find? fun e => e.mgr == m && e.pubkey == k with
  | some x =>
    cases he : s.cache.find? fun e => e.mgr == m && e.pubkey == k with
    | none => rw [ha, he] at hf; exact hf.elim
    | some e =>
      rw [ha, he] at hf
      have hk := List.find?_some ha
      simp only [Bool.and_eq_true, beq_iff_eq] at hk
      simp only
      refine ⟨?_, .cons hf (stands_filter m k hc), hl, hd⟩
      have := hf.2.2
      rw [hk.2] at this
      exact this.symm
  | none =>
    cases he : s.cache.find? fun e => e.mgr == m && e.pubkey == k with
    | some e => rw [ha, he] at hf; exact hf.elim
    | none =>
      simp only
      rw [hd, hkeys]
      simp only
      unfold LiveKeys.cleaned
      rw [hl]
      have hst : Stands X draw ⟨m, k, a.drawn, now⟩ ⟨m, k, keys⟩ := ⟨rfl, rfl, hkeys⟩
      by_cases hcl : a.lastCleanup m < now - timeout
      · rw [if_pos hcl, if_pos hcl]
        refine ⟨hkeys.symm, ?_, rfl, rfl⟩
        exact .cons hst .nil
      · rw [if_neg hcl, if_neg hcl]
        exact ⟨hkeys.symm, stands_take _ (.cons hst hc), hl, rfl⟩

/-- The keys used are those of the abstract cache of C26: for calls with public keys that every drawn
key agrees with, the triple of each call is made from the key which the abstract cache hands out. So
`ephem_expiry_partial` and `ephem_keys_separate` hold of what is really used. -/
theorem session_refines (X : EciesEnv) (draw : Nat → Bytes) (timeout : Int) (created : Nat → Int)
    (calls : List (Nat × Bytes × Int))
    (hv : ∀ c ∈ calls, ∀ i, ∃ keys, ephemKeys X (draw i) c.2.1 = .ok keys) :
    ((LiveKeys.fresh created).run X draw timeout calls).1 =
      ((fresh created).run timeout calls).1.map fun u => ephemKeys X (draw u.2.key) u.2.pubkey := by
  have key : ∀ (calls : List (Nat × Bytes × Int)) (a : KeyState) (s : LiveKeys), Sim X draw a s →
      (∀ c ∈ calls, ∀ i, ∃ keys, ephemKeys X (draw i) c.2.1 = .ok keys) →
      (s.run X draw timeout calls).1 =
        (a.run timeout calls).1.map fun u => ephemKeys X (draw u.2.key) u.2.pubkey := by
    intro calls
    induction calls with
    | nil => intro a s _ _; rfl
    | cons c rest ih =>
      intro a s h hv
      obtain ⟨m, k, t⟩ := c
      obtain ⟨h1, h2⟩ := sim_call (timeout := timeout) h m k t (hv (m, k, t) (by simp) a.drawn)
      unfold LiveKeys.run KeyState.run
      simp only [List.map_cons, List.cons.injEq]
      refine ⟨?_, ih _ _ h2 fun c hc => hv c (by simp [hc])⟩
      rw [h1]
      have hp : (a.call timeout m k t).1.pubkey = k := by
        unfold KeyState.call
        split
        · rename_i e he
          have hk := List.find?_some he
          simp only [Bool.and_eq_true, beq_iff_eq] at hk
          exact hk.2
        · simp only
          split <;> rfl
      rw [hp]
  exact key calls _ _ ⟨.nil, rfl, rfl⟩ hv

/-! The hypotheses can be met: two messages to different recipients, then a third one. -/

/-- A process that has sent two messages sends a third one, to `[2]`. -/
private def exSend (r : UInt8) (v : Int) : Send :=
  ⟨⟨.RandVal, .int Cls.RandVal.typeId, .int 1500000000, .bool false, .none,
    [(p!"rand_val", .int v)]⟩, some (List.replicate 32 7), some ((toyX.pub [r]).drop 1), 50,
    List.replicate 16 r⟩

private def exDraw (i : Nat) : Bytes := [UInt8.ofNat (i + 1)]

private def exStep : (Res Bytes × Msg) × LiveKeys :=
  sendStep toyEnv toyX exDraw 3600 (sendRun toyEnv toyX exDraw 3600 (.fresh fun _ => 0)
    [exSend 2 5, exSend 3 6]) (exSend 2 7)

example : exStep.2.drawn = 2 ∧ exStep.2.cache.length = 2 := by decide +kernel

example : ∃ b m', exStep.1 = (.ok b, m') ∧
    (load toyEnv (fun k c => eciesDecrypt toyX c k []) (some b) (some [2]) none false 0).2 = .ok m' ∧
    getAttr m'.attrs p!"rand_val" = .int 7 := by
  have hd : ∃ b, exStep.1.1 = .ok b := by
    have : exStep.1.1.isOk = true := by decide +kernel
    revert this
    cases exStep.1.1 with
    | ok b => exact fun _ => ⟨b, rfl⟩
    | error _ => exact fun h => by cases h
  obtain ⟨b, hb⟩ := hd
  have hdump : exStep.1 = (.ok b, exStep.1.2) := Prod.ext hb rfl
  obtain ⟨⟨h1, _, _, h4, _⟩, hl⟩ := session_delivers_partial toyEnv toyX toyX_laws exDraw 3600 _ _
    (exSend 2 7) [2] exStep.1.2 b 1500000000 false 0 (fun i => toyX_agree _ _) (by simp) rfl hdump
    (by
      refine ⟨_, _, rfl, ?_, ?_, ?_, ?_⟩
      · intro name v h _
        simp only [exSend, List.mem_cons, List.not_mem_nil, or_false, Prod.mk.injEq] at h
        obtain ⟨rfl, rfl⟩ := h
        exact ⟨by simp [FieldOk, exSend, Cls.nodeSlots, Cls.enumSlots, lookupName, Data, data], by rfl⟩
      · intro name sd v _ h; cases h
      · intro name sd v _ _ _ _ _ _ h; cases h
      · intro name sd v _ _ _ _ _ _ h; cases h)
    rfl rfl (by decide) (by simp)
    (by intro s hs
        have : (match exStep.1.2.sig with
          | .bytes s => s.length == 65
          | _ => false) = true := by decide +kernel
        rw [hs] at this
        simpa using this)
    (by intro v _ h; cases h)
  refine ⟨b, exStep.1.2, hdump, ?_, by rw [h4]; decide⟩
  rw [hl]
  unfold taskChecks
  rw [h1]
  rfl

/-! ### What a recipient accepts -/

/-- A frame with the encrypted flag that loads under a private key has at least 189 bytes; what
follows the signature starts with a point that agrees with the private key on a secret and
ends with the MAC under that secret of everything between; the message is read from the deciphered
rest. -/
theorem encrypted_load_mac (E : Env) (X : EciesEnv) (L : EciesEnv.Laws X) (data rpriv : Bytes)
    (pub : Option Bytes) (ct : Bool) (now : Int) (m : Msg) (hne : rpriv ≠ [])
    (hf : frameFlag data = true)
    (h : (load E (fun k c => eciesDecrypt X c k []) (some data) (some rpriv) pub ct now).2 = .ok m) :
    189 ≤ data.length ∧
    ∃ body km, body = frameBody (unversioned data) ∧ body.head? = some 4 ∧
      X.ecdh rpriv (ctPoint body) = .ok km ∧
      ctTag body = X.hmac (macKey X km) (ctIv body ++ ctBody body) ∧
      ∃ slots, loads (X.aesDec (cipherKey X km) (ctIv body) (ctBody body)) = .ok slots := by
  obtain ⟨_, _, _, c, _, _, payload, version, hp, _, _, hparse, _⟩ := load_ok h
  obtain ⟨slots, hl, _, _⟩ := parsePayload_ok hparse
  unfold Payload at hp
  rw [if_pos hf] at hp
  have hd : eciesDecrypt X (frameBody (unversioned data)) rpriv [] = .ok payload := by
    unfold loadDecrypt at hp
    cases rpriv with
    | nil => exact absurd rfl hne
    | cons x xs => exact hp
  obtain ⟨h1, h2, km, h3, _, h5, h6⟩ := (ecies_decrypt_decision X L _ _ _ _).mp hd
  have hlen : (unversioned data).length ≤ data.length := by
    unfold unversioned
    split
    · simp
    · exact Nat.le_refl _
  refine ⟨?_, _, km, rfl, h2, h3, by simpa using h5, slots, by rw [← h6]; exact hl⟩
  simp only [frameBody, List.length_drop] at h1
  omega

/-- Two encrypted frames that load under the same private key, with the same point and the same
tag, have the same IV and the same body, or those of these two collide under the MAC. -/
theorem encrypted_tamper (E : Env) (X : EciesEnv) (L : EciesEnv.Laws X) (d1 d2 rpriv : Bytes)
    (pub1 pub2 : Option Bytes) (ct1 ct2 : Bool) (now1 now2 : Int) (m1 m2 : Msg) (hne : rpriv ≠ [])
    (hf1 : frameFlag d1 = true) (hf2 : frameFlag d2 = true)
    (h1 : (load E (fun k c => eciesDecrypt X c k []) (some d1) (some rpriv) pub1 ct1 now1).2 = .ok m1)
    (h2 : (load E (fun k c => eciesDecrypt X c k []) (some d2) (some rpriv) pub2 ct2 now2).2 = .ok m2)
    (hp : ctPoint (frameBody (unversioned d1)) = ctPoint (frameBody (unversioned d2)))
    (ht : ctTag (frameBody (unversioned d1)) = ctTag (frameBody (unversioned d2))) :
    frameBody (unversioned d1) = frameBody (unversioned d2) ∨
    ∃ km b1 b2, X.ecdh rpriv (ctPoint b1) = .ok km ∧ b1 = frameBody (unversioned d1) ∧
      b2 = frameBody (unversioned d2) ∧ ctIv b1 ++ ctBody b1 ≠ ctIv b2 ++ ctBody b2 ∧
      X.hmac (macKey X km) (ctIv b1 ++ ctBody b1) = X.hmac (macKey X km) (ctIv b2 ++ ctBody b2) := by
  have fin : ∀ {d : Bytes} {m : Msg} {pub : Option Bytes} {ct : Bool} {now : Int},
      frameFlag d = true →
      (load E (fun k c => eciesDecrypt X c k []) (some d) (some rpriv) pub ct now).2 = .ok m →
      ∃ p, eciesDecrypt X (frameBody (unversioned d)) rpriv [] = .ok p := by
    intro d m pub ct now hf h
    obtain ⟨_, _, _, c, _, _, payload, version, hp, _⟩ := load_ok h
    unfold Payload at hp
    rw [if_pos hf] at hp
    refine ⟨payload, ?_⟩
    unfold loadDecrypt at hp
    cases rpriv with
    | nil => exact absurd rfl hne
    | cons x xs => exact hp
  obtain ⟨p1, e1⟩ := fin hf1 h1
  obtain ⟨p2, e2⟩ := fin hf2 h2
  obtain ⟨km, hkm, hc⟩ := ecies_tamper X L _ _ rpriv [] [] p1 p2 e1 e2 hp ht
  have l1 := ((ecies_decrypt_decision X L _ _ _ _).mp e1).1
  have l2 := ((ecies_decrypt_decision X L _ _ _ _).mp e2).1
  generalize frameBody (unversioned d1) = a at *
  generalize frameBody (unversioned d2) = b at *
  have split : ∀ x : Bytes, 113 ≤ x.length → x = ctPoint x ++ (ctIv x ++ ctBody x) ++ ctTag x := by
    intro x hx
    unfold ctPoint ctIv ctBody ctTag
    have e1 : (x.drop 65).take 16 ++ (x.drop 81).take (x.length - 113) =
        (x.drop 65).take (x.length - 97) := by
      rw [show x.length - 97 = 16 + (x.length - 113) by omega, List.take_add, List.drop_drop]
    rw [e1]
    have e2 : x.take 65 ++ (x.drop 65).take (x.length - 97) = x.take (x.length - 32) := by
      rw [show x.length - 32 = 65 + (x.length - 97) by omega, List.take_add]
    rw [e2, List.take_append_drop]
  by_cases hx : ctIv a ++ ctBody a = ctIv b ++ ctBody b
  · left
    rw [split a l1, split b l2, hp, ht, hx]
  · right
    exact ⟨km, a, b, hkm, rfl, rfl, hx, by simpa using hc⟩

/-! ### C67: a receiver without the private key -/

private theorem loads_four (rest : Bytes) : loads (4 :: rest) = .ok (.int 4) := by
  unfold loads
  rw [show 2 * (4 :: rest).length + 2 = (2 * (4 :: rest).length + 1) + 1 from rfl]
  unfold cborDec
  simp [cborArg]

private theorem loadSlots_empty (E : Env) (rec : Loader) (c : Cls) :
    ∀ l, loadSlots E rec c [] l = .ok (l.map fun n => (n, .none))
  | [] => rfl
  | n :: rest => by
    unfold loadSlots
    rw [loadSlots_empty E rec c rest]
    simp [dictGet]

private theorem getAttr_blank (n : PStr) : ∀ l : List PStr,
    getAttr (l.map fun n => (n, Val.none)) n = .none
  | [] => rfl
  | k :: rest => by
    have ih := getAttr_blank n rest
    unfold getAttr at ih ⊢
    simp only [List.map_cons, lookupName]
    by_cases hk : k = n
    · rw [if_pos hk]
    · rw [if_neg hk]; exact ih

/-- What is made of an encrypted payload that is not deciphered. -/
private theorem parse_blind (E : Env) (c : Cls) (h : Header) (sig rest : Bytes) :
    ∃ as, parsePayload E c h sig none none (4 :: rest) =
        .ok ⟨c, .int h.type, .int h.timestamp, .bool h.encrypted, .bytes sig, as⟩ ∧
      as = postInit c (c.payload.map fun n => (n, .none)) ∧
      ∀ n, getAttr as n = defaulted c n .none := by
  refine ⟨postInit c (c.payload.map fun n => (n, .none)), ?_, rfl, ?_⟩
  · unfold parsePayload
    rw [loads_four]
    simp only
    unfold construct loadAttrs
    have : dictOf (.int 4) = [] := rfl
    rw [this, loadSlots_empty]
    simp only [wrapLoad]
    split
    · rfl
    · rename_i k hk
      split at hk <;> cases hk
  · intro n
    rw [getAttr_postInit (by simp [Function.comp_def]), getAttr_blank]

/-- What a receiver without the private key (and without a sender key to check) makes of any frame
with the encrypted flag whose body starts with `04`: a message with the class, timestamp and
signature of the frame and no field set, subject only to the validation of its class. Nothing else
of the body matters. -/
theorem no_key_blank (E : Env) (dec : Bytes → Bytes → Res Bytes) (data : Bytes)
    (priv : Option Bytes) (ct : Bool) (now : Int) (c : Cls) (hpriv : priv = none ∨ priv = some [])
    (hl : 76 < data.length) (hrange : minTimestamp < frameTime data ∧ frameTime data < maxTimestamp)
    (hc : c.typeId = frameType data) (hh : c ≠ .Hello) (hf : frameFlag data = true)
    (hb : (frameBody data).head? = some 4)
    (htime : ct = true → verifyTime now (frameTime data) = .ok ()) :
    ∃ m : Msg, (load E dec (some data) priv none ct now).2 = taskChecks E m ∧ m.cls = c ∧
      m.ty = .int (frameType data) ∧ m.ts = .int (frameTime data) ∧ m.enc = .bool true ∧
      m.sig = .bytes (frameSig data) ∧ m.attrs.map Prod.fst = c.payload ∧
      ∀ n, getAttr m.attrs n = defaulted c n .none := by
  have h3 : Cls.ofType (frameType data) = some c := by rw [← hc]; exact ofType_typeId c
  have hg : timeGate ct now ⟨frameType data, frameTime data, frameFlag data⟩ = .ok () := by
    unfold timeGate
    cases ct with
    | false => rfl
    | true => exact htime rfl
  obtain ⟨rest, hrest⟩ : ∃ rest, frameBody data = 4 :: rest := by
    cases hx : frameBody data with
    | nil => rw [hx] at hb; cases hb
    | cons x xs => rw [hx] at hb; simp only [List.head?_cons, Option.some.injEq] at hb; exact ⟨xs, by rw [hb]⟩
  have hld : ∀ b, loadDecrypt dec priv b = .ok b := by
    intro b
    rcases hpriv with rfl | rfl <;> rfl
  obtain ⟨as, hp, has, hat⟩ := parse_blind E c ⟨frameType data, frameTime data, true⟩
    (frameSig data) rest
  refine ⟨⟨c, .int (frameType data), .int (frameTime data), .bool true, .bytes (frameSig data), as⟩,
    ?_, rfl, rfl, rfl, rfl, rfl, ?_, hat⟩
  · unfold load
    rw [deserialize_frame E data _ ct now none hl c hrange.1 hrange.2 h3, hg]
    simp only
    unfold dwh
    rw [if_neg hh]
    unfold dwhBase Logged.andThen decryptStep
    rw [hf, List.drop_drop, show hdrLen + sigLen = 76 from rfl,
      show data.drop 76 = frameBody data from rfl, hrest,
      show (data.drop hdrLen).take sigLen = frameSig data from rfl]
    simp only [if_true, hld, hp]
  · show as.map Prod.fst = _
    rw [has, postInit_names]
    simp [Function.comp_def]

/-- Refutation of C67: whatever a process has sent before, every frame of an encrypted class without
validation of its own that it encrypts for anybody is accepted by a receiver that has no private
key and checks no sender: as a message of the same class, timestamp and signature with no field
set. -/
theorem no_key_refuted (E : Env) (X : EciesEnv) (L : EciesEnv.Laws X) (draw : Nat → Bytes)
    (timeout : Int) (created : Nat → Int) (history : List Send) (a : Send)
    (dec : Bytes → Bytes → Res Bytes) (m' : Msg) (b : Bytes) (t : Nat) (ct : Bool) (now : Int)
    (hdraw : ∀ i, ∃ raw, X.pub (draw i) = 4 :: raw)
    (hpub : a.pubkey ≠ none ∧ a.pubkey ≠ some [])
    (hdump : (sendStep E X draw timeout (sendRun E X draw timeout (.fresh created) history) a).1 =
      (.ok b, m'))
    (henc : a.msg.cls.encrypt = true) (htask : a.msg.cls.isTask = false)
    (hts : a.msg.ts = .int t) (hrange : minTimestamp < t ∧ t < maxTimestamp)
    (htime : ct = true → verifyTime now t = .ok ())
    (hsg : ∀ s, m'.sig = .bytes s → s.length = 65) :
    ∃ m : Msg, (load E dec (some b) none none ct now).2 = .ok m ∧ m.cls = a.msg.cls ∧
      m.ts = a.msg.ts ∧ m.sig = m'.sig ∧
      ∀ n, getAttr m.attrs n = defaulted a.msg.cls n .none := by
  have hgk : ∃ k, givenKey a.pubkey = some k := by
    cases hk : a.pubkey with
    | none => exact absurd hk hpub.1
    | some k =>
      cases k with
      | nil => exact absurd hk hpub.2
      | cons x xs => exact ⟨_, rfl⟩
  obtain ⟨k, hgk⟩ := hgk
  have hh : a.msg.cls ≠ .Hello := by
    intro h; rw [h] at henc; cases henc
  have hdump' : serialize E a.msg a.privkey ((givenKey a.pubkey).map _) = (.ok b, m') := hdump
  rw [hgk] at hdump'
  rcases serialize_ok hdump' with ⟨_, ⟨⟨sl, pl, hd, sg, bd, _, _, hm, hhd, hb, hbody, _⟩⟩⟩ | ⟨h, _⟩
  rotate_left
  · exact absurd h hh
  have hl := hsg sg (by rw [hm])
  obtain ⟨p1, p2, p3, p4, p5, p6⟩ := frame_parts hhd sg bd hl
  rw [← hb] at p1 p2 p3 p4 p5 p6
  rcases hbody with ⟨_, g, hg, hgp⟩ | ⟨h, _⟩
  rotate_left
  · rw [henc] at h; cases h
  rw [Option.map_some, Option.some.injEq] at hg
  subst hg
  obtain ⟨i, hi⟩ := session_seals E X draw timeout created history 0 a.now a.iv k pl bd hgp
  obtain ⟨_, _, _, km, body, _, _, _, _, hct⟩ := ecies_encrypt_layout X L _ _ _ _ _ _ hi
  obtain ⟨raw, hraw⟩ := hdraw i
  have hhead : bd.head? = some 4 := by rw [hct, hraw]; rfl
  have hbl : 0 < bd.length := by
    cases bd with
    | nil => cases hhead
    | cons x xs => simp
  have htf : frameTime b = t := by
    rw [hts] at p2; simp only [Val.structInt, Option.some.injEq] at p2; omega
  have hun : unversioned b = b := by
    unfold unversioned
    rw [if_neg]
    rw [p1]
    intro h
    exact hh (typeId_inj h)
  obtain ⟨m, h1, h2, h3, h4, h5, h6, h7, h8⟩ := no_key_blank E dec b none ct now a.msg.cls (Or.inl rfl)
    (by omega) (by rw [htf]; exact hrange) p1.symm hh
    (by rw [p3, henc]; rfl) (by rw [p5]; exact hhead) (by rw [htf]; exact htime)
  refine ⟨m, ?_, h2, ?_, ?_, h8⟩
  · rw [h1]
    unfold taskChecks
    rw [h2, htask]
    rfl
  · rw [h4, hts, htf]
  · rw [h6, p4, hm]

/-- C67 (partial): with the sender's key at hand, a frame of a signed class that its recipient accepts
is accepted by somebody without the private key only if one signature recovers to the sender's key for the digests of
two different byte strings: the payload and its ciphertext.  Missing: the receiver that checks no sender,
and the twelve classes without a signature (`no_key_refuted`). -/
theorem no_key_signed_partial (E : Env) (X : EciesEnv) (L : EciesEnv.Laws X) (data rpriv pub : Bytes)
    (dec : Bytes → Bytes → Res Bytes) (ct ct' : Bool) (now now' : Int) (m m' : Msg)
    (hpub : pub ≠ []) (hne : rpriv ≠ []) (hf : frameFlag data = true)
    (h : (load E dec (some data) none (some pub) ct now).2 = .ok m) (hs : m.cls.sign = true)
    (h' : (load E (fun k c => eciesDecrypt X c k []) (some data) (some rpriv) (some pub) ct' now').2 =
      .ok m') :
    ∃ hd p, dumps (.list [.int (frameType data), .int (frameTime data)]) = .ok hd ∧
      eciesDecrypt X (frameBody (unversioned data)) rpriv [] = .ok p ∧
      p ≠ frameBody (unversioned data) ∧
      ∀ z ∈ [hd ++ p, hd ++ frameBody (unversioned data)],
        E.recover (.bytes (frameSig (unversioned data)))
          (E.sha3 (E.sha1 z ++ versionBytes data)) = some (4 :: pub) := by
  obtain ⟨_, t1, _, _, _, p1, hd1, hp1, hdm1, hr1⟩ :=
    load_authenticates E dec data pub none ct now m hpub h hs
  have hs' : m'.cls.sign = true := by
    obtain ⟨_, _, _, c, hc, _, _, _, _, _, _, hparse, _⟩ := load_ok h'
    obtain ⟨_, _, hcon, _⟩ := parsePayload_ok hparse
    obtain ⟨as, _, hm⟩ := construct_ok hcon
    have : m'.cls = m.cls := typeId_inj (by rw [t1, hm, ← hc])
    rw [this]; exact hs
  obtain ⟨_, _, _, _, _, p2, hd2, hp2, hdm2, hr2⟩ :=
    load_authenticates E _ data pub (some rpriv) ct' now' m' hpub h' hs'
  rw [hdm1] at hdm2
  injection hdm2 with hdm2
  subst hdm2
  unfold Payload at hp1 hp2
  rw [if_pos hf] at hp1 hp2
  have hb : frameBody (unversioned data) = p1 := by
    injection hp1
  have hd : eciesDecrypt X (frameBody (unversioned data)) rpriv [] = .ok p2 := by
    unfold loadDecrypt at hp2
    cases rpriv with
    | nil => exact absurd rfl hne
    | cons x xs => exact hp2
  refine ⟨hd1, p2, hdm1, hd, ?_, ?_⟩
  · intro he
    obtain ⟨q1, _, km, _, _, _, q6⟩ := (ecies_decrypt_decision X L _ _ _ _).mp hd
    have : p2.length + 113 = (frameBody (unversioned data)).length := by
      rw [q6, L.dec_len]
      simp only [ctBody, List.length_take, List.length_drop]
      omega
    rw [he] at this
    omega
  · intro z hz
    simp only [List.mem_cons, List.not_mem_nil, or_false] at hz
    rcases hz with rfl | rfl
    · exact hr2
    · rw [hb]; exact hr1

/-- The hypotheses can be met: the frame of `exStep`, read without the key, is a `RandVal` without a
value; with the sender's key it is refused. -/
example : ∃ b, exStep.1.1 = .ok b ∧ ∃ m,
    (load toyEnv (fun k c => eciesDecrypt toyX c k []) (some b) none none false 0).2 = .ok m ∧
    m.cls = .RandVal ∧ getAttr m.attrs p!"rand_val" = .none := by
  have hd : ∃ b, exStep.1.1 = .ok b := by
    have : exStep.1.1.isOk = true := by decide +kernel
    revert this
    cases exStep.1.1 with
    | ok b => exact fun _ => ⟨b, rfl⟩
    | error _ => exact fun h => by cases h
  obtain ⟨b, hb⟩ := hd
  refine ⟨b, hb, ?_⟩
  obtain ⟨m, h1, h2, _, _, h5⟩ := no_key_refuted toyEnv toyX toyX_laws exDraw 3600 _ _ (exSend 2 7)
    (fun k c => eciesDecrypt toyX c k []) exStep.1.2 b 1500000000 false 0 (fun i => ⟨_, rfl⟩)
    (by constructor <;> decide) (Prod.ext hb rfl) rfl rfl rfl (by decide) (by simp)
    (by intro s hs
        have : (match exStep.1.2.sig with
          | .bytes s => s.length == 65
          | _ => false) = true := by decide +kernel
        rw [hs] at this
        simpa using this)
  exact ⟨m, h1, h2, by rw [h5]; decide⟩

example : (match exStep.1.1 with
    | .ok b => (load toyEnv (fun k c => eciesDecrypt toyX c k []) (some b) none
        (some (List.replicate 64 7)) false 0).2 == .error .invalidSignature
    | .error _ => false) = true ∧
    (match exStep.1.1 with
    | .ok b => (load toyEnv (fun k c => eciesDecrypt toyX c k []) (some b) (some [2])
        (some (List.replicate 64 7)) false 0).2.isOk
    | .error _ => false) = true := by decide +kernel

end Verif.Props
