import Verif.Lemmas.ContRoundTrip
import Verif.Lemmas.Toy
import Verif.Spec.Origin
import Verif.Props.Cbor
import Verif.Props.Crypto
import Verif.Model.Tasks
/-!
# C39: task header signatures
-/

set_option linter.unusedSimpArgs false

namespace Verif.Props

open Verif Spec

private theorem toDictF_ok {c : ContId} : ∀ {fs : Attrs} {d : List (Val × Val)},
    toDictF c fs = .ok d → ∃ kw : Attrs, d = asPairs kw ∧ kw.map Prod.fst = fs.map Prod.fst ∧
      ∀ k v, (k, v) ∈ fs → ∃ y, toDictV c k v = .ok y ∧ (k, y) ∈ kw
  | [], d, h => by
    unfold toDictF at h; injection h with h; subst h
    exact ⟨[], rfl, rfl, fun _ _ hm => by cases hm⟩
  | (k, v) :: rest, d, h => by
    unfold toDictF at h
    split at h
    · cases h
    rename_i y hy
    split at h
    · cases h
    rename_i r hr
    injection h with h
    obtain ⟨kw, h1, h2, h3⟩ := toDictF_ok hr
    refine ⟨(k, y) :: kw, by rw [← h, h1]; rfl, by simp [h2], fun k' v' hm => ?_⟩
    rcases List.mem_cons.mp hm with e | e
    · injection e with e1 e2; subst e1 e2; exact ⟨y, hy, by simp⟩
    · obtain ⟨y', a, b⟩ := h3 k' v' e
      exact ⟨y', a, List.mem_cons_of_mem _ b⟩

private theorem toDictV_bytes {k : PStr} {s : Bytes} (h : k ≠ p!"mask") :
    toDictV .taskHeader k (.bytes s) = .ok (.bytes s) := by
  rw [toDictV_leaf (by intro _ _ e; cases e)]
  simp [toDictLeaf, h, Val.unEnum]

private theorem resign_dict {s : Bytes} : ∀ {fs : Attrs} {d : List (Val × Val)},
    toDictF .taskHeader fs = .ok d →
    ∃ d', toDictF .taskHeader (setName p!"signature" (.bytes s) fs) = .ok d' ∧
      d'.filter (fun kv => kv.1 ≠ .str p!"signature") = d.filter fun kv => kv.1 ≠ .str p!"signature"
  | [], d, h => by
    unfold toDictF at h; injection h with h; subst h
    refine ⟨[(.str p!"signature", .bytes s)], ?_, by simp⟩
    simp only [setName]
    unfold toDictF
    rw [toDictV_bytes (by decide)]
    unfold toDictF
    rfl
  | (k, v) :: rest, d, h => by
    unfold toDictF at h
    split at h
    · cases h
    rename_i y hy
    split at h
    · cases h
    rename_i r hr
    injection h with h
    subst h
    unfold setName
    by_cases hk : k = p!"signature"
    · rw [if_pos hk]
      refine ⟨(.str k, .bytes s) :: r, ?_, by simp [hk]⟩
      unfold toDictF
      rw [toDictV_bytes (by rw [hk]; decide)]
      simp only
      rw [hr]
    · rw [if_neg hk]
      obtain ⟨d', h1, h2⟩ := resign_dict (s := s) hr
      refine ⟨(.str k, y) :: d', ?_, by simpa [hk] using h2⟩
      unfold toDictF
      rw [hy]
      simp only
      rw [h1]

/-- C39: the hash does not depend on the signature. -/
theorem header_hash_ignores_signature (E : Env) (fs : Attrs) (s h : Bytes)
    (hh : headerHash E fs = .ok h) :
    headerHash E (setName p!"signature" (.bytes s) fs) = .ok h := by
  unfold headerHash at hh ⊢
  split at hh
  · cases hh
  rename_i d hd
  obtain ⟨d', h1, h2⟩ := resign_dict (s := s) hd
  rw [h1]
  simp only
  rw [h2]
  exact hh

/-- C39: a header signed with a private key verifies with the matching public key, whatever
signature it had before. -/
theorem header_sign_verify (E : Env) (fs fs' : Attrs) (priv pub : Bytes)
    (law : ∀ x s, E.sign priv (E.sha3 x) = .ok s → E.recover (.bytes s) (E.sha3 x) = some (4 :: pub))
    (hpub : pub.length = 64) (h : headerSign E fs priv = .ok fs') :
    headerVerifyF E fs' pub = .ok () := by
  unfold headerSign at h
  split at h
  · cases h
  rename_i hs hhs
  split at h
  · cases h
  rename_i s hsig
  injection h with h
  subst h
  unfold headerVerifyF
  have hg : getAttr (setName p!"signature" (.bytes s) fs) p!"signature" = .bytes s := by
    rw [getAttr_setName, if_pos rfl]
  rw [if_neg (by rw [hg]; simp), header_hash_ignores_signature E fs s hs hhs]
  simp only
  rw [hg]
  exact (ecdsa_verify_decision E pub hs (.bytes s)).1.mpr ⟨hpub, law _ _ hsig⟩

/-- C39: verification decides: `InvalidSignature` without a signature, otherwise success exactly
if the signature recovers to the key over the hash. -/
theorem header_verify_decision (E : Env) (fs : Attrs) (pub : Bytes) :
    (getAttr fs p!"signature" = .none → headerVerifyF E fs pub = .error .invalidSignature) ∧
    (∀ h, headerHash E fs = .ok h → (headerVerifyF E fs pub = .ok () ↔
      getAttr fs p!"signature" ≠ .none ∧ pub.length = 64 ∧
      E.recover (getAttr fs p!"signature") (E.sha3 h) = some (4 :: pub))) := by
  refine ⟨fun hn => by unfold headerVerifyF; rw [if_pos hn], fun h hh => ?_⟩
  unfold headerVerifyF
  by_cases hn : getAttr fs p!"signature" = .none
  · simp [hn]
  · rw [if_neg hn, hh]
    simp only
    rw [(ecdsa_verify_decision E pub h _).1]
    exact ⟨fun ⟨a, b⟩ => ⟨hn, a, b⟩, fun ⟨_, a, b⟩ => ⟨a, b⟩⟩

private def unsig (d : List (Val × Val)) : List (Val × Val) :=
  d.filter fun kv => kv.1 ≠ .str p!"signature"

private theorem plain_unsig {d : List (Val × Val)} (h : plain (.dict d) = true) :
    plain (.dict (unsig d)) = true := by
  simp only [plain, Bool.and_eq_true] at h ⊢
  obtain ⟨⟨h1, h2⟩, h3⟩ := h
  induction d with
  | nil => exact ⟨⟨rfl, rfl⟩, rfl⟩
  | cons a b ih =>
    obtain ⟨k, x⟩ := a
    simp only [plainD, Bool.and_eq_true] at h1
    simp only [List.all_cons, Bool.and_eq_true] at h2
    simp only [List.map_cons, distinctKeys, Bool.and_eq_true] at h3
    obtain ⟨⟨i1, i2⟩, i3⟩ := ih h3.2 h1.2 h2.2
    unfold unsig at i1 i2 i3 ⊢
    rw [List.filter_cons]
    split
    · refine ⟨⟨?_, ?_⟩, ?_⟩
      · simp only [plainD, Bool.and_eq_true]; exact ⟨h1.1, i1⟩
      · simp only [List.all_cons, Bool.and_eq_true]; exact ⟨h2.1, i2⟩
      · simp only [List.map_cons, distinctKeys, Bool.and_eq_true]
        refine ⟨?_, i3⟩
        rw [List.all_eq_true] at h3 ⊢
        intro y hy
        obtain ⟨p, hp, e⟩ := List.mem_map.mp hy
        exact h3.1 y (List.mem_map.mpr ⟨p, (List.mem_filter.mp hp).1, e⟩)
    · exact ⟨⟨i1, i2⟩, i3⟩

private theorem toLists_unsig : ∀ d, toListsD (unsig d) = unsig (toListsD d)
  | [] => rfl
  | (k, x) :: rest => by
    have ih := toLists_unsig rest
    unfold unsig at ih ⊢
    simp only [toListsD, List.filter_cons]
    split
    · simp only [toListsD, ih]
    · exact ih

private theorem distinct_mem {k : PStr} {x y : Val} : ∀ {d : List (Val × Val)},
    plain (.dict d) = true → (.str k, x) ∈ d → (.str k, y) ∈ d → x = y := by
  intro d h
  simp only [plain, Bool.and_eq_true] at h
  replace h := h.2
  induction d with
  | nil => intro h; cases h
  | cons a b ih =>
    simp only [List.map_cons, distinctKeys, Bool.and_eq_true, List.all_eq_true] at h
    have hno : ∀ z, (Val.str k, z) ∈ b → a.1 ≠ .str k := by
      intro z hz e
      have := h.1 (.str k) (List.mem_map.mpr ⟨_, hz, rfl⟩)
      rw [e] at this
      simp [sameKey, numValue] at this
    intro h1 h2
    rcases List.mem_cons.mp h1 with e1 | e1 <;> rcases List.mem_cons.mp h2 with e2 | e2
    · rw [← e1] at e2; injection e2 with _ e2; exact e2.symm
    · exact absurd (by rw [← e1]) (hno y e2)
    · exact absurd (by rw [← e2]) (hno x e1)
    · exact ih h.2 e1 e2

/-- C39: the hash covers every field but the signature.  If two task headers, each constructed
from data and with plain dictionary forms, have the same hash, then they agree in every field
but the signature - or the two encodings are a SHA-1 collision. -/
theorem header_hash_covers (E : Env) (v1 v2 : Val) (fs1 fs2 : Attrs) (d1 d2 : List (Val × Val))
    (h : Bytes) (c1 : mkCont E .taskHeader v1 = .ok (.cont .taskHeader fs1))
    (c2 : mkCont E .taskHeader v2 = .ok (.cont .taskHeader fs2))
    (p1 : plain v1 = true) (p2 : plain v2 = true)
    (t1 : toDict (.cont .taskHeader fs1) = .ok (.dict d1))
    (t2 : toDict (.cont .taskHeader fs2) = .ok (.dict d2))
    (q1 : plain (.dict d1) = true) (q2 : plain (.dict d2) = true)
    (n1 : toLists (.dict d1) = .dict d1) (n2 : toLists (.dict d2) = .dict d2)
    (h1 : headerHash E fs1 = .ok h) (h2 : headerHash E fs2 = .ok h) :
    (∀ k ∈ fieldNames .taskHeader, k ≠ p!"signature" → getAttr fs1 k = getAttr fs2 k) ∨
    ∃ x y, (Signing.header fs1).Covers x [] ∧ (Signing.header fs2).Covers y [] ∧ x ≠ y ∧
      E.sha1 x = E.sha1 y := by
  have key : ∀ {v fs d}, mkCont E .taskHeader v = .ok (.cont .taskHeader fs) → plain v = true →
      toDict (.cont .taskHeader fs) = .ok (.dict d) → headerHash E fs = .ok h →
      ∃ b, (Signing.header fs).Covers b [] ∧ E.sha1 b = h ∧ dumps (.dict (unsig d)) = .ok b ∧ fs.map Prod.fst = fieldNames .taskHeader ∧
        ∀ k x, (k, x) ∈ fs → ∃ vs y, (k, vs) ∈ ContId.slots .taskHeader ∧ (.str k, y) ∈ d ∧
          contDeser E (contHook E .taskHeader) .taskHeader k vs y = .ok x := by
    intro v fs d hc hp ht hh
    have htf : toDictF .taskHeader fs = .ok d := by
      unfold toDict at ht
      simp only at ht
      split at ht
      · cases ht
      · rename_i d' hd'
        injection ht with ht
        injection ht with ht
        rw [hd', ht]
    unfold headerHash at hh
    rw [htf] at hh
    simp only at hh
    split at hh
    · cases hh
    rename_i b hb
    injection hh with hh
    obtain ⟨kw, fs', _, _, e, hn, _, _⟩ := contCall_ok hc
    injection e with _ e
    subst e
    refine ⟨b, ⟨d, htf, hb, rfl⟩, hh, hb, hn, fun k x hm => ?_⟩
    obtain ⟨kw', e1, e2, e3⟩ := mkCont_rebuild_plain hp hc
    rw [htf] at e1
    injection e1 with e1
    obtain ⟨kw3, fs3, e4, _, e5, _, _, hf⟩ := contCall_ok e3
    injection e5 with _ e5
    subst e5
    have hkw : kw3 = kw' := by
      simp only [Val.asDict, Option.some.injEq] at e4
      have := textKeys_map kw'
      rw [e4, textKeys_map] at this
      injection this
    subst hkw
    have hk : k ∈ (ContId.slots .taskHeader).map Prod.fst := by
      rw [← hn]; exact List.mem_map.mpr ⟨_, hm, rfl⟩
    obtain ⟨⟨k', vs⟩, hs, e⟩ := List.mem_map.mp hk
    simp only at e
    subst e
    obtain ⟨x', hx', hf'⟩ := hf k' vs hs
    have hnd : (fs.map Prod.fst).Nodup := by rw [hn]; exact slots_nodup _
    have hxx : x' = x := (getAttr_of_mem hnd hx').symm.trans (getAttr_of_mem hnd hm)
    subst hxx
    cases hl : lookupName k' kw3 with
    | none =>
      rw [lookupName_none, e2] at hl
      exact absurd hk hl
    | some y =>
      rw [contField_present hl] at hf'
      exact ⟨vs, y, hs, by rw [e1]; exact List.mem_map.mpr ⟨(k', y), mem_of_lookupName hl, rfl⟩, hf'⟩
  obtain ⟨b1, w1, s1, u1, m1, f1⟩ := key c1 p1 t1 h1
  obtain ⟨b2, w2, s2, u2, m2, f2⟩ := key c2 p2 t2 h2
  by_cases hb : b1 = b2
  rotate_left
  · exact Or.inr ⟨b1, b2, w1, w2, hb, s1.trans s2.symm⟩
  left
  subst hb
  have hcod := (codec_prefix_free _ _ b1 b1 [] [] (plain_unsig q1) (plain_unsig q2) u1 u2 rfl).1
  simp only [toLists, Val.dict.injEq] at hcod n1 n2
  rw [toLists_unsig, toLists_unsig, n1, n2] at hcod
  intro k hk hne
  have hm1 : (k, getAttr fs1 k) ∈ fs1 := mem_getAttr (by rw [m1]; exact hk)
  have hm2 : (k, getAttr fs2 k) ∈ fs2 := mem_getAttr (by rw [m2]; exact hk)
  obtain ⟨vs1, y1, a1, b1', g1⟩ := f1 k _ hm1
  obtain ⟨vs2, y2, a2, b2', g2⟩ := f2 k _ hm2
  have hvs : vs1 = vs2 := by
    have x1 := lookupName_of_mem (slots_nodup _) a1
    rw [lookupName_of_mem (slots_nodup _) a2] at x1
    injection x1 with x1
    exact x1.symm
  have hy : y1 = y2 := by
    have hin : (Val.str k, y1) ∈ d2 := by
      have : (Val.str k, y1) ∈ unsig d1 := by
        unfold unsig
        exact List.mem_filter.mpr ⟨b1', by simp [hne]⟩
      rw [hcod] at this
      exact (List.mem_filter.mp this).1
    exact distinct_mem q2 hin b2'
  subst hvs hy
  rw [g1] at g2
  injection g2

/-- C39: a header built from plain data survives conversion to a dictionary, the payload codec
and reconstruction, with the same fields; so its hash and the outcome of every verification are
the same. -/
theorem header_survives (E : Env) (v : Val) (fs : Attrs) (hp : plain v = true)
    (h : mkCont E .taskHeader v = .ok (.cont .taskHeader fs)) :
    ∃ d, toDict (.cont .taskHeader fs) = .ok d ∧
      mkCont E .taskHeader d = .ok (.cont .taskHeader fs) ∧
      (plain d = true → toLists d = d → ∀ b, dumps d = .ok b →
        ∃ d', loads b = .ok d' ∧ mkCont E .taskHeader d' = .ok (.cont .taskHeader fs)) := by
  obtain ⟨kw, h1, _, h3⟩ := mkCont_rebuild_plain hp h
  refine ⟨_, by unfold toDict; simp only; rw [h1], h3, fun hd hn b hb => ?_⟩
  have := codec_consumes _ b [] hd hb (2 * b.length + 2) (by omega)
  refine ⟨_, ?_, h3⟩
  unfold loads
  rw [List.append_nil, hn] at this
  rw [this]

/-! ### Non-vacuity -/

private def exHeader : Val :=
  .dict [(.str p!"task_id", .str p!"t1"), (.str p!"task_owner", .dict [(.str p!"key", .str p!"ab")]),
    (.str p!"subtasks_count", .int 3), (.str p!"min_version", .str p!"1.2.3"),
    (.str p!"timestamp", .int 5), (.str p!"mask", .bytes [1, 2]),
    (.str p!"market_type", .str p!"Brass")]

private def exFields : Attrs :=
  match mkCont toyEnv .taskHeader exHeader with
  | .ok (.cont _ fs) => fs
  | _ => []

private def exDict : List (Val × Val) :=
  match toDict (.cont .taskHeader exFields) with
  | .ok (.dict d) => d
  | _ => []

/-- A header with a nested node, a mask and an enumeration member: the hypotheses of
`header_hash_covers` and `header_survives` hold of it. -/
example : mkCont toyEnv .taskHeader exHeader = .ok (.cont .taskHeader exFields) ∧
    plain exHeader = true ∧ toDict (.cont .taskHeader exFields) = .ok (.dict exDict) ∧
    plain (.dict exDict) = true ∧ toLists (.dict exDict) = .dict exDict ∧
    (headerHash toyEnv exFields).isOk = true ∧ (dumps (.dict exDict)).isOk = true ∧
    getAttr exFields p!"market_type" = .enum .marketType p!"Brass" := by decide +kernel

/-- Signing it with the toy key gives a header that verifies; unsigned it does not. -/
example : ∃ fs', headerSign toyEnv exFields (List.replicate 32 7) = .ok fs' ∧
    headerVerifyF toyEnv fs' (List.replicate 64 7) = .ok () ∧
    headerVerifyF toyEnv exFields (List.replicate 64 7) = .error .invalidSignature := by
  have h : (headerSign toyEnv exFields (List.replicate 32 7)).isOk = true := by decide +kernel
  cases hs : headerSign toyEnv exFields (List.replicate 32 7) with
  | error e => rw [hs] at h; cases h
  | ok fs' =>
    exact ⟨fs', rfl, header_sign_verify toyEnv exFields fs' _ _ (fun x s hx => (toy_law x s hx).2)
      (by decide) hs, by decide +kernel⟩

end Verif.Props
