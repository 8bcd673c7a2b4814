import Verif.Lemmas.MadeCalls
import Verif.Props.PastDeadline
/-!
# Made tasks pass the checks of their class
-/

set_option linter.unusedSimpArgs false

namespace Verif

open Spec

/-- The id in a made header is derived from the key of the owner in it. -/
theorem header_owner {E : Env} {d : HeaderDraw} {kw : Attrs} {v : Val} (hk : HeaderArgs E kw)
    (hd : d.key.length = 64) (h : headerFactory E d kw = .ok v) :
    ∃ fs ns id key, v = .cont .taskHeader fs ∧ getAttr fs p!"task_id" = .str id ∧
      getAttr fs p!"task_owner" = .cont .node ns ∧ getAttr ns p!"key" = .str key ∧
      fakeGolemUuid d.uuid (.str key) = .ok id := by
  have absent : ∀ n, n ≠ p!"requestor_public_key" → n ≠ p!"sign__privkey" → lookupName n kw = none := by
    intro n h1 h2
    refine lookup_absent fun k v hm e => ?_
    subst e
    rcases hk k v hm with ⟨e, _⟩ | ⟨e, _⟩
    · exact h1 e
    · exact h2 e
  have g : ∀ n r, n ≠ p!"requestor_public_key" → n ≠ p!"sign__privkey" → given kw n r = r :=
    fun n r h1 h2 => given_none (absent n h1 h2)
  have hkey : ∃ b : Bytes, b.length = 64 ∧
      given kw p!"requestor_public_key" ((encodeHex (.bytes d.key)).map .str) = .ok (.str (hexlify b)) := by
    unfold given
    cases hl : lookupName p!"requestor_public_key" kw with
    | none => exact ⟨d.key, hd, by rw [encodeHex_key hd]; rfl⟩
    | some v =>
      rcases hk _ _ (mem_of_lookupName hl) with ⟨_, b, hb, rfl⟩ | ⟨e, _⟩
      · exact ⟨b, hb, rfl⟩
      · exact absurd e (by decide)
  obtain ⟨b, hb, hkey⟩ := hkey
  generalize hexlify b = key at hkey
  unfold headerFactory at h
  simp only [bind, Except.bind] at h
  rw [hkey] at h
  dsimp only at h
  repeat rw [g _ _ (by decide) (by decide)] at h
  simp only [Except.map] at h
  split at h
  · cases h
  rename_i idv hid
  split at hid
  · cases hid
  rename_i id hid'
  injection hid with hid
  subst hid
  split at h
  · cases h
  rename_i owner howner
  split at h
  · cases h
  rename_i hv hmk
  obtain ⟨_, fs, _, _, e, _⟩ := contCall_ok hmk
  subst e
  split at h
  · cases h
  have hfin : ∃ fs', v = .cont .taskHeader fs' ∧ ∀ n, n ≠ p!"signature" → getAttr fs' n = getAttr fs n := by
    split at h
    · rename_i hh _
      injection hh with _ hh
      subst hh
      split at h
      · cases h
      rename_i fs' hsig
      injection h with h
      refine ⟨fs', h.symm, fun n hn => ?_⟩
      unfold headerSign at hsig
      split at hsig
      · cases hsig
      split at hsig
      · cases hsig
      injection hsig with hsig
      rw [← hsig, getAttr_setName, if_neg hn]
    · injection h with h
      exact ⟨fs, h.symm, fun _ _ => rfl⟩
  obtain ⟨fs', rfl, hget⟩ := hfin
  obtain ⟨_, _, hf1⟩ := Props.made_field hmk (k := p!"task_id") (y := .str id) rfl
  replace hf1 := Props.deser_hook hf1 (by simp)
  unfold fakeOwner at howner
  simp only [bind, Except.bind] at howner
  split at howner
  · cases howner
  rename_i node hnode
  obtain ⟨_, ns, _, _, e, _⟩ := contCall_ok hnode
  subst e
  obtain ⟨kw', r1, _, r3⟩ := mkCont_rebuild_plain (by rfl) hnode
  have ho : owner = .dict (asPairs kw') := by
    simp only [toDict, r1, Except.ok.injEq] at howner
    exact howner.symm
  subst ho
  obtain ⟨_, _, hf2⟩ := Props.made_field hmk (k := p!"task_owner") (y := .dict (asPairs kw')) rfl
  replace hf2 := Props.deser_hook hf2 (by simp)
  have hf2' : getAttr fs p!"task_owner" = .cont .node ns := by
    have : contHook E .taskHeader p!"task_owner" (.dict (asPairs kw')) = mkCont E .node (.dict (asPairs kw')) := rfl
    rw [this] at hf2
    have hf2 := r3.symm.trans hf2
    injection hf2 with hf2
    exact hf2.symm
  obtain ⟨_, _, hf3⟩ := Props.made_field (kw := [(p!"key", .str key), (p!"node_name", .str d.nodeName)])
    hnode (k := p!"key") (y := .str key) rfl
  replace hf3 := Props.deser_hook hf3 (by simp)
  refine ⟨fs', ns, id, key, rfl, ?_, ?_, ?_, hid'⟩
  · rw [hget _ (by decide)]
    have : contHook E .taskHeader p!"task_id" (.str id) = .ok (.str id) := rfl
    rw [this] at hf1
    injection hf1 with hf1
    exact hf1.symm
  · rw [hget _ (by decide)]; exact hf2'
  · have : contHook E .node p!"key" (.str key) = .ok (.str key) := rfl
    rw [this] at hf3
    injection hf3 with hf3
    exact hf3.symm

/-- The header in a made offer. -/
theorem offer_owner {E : Env} {G : Getter} {keccak : Bytes → Bytes} {d : OfferDraw} {kw : Attrs} {m : Msg}
    (hk : OfferArgs E kw) (hnd : (kw.map Prod.fst).Nodup) (hd : d.header.key.length = 64)
    (h : offerFactory E G keccak d kw = .ok m) :
    ∃ fs ns id key, getAttr m.attrs p!"task_header" = .cont .taskHeader fs ∧ getAttr fs p!"task_id" = .str id ∧
      getAttr fs p!"task_owner" = .cont .node ns ∧ getAttr ns p!"key" = .str key ∧
      fakeGolemUuid d.header.uuid (.str key) = .ok id := by
  have absent : lookupName p!"task_header" kw = none := by
    refine lookup_absent fun k v hm e => ?_
    subst e
    rcases hk _ v hm with ⟨e, _⟩ | ⟨e, _⟩ | ⟨e, _⟩ | ⟨e, _⟩ <;> exact absurd e (by decide)
  unfold offerFactory at h
  simp only [bind, Except.bind] at h
  split at h
  · cases h
  split at h
  · cases h
  split at h
  · cases h
  rename_i x3 hx3
  split at h
  · cases h
  split at h
  · cases h
  rename_i m0 hm0
  rw [given_none absent] at hx3
  obtain ⟨fs, ns, id, key, rfl, r⟩ := header_owner (offer_sub hk) hd hx3
  obtain ⟨loaded, hl, hf⟩ := Props.new_fields hm0 (Props.given_nodup (by simp [offerRoots]) (by simp) hnd)
  have hdn : dictOf .none = [] := rfl
  rw [hdn, loadSlots_empty] at hl
  injection hl with hl
  subst hl
  refine ⟨fs, ns, id, key, ?_, r⟩
  rw [(signHook_same h).2.2.2.2, hf _ (by decide)]
  rfl

theorem setDef_other {E : Env} {m m' : Msg} {key n : PStr} {v : Val} (h : setDef E m key v = .ok m')
    (hn : n ≠ p!"compute_task_def") : getAttr m'.attrs n = getAttr m.attrs n ∧ m'.cls = m.cls := by
  unfold setDef at h
  repeat' split at h
  all_goals first
  | cases h; done
  | (injection h with h; subst h; exact ⟨by rw [getAttr_setName, if_neg hn], rfl⟩)

theorem taskIdHook_other {E : Env} {u : Nat} {kw : Attrs} {m m' : Msg} {n : PStr} (h : taskIdHook E u kw m = .ok m')
    (hn : n ≠ p!"compute_task_def") : getAttr m'.attrs n = getAttr m.attrs n ∧ m'.cls = m.cls := by
  unfold taskIdHook at h
  simp only [bind, Except.bind] at h
  by_cases h0 : getAttr m.attrs p!"compute_task_def" = .none
  · rw [if_pos h0] at h
    injection h with h
    subst h
    exact ⟨rfl, rfl⟩
  · rw [if_neg h0] at h
    repeat' split at h
    all_goals first
    | cases h; done
    | exact setDef_other h hn

theorem subtaskIdHook_other {E : Env} {u : Nat} {kw : Attrs} {m m' : Msg} {n : PStr}
    (h : subtaskIdHook E u kw m = .ok m')
    (hn : n ≠ p!"compute_task_def") : getAttr m'.attrs n = getAttr m.attrs n ∧ m'.cls = m.cls := by
  unfold subtaskIdHook at h
  simp only [bind, Except.bind] at h
  by_cases h0 : getAttr m.attrs p!"compute_task_def" = .none
  · rw [if_pos h0] at h
    injection h with h
    subst h
    exact ⟨rfl, rfl⟩
  · rw [if_neg h0] at h
    repeat' split at h
    all_goals first
    | cases h; done
    | exact setDef_other h hn

/-- The payment signature of a made task. -/
theorem ethsigHook_signs {E : Env} {eth : Bytes × Bytes} {kw : Attrs} {m m' w : Msg}
    (hk : subArgs p!"ethsig" kw = []) (hp : getAttr m.attrs p!"requestor_ethereum_public_key" = .none)
    (hw : getAttr m.attrs p!"want_to_compute_task" = w.val) (hpriv : eth.1 ≠ [])
    (h : ethsigHook E eth kw m = .ok m') :
    ∃ s pub hh, encodeHex (.bytes eth.2) = .ok pub ∧ shortHash E w = .ok hh ∧ E.ecdsaSign eth.1 hh = .ok s ∧
      m'.cls = m.cls ∧
      m'.attrs = setName p!"ethsig" (.bytes s) (setName p!"requestor_ethereum_public_key" (.str pub) m.attrs) := by
  unfold ethsigHook at h
  rw [hk, hp] at h
  have e2 : ∀ n, getAttr [] n = .none := fun _ => rfl
  simp [bind, Except.bind, e2, Val.truthy, hpriv] at h
  split at h
  · cases h
  rename_i pub hpub
  unfold generateEthsig at h
  simp only at h
  split at h
  · cases h
  split at h
  · cases h
  rename_i w0 hw0
  rw [getAttr_setName, if_neg (by decide), hw] at hw0
  have : w0 = w := by
    unfold Msg.val Val.asMsg at hw0
    simp only [Option.some.injEq] at hw0
    exact hw0.symm
  subst this
  split at h
  · cases h
  rename_i hh hhash
  split at h
  · cases h
  rename_i s hs
  injection h with h
  subst h
  exact ⟨s, pub, hh, hpub, hhash, hs, rfl, rfl⟩

/-- Made tasks pass the checks: the payment signature verifies, and the ids are derived from the
requestor's. -/
theorem task_checks {E : Env} {G : Getter} {keccak : Bytes → Bytes} {d : TaskDraw} {kw : Attrs} {m : Msg}
    (hk : TaskArgs E kw) (hnd : (kw.map Prod.fst).Nodup) (hkey : d.key.length = 64)
    (hhkey : d.offer.header.key.length = 64) (KE : Spec.KeyPair E d.eth.1 d.eth.2)
    (hu1 : d.uuid1 < 2 ^ 128) (hu2 : d.uuid2 < 2 ^ 128) (hu3 : d.offer.header.uuid < 2 ^ 128)
    (h : taskFactory E G keccak d kw = .ok m) : taskChecks E m = .ok m := by
  have absent : ∀ n, n ∉ [p!"requestor_public_key", p!"sign__privkey", p!"compute_task_def__deadline",
      p!"want_to_compute_task__provider_public_key", p!"want_to_compute_task__sign__privkey",
      p!"want_to_compute_task__task_header__requestor_public_key",
      p!"want_to_compute_task__task_header__sign__privkey"] → lookupName n kw = none := by
    intro n hn
    refine lookup_absent fun k v hm e => hn ?_
    subst e
    rcases hk k v hm with ⟨rfl, _⟩ | ⟨rfl, _⟩ | ⟨rfl, _⟩ | ⟨rfl, _⟩ | ⟨rfl, _⟩ | ⟨rfl, _⟩ | ⟨rfl, _⟩ <;> decide
  have hsub : subArgs p!"ethsig" kw = [] := by
    cases hx : subArgs p!"ethsig" kw with
    | nil => rfl
    | cons kv rest =>
      have hm : (kv.1, kv.2) ∈ subArgs p!"ethsig" kw := by rw [hx]; exact List.mem_cons_self
      rcases hk _ _ (mem_subArgs hm) with ⟨e, _⟩ | ⟨e, _⟩ | ⟨e, _⟩ | ⟨e, _⟩ | ⟨e, _⟩ | ⟨e, _⟩ | ⟨e, _⟩ <;> cases e
  have hgk : ∃ b : Bytes,
      given kw p!"requestor_public_key" ((encodeHex (.bytes d.key)).map .str) = .ok (.str (hexlify b)) := by
    unfold given
    cases hl : lookupName p!"requestor_public_key" kw with
    | none => exact ⟨d.key, by rw [encodeHex_key hkey]; rfl⟩
    | some v =>
      rcases hk _ _ (mem_of_lookupName hl) with ⟨_, b, hb, rfl⟩ | ⟨e, _⟩ | ⟨e, _⟩ | ⟨e, _⟩ | ⟨e, _⟩ | ⟨e, _⟩ | ⟨e, _⟩
      · exact ⟨b, rfl⟩
      all_goals exact absurd e (by decide)
  obtain ⟨b, hgk⟩ := hgk
  obtain ⟨items, i1, _, i3, i4⟩ := Props.made_ids E G keccak d kw m hnd
    (fun v hv => by rw [absent _ (by decide)] at hv; cases hv) hu1 hu2 h
  have none_any : ∀ n, lookupName n kw = none → (lookupName n kw).any holds = false := by
    intro n hn; rw [hn]; rfl
  replace i3 := i3 (none_any _ (absent _ (by decide)))
  obtain ⟨sid, seed, s1, s2, s3⟩ := i4 (none_any _ (absent _ (by decide)))
  obtain ⟨keys, hkeys, h⟩ := taskFactory_made h
  rw [ethsigKeys_nil hsub] at hkeys
  cases hkeys
  unfold taskMade at h
  simp only [bind, Except.bind] at h
  rw [hgk] at h
  dsimp only at h
  rw [given_none (absent p!"requestor_id" (by decide)), given_none (absent p!"want_to_compute_task" (by decide))] at h
  dsimp only at h
  cases ho : offerFactory E G keccak d.offer (subArgs p!"want_to_compute_task" kw) with
  | error e => rw [ho] at h; cases h
  | ok o =>
  rw [ho] at h
  simp only [Except.map] at h
  split at h
  · cases h
  split at h
  · cases h
  split at h
  · cases h
  split at h
  · cases h
  split at h
  · cases h
  split at h
  · cases h
  split at h
  · cases h
  rename_i m0 hm0
  split at h
  · cases h
  rename_i m1 hm1
  split at h
  · cases h
  rename_i m2 hm2
  split at h
  · cases h
  rename_i m3 hm3
  obtain ⟨loaded, hl, hf⟩ := Props.new_fields hm0 (Props.given_nodup (by simp [taskRoots]) (by simp) hnd)
  have hdn : dictOf .none = [] := rfl
  rw [hdn, loadSlots_empty] at hl
  injection hl with hl
  subst hl
  have f1 : getAttr m0.attrs p!"requestor_id" = .str (hexlify b) := by rw [hf _ (by decide)]; rfl
  have f2 : getAttr m0.attrs p!"want_to_compute_task" = o.val := by rw [hf _ (by decide)]; rfl
  have hextra : extraArgs taskRoots kw = [] := by
    refine extra_none fun k v hm => ?_
    rcases hk k v hm with ⟨rfl, _⟩ | ⟨rfl, _⟩ | ⟨rfl, _⟩ | ⟨rfl, _⟩ | ⟨rfl, _⟩ | ⟨rfl, _⟩ | ⟨rfl, _⟩ <;> decide
  have f3 : getAttr m0.attrs p!"requestor_ethereum_public_key" = .none := by
    rw [hf _ (by decide), hextra]; rfl
  have k2 : ∀ n, n ≠ p!"compute_task_def" → getAttr m2.attrs n = getAttr m0.attrs n := fun n hn => by
    rw [(subtaskIdHook_other hm2 hn).1, (taskIdHook_other hm1 hn).1]
  obtain ⟨s, pub, hh, e1, e2, e3, e4, e5⟩ := ethsigHook_signs (w := o) hsub
    (by rw [k2 _ (by decide), f3]) (by rw [k2 _ (by decide), f2]) KE.given hm3
  have hs := signHook_same h
  have ga : ∀ n, n ≠ p!"compute_task_def" → n ≠ p!"ethsig" → n ≠ p!"requestor_ethereum_public_key" →
      getAttr m.attrs n = getAttr m0.attrs n := by
    intro n h1 h2 h3
    rw [hs.2.2.2.2, e5, getAttr_setName, if_neg h2, getAttr_setName, if_neg h3, k2 n h1]
  have hcls : m.cls = .TaskToCompute := by
    rw [hs.1, e4, (subtaskIdHook_other hm2 (n := p!"price") (by decide)).2,
      (taskIdHook_other hm1 (n := p!"price") (by decide)).2]
    exact (Props.new_ok hm0).choose_spec.choose_spec.2.2.1
  have heth : verifyEthsig E m = .ok () := by
    unfold verifyEthsig
    rw [ga _ (by decide) (by decide) (by decide), f2]
    simp only [Msg.val, Val.asMsg]
    have hdec : decodeHex (.str pub) = .ok d.eth.2 := by
      rw [encodeHex_key KE.length] at e1
      injection e1 with e1
      rw [← e1]
      exact decodeHex_key _
    rw [hs.2.2.2.2, e5, getAttr_setName, if_neg (by decide), getAttr_setName, if_pos rfl, hdec]
    simp only
    unfold verifySigWith
    rw [e2]
    simp only
    rw [getAttr_setName, if_pos rfl]
    exact (Props.ecdsa_verify_decision E d.eth.2 hh (.bytes s)).1.mpr ⟨KE.length, (KE.law _ _ e3).2⟩
  have hr : getAttr m.attrs p!"requestor_id" = .str (hexlify b) := by
    rw [ga _ (by decide) (by decide) (by decide), f1]
  have hids : ∀ (key i : PStr), getAttr items key = .str i → SeededBy i b → validateTaskIdKey m key = .ok () := by
    intro key i hg hsd
    unfold validateTaskIdKey
    rw [i1]
    simp only [Val.asDict]
    rw [Props.item_get (by intro e; cases e) hg]
    simp only
    unfold checkIdHexSeed
    rw [hr, decodeHex_key]
    simp only
    rw [(Props.id_check_decision i b).1.mpr hsd]
  have hdec : ∀ seed, decodeHex (getAttr m.attrs p!"requestor_id") = .ok seed → seed = b := by
    intro seed hse
    rw [hr, decodeHex_key] at hse
    injection hse with hse
    exact hse.symm
  have hsub' : validateTaskIdKey m p!"subtask_id" = .ok () := by
    have := hdec _ s2
    subst this
    exact hids _ _ s1 s3
  have hw : getAttr m.attrs p!"want_to_compute_task" = o.val := by
    rw [ga _ (by decide) (by decide) (by decide), f2]
  obtain ⟨fs, ns, id, key, o1, o2, o3, o4, o5⟩ := offer_owner (task_sub_offer hk) (Props.sub_nodup hnd) hhkey ho
  have htask : validateTaskIdKey m p!"task_id" = .ok () := by
    by_cases hkk : key = hexlify b
    · subst hkk
      have hne : holds (.str id) = true := by
        obtain ⟨id', h1, h2⟩ := golemUuid_key d.offer.header.uuid b
        rw [o5] at h1
        injection h1 with h1
        rw [← h1] at h2
        cases id with
        | nil => cases h2
        | cons _ _ => rfl
      have hg := i3.1 o fs ns hw o1 o3 (by rw [hr, o4]; simp [pyEq]) (by rw [o2]; exact hne)
      rw [o2] at hg
      unfold validateTaskIdKey
      rw [i1]
      simp only [Val.asDict]
      rw [Props.item_get (by intro e; cases e) hg]
      simp only
      rw [hr, Props.fake_id_ok hu3 o5]
    · obtain ⟨id', seed', g1, g2, g3⟩ := i3.2 (by
        intro w fs' ns' w1 w2 w3
        have : w = o := by
          rw [hw] at w1
          unfold Msg.val at w1
          cases w; cases o
          simp only [Val.msg.injEq] at w1
          simp [w1]
        subst this
        rw [o1] at w2
        injection w2 with _ w2
        subst w2
        rw [o3] at w3
        injection w3 with _ w3
        subst w3
        left
        rw [hr, o4]
        simp [pyEq, Ne.symm hkk])
      have := hdec _ g2
      subst this
      exact hids _ _ g1 g3
  unfold taskChecks isValid validateTaskId
  rw [hcls]
  simp [Cls.isTask, heth, htask, hsub', bind, Except.bind]

end Verif
