import Verif.Lemmas.TaskFactory
import Verif.Model.Factories
import Verif.Spec.Factories
import Verif.Props.Exchange
import Verif.Props.Construct
import Verif.Props.Version
/-!
# C85, C86: what the factories make
-/

set_option linter.unusedSimpArgs false

namespace Verif.Props

open Verif Spec

/-- C85: an id made from a random UUID and a node id verifies against exactly the seeds that begin
with the same six bytes (read as numbers) as the node id. -/
theorem fake_id_checks (u : Nat) (hu : u < 2 ^ 128) (nodeId : Val) (seed seed' : Bytes)
    (h : decodeHex nodeId = .ok seed) :
    ∃ id, fakeGolemUuid u nodeId = .ok id ∧ id.length = 36 ∧
      checkIdSeed (.str id) seed' = .ok (bigEndian (seed'.take 6) == bigEndian (seed.take 6)) := by
  have hl := seedToNode_lt seed
  refine ⟨_, by unfold fakeGolemUuid; rw [h], ?_, ?_⟩
  · simp [uuidText, hexN_length]
  · have hlt : u / 2 ^ 48 * 2 ^ 48 + seedToNode seed < 2 ^ 128 := by omega
    rw [checkIdSeed_some seed' (parseUuid_text _ hlt), bigEndian_eq, bigEndian_eq]
    have : uuidNode (u / 2 ^ 48 * 2 ^ 48 + seedToNode seed) = seedToNode seed := by
      unfold uuidNode; omega
    rw [this]
    simp only [seedToNode, seedLen]

private theorem decimal_digits (n : Nat) : decimal n = Nat.toDigits 10 n := by
  induction n using Nat.strongRecOn with
  | ind n ih =>
    have hd : ∀ k < 10, digit k = Nat.digitChar k := by decide
    rw [decimal, Nat.toDigits_eq_if (by omega)]
    by_cases h : n < 10
    · rw [dif_pos h, if_pos h, hd n h]
    · rw [dif_neg h, if_neg h, ih _ (by omega), hd _ (by omega)]

/-- C85: a made-up version is one, with exactly the numbers drawn. -/
theorem fake_version_parses (a b c : Nat) :
    parseVersion (fakeVersion a b c) = some ⟨a, b, c, [], []⟩ := by
  have e : fakeVersion a b c = Ver.text ⟨a, b, c, [], []⟩ := by
    simp [fakeVersion, Ver.text, decimal_digits]
  rw [e]
  exact (version_grammar _ ⟨a, b, c, [], []⟩).mpr ⟨⟨by simp, by simp⟩, Or.inl (text_said _)⟩

example : fakeVersion 2 17 0 = p!"2.17.0" := by decide +kernel

/-- The id for the node id `abcdef0123456789`. -/
example : fakeGolemUuid 0x11111111111111111111111111111111 (.str p!"abcdef0123456789") =
    .ok p!"11111111-1111-1111-1111-abcdef012345" := by decide +kernel

theorem fake_id_ok {u : Nat} (hu : u < 2 ^ 128) {nodeId : Val} {id : PStr}
    (h : fakeGolemUuid u nodeId = .ok id) : checkIdHexSeed (.str id) nodeId = .ok true := by
  unfold fakeGolemUuid at h
  split at h
  · cases h
  rename_i seed hs
  obtain ⟨id', h1, _, h2⟩ := fake_id_checks u hu nodeId seed seed hs
  unfold fakeGolemUuid at h1
  rw [hs] at h1
  simp only at h h1
  rw [h] at h1
  injection h1 with h1
  subst h1
  unfold checkIdHexSeed
  rw [hs]
  simp only
  rw [h2]
  simp

/-- The value of a field that was given to the constructor of a container. -/
theorem made_field {E : Env} {c : ContId} {kw fs : Attrs} {k : PStr} {y : Val}
    (h : mkCont E c (.dict (kw.map fun kv => (.str kv.1, kv.2))) = .ok (.cont c fs))
    (hk : lookupName k kw = some y) : ∃ vs, (k, vs) ∈ c.slots ∧
      contDeser E (contHook E c) c k vs y = .ok (getAttr fs k) := by
  obtain ⟨kw', fs', e1, _, e2, hn, hin, hf⟩ := contCall_ok h
  injection e2 with _ e2
  subst e2
  have hkw : kw' = kw := by
    simp only [Val.asDict, Option.some.injEq] at e1
    have := textKeys_map kw
    rw [e1, textKeys_map] at this
    injection this
  subst hkw
  have hmem : k ∈ kw'.map Prod.fst := (lookupName_isSome _ _).mp (by rw [hk]; rfl)
  obtain ⟨⟨k', vs⟩, hs, e⟩ := List.mem_map.mp (hin k hmem)
  simp only at e
  subst e
  obtain ⟨x, hx, hxf⟩ := hf k' vs hs
  rw [contField_present hk] at hxf
  refine ⟨vs, hs, ?_⟩
  rw [hxf, getAttr_of_mem (by rw [hn]; exact slots_nodup _) hx]

theorem deser_hook {E : Env} {hook : PStr → Val → Res Val} {c : ContId} {k : PStr} {vs : List Validator}
    {v w : Val} (h : contDeser E hook c k vs v = .ok w) (hv : v ≠ .none) : hook k v = .ok w := by
  unfold contDeser at h
  rw [if_neg (fun e => hv e.1)] at h
  split at h
  · cases h
  · exact h

private theorem header_made {E : Env} {d : HeaderDraw} {key : PStr} {priv pub : Bytes} {v : Val}
    (K : KeyPair E priv pub)
    (h : headerFactory E d [(p!"requestor_public_key", .str key), (p!"sign__privkey", .bytes priv)] = .ok v) :
    ∃ fs ns id, v = .cont .taskHeader fs ∧ headerVerifyF E fs pub = .ok () ∧
      getAttr fs p!"task_id" = .str id ∧ fakeGolemUuid d.uuid (.str key) = .ok id ∧
      getAttr fs p!"task_owner" = .cont .node ns ∧ getAttr ns p!"key" = .str key := by
  have hs : signArg [(p!"requestor_public_key", .str key), (p!"sign__privkey", .bytes priv)] = .ok (some priv) := by
    have := K.given
    cases priv with
    | nil => exact absurd rfl this
    | cons a b => rfl
  unfold headerFactory at h
  rw [hs] at h
  have g : ∀ n x, n ≠ p!"requestor_public_key" → n ≠ p!"sign__privkey" →
      given [(p!"requestor_public_key", .str key), (p!"sign__privkey", .bytes priv)] n x = x := by
    intro n x h1 h2
    unfold given
    rw [lookupName_cons, if_neg (Ne.symm h1), lookupName_cons, if_neg (Ne.symm h2)]
    rfl
  have g0 : ∀ x, given [(p!"requestor_public_key", .str key), (p!"sign__privkey", .bytes priv)]
      p!"requestor_public_key" x = .ok (.str key) := fun _ => rfl
  rw [g0] at h
  simp only [bind, Except.bind] at h
  repeat rw [g _ _ (by decide) (by decide)] at h
  simp only [Except.map] at h
  split at h
  · cases h
  rename_i idv hid
  split at hid
  · cases hid
  rename_i id hid'
  injection hid with hid
  subst hid
  split at h
  · cases h
  rename_i owner howner
  split at h
  · cases h
  rename_i hv hmk
  obtain ⟨_, fs, _, _, e, _⟩ := contCall_ok hmk
  subst e
  simp only at h
  split at h
  · cases h
  rename_i fs' hsig
  injection h with h
  have hver := header_sign_verify E fs fs' priv pub (fun x s hx => (K.law x s hx).2) K.length hsig
  have hget : ∀ n, n ≠ p!"signature" → getAttr fs' n = getAttr fs n := by
    intro n hn
    unfold headerSign at hsig
    split at hsig
    · cases hsig
    split at hsig
    · cases hsig
    injection hsig with hsig
    rw [← hsig, getAttr_setName, if_neg hn]
  obtain ⟨_, _, hf1⟩ := made_field hmk (k := p!"task_id") (y := .str id) rfl
  replace hf1 := deser_hook hf1 (by simp)
  -- the owner
  unfold fakeOwner at howner
  simp only [bind, Except.bind] at howner
  split at howner
  · cases howner
  rename_i node hnode
  obtain ⟨_, ns, _, _, e, _⟩ := contCall_ok hnode
  subst e
  obtain ⟨kw', r1, _, r3⟩ := mkCont_rebuild_plain (by rfl) hnode
  have ho : owner = .dict (asPairs kw') := by
    simp only [toDict, r1, Except.ok.injEq] at howner
    exact howner.symm
  subst ho
  obtain ⟨_, _, hf2⟩ := made_field hmk (k := p!"task_owner") (y := .dict (asPairs kw')) rfl
  replace hf2 := deser_hook hf2 (by simp)
  have hf2' : getAttr fs p!"task_owner" = .cont .node ns := by
    have : contHook E .taskHeader p!"task_owner" (.dict (asPairs kw')) = mkCont E .node (.dict (asPairs kw')) := rfl
    rw [this] at hf2
    have hf2 := r3.symm.trans hf2
    injection hf2 with hf2
    exact hf2.symm
  obtain ⟨_, _, hf3⟩ := made_field (kw := [(p!"key", .str key), (p!"node_name", .str d.nodeName)])
    hnode (k := p!"key") (y := .str key) rfl
  replace hf3 := deser_hook hf3 (by simp)
  refine ⟨fs', ns, id, h.symm, hver, ?_, hid', ?_, ?_⟩
  · rw [hget _ (by decide)]
    have : contHook E .taskHeader p!"task_id" (.str id) = .ok (.str id) := rfl
    rw [this] at hf1
    injection hf1 with hf1
    exact hf1.symm
  · rw [hget _ (by decide)]; exact hf2'
  · have : contHook E .node p!"key" (.str key) = .ok (.str key) := rfl
    rw [this] at hf3
    injection hf3 with hf3
    exact hf3.symm

/-! ### Offers -/

theorem signed_verifies {E : Env} {m m' : Msg} {priv pub : Bytes} (K : KeyPair E priv pub)
    (h : m.signMessage E priv = .ok m') :
    m'.verifySig E pub = .ok () ∧ m'.cls = m.cls ∧ m'.attrs = m.attrs ∧
      ∃ hh, shortHash E m' = .ok hh := by
  unfold Msg.signMessage at h
  split at h
  · cases h
  rename_i hh hhash
  split at h
  · cases h
  rename_i s hs
  injection h with h
  subst h
  have e : shortHash E { m with sig := .bytes s } = .ok hh := hhash
  refine ⟨?_, rfl, rfl, hh, e⟩
  unfold Msg.verifySig verifySigWith
  rw [e]
  exact (ecdsa_verify_decision E pub hh (.bytes s)).1.mpr ⟨K.length, (K.law _ _ hs).2⟩

/-- What the nested offer is made with. -/
private def offerArgs (rkey pkey : PStr) (rpriv ppriv : Bytes) : Attrs :=
  [(p!"task_header__requestor_public_key", .str rkey), (p!"task_header__sign__privkey", .bytes rpriv),
   (p!"provider_public_key", .str pkey), (p!"sign__privkey", .bytes ppriv)]

private theorem offer_made {E : Env} {G : Getter} {keccak : Bytes → Bytes} {d : OfferDraw}
    {rkey pkey : PStr} {rpriv rpub ppriv ppub : Bytes} {m : Msg} (KR : KeyPair E rpriv rpub)
    (KP : KeyPair E ppriv ppub)
    (h : offerFactory E G keccak d (offerArgs rkey pkey rpriv ppriv) = .ok m) :
    m.cls = .WantToComputeTask ∧ m.verifySig E ppub = .ok () ∧
      getAttr m.attrs p!"provider_public_key" = .str pkey ∧
    ∃ fs ns id, getAttr m.attrs p!"task_header" = .cont .taskHeader fs ∧ headerVerifyF E fs rpub = .ok () ∧
      getAttr fs p!"task_id" = .str id ∧ fakeGolemUuid d.header.uuid (.str rkey) = .ok id ∧
      getAttr fs p!"task_owner" = .cont .node ns ∧ getAttr ns p!"key" = .str rkey := by
  have hs : signArg (offerArgs rkey pkey rpriv ppriv) = .ok (some ppriv) := by
    have := KP.given
    cases ppriv with
    | nil => exact absurd rfl this
    | cons a b => rfl
  unfold offerFactory signHook at h
  rw [hs] at h
  have g0 : ∀ x, given (offerArgs rkey pkey rpriv ppriv) p!"provider_public_key" x = .ok (.str pkey) := fun _ => rfl
  have g1 : ∀ x, given (offerArgs rkey pkey rpriv ppriv) p!"provider_ethereum_address" x = x := fun _ => rfl
  have g2 : ∀ x, given (offerArgs rkey pkey rpriv ppriv) p!"task_header" x = x := fun _ => rfl
  have g3 : ∀ x, given (offerArgs rkey pkey rpriv ppriv) p!"price" x = x := fun _ => rfl
  have e1 : subArgs p!"task_header" (offerArgs rkey pkey rpriv ppriv) =
    [(p!"requestor_public_key", .str rkey), (p!"sign__privkey", .bytes rpriv)] := rfl
  have e2 : extraArgs offerRoots (offerArgs rkey pkey rpriv ppriv) = [] := rfl
  simp only [bind, Except.bind, g0, g1, g2, g3, e1, e2, List.append_nil] at h
  split at h
  · cases h
  rename_i address _
  split at h
  · cases h
  rename_i header hheader
  obtain ⟨fs, ns, id, rfl, h1⟩ := header_made KR hheader
  obtain ⟨m0, hm0, hc, _, _, _, _, _, _, hf⟩ := constructed_fields E G d.now .WantToComputeTask
    [(p!"provider_public_key", .str pkey), (p!"provider_ethereum_address", address),
      (p!"task_header", .cont .taskHeader fs), (p!"price", .float 0x4376345785D8A000)]
    (by simp only [List.map]; decide) (by simp only [List.map]; decide)
  rw [hm0] at h
  simp only at h
  obtain ⟨v1, v2, v3, _⟩ := signed_verifies KP h
  refine ⟨v2.trans hc, v1, ?_, fs, ns, id, ?_, h1⟩
  · rw [v3, (hf p!"provider_public_key" (by decide) (.str pkey)).1 (by simp)]
    rfl
  · rw [v3, (hf p!"task_header" (by decide) (.cont .taskHeader fs)).1 (by simp)]
    rfl

/-! ### Arguments -/

private theorem subArgs_append (n : PStr) (a b : Attrs) : subArgs n (a ++ b) = subArgs n a ++ subArgs n b := by
  simp [subArgs, List.filterMap_append]

private theorem extraArgs_append (r : List PStr) (a b : Attrs) :
    extraArgs r (a ++ b) = extraArgs r a ++ extraArgs r b := by
  simp [extraArgs]

private theorem free_lookup {kw : Attrs} (hk : ∀ k ∈ kw.map Prod.fst, k ∈ freeTaskArgs) {n : PStr}
    (hn : n ∉ freeTaskArgs) : lookupName n kw = none :=
  (lookupName_none _ _).mpr fun h => hn (hk n h)

private theorem free_sub {kw : Attrs} (hk : ∀ k ∈ kw.map Prod.fst, k ∈ freeTaskArgs) {n : PStr}
    (hn : ∀ k ∈ freeTaskArgs, (n ++ p!"__").isPrefixOf k = false) : subArgs n kw = [] := by
  unfold subArgs
  rw [List.filterMap_eq_nil_iff]
  intro kv hkv
  have := hn kv.1 (hk _ (List.mem_map_of_mem hkv))
  simp [this]

private theorem fill_new {others : List PStr} {name : PStr} {v : Val} {kw : Attrs} (hn : name ∈ others)
    (h : ∀ n ∈ others, lookupName n kw = none) : fillArg others name v kw = kw ++ [(name, v)] := by
  unfold fillArg
  rw [if_neg]
  · exact setName_absent ((lookupName_none _ _).mp (h name hn))
  · intro hc
    obtain ⟨n, h1, h2⟩ := List.any_eq_true.mp hc
    rw [h n h1] at h2
    cases h2

/-- What `with_signed_nested_messages` adds. -/
private def signedExtra (rkey pkey : PStr) (rpriv ppriv : Bytes) : Attrs :=
  [(p!"requestor_public_key", .str rkey), (p!"sign__privkey", .bytes rpriv),
   (p!"want_to_compute_task__task_header__requestor_public_key", .str rkey),
   (p!"want_to_compute_task__task_header__sign__privkey", .bytes rpriv),
   (p!"want_to_compute_task__provider_public_key", .str pkey),
   (p!"want_to_compute_task__sign__privkey", .bytes ppriv)]

private theorem signedArgs_eq {rpriv rpub ppriv ppub : Bytes} {kw : Attrs} {rkey pkey : PStr}
    (hr : encodeHex (.bytes rpub) = .ok rkey) (hp : encodeHex (.bytes ppub) = .ok pkey)
    (hk : ∀ k ∈ kw.map Prod.fst, k ∈ freeTaskArgs) :
    signedArgs (some (rpriv, rpub)) (some (ppriv, ppub)) kw = .ok (kw ++ signedExtra rkey pkey rpriv ppriv) := by
  have fill : ∀ (others : List PStr) (name : PStr) (v : Val) (l : Attrs), name ∈ others →
      (∀ n ∈ others, n ∉ freeTaskArgs ∧ n ∉ l.map Prod.fst) →
      fillArg others name v (kw ++ l) = kw ++ (l ++ [(name, v)]) := by
    intro others name v l hn h
    rw [fill_new hn, List.append_assoc]
    intro n hm
    rw [lookupName_append, free_lookup hk (h n hm).1, (lookupName_none _ _).mpr (h n hm).2]
  unfold signedArgs requestorArgs
  simp only [hr]
  rw [← List.append_nil kw, fill, fill, fill, fill]
  · simp only [List.append_nil]
    unfold providerArgs
    simp only
    rw [if_neg, hp]
    · simp only
      rw [fill, fill]
      · rfl
      all_goals first | decide | (simp only [List.map, List.append, List.cons_append, List.nil_append]; decide)
    · intro hc
      obtain ⟨n, h1, h2⟩ := List.any_eq_true.mp hc
      have : n ∉ freeTaskArgs ∧ n ∉ [p!"requestor_public_key", p!"sign__privkey",
          p!"want_to_compute_task__task_header__requestor_public_key",
          p!"want_to_compute_task__task_header__sign__privkey"] := by
        clear h2; revert n; decide
      rw [lookupName_append, free_lookup hk this.1, (lookupName_none _ _).mpr this.2] at h2
      cases h2
  all_goals first | decide | (simp only [List.map, List.append, List.cons_append, List.nil_append]; decide)

/-! ### Tasks -/

theorem item_get {items : Attrs} {key : PStr} {v : Val} (hv : v ≠ .none) (hk : getAttr items key = v) :
    dictGet (.str key) (items.map fun kv => (Val.str kv.1, kv.2)) = some v := by
  rw [dictGet_find]
  induction items with
  | nil => exact absurd hk.symm hv
  | cons kv rest ih =>
    obtain ⟨k, w⟩ := kv
    unfold getAttr at hk ih
    rw [lookupName_cons] at hk
    by_cases hkk : k = key
    · rw [if_pos hkk] at hk
      simp only at hk
      subst hkk hk
      simp
    · rw [if_neg hkk] at hk
      simp only [List.map_cons, List.find?_cons]
      have : decide (Val.str k = Val.str key) = false := by simp [hkk]
      rw [this]
      exact ih hk

private theorem setDef_ok {E : Env} {m m' : Msg} {items : Attrs} {key : PStr} {v : Val}
    (hd : getAttr m.attrs p!"compute_task_def" = .fdict .computeTaskDef items)
    (h : setDef E m key v = .ok m') : m'.cls = m.cls ∧
      m'.attrs = setName p!"compute_task_def" (.fdict .computeTaskDef (setName key v items)) m.attrs := by
  unfold setDef at h
  rw [hd] at h
  simp only at h
  split at h
  · cases h
  rename_i items' hi
  obtain ⟨k, v', e1, e2, _, _, rfl⟩ := fdSetV_ok hi
  cases e1
  cases e2
  injection h with h
  subst h
  exact ⟨rfl, rfl⟩

private theorem chainA_plain {E : Env} {concent : Option Bytes} : ∀ {as : Attrs},
    (∀ n v, (n, v) ∈ as → chainV E concent v = .ok ()) → chainA E concent as = .ok ()
  | [], _ => by rw [chainA]
  | (n, v) :: rest, h => by
    rw [chainA, h n v (by simp)]
    exact chainA_plain fun n v hm => h n v (by simp [hm])

private theorem chainV_other {E : Env} {concent : Option Bytes} {v : Val} (h : ∀ w : Msg, v ≠ w.val) :
    chainV E concent v = .ok () := by
  cases v with
  | msg c ty ts enc sig as => exact absurd rfl (h ⟨c, ty, ts, enc, sig, as⟩)
  | _ => rw [chainV]; intro _ _ _ _ _ _ e; cases e

theorem given_cases {kw : Attrs} {n : PStr} {r : Res Val} {y : Val} (h : given kw n r = .ok y) :
    (n, y) ∈ kw ∨ r = .ok y := by
  unfold given at h
  split at h
  · rename_i v hv
    injection h with h
    subst h
    exact Or.inl (mem_of_lookupName hv)
  · exact Or.inr h

private theorem task_self {t : Msg} (h : t.cls = .TaskToCompute) : t.taskToCompute = t.val := by
  obtain ⟨c, ty, ts, enc, sig, attrs⟩ := t
  simp only at h
  subst h
  unfold Msg.taskToCompute Msg.val
  rw [taskGet_ttc]
  simp [ttcField]

private theorem task_made {E : Env} {G : Getter} {keccak : Bytes → Bytes} {d : TaskDraw} {kw : Attrs}
    {rkey pkey : PStr} {rpriv rpub ppriv ppub : Bytes} {m : Msg} (KR : KeyPair E rpriv rpub)
    (KP : KeyPair E ppriv ppub) (KE : KeyPair E d.eth.1 d.eth.2)
    (hk : ∀ k ∈ kw.map Prod.fst, k ∈ freeTaskArgs) (hnd : (kw.map Prod.fst).Nodup)
    (hv : ∀ kv ∈ kw, ∀ w : Msg, kv.2 ≠ w.val) (hu : d.offer.header.uuid < 2 ^ 128) (hu2 : d.uuid2 < 2 ^ 128)
    (hrkey : decodeHex (.str rkey) = .ok rpub) (hpkey : decodeHex (.str pkey) = .ok ppub)
    (h : taskFactory E G keccak d (kw ++ signedExtra rkey pkey rpriv ppriv) = .ok m) :
    ∃ (w : Msg) (fs ns items : Attrs) (id sid : PStr), m.cls = .TaskToCompute ∧
      getAttr m.attrs p!"want_to_compute_task" = w.val ∧ w.cls = .WantToComputeTask ∧
      getAttr w.attrs p!"task_header" = .cont .taskHeader fs ∧
      getAttr fs p!"task_owner" = .cont .node ns ∧
      getAttr m.attrs p!"compute_task_def" = .fdict .computeTaskDef items ∧
      m.verifySig E rpub = .ok () ∧ w.verifySig E ppub = .ok () ∧ headerVerifyF E fs rpub = .ok () ∧
      taskChecks E m = .ok m ∧ (∀ concent, verifyOwners E m (some ppub) (some rpub) concent = .ok ()) ∧
      getAttr m.attrs p!"requestor_public_key" = .str rkey ∧
      getAttr m.attrs p!"requestor_id" = .str rkey ∧ getAttr ns p!"key" = .str rkey ∧
      getAttr w.attrs p!"provider_public_key" = .str pkey ∧
      getAttr fs p!"task_id" = .str id ∧ getAttr items p!"task_id" = .str id ∧
      getAttr items p!"subtask_id" = .str sid := by
  have gk : ∀ n x, n ∉ freeTaskArgs → given (kw ++ signedExtra rkey pkey rpriv ppriv) n x =
      given (signedExtra rkey pkey rpriv ppriv) n x := by
    intro n x hn
    unfold given
    rw [lookupName_append, free_lookup hk hn]
  have s1 : ∀ n, (∀ k ∈ freeTaskArgs, (n ++ p!"__").isPrefixOf k = false) →
      subArgs n (kw ++ signedExtra rkey pkey rpriv ppriv) = subArgs n (signedExtra rkey pkey rpriv ppriv) := by
    intro n hn
    rw [subArgs_append, free_sub hk hn, List.nil_append]
  have e1 : extraArgs taskRoots (kw ++ signedExtra rkey pkey rpriv ppriv) = extraArgs taskRoots kw := by
    rw [extraArgs_append]
    have : extraArgs taskRoots (signedExtra rkey pkey rpriv ppriv) = [] := rfl
    rw [this, List.append_nil]
  have g1 : ∀ x, given (kw ++ signedExtra rkey pkey rpriv ppriv) p!"requestor_public_key" x = .ok (.str rkey) :=
    fun x => gk _ x (by decide)
  have g2 : ∀ x, given (kw ++ signedExtra rkey pkey rpriv ppriv) p!"requestor_id" x = x :=
    fun x => gk _ x (by decide)
  have g3 : ∀ x, given (kw ++ signedExtra rkey pkey rpriv ppriv) p!"want_to_compute_task" x = x :=
    fun x => gk _ x (by decide)
  have g4 : ∀ x, given (kw ++ signedExtra rkey pkey rpriv ppriv) p!"compute_task_def" x = x :=
    fun x => gk _ x (by decide)
  have s2 : subArgs p!"want_to_compute_task" (kw ++ signedExtra rkey pkey rpriv ppriv) =
    offerArgs rkey pkey rpriv ppriv := s1 _ (by decide)
  have s3 : subArgs p!"ethsig" (kw ++ signedExtra rkey pkey rpriv ppriv) = [] := s1 _ (by decide)
  have s4 : signArg (kw ++ signedExtra rkey pkey rpriv ppriv) = .ok (some rpriv) := by
    unfold signArg
    rw [s1 p!"sign" (by decide)]
    have := KR.given
    cases rpriv with
    | nil => exact absurd rfl this
    | cons a b => rfl
  generalize hkw : kw ++ signedExtra rkey pkey rpriv ppriv = kw2 at *
  obtain ⟨keys, hkeys, h⟩ := taskFactory_made h
  rw [ethsigKeys_nil s3] at hkeys
  cases hkeys
  unfold taskMade at h
  simp only [bind, Except.bind, g1, g2, g3, g4, s2, e1] at h
  have hv2 : ∀ kv ∈ kw2, ∀ w : Msg, kv.2 ≠ w.val := by
    rw [← hkw]
    intro kv hm w
    rcases List.mem_append.mp hm with hm | hm
    · exact hv kv hm w
    · intro e
      simp only [signedExtra, List.mem_cons, List.not_mem_nil, or_false] at hm
      rcases hm with rfl | rfl | rfl | rfl | rfl | rfl <;> cases e
  split at h
  · cases h
  rename_i wv hwv
  split at h
  · cases h
  rename_i x1 hx1
  split at h
  · cases h
  rename_i x2 hx2
  split at h
  · cases h
  rename_i x3 hx3
  split at h
  · cases h
  rename_i x4 hx4
  split at h
  · cases h
  rename_i x5 hx5
  split at h
  · cases h
  rename_i x6 hx6
  split at h
  · cases h
  rename_i m0 hm0
  split at h
  · cases h
  rename_i m1 hm1
  split at h
  · cases h
  rename_i m2 hm2
  split at h
  · cases h
  rename_i m3 hm3
  -- the offer
  cases hw : offerFactory E G keccak d.offer (offerArgs rkey pkey rpriv ppriv) with
  | error e => rw [hw] at hwv; cases hwv
  | ok w =>
  rw [hw] at hwv
  simp only [Except.map, Except.ok.injEq] at hwv
  subst hwv
  obtain ⟨w1, w2, w3, fs, ns, id, w4, w5, w6, w7, w8, w9⟩ := offer_made KR KP hw
  -- the definition
  have hx2' : ∃ items, x2 = .fdict .computeTaskDef items := by
    unfold defFactory mkFDict at hx2
    simp only [bind, Except.bind] at hx2
    repeat (split at hx2; · cases hx2)
    obtain ⟨items, e, _⟩ := fdBuild_ok hx2
    exact ⟨items, e⟩
  obtain ⟨items, rfl⟩ := hx2'
  -- what the constructor gets
  have hex : ∀ kv ∈ extraArgs taskRoots kw, kv ∈ kw ∧ kv.1 ∉ taskRoots ∧ kv.1 ∈ Cls.payload .TaskToCompute := by
    intro kv hm
    unfold extraArgs at hm
    obtain ⟨h1, h2⟩ := List.mem_filter.mp hm
    have h3 := hk _ (List.mem_map_of_mem h1)
    have : ∀ n ∈ freeTaskArgs, (taskRoots.all fun r => n != r && !(r ++ p!"__").isPrefixOf n) = true →
      n ∉ taskRoots ∧ n ∈ Cls.payload .TaskToCompute := by decide
    exact ⟨h1, this _ h3 h2⟩
  have hlist : ∃ L : Attrs, L = ([(p!"requestor_id", .str rkey), (p!"provider_id", x1),
      (p!"compute_task_def", .fdict .computeTaskDef items), (p!"requestor_public_key", .str rkey),
      (p!"want_to_compute_task", w.val), (p!"package_hash", x3), (p!"size", x4), (p!"price", x5),
      (p!"resources_options", x6)] ++ extraArgs taskRoots kw) := ⟨_, rfl⟩
  obtain ⟨L, hL⟩ := hlist
  rw [← hL] at hm0
  have hLn : L.map Prod.fst = [p!"requestor_id", p!"provider_id", p!"compute_task_def",
      p!"requestor_public_key", p!"want_to_compute_task", p!"package_hash", p!"size", p!"price",
      p!"resources_options"] ++ (extraArgs taskRoots kw).map Prod.fst := by
    rw [hL, List.map_append]; rfl
  have hLnd : (L.map Prod.fst).Nodup := by
    rw [hLn, List.nodup_append]
    refine ⟨by decide, List.Nodup.sublist (List.Sublist.map _ List.filter_sublist) hnd, ?_⟩
    rintro a ha b hb rfl
    obtain ⟨kv, hm, rfl⟩ := List.mem_map.mp hb
    refine (hex kv hm).2.1 ?_
    have : ∀ n ∈ [p!"requestor_id", p!"provider_id", p!"compute_task_def",
      p!"requestor_public_key", p!"want_to_compute_task", p!"package_hash", p!"size", p!"price",
      p!"resources_options"], n ∈ taskRoots := by decide
    exact this _ ha
  have hLin : ∀ k ∈ L.map Prod.fst, k ∈ Cls.payload .TaskToCompute := by
    intro k hm
    rw [hLn] at hm
    rcases List.mem_append.mp hm with h1 | h1
    · clear hm; revert k; decide
    · obtain ⟨kv, h2, rfl⟩ := List.mem_map.mp h1
      exact (hex kv h2).2.2
  have hLv : ∀ n v, (n, v) ∈ L → n ≠ p!"want_to_compute_task" → ∀ x : Msg, v ≠ x.val := by
    intro n v hm hn
    have hg : ∀ {n r y}, given kw2 n r = .ok y → (∀ z, r = .ok z → ∀ x : Msg, z ≠ x.val) →
        ∀ x : Msg, y ≠ x.val := by
      intro n r y h1 h2 x
      rcases given_cases h1 with h1 | h1
      · exact hv2 _ h1 x
      · exact h2 y h1 x
    rw [hL] at hm
    rcases List.mem_append.mp hm with hm | hm
    · simp only [List.mem_cons, List.not_mem_nil, or_false, Prod.mk.injEq] at hm
      rcases hm with ⟨_, rfl⟩ | ⟨_, rfl⟩ | ⟨_, rfl⟩ | ⟨_, rfl⟩ | ⟨e, _⟩ | ⟨_, rfl⟩ | ⟨_, rfl⟩ | ⟨_, rfl⟩ | ⟨_, rfl⟩
      · intro x e; cases e
      · refine hg hx1 ?_
        intro z hz x e
        unfold attrOf Msg.val at hz
        simp only [Except.ok.injEq] at hz
        rw [← hz, w3] at e
        cases e
      · intro x e; cases e
      · intro x e; cases e
      · exact absurd e hn
      all_goals refine hg (by assumption) ?_; intro z hz x e; cases hz; cases e
    · exact hv _ (hex _ hm).1
  obtain ⟨m0', hm0', hc0, _, _, _, _, hn0, _, hf⟩ := constructed_fields E G d.now .TaskToCompute L hLnd hLin
  rw [hm0] at hm0'
  injection hm0' with hm0'
  subst hm0'
  have hfv : ∀ n v, n ≠ p!"concent_enabled" → (n, v) ∈ L → getAttr m0.attrs n = v := by
    intro n v hn hm
    rw [(hf n (hLin n (List.mem_map_of_mem hm)) v).1 hm]
    simp [defaulted, hn]
  have a1 : getAttr m0.attrs p!"requestor_id" = .str rkey := hfv _ _ (by decide) (by rw [hL]; simp)
  have a2 : getAttr m0.attrs p!"compute_task_def" = .fdict .computeTaskDef items :=
    hfv _ _ (by decide) (by rw [hL]; simp)
  have a3 : getAttr m0.attrs p!"requestor_public_key" = .str rkey := hfv _ _ (by decide) (by rw [hL]; simp)
  have a4 : getAttr m0.attrs p!"want_to_compute_task" = w.val := hfv _ _ (by decide) (by rw [hL]; simp)
  have a5 : getAttr m0.attrs p!"requestor_ethereum_public_key" = .none := by
    rw [(hf _ (by decide) .none).2]
    · rfl
    · rw [hLn]
      intro hm
      rcases List.mem_append.mp hm with hm | hm
      · revert hm; decide
      · obtain ⟨kv, hm, e⟩ := List.mem_map.mp hm
        have := hk _ (List.mem_map_of_mem (hex kv hm).1)
        rw [e] at this
        revert this; decide
  -- no message but the offer among the attributes
  have c0 : ∀ n v, (n, v) ∈ m0.attrs → ∀ concent, chainV E concent v = .ok () := by
    intro n v hm concent
    rw [if_neg (by decide), List.append_nil] at hn0
    have hn : n ∈ Cls.payload .TaskToCompute := by rw [← hn0]; exact List.mem_map_of_mem hm
    have hnd0 : (m0.attrs.map Prod.fst).Nodup := by rw [hn0]; decide
    have hg := getAttr_of_mem hnd0 hm
    by_cases hw' : n = p!"want_to_compute_task"
    · subst hw'
      rw [a4] at hg
      subst hg
      unfold Msg.val
      rw [chainV, w1, if_neg (by decide)]
    apply chainV_other
    intro x
    by_cases hcn : n = p!"concent_enabled"
    · subst hcn
      by_cases hin : p!"concent_enabled" ∈ L.map Prod.fst
      · obtain ⟨⟨n', y⟩, hy, rfl⟩ := List.mem_map.mp hin
        rw [(hf _ hn y).1 hy] at hg
        subst hg
        simp only [defaulted]
        intro e; cases e
      · rw [(hf _ hn .none).2 hin] at hg
        subst hg
        simp only [defaulted]
        intro e; cases e
    · by_cases hin : n ∈ L.map Prod.fst
      · obtain ⟨⟨n', y⟩, hy, rfl⟩ := List.mem_map.mp hin
        rw [hfv _ _ hcn hy] at hg
        subst hg
        exact hLv _ _ hy hw' x
      · rw [(hf _ hn .none).2 hin] at hg
        subst hg
        simp [defaulted, hcn]
        intro e; cases e
  -- the ids
  have ka : ∀ n, n ∉ freeTaskArgs → getAttr kw2 n = getAttr (signedExtra rkey pkey rpriv ppriv) n := by
    intro n hn
    rw [← hkw]
    unfold getAttr
    rw [lookupName_append, free_lookup hk hn]
  have hid : id ≠ [] := by
    unfold fakeGolemUuid at w7
    split at w7
    · cases w7
    · injection w7 with w7
      rw [← w7]
      intro e
      have := congrArg List.length e
      simp [uuidText, hexN_length] at this
  have t1 : m1.cls = .TaskToCompute ∧ m1.attrs = setName p!"compute_task_def"
      (.fdict .computeTaskDef (setName p!"task_id" (.str id) items)) m0.attrs := by
    unfold taskIdHook at hm1
    have ho : offeredTask m0 = some (.str rkey, .str id) := by
      unfold offeredTask
      rw [a4]
      simp only [Msg.val, w4, w8, w9, w6]
    rw [a2, if_neg (by intro e; cases e), ho, ka _ (by decide), a1] at hm1
    simp only [bind, Except.bind] at hm1
    have e1 : getAttr (signedExtra rkey pkey rpriv ppriv) p!"task_id" = .none := rfl
    have e2 : pyEq (.str rkey) (.str rkey) = true := by simp [pyEq]
    have e3 : (Val.str id).truthy = true := by
      cases id with
      | nil => exact absurd rfl hid
      | cons _ _ => rfl
    have e0 : Val.none.truthy = false := rfl
    simp only [e1, e0, e2, e3, Bool.false_eq_true, if_false, if_true] at hm1
    obtain ⟨h1, h2⟩ := setDef_ok a2 hm1
    exact ⟨h1.trans hc0, h2⟩
  obtain ⟨t1c, t1a⟩ := t1
  have t1d : getAttr m1.attrs p!"compute_task_def" =
      .fdict .computeTaskDef (setName p!"task_id" (.str id) items) := by
    rw [t1a, getAttr_setName, if_pos rfl]
  have t2 : ∃ sid, fakeGolemUuid d.uuid2 (.str rkey) = .ok sid ∧ m2.cls = .TaskToCompute ∧
      m2.attrs = setName p!"compute_task_def" (.fdict .computeTaskDef
        (setName p!"subtask_id" (.str sid) (setName p!"task_id" (.str id) items))) m1.attrs := by
    unfold subtaskIdHook at hm2
    have e0 : getAttr m1.attrs p!"requestor_id" = .str rkey := by
      rw [t1a, getAttr_setName, if_neg (by decide), a1]
    rw [t1d, if_neg (by intro e; cases e), ka _ (by decide), e0] at hm2
    simp only [bind, Except.bind] at hm2
    have e1 : getAttr (signedExtra rkey pkey rpriv ppriv) p!"subtask_id" = .none := rfl
    rw [e1] at hm2
    simp only [Val.truthy, Bool.false_eq_true, if_false] at hm2
    cases hsid : fakeGolemUuid d.uuid2 (.str rkey) with
    | error e => rw [hsid] at hm2; cases hm2
    | ok sid =>
    rw [hsid] at hm2
    simp only [Except.map] at hm2
    obtain ⟨h1, h2⟩ := setDef_ok t1d hm2
    exact ⟨sid, rfl, h1.trans t1c, h2⟩
  obtain ⟨sid, hsid, t2c, t2a⟩ := t2
  -- the payment signature
  have t3 : ∃ s pub, encodeHex (.bytes d.eth.2) = .ok pub ∧ m3.cls = .TaskToCompute ∧
      m3.attrs = setName p!"ethsig" (.bytes s) (setName p!"requestor_ethereum_public_key" (.str pub) m2.attrs) ∧
      ∃ hh, shortHash E w = .ok hh ∧ E.ecdsaSign d.eth.1 hh = .ok s := by
    unfold ethsigHook at hm3
    rw [s3] at hm3
    have e0 : getAttr m2.attrs p!"requestor_ethereum_public_key" = .none := by
      rw [t2a, getAttr_setName, if_neg (by decide), t1a, getAttr_setName, if_neg (by decide), a5]
    have e1 : getAttr m2.attrs p!"want_to_compute_task" = w.val := by
      rw [t2a, getAttr_setName, if_neg (by decide), t1a, getAttr_setName, if_neg (by decide), a4]
    have e2 : ∀ n, getAttr [] n = .none := fun _ => rfl
    rw [e0] at hm3
    simp [bind, Except.bind, e2, Val.truthy, KE.given] at hm3
    split at hm3
    · cases hm3
    rename_i pub hpub
    unfold generateEthsig at hm3
    simp only at hm3
    split at hm3
    · cases hm3
    split at hm3
    · cases hm3
    rename_i w0 hw0
    rw [getAttr_setName, if_neg (by decide), e1] at hw0
    have : w0 = w := by
      unfold Msg.val Val.asMsg at hw0
      simp only [Option.some.injEq] at hw0
      exact hw0.symm
    subst this
    split at hm3
    · cases hm3
    rename_i hh hhash
    split at hm3
    · cases hm3
    rename_i s hs
    injection hm3 with hm3
    subst hm3
    exact ⟨s, pub, hpub, t2c, rfl, hh, hhash, hs⟩
  obtain ⟨s, pub, hpub, t3c, t3a, hh, hhash, hes⟩ := t3
  -- the signature
  unfold signHook at h
  rw [s4] at h
  simp only [bind, Except.bind] at h
  obtain ⟨v1, v2, v3, hm, hmh⟩ := signed_verifies KR h
  have hc : m.cls = .TaskToCompute := v2.trans t3c
  have ga : ∀ n, n ≠ p!"ethsig" → n ≠ p!"requestor_ethereum_public_key" → n ≠ p!"compute_task_def" →
      getAttr m.attrs n = getAttr m0.attrs n := by
    intro n h1 h2 h3
    rw [v3, t3a, getAttr_setName, if_neg h1, getAttr_setName, if_neg h2, t2a, getAttr_setName, if_neg h3,
      t1a, getAttr_setName, if_neg h3]
  have b1 : getAttr m.attrs p!"compute_task_def" = .fdict .computeTaskDef
      (setName p!"subtask_id" (.str sid) (setName p!"task_id" (.str id) items)) := by
    rw [v3, t3a, getAttr_setName, if_neg (by decide), getAttr_setName, if_neg (by decide), t2a,
      getAttr_setName, if_pos rfl]
  have b2 : getAttr m.attrs p!"requestor_id" = .str rkey := by
    rw [ga _ (by decide) (by decide) (by decide), a1]
  have b3 : getAttr m.attrs p!"requestor_public_key" = .str rkey := by
    rw [ga _ (by decide) (by decide) (by decide), a3]
  have b4 : getAttr m.attrs p!"want_to_compute_task" = w.val := by
    rw [ga _ (by decide) (by decide) (by decide), a4]
  have b5 : getAttr m.attrs p!"ethsig" = .bytes s := by
    rw [v3, t3a, getAttr_setName, if_pos rfl]
  have b6 : getAttr m.attrs p!"requestor_ethereum_public_key" = .str pub := by
    rw [v3, t3a, getAttr_setName, if_neg (by decide), getAttr_setName, if_pos rfl]
  have d1 : getAttr (setName p!"subtask_id" (.str sid) (setName p!"task_id" (.str id) items)) p!"task_id" = .str id := by
    rw [getAttr_setName, if_neg (by decide), getAttr_setName, if_pos rfl]
  have d2 : getAttr (setName p!"subtask_id" (.str sid) (setName p!"task_id" (.str id) items)) p!"subtask_id" = .str sid := by
    rw [getAttr_setName, if_pos rfl]
  -- what is checked on arrival
  have heth : verifyEthsig E m = .ok () := by
    unfold verifyEthsig
    rw [b4]
    simp only [Msg.val, Val.asMsg]
    have hdec : decodeHex (.str pub) = .ok d.eth.2 := by
      have hne : d.eth.2 ≠ [] := by
        intro e
        have := KE.length
        rw [e] at this
        cases this
      obtain ⟨p', e1, _, _, e2⟩ := encode_hex_partial d.eth.2 hne
      rw [hpub] at e1
      injection e1 with e1
      rw [e1]
      exact e2
    rw [b6, hdec]
    simp only
    unfold verifySigWith
    rw [hhash]
    simp only
    rw [b5]
    exact (ecdsa_verify_decision E d.eth.2 hh (.bytes s)).1.mpr ⟨KE.length, (KE.law _ _ hes).2⟩
  have hids : ∀ (key i : PStr) (u : Nat), u < 2 ^ 128 → fakeGolemUuid u (.str rkey) = .ok i →
      getAttr (setName p!"subtask_id" (.str sid) (setName p!"task_id" (.str id) items)) key = .str i →
      validateTaskIdKey m key = .ok () := by
    intro key i u hu hi hg
    unfold validateTaskIdKey
    rw [b1]
    simp only [Val.asDict]
    rw [item_get (by intro e; cases e) hg]
    simp only
    rw [b2, fake_id_ok hu hi]
  have htc : taskChecks E m = .ok m := by
    have hv : isValid m = .ok () := by
      unfold isValid
      rw [hc]
    unfold taskChecks validateTaskId
    rw [hv, heth, hids _ _ _ hu w7 d1, hids _ _ _ hu2 hsid d2, hc]
    rfl
  have hown : ∀ concent, verifyOwners E m (some ppub) (some rpub) concent = .ok () := by
    intro concent
    have kp : PartyKey concent m .provider ppub := .provider (task_self hc) b4 (by rw [w3]; exact hpkey)
    have kr : PartyKey concent m .requestor rpub := .requestor (task_self hc) (by rw [b3]; exact hrkey)
    have hdec : decodeHex (getAttr m.attrs p!"requestor_public_key") = .ok rpub := by rw [b3]; exact hrkey
    rw [role_match E m concent ppub rpub kp kr]
    have hv : verifyOwners E m none none concent = chainV E concent m.val := by
      unfold verifyOwners checkRole; rfl
    have hhv : ∃ hd, headerHash E fs = .ok hd := by
      unfold headerVerifyF at w5
      split at w5
      · cases w5
      split at w5
      · cases w5
      · exact ⟨_, by assumption⟩
    obtain ⟨hd, hhd⟩ := hhv
    obtain ⟨x1, x2, x3⟩ := ((header_verify_decision E fs rpub).2 hd hhd).mp w5
    unfold Msg.verifySig verifySigWith at v1
    rw [hmh] at v1
    obtain ⟨y1, y2⟩ := (ecdsa_verify_decision E rpub hm m.sig).1.mp v1
    have hchk : Checkable E concent m := by
      refine ⟨⟨_, kp⟩, ⟨_, kr⟩, ?_, ⟨_, hmh⟩, fun _ => ⟨w, b4, fs, w4, ⟨_, hdec, KR.length⟩, hd, hhd⟩⟩
      intro o ho
      rw [hc] at ho
      have : o = .requestor := by simpa [Cls.expectedOwners] using ho
      subst this
      exact ⟨_, kr, KR.length⟩
    have hprop : Proper E concent m :=
      ⟨⟨.requestor, by rw [hc]; decide, rpub, kr, KR.length, hm, hmh, y2⟩,
        fun _ => ⟨w, b4, fs, w4, _, hdec, KR.length, x1, hd, hhd, x3⟩⟩
    rw [hv]
    unfold Msg.val
    rw [chainV, hc, if_pos (by decide)]
    have hval := (validateOwnership_decision hchk).1 hprop
    obtain ⟨c, ty, ts, enc, sig, attrs⟩ := m
    simp only at hc
    subst hc
    simp only at hval ⊢
    rw [hval]
    simp only
    refine chainA_plain ?_
    intro n v hmem
    simp only at v3
    rw [v3, t3a] at hmem
    rcases setName_mem hmem with ⟨_, rfl⟩ | hmem
    · rw [chainV]; intro _ _ _ _ _ _ e; cases e
    rcases setName_mem hmem with ⟨_, rfl⟩ | hmem
    · rw [chainV]; intro _ _ _ _ _ _ e; cases e
    rw [t2a] at hmem
    rcases setName_mem hmem with ⟨_, rfl⟩ | hmem
    · rw [chainV]; intro _ _ _ _ _ _ e; cases e
    rw [t1a] at hmem
    rcases setName_mem hmem with ⟨_, rfl⟩ | hmem
    · rw [chainV]; intro _ _ _ _ _ _ e; cases e
    exact c0 n v hmem concent
  exact ⟨w, fs, ns, _, id, sid, hc, b4, w1, w4, w8, b1, v1, w2, w5, htc, hown, b3, b2, w9, w3, w6, d1, d2⟩

/-- C86: a task made with both key pairs, and no other argument that has to do with keys, ids and
signatures, is what its description says: the task, the offer in it and the header in that are signed
by requestor, provider and requestor; all name the same requestor and task; and the task passes the
checks made on arrival and the ownership check for these parties. -/
theorem signed_task (E : Env) (G : Getter) (keccak : Bytes → Bytes) (d : TaskDraw)
    (req prov : Bytes × Bytes) (kw : Attrs) (m : Msg) (KR : KeyPair E req.1 req.2)
    (KP : KeyPair E prov.1 prov.2) (KE : KeyPair E d.eth.1 d.eth.2)
    (hk : ∀ k ∈ kw.map Prod.fst, k ∈ freeTaskArgs) (hnd : (kw.map Prod.fst).Nodup)
    (hv : ∀ kv ∈ kw, ∀ w : Msg, kv.2 ≠ w.val) (hu : d.offer.header.uuid < 2 ^ 128) (hu2 : d.uuid2 < 2 ^ 128)
    (h : signedTask E G keccak d (some req) (some prov) kw = .ok m) :
    ∃ (w : Msg) (fs ns items : Attrs), m.cls = .TaskToCompute ∧
      getAttr m.attrs p!"want_to_compute_task" = w.val ∧ w.cls = .WantToComputeTask ∧
      getAttr w.attrs p!"task_header" = .cont .taskHeader fs ∧
      getAttr fs p!"task_owner" = .cont .node ns ∧
      getAttr m.attrs p!"compute_task_def" = .fdict .computeTaskDef items ∧
      m.verifySig E req.2 = .ok () ∧ w.verifySig E prov.2 = .ok () ∧ headerVerifyF E fs req.2 = .ok () ∧
      taskChecks E m = .ok m ∧ (∀ concent, verifyOwners E m (some prov.2) (some req.2) concent = .ok ()) ∧
      Spells (getAttr m.attrs p!"requestor_public_key") req.2 ∧
      Spells (getAttr w.attrs p!"provider_public_key") prov.2 ∧
      getAttr m.attrs p!"requestor_id" = getAttr m.attrs p!"requestor_public_key" ∧
      getAttr ns p!"key" = getAttr m.attrs p!"requestor_public_key" ∧
      getAttr items p!"task_id" = getAttr fs p!"task_id" ∧ getAttr fs p!"task_id" ≠ .none := by
  have ne : ∀ {b : Bytes}, b.length = 64 → b ≠ [] := by
    intro b hb e
    rw [e] at hb
    cases hb
  obtain ⟨rkey, r1, _, _, r2⟩ := encode_hex_partial req.2 (ne KR.length)
  obtain ⟨pkey, p1, _, _, p2⟩ := encode_hex_partial prov.2 (ne KP.length)
  unfold signedTask at h
  rw [show some req = some (req.1, req.2) from rfl, show some prov = some (prov.1, prov.2) from rfl,
    signedArgs_eq r1 p1 hk] at h
  simp only [bind, Except.bind] at h
  obtain ⟨w, fs, ns, items, id, sid, t1, t2, t3, t4, t5, t6, t7, t8, t9, t10, t11, t12, t13, t14, t15, t16, t17, _⟩ :=
    task_made KR KP KE hk hnd hv hu hu2 r2 p2 h
  refine ⟨w, fs, ns, items, t1, t2, t3, t4, t5, t6, t7, t8, t9, t10, t11, ?_, ?_, ?_, ?_, ?_, ?_⟩
  · rw [t12]; exact ⟨_, rfl, (decode_hex_decision _ _).1.mp r2⟩
  · rw [t15]; exact ⟨_, rfl, (decode_hex_decision _ _).1.mp p2⟩
  · rw [t13, t12]
  · rw [t14, t12]
  · rw [t17, t16]
  · rw [t16]; simp

/-- C86: an argument that is given is not replaced, and nothing but keys is added. -/
theorem given_arguments_stay (requestor provider : Option (Bytes × Bytes)) (kw kw' : Attrs)
    (h : signedArgs requestor provider kw = .ok kw') :
    (∀ n v, lookupName n kw = some v → lookupName n kw' = some v) ∧
    ∀ n, lookupName n kw = none → lookupName n kw' ≠ none →
      n ∈ [p!"requestor_public_key", p!"sign__privkey",
        p!"want_to_compute_task__task_header__requestor_public_key",
        p!"want_to_compute_task__task_header__sign__privkey",
        p!"want_to_compute_task__provider_public_key", p!"want_to_compute_task__sign__privkey"] := by
  have fill : ∀ (others : List PStr) (name : PStr) (v : Val) (kw : Attrs), name ∈ others → ∀ n,
      (∀ y, lookupName n kw = some y → lookupName n (fillArg others name v kw) = some y) ∧
      (lookupName n kw = none → lookupName n (fillArg others name v kw) ≠ none → n = name) := by
    intro others name v kw hn n
    unfold fillArg
    split
    · exact ⟨fun y hy => hy, fun h1 h2 => absurd h1 h2⟩
    · rename_i hnone
      have : lookupName name kw = none := by
        cases hl : lookupName name kw with
        | none => rfl
        | some y => exact absurd (List.any_eq_true.mpr ⟨name, hn, by rw [hl]; rfl⟩) hnone
      rw [lookupName_setName]
      by_cases e : n = name
      · subst e
        rw [this]
        exact ⟨fun y hy => (by cases hy), fun _ _ => rfl⟩
      · rw [if_neg e]
        exact ⟨fun y hy => hy, fun h1 h2 => absurd h1 h2⟩
  -- one step after the other
  have step : ∀ {a b c : Attrs} {names : List PStr} {name : PStr},
      ((∀ n v, lookupName n a = some v → lookupName n b = some v) ∧
        ∀ n, lookupName n a = none → lookupName n b ≠ none → n ∈ names) →
      (∀ n, (∀ y, lookupName n b = some y → lookupName n c = some y) ∧
        (lookupName n b = none → lookupName n c ≠ none → n = name)) → name ∈ names →
      (∀ n v, lookupName n a = some v → lookupName n c = some v) ∧
        ∀ n, lookupName n a = none → lookupName n c ≠ none → n ∈ names := by
    intro a b c names name h1 h2 hn
    refine ⟨fun n v hv => (h2 n).1 v (h1.1 n v hv), fun n h3 h4 => ?_⟩
    cases hb : lookupName n b with
    | none => rw [(h2 n).2 hb h4]; exact hn
    | some y => exact h1.2 n h3 (by rw [hb]; simp)
  have start : (∀ n v, lookupName n kw = some v → lookupName n kw = some v) ∧
      ∀ n, lookupName n kw = none → lookupName n kw ≠ none →
      n ∈ [p!"requestor_public_key", p!"sign__privkey",
        p!"want_to_compute_task__task_header__requestor_public_key",
        p!"want_to_compute_task__task_header__sign__privkey",
        p!"want_to_compute_task__provider_public_key", p!"want_to_compute_task__sign__privkey"] :=
    ⟨fun _ _ h => h, fun _ h1 h2 => absurd h1 h2⟩
  unfold signedArgs at h
  split at h
  · cases h
  rename_i kw1 hkw1
  have h1 : (∀ n v, lookupName n kw = some v → lookupName n kw1 = some v) ∧
      ∀ n, lookupName n kw = none → lookupName n kw1 ≠ none →
      n ∈ [p!"requestor_public_key", p!"sign__privkey",
        p!"want_to_compute_task__task_header__requestor_public_key",
        p!"want_to_compute_task__task_header__sign__privkey",
        p!"want_to_compute_task__provider_public_key", p!"want_to_compute_task__sign__privkey"] := by
    unfold requestorArgs at hkw1
    split at hkw1
    · injection hkw1 with e
      rw [← e]
      exact start
    · split at hkw1
      · cases hkw1
      injection hkw1 with e
      rw [← e]
      refine step (step (step (step start (fill _ _ _ _ ?_) ?_) (fill _ _ _ _ ?_) ?_) (fill _ _ _ _ ?_) ?_)
        (fill _ _ _ _ ?_) ?_ <;> decide
  unfold providerArgs at h
  split at h
  · injection h with e
    rw [← e]
    exact h1
  · simp only at h
    split at h
    · cases h
    injection h with e
    rw [← e]
    exact step (step h1 (fill _ _ _ _ (by decide)) (by decide)) (fill _ _ _ _ (by decide)) (by decide)

/-! ### Examples -/

private def sk (x : UInt8) : Bytes := List.replicate 32 x
private def vk (x : UInt8) : Bytes := List.replicate 64 x

private theorem toy_keys (k : UInt8) : KeyPair toyEnv (sk k) (vk k) := by
  refine ⟨fun x s hs => ?_, by simp [vk], by simp [sk]⟩
  have hl : (toyEnv.sha3 x).length = 32 := by simp [toyEnv]
  generalize toyEnv.sha3 x = h at *
  simp only [toyEnv, sk] at hs ⊢
  injection hs with hs
  subst hs
  have e0 : List.take 32 (List.replicate 32 k) = List.replicate 32 k := by simp
  rw [e0]
  have e : (List.replicate 32 k ++ h ++
      List.replicate (65 - (List.replicate 32 k).length - h.length) 0).take 32
      = List.replicate 32 k := by
    rw [List.append_assoc, List.take_left' (by simp)]
  refine ⟨by simp [hl], ?_⟩
  rw [e, if_pos rfl]
  simp [vk, List.replicate_append_replicate]

private def draws : TaskDraw where
  key := vk 8
  eth := (sk 6, vk 6)
  offer := { key := vk 10, now := 1500000000, header :=
    { key := vk 9, mask := [1, 2], now := 1500000000, uuid := 0x11111111111141118111111111111111,
      nodeName := p!"Ada", timeout := 60, version := (1, 2, 3), memory := 1, maxPrice := 5, budget := 7, count := 3 } }
  definition := { taskId := p!"t", subtaskId := p!"s", resource := p!"r", now := 1500000000 }
  uuid1 := 0x22222222222242228222222222222222
  uuid2 := 0x33333333333343338333333333333333
  package := p!"abc"
  size := 5
  price := 6
  now := 1500000000

private def toyKeccak (b : Bytes) : Bytes := (b ++ List.replicate 32 0).take 32

private def toyTask (kw : Attrs) : Res Msg :=
  signedTask toyEnv (fun _ _ _ => .ok .none) toyKeccak draws (some (sk 5, vk 5)) (some (sk 7, vk 7)) kw

/-- A task with a price and a deadline of its own. -/
example : (toyTask [(p!"price", .int 9), (p!"compute_task_def__deadline", .int 1500000007)]).isOk = true := by
  decide +kernel

/-- So the hypotheses of C86 can be met. -/
example : ∃ m w, toyTask [(p!"price", .int 9)] = .ok m ∧
    getAttr m.attrs p!"want_to_compute_task" = Msg.val w ∧ w.verifySig toyEnv (vk 7) = .ok () := by
  cases h : toyTask [(p!"price", .int 9)] with
  | error e =>
    have : (toyTask [(p!"price", .int 9)]).isOk = true := by decide +kernel
    rw [h] at this
    cases this
  | ok m =>
    obtain ⟨w, _, _, _, _, h2, _, _, _, _, _, h3, _⟩ := signed_task _ _ _ draws _ _ _ m (toy_keys 5) (toy_keys 7) (toy_keys 6)
      (by simp only [List.map]; decide) (by simp only [List.map]; decide) (by
        intro kv hkv x e
        rw [List.mem_singleton] at hkv
        rw [hkv] at e
        cases e) (by decide) (by decide) h
    exact ⟨m, w, rfl, h2, h3⟩

private def plainTask : Msg :=
  match signedTask toyEnv (fun _ _ _ => .ok .none) toyKeccak draws none none [] with
  | .ok m => m
  | .error _ => ⟨.TaskToCompute, .none, .none, .none, .none, []⟩

private def plainOffer : Msg :=
  (getAttr plainTask.attrs p!"want_to_compute_task").asMsg.getD plainTask

private def plainFields : Attrs :=
  match getAttr plainOffer.attrs p!"task_header" with
  | .cont _ fs => fs
  | _ => []

/-- C86 fails without key pairs: nothing is signed, and task and header are of different requestors
and have different ids. -/
theorem signed_task_refuted :
    ∃ E G keccak d m w fs items, signedTask E G keccak d none none [] = .ok m ∧
      getAttr m.attrs p!"want_to_compute_task" = Msg.val w ∧
      getAttr w.attrs p!"task_header" = .cont .taskHeader fs ∧
      getAttr m.attrs p!"compute_task_def" = .fdict .computeTaskDef items ∧
      m.sig = .none ∧ w.sig = .none ∧ getAttr fs p!"signature" = .none ∧
      getAttr items p!"task_id" ≠ getAttr fs p!"task_id" := by
  refine ⟨toyEnv, fun _ _ _ => .ok .none, toyKeccak, draws, plainTask, plainOffer, plainFields,
    match getAttr plainTask.attrs p!"compute_task_def" with
    | .fdict _ items => items
    | _ => [], ?_, ?_, ?_, ?_, ?_, ?_, ?_, ?_⟩ <;> decide +kernel

end Verif.Props
