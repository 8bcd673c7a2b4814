import Verif.Lemmas.MadeParts
import Verif.Props.Made
import Verif.Props.Sends
/-!
# Offers and tasks are made whatever is drawn
-/

set_option linter.unusedSimpArgs false

namespace Verif

open Spec

/-- A message as factories leave it: header of its class with a time of the clock, no signature or
one of 65 bytes, its fields in order, all of which can be written. -/
structure Fine (E : Env) (c : Cls) (m : Msg) : Prop where
  cls : m.cls = c
  ty : m.ty = .int c.typeId
  ts : ∃ t : Nat, m.ts = .int t ∧ t < 2 ^ 64
  enc : m.enc = .bool false
  sig : m.sig = .none ∨ ∃ s, m.sig = .bytes s ∧ s.length = 65
  names : m.attrs.map Prod.fst = c.payload ++ (if c = .Hello then [p!"_version"] else [])
  writable : WritableA m.attrs

theorem payload_short : ∀ c ∈ Cls.all, (∀ k ∈ c.payload, k.length < 100) ∧ c.payload.length < 100 := by
  decide +kernel

theorem Fine.val {E : Env} {c : Cls} {m : Msg} (h : Fine E c m) : Writable m.val := by
  obtain ⟨t, ht, hlt⟩ := h.ts
  unfold Msg.val
  simp only [Writable]
  rw [h.ty, ht, h.enc]
  refine ⟨small_writable ?_, small_writable (by omega), by simp only [Writable], ?_, ?_, h.writable⟩
  · have := typeId_lt c; omega
  · rcases h.sig with e | ⟨s, e, hs⟩ <;> rw [e]
    · simp only [Writable]
    · simp only [Writable, hs]; decide
  · rw [← List.length_map (f := Prod.fst), h.names, List.length_append]
    have := (payload_short c (Props.every_cls c)).2
    split
    · simp only [List.length_cons, List.length_nil]; omega
    · simp only [List.length_nil]; omega

theorem defaulted_writable {c : Cls} {n : PStr} {v : Val} (h : Writable v) : Writable (defaulted c n v) := by
  unfold defaulted
  repeat' split
  all_goals first
    | exact h
    | exact small_writable (i := 1) (by decide)
    | (simp only [Writable]; done)
    | (simp only [Writable]; decide)
    | (simp only [Writable, WritableL, List.length_nil]; decide)

/-- A message is built from fields that can be written. -/
theorem built_total {E : Env} {G : Getter} {now : Int} {c : Cls} {kw : Attrs} (hnow : Clock now)
    (hver : c = .Hello → E.version.length < 2 ^ 62)
    (hnd : (kw.map Prod.fst).Nodup) (hin : ∀ k ∈ kw.map Prod.fst, k ∈ c.payload)
    (hw : ∀ k v, (k, v) ∈ kw → Writable v) :
    ∃ m, newMessage E G now c none .none .none false kw = .ok m ∧ Fine E c m ∧ m.sig = .none ∧
      ∀ name ∈ c.payload, ∀ v, ((name, v) ∈ kw → getAttr m.attrs name = defaulted c name v) ∧
        (name ∉ kw.map Prod.fst → getAttr m.attrs name = defaulted c name .none) := by
  obtain ⟨m, h, h1, h2, h3, h4, h5, h6, h7, h8⟩ := Props.constructed_fields E G now c kw hnd hin
  unfold Clock at hnow
  have hfull : (m.attrs.map Prod.fst).Nodup := by
    rw [h6]
    split
    · rename_i e
      subst e
      decide
    · rw [List.append_nil]; exact payload_nodup c
  refine ⟨m, h, ⟨h1, h2, ⟨now.toNat, by rw [h3, Int.toNat_of_nonneg hnow.1], by omega⟩, h4, Or.inl h5, h6, ?_⟩,
    h5, h8⟩
  refine fitsA_mem.mpr fun k v hm => ?_
  have hk : k ∈ m.attrs.map Prod.fst := List.mem_map.mpr ⟨_, hm, rfl⟩
  have hv : getAttr m.attrs k = v := getAttr_of_mem hfull hm
  rw [h6, List.mem_append] at hk
  rcases hk with hk | hk
  · refine ⟨by have := (payload_short c (Props.every_cls c)).1 k hk; omega, ?_⟩
    rw [← hv]
    by_cases hin' : k ∈ kw.map Prod.fst
    · obtain ⟨⟨k', x⟩, hx, e⟩ := List.mem_map.mp hin'
      dsimp only at e
      subst e
      rw [(h8 k' hk x).1 hx]
      exact defaulted_writable (hw _ _ hx)
    · rw [(h8 k hk .none).2 hin']
      exact defaulted_writable (by simp only [Writable])
  · split at hk
    · rename_i e
      rw [List.mem_singleton] at hk
      subst hk
      rw [h7 e] at hv
      subst hv
      exact ⟨by decide, str_writable (hver e)⟩
    · cases hk

/-- Setting a declared field. -/
theorem Fine.set {E : Env} {c : Cls} {m : Msg} {n : PStr} {v : Val} (h : Fine E c m) (hn : n ∈ c.payload)
    (hv : Writable v) : Fine E c { m with attrs := setName n v m.attrs } where
  cls := h.cls
  ty := h.ty
  ts := h.ts
  enc := h.enc
  sig := h.sig
  names := by
    show (setName n v m.attrs).map Prod.fst = _
    rw [setName_names _ _ _ (by rw [h.names]; exact List.mem_append_left _ hn)]
    exact h.names
  writable := fits_setName (by have := (payload_short c (Props.every_cls c)).1 n hn; omega) hv h.writable

/-- Signing with the key among the arguments. -/
theorem Fine.sign {E : Env} {c : Cls} {kw : Attrs} {m : Msg} (h : Fine E c m) (hw : WellTypedMsg E m)
    (hk : ∃ o, signArg kw = .ok o ∧ ∀ b, o = some b → Signs E b) : ∃ m', signHook E kw m = .ok m' ∧ Fine E c m' := by
  obtain ⟨o, ho, hb⟩ := hk
  unfold signHook
  simp only [bind, Except.bind]
  rw [ho]
  cases o with
  | none => exact ⟨m, rfl, h⟩
  | some b =>
    dsimp only
    obtain ⟨t, ht, hlt⟩ := h.ts
    obtain ⟨d, hd⟩ := (Props.digest_succeeds E m t hw h.writable (by rw [h.cls]; exact h.ty) ht hlt).1
    obtain ⟨s, e1, e2⟩ := hb b rfl (E.sha3 d)
    refine ⟨{ m with sig := .bytes s }, ?_, h.cls, h.ty, h.ts, h.enc, Or.inr ⟨s, rfl, e2⟩, h.names, h.writable⟩
    unfold Msg.signMessage
    rw [hd]
    dsimp only
    unfold Env.ecdsaSign
    rw [e1]

/-! ### Arguments -/

def KeyArg (v : Val) : Prop := ∃ b : Bytes, b.length = 64 ∧ v = .str (hexlify b)

def PrivArg (E : Env) (v : Val) : Prop := ∃ b, Signs E b ∧ v = .bytes b

theorem KeyArg.data {v : Val} (h : KeyArg v) : Data v := by
  obtain ⟨b, _, rfl⟩ := h
  unfold Spec.Data Spec.data; rfl

theorem PrivArg.data {E : Env} {v : Val} (h : PrivArg E v) : Data v := by
  obtain ⟨b, _, rfl⟩ := h
  unfold Spec.Data Spec.data; rfl

theorem mem_subArgs {n : PStr} {kw : Attrs} {k : PStr} {v : Val} (h : (k, v) ∈ subArgs n kw) :
    (n ++ p!"__" ++ k, v) ∈ kw := by
  unfold subArgs at h
  obtain ⟨⟨k', v'⟩, hm, e⟩ := List.mem_filterMap.mp h
  split at e
  · rename_i hp
    injection e with e
    injection e with e1 e2
    subst e2
    obtain ⟨r, hr⟩ := List.isPrefixOf_iff_prefix.mp hp
    dsimp only at hr e1
    subst hr
    rw [← e1]
    have : (n ++ p!"__" ++ r).drop (n.length + 2) = r := by
      rw [List.drop_append_of_le_length (by simp)]
      simp
    rw [this]
    exact hm
  · cases e

theorem sub_key {n k k' : PStr} (h : n ++ p!"__" ++ k = n ++ p!"__" ++ k') : k = k' :=
  List.append_cancel_left h

/-- Arguments for offers. -/
def OfferArgs (E : Env) (kw : Attrs) : Prop :=
  ∀ k v, (k, v) ∈ kw → (k = p!"provider_public_key" ∧ KeyArg v) ∨ (k = p!"sign__privkey" ∧ PrivArg E v) ∨
    (k = p!"task_header__requestor_public_key" ∧ KeyArg v) ∨ (k = p!"task_header__sign__privkey" ∧ PrivArg E v)

theorem offer_sub {E : Env} {kw : Attrs} (h : OfferArgs E kw) : HeaderArgs E (subArgs p!"task_header" kw) := by
  intro k v hm
  rcases h _ _ (mem_subArgs hm) with ⟨e, _⟩ | ⟨e, _⟩ | ⟨e, h⟩ | ⟨e, h⟩
  · cases e
  · cases e
  · exact Or.inl ⟨sub_key (n := p!"task_header") e, h⟩
  · exact Or.inr ⟨sub_key (n := p!"task_header") e, h⟩

theorem offer_argsOk {E : Env} {kw : Attrs} (h : OfferArgs E kw) : ArgsOk E .WantToComputeTask kw where
  fields k v c' n hm hmean := by
    cases hmean with
    | field hp =>
      rcases h k v hm with ⟨rfl, hv⟩ | ⟨rfl, hv⟩ | ⟨rfl, hv⟩ | ⟨rfl, hv⟩
      · unfold ValueOk FieldOk
        simp [Cls.msgSlots, lookupName, Cls.nodeSlots]
        exact hv.data
      all_goals exact absurd hp (by decide)
    | deeper hs _ => cases hs
  files k v hm hmean := by
    generalize hc : Cls.WantToComputeTask = c at hmean
    cases hmean with
    | here => cases hc
    | deeper hs _ => subst hc; cases hs
  data k v hm _ _ _ := by
    rcases h k v hm with ⟨_, hv⟩ | ⟨_, hv⟩ | ⟨_, hv⟩ | ⟨_, hv⟩ <;> exact hv.data
  shared e := by cases e
  version e := by cases e

theorem address_total {keccak : Bytes → Bytes} (hkec : ∀ b, (keccak b).length = 32) (b : Bytes) :
    ∃ s, pubkeyToAddress keccak (.str (hexlify b)) = .ok s ∧ s.length < 100 := by
  unfold pubkeyToAddress
  rw [(keyBytes_text (hexlify b) b).mpr ⟨[], hexlify b, rfl, by decide, Or.inl (hexText_hexlify b)⟩]
  dsimp only
  unfold hashAddress
  rw [if_pos (by rw [List.length_drop, hkec])]
  refine ⟨_, rfl, ?_⟩
  unfold checksumAddress
  simp only [List.length_cons, List.length_zipWith, hexlify_length, List.length_drop, hkec]
  decide

/-- An offer is made. -/
theorem offer_total {E : Env} {G : Getter} {keccak : Bytes → Bytes} {d : OfferDraw} {kw : Attrs}
    (hkec : ∀ b, (keccak b).length = 32) (hd : OfferInRange d) (hk : OfferArgs E kw) (hnd : (kw.map Prod.fst).Nodup) :
    ∃ m, offerFactory E G keccak d kw = .ok m ∧ Fine E .WantToComputeTask m ∧
      KeyArg (getAttr m.attrs p!"provider_public_key") ∧ WellTypedMsg E m ∧
      HeaderOk E (getAttr m.attrs p!"task_header") := by
  have hkey : ∃ b : Bytes, b.length = 64 ∧
      given kw p!"provider_public_key" ((encodeHex (.bytes d.key)).map .str) = .ok (.str (hexlify b)) := by
    unfold given
    cases hl : lookupName p!"provider_public_key" kw with
    | none => exact ⟨d.key, hd.key, by rw [encodeHex_key hd.key]; rfl⟩
    | some v =>
      rcases hk _ _ (mem_of_lookupName hl) with ⟨_, b, hb, rfl⟩ | ⟨e, _⟩ | ⟨e, _⟩ | ⟨e, _⟩
      · exact ⟨b, hb, rfl⟩
      all_goals exact absurd e (by decide)
  have absent : ∀ n, n ∉ [p!"provider_public_key", p!"sign__privkey", p!"task_header__requestor_public_key",
      p!"task_header__sign__privkey"] → lookupName n kw = none := by
    intro n hn
    refine lookup_absent fun k v hm e => hn ?_
    subst e
    rcases hk k v hm with ⟨rfl, _⟩ | ⟨rfl, _⟩ | ⟨rfl, _⟩ | ⟨rfl, _⟩ <;> decide
  obtain ⟨b, hb, hkey⟩ := hkey
  obtain ⟨a, ha, hal⟩ := address_total hkec b
  obtain ⟨hv, hh, hhw⟩ := header_total hd.header (offer_sub hk)
  have hextra : extraArgs offerRoots kw = [] := by
    refine extra_none fun k v hm => ?_
    rcases hk k v hm with ⟨rfl, _⟩ | ⟨rfl, _⟩ | ⟨rfl, _⟩ | ⟨rfl, _⟩ <;> decide
  obtain ⟨m, hm, hf, hs, hfields⟩ := built_total (E := E) (G := G) (c := .WantToComputeTask)
    (kw := [(p!"provider_public_key", .str (hexlify b)), (p!"provider_ethereum_address", .str a),
      (p!"task_header", hv), (p!"price", .float 0x4376345785D8A000)]) hd.now (fun e => nomatch e)
    (by simp only [List.map_cons, List.map_nil]; decide) (by simp only [List.map_cons, List.map_nil]; decide) (by
      intro k v hm
      simp only [List.mem_cons, List.not_mem_nil, or_false, Prod.mk.injEq] at hm
      rcases hm with ⟨_, rfl⟩ | ⟨_, rfl⟩ | ⟨_, rfl⟩ | ⟨_, rfl⟩
      · exact key_writable hb
      · exact str_writable (by omega)
      · exact hhw
      · simp only [Writable])
  have hbody : Props.offerBody E G keccak d kw = .ok m := by
    unfold Props.offerBody
    simp only [bind, Except.bind]
    rw [hkey]
    dsimp only
    rw [given_none (absent p!"provider_ethereum_address" (by decide)), ha]
    simp only [Except.map]
    rw [given_none (absent p!"task_header" (by decide)), hh]
    dsimp only
    rw [given_none (absent p!"price" (by decide)), hextra]
    exact hm
  have hwt := Props.offer_body_wellTyped hnd (offer_argsOk hk) hbody
  obtain ⟨m', h1, h2⟩ := hf.sign (kw := kw) hwt
    (signArg_total fun k v hm hp => by
      rcases hk k v hm with ⟨rfl, _⟩ | h | ⟨rfl, _⟩ | ⟨rfl, _⟩
      · exact absurd hp (by decide)
      · exact h
      · exact absurd hp (by decide)
      · exact absurd hp (by decide))
  refine ⟨m', ?_, h2, ?_, ?_, ?_⟩
  · rw [Props.offer_body, hbody]; exact h1
  · rw [(signHook_same h1).2.2.2.2, (hfields p!"provider_public_key" (by decide) (.str (hexlify b))).1 (by simp)]
    exact ⟨b, hb, rfl⟩
  · unfold WellTypedMsg at hwt ⊢
    rw [(signHook_same h1).2.2.2.2, (signHook_same h1).1]
    exact hwt
  · rw [(signHook_same h1).2.2.2.2, (hfields p!"task_header" (by decide) hv).1 (by simp)]
    exact header_made (fun k v hm => by
      rcases offer_sub hk k v hm with ⟨_, h⟩ | ⟨_, h⟩
      · exact KeyArg.data h
      · exact PrivArg.data (E := E) h) hh

/-! ### Definitions -/

/-- Arguments for definitions. -/
def DefArgs (kw : Attrs) : Prop := ∀ k v, (k, v) ∈ kw → k = p!"deadline" ∧ ∃ i : Int, v = .int i ∧ i.natAbs < 2 ^ 65

theorem near_writable {i : Int} (h : i.natAbs < 2 ^ 65) : Writable (.int i) := by
  simp only [Writable]
  exact Nat.lt_of_lt_of_le h wide_pow

theorem def_total {E : Env} {d : DefDraw} {kw : Attrs} (hd : DefInRange d) (hk : DefArgs kw) :
    ∃ items, defFactory E d kw = .ok (.fdict .computeTaskDef items) ∧ Writable (.fdict .computeTaskDef items) ∧
      DictOk E .computeTaskDef (.fdict .computeTaskDef items) := by
  have hdl : ∃ i : Int, given kw p!"deadline" (.ok (.int (d.now + 86400))) = .ok (.int i) ∧ i.natAbs < 2 ^ 65 := by
    unfold given
    cases hl : lookupName p!"deadline" kw with
    | none =>
      have := hd.now
      unfold Clock at this
      exact ⟨_, rfl, by omega⟩
    | some v =>
      obtain ⟨_, i, rfl, hi⟩ := hk _ _ (mem_of_lookupName hl)
      exact ⟨i, rfl, hi⟩
  obtain ⟨i, hi, hiw⟩ := hdl
  have absent : ∀ n, n ≠ p!"deadline" → lookupName n kw = none := by
    intro n hn
    exact lookup_absent fun k v hm e => hn (e ▸ (hk k v hm).1)
  have hextra : extraArgs defRoots kw = [] := by
    refine extra_none fun k v hm => ?_
    rw [(hk k v hm).1]; decide
  have hform : defFactory E d kw = mkFDict E .computeTaskDef (.dict (([(p!"task_id", .str d.taskId),
      (p!"subtask_id", .str d.subtaskId), (p!"deadline", .int i),
      (p!"extra_data", .dict (blenderExtra.map fun kv => (.str kv.1, kv.2))),
      (p!"resources", .list [.str d.resource])] : Attrs).map fun kv => (.str kv.1, kv.2))) := by
    unfold defFactory
    simp only [bind, Except.bind]
    rw [given_none (absent p!"task_id" (by decide))]
    dsimp only
    rw [given_none (absent p!"subtask_id" (by decide))]
    dsimp only
    rw [hi]
    dsimp only
    rw [given_none (absent p!"extra_data" (by decide))]
    dsimp only
    rw [given_none (absent p!"resources" (by decide)), hextra]
    rfl
  have hok : ∃ v, defFactory E d kw = .ok v := by
    rw [hform]
    refine (fdBuild_iff (E := E) (c := .computeTaskDef) ?_).mpr ?_
    · intro k v hm
      rw [itemOk_iff]
      simp only [itemOk]
      intro h
      simp only [FDictId.items, List.mem_cons, List.not_mem_nil, or_false, Prod.mk.injEq] at hm
      rcases hm with ⟨rfl, rfl⟩ | ⟨rfl, rfl⟩ | ⟨rfl, rfl⟩ | ⟨rfl, rfl⟩ | ⟨rfl, rfl⟩ | ⟨rfl, rfl⟩ | ⟨rfl, rfl⟩
      · exact ⟨[], rfl, by decide⟩
      · exact ⟨[], rfl, by decide⟩
      all_goals exact absurd h (by decide)
    · intro key v hm
      simp only [List.map_cons, List.map_nil, List.mem_cons, List.not_mem_nil, or_false, Prod.mk.injEq] at hm
      have h1 := hd.taskId
      have h2 := hd.subtaskId
      rcases hm with ⟨rfl, rfl⟩ | ⟨rfl, rfl⟩ | ⟨rfl, rfl⟩ | ⟨rfl, rfl⟩ | ⟨rfl, rfl⟩
      · exact ⟨_, rfl, by decide, fun _ => ⟨_, rfl, by omega⟩⟩
      · exact ⟨_, rfl, by decide, fun _ => ⟨_, rfl, by omega⟩⟩
      · exact ⟨_, rfl, by decide, fun h => absurd h (by decide)⟩
      · exact ⟨_, rfl, by decide, fun h => absurd h (by decide)⟩
      · exact ⟨_, rfl, by decide, fun h => absurd h (by decide)⟩
  obtain ⟨v, hv⟩ := hok
  have hm := def_made (fun k x hm => by
    obtain ⟨_, i, rfl, _⟩ := hk k x hm
    unfold Data data; rfl) hv
  obtain ⟨items, rfl, hr⟩ := hm
  refine ⟨items, hv, ?_, items, rfl, hr⟩
  rw [hform] at hv
  refine fdict_writable (by decide) ?_ hv
  intro k x hm
  simp only [List.mem_cons, List.not_mem_nil, or_false, Prod.mk.injEq] at hm
  have h1 := hd.taskId
  have h2 := hd.subtaskId
  have h3 := hd.resource
  rcases hm with ⟨_, rfl⟩ | ⟨_, rfl⟩ | ⟨_, rfl⟩ | ⟨_, rfl⟩ | ⟨_, rfl⟩
  · exact str_writable (by omega)
  · exact str_writable (by omega)
  · exact near_writable hiw
  · exact fits_small _ (by decide)
  · simp only [Writable, WritableL, List.length_cons, List.length_nil]
    exact ⟨by decide, by omega, trivial⟩

/-! ### Tasks -/

/-- Arguments for tasks. -/
def TaskArgs (E : Env) (kw : Attrs) : Prop :=
  ∀ k v, (k, v) ∈ kw → (k = p!"requestor_public_key" ∧ KeyArg v) ∨ (k = p!"sign__privkey" ∧ PrivArg E v) ∨
    (k = p!"compute_task_def__deadline" ∧ ∃ i : Int, v = .int i ∧ i.natAbs < 2 ^ 65) ∨
    (k = p!"want_to_compute_task__provider_public_key" ∧ KeyArg v) ∨
    (k = p!"want_to_compute_task__sign__privkey" ∧ PrivArg E v) ∨
    (k = p!"want_to_compute_task__task_header__requestor_public_key" ∧ KeyArg v) ∨
    (k = p!"want_to_compute_task__task_header__sign__privkey" ∧ PrivArg E v)

theorem task_sub_offer {E : Env} {kw : Attrs} (h : TaskArgs E kw) :
    OfferArgs E (subArgs p!"want_to_compute_task" kw) := by
  intro k v hm
  rcases h _ _ (mem_subArgs hm) with ⟨e, _⟩ | ⟨e, _⟩ | ⟨e, _⟩ | ⟨e, h⟩ | ⟨e, h⟩ | ⟨e, h⟩ | ⟨e, h⟩
  · cases e
  · cases e
  · cases e
  · exact Or.inl ⟨sub_key (n := p!"want_to_compute_task") e, h⟩
  · exact Or.inr (Or.inl ⟨sub_key (n := p!"want_to_compute_task") e, h⟩)
  · exact Or.inr (Or.inr (Or.inl ⟨sub_key (n := p!"want_to_compute_task") e, h⟩))
  · exact Or.inr (Or.inr (Or.inr ⟨sub_key (n := p!"want_to_compute_task") e, h⟩))

theorem task_sub_def {E : Env} {kw : Attrs} (h : TaskArgs E kw) : DefArgs (subArgs p!"compute_task_def" kw) := by
  intro k v hm
  rcases h _ _ (mem_subArgs hm) with ⟨e, _⟩ | ⟨e, _⟩ | ⟨e, h⟩ | ⟨e, h⟩ | ⟨e, h⟩ | ⟨e, h⟩ | ⟨e, h⟩
  · cases e
  · cases e
  · exact ⟨sub_key (n := p!"compute_task_def") e, h⟩
  all_goals cases e

theorem task_args_data {E : Env} {kw : Attrs} (h : TaskArgs E kw) {k : PStr} {v : Val} (hm : (k, v) ∈ kw) : Data v := by
  rcases h k v hm with ⟨_, hv⟩ | ⟨_, hv⟩ | ⟨_, i, rfl, _⟩ | ⟨_, hv⟩ | ⟨_, hv⟩ | ⟨_, hv⟩ | ⟨_, hv⟩
  · exact hv.data
  · exact hv.data
  · unfold Data data; rfl
  all_goals exact hv.data

theorem task_argsOk {E : Env} {kw : Attrs} (h : TaskArgs E kw) : ArgsOk E .TaskToCompute kw where
  fields k v c' n hm hmean := by
    cases hmean with
    | field hp =>
      have hd := task_args_data h hm
      rcases h k v hm with ⟨rfl, _⟩ | ⟨rfl, _⟩ | ⟨rfl, _⟩ | ⟨rfl, _⟩ | ⟨rfl, _⟩ | ⟨rfl, _⟩ | ⟨rfl, _⟩
      · unfold ValueOk FieldOk
        simp [Cls.msgSlots, lookupName, Cls.nodeSlots]
        exact hd
      all_goals exact absurd hp (by decide)
    | deeper hs hr =>
      simp only [Cls.msgSlots, List.mem_singleton, Prod.mk.injEq] at hs
      obtain ⟨rfl, rfl⟩ := hs
      rename_i key
      have hsub : (key, v) ∈ subArgs p!"want_to_compute_task" kw := by
        unfold subArgs
        refine List.mem_filterMap.mpr ⟨_, hm, ?_⟩
        rfl
      exact (offer_argsOk (task_sub_offer h)).fields key v c' n hsub hr
  files k v hm hmean := by
    generalize hc : Cls.TaskToCompute = c at hmean
    cases hmean with
    | here => cases hc
    | deeper hs hr =>
      subst hc
      simp only [Cls.msgSlots, List.mem_singleton, Prod.mk.injEq] at hs
      obtain ⟨rfl, rfl⟩ := hs
      generalize hc : (⟨.WantToComputeTask, false, false⟩ : SlotDef).cls = c at hr
      cases hr with
      | here => cases hc
      | deeper hs _ => subst hc; cases hs
  data k v hm _ _ _ := task_args_data h hm
  shared e := by cases e
  version e := by cases e

/-- A task on its way through the hooks. -/
structure Going (E : Env) (offer : Msg) (m : Msg) : Prop where
  fine : Fine E .TaskToCompute m
  definition : ∃ items, getAttr m.attrs p!"compute_task_def" = .fdict .computeTaskDef items ∧
    DeclaredKeys .computeTaskDef items
  requestor : KeyArg (getAttr m.attrs p!"requestor_id")
  offer : getAttr m.attrs p!"want_to_compute_task" = offer.val

theorem attr_writable {as : Attrs} {n : PStr} (h : WritableA as) : Writable (getAttr as n) := by
  unfold getAttr
  cases hl : lookupName n as with
  | none => simp only [Option.getD, Writable]
  | some v => exact (fitsA_mem.mp h n v (mem_of_lookupName hl)).2

theorem setDef_total {E : Env} {offer m : Msg} {key : PStr} {v : Val} (h : Going E offer m)
    (hkey : key = p!"task_id" ∨ key = p!"subtask_id") (hv : ∃ s, v.asStr = some s ∧ s.length ≤ 128) (hw : Writable v) :
    ∃ m', setDef E m key v = .ok m' ∧ Going E offer m' := by
  obtain ⟨items, hi, hd⟩ := h.definition
  have hk : key ∈ FDictId.computeTaskDef.items.map Prod.fst := by rcases hkey with rfl | rfl <;> decide
  have hset : fdSetV E (fdConv E .computeTaskDef) .computeTaskDef items (.str key) v = .ok (setName key v items) := by
    unfold fdSetV fdConv noConv fdSet
    dsimp only
    rw [(itemOk_iff E .computeTaskDef key v).mpr (fun _ => hv)]
    dsimp only
    rw [if_pos ((lookupName_isSome _ _).mpr hk)]
  have hold : Writable (.fdict .computeTaskDef items) := by rw [← hi]; exact attr_writable h.fine.writable
  simp only [Writable] at hold
  have hn := setName_names key v items ((hd.2 key).mpr hk)
  have hnew : Writable (.fdict .computeTaskDef (setName key v items)) := by
    simp only [Writable]
    refine ⟨?_, fits_setName (item_names_short _ _ hk) hw hold.2⟩
    rw [← List.length_map (f := Prod.fst), hn, List.length_map]
    exact hold.1
  refine ⟨{ m with attrs := setName p!"compute_task_def" (.fdict .computeTaskDef (setName key v items)) m.attrs }, ?_,
    h.fine.set (by decide) hnew, ⟨_, by rw [getAttr_setName, if_pos rfl], by unfold DeclaredKeys; rw [hn]; exact hd⟩, ?_, ?_⟩
  · unfold setDef
    rw [hi]
    dsimp only
    rw [hset]
  · rw [getAttr_setName, if_neg (by decide)]; exact h.requestor
  · rw [getAttr_setName, if_neg (by decide)]; exact h.offer

theorem uuid_arg {E : Env} {offer m : Msg} (u : Nat) (h : Going E offer m) :
    ∃ s, fakeGolemUuid u (getAttr m.attrs p!"requestor_id") = .ok s ∧ s.length = 36 := by
  obtain ⟨b, _, e⟩ := h.requestor
  rw [e]
  exact golemUuid_key u b

theorem subtaskId_total {E : Env} {offer m : Msg} {u : Nat} {kw : Attrs} (h : Going E offer m)
    (hk : lookupName p!"subtask_id" kw = none) : ∃ m', subtaskIdHook E u kw m = .ok m' ∧ Going E offer m' := by
  obtain ⟨s, hs, hl⟩ := uuid_arg u h
  obtain ⟨m', h1, h2⟩ := setDef_total (v := .str s) h (Or.inr rfl) ⟨s, rfl, by omega⟩ (str_writable (by omega))
  obtain ⟨items, hi, _⟩ := h.definition
  refine ⟨m', ?_, h2⟩
  unfold subtaskIdHook
  rw [if_neg (by rw [hi]; exact fun e => nomatch e), hs]
  have : getAttr kw p!"subtask_id" = .none := by unfold getAttr; rw [hk]
  rw [this]
  exact h1

theorem taskId_total {E : Env} {offer m : Msg} {u : Nat} {kw : Attrs} (h : Going E offer m)
    (hh : HeaderOk E (getAttr offer.attrs p!"task_header")) (hwo : WritableA offer.attrs)
    (hk : lookupName p!"task_id" kw = none) : ∃ m', taskIdHook E u kw m = .ok m' ∧ Going E offer m' := by
  obtain ⟨s, hs, hl⟩ := uuid_arg u h
  obtain ⟨items, hi, _⟩ := h.definition
  have hid : ∀ key v, offeredTask m = some (key, v) →
      Writable v ∧ (v.truthy = true → ∃ s, v.asStr = some s ∧ s.length ≤ 128) := by
    intro key v ho
    unfold offeredTask at ho
    rw [h.offer] at ho
    unfold Msg.val at ho
    dsimp only at ho
    obtain ⟨fs, e, hn, hf⟩ := hh
    rw [e] at ho
    dsimp only at ho
    have hwf : Writable (.cont .taskHeader fs) := by rw [← e]; exact attr_writable hwo
    simp only [Writable] at hwf
    have hmem : p!"task_id" ∈ fs.map Prod.fst := by rw [hn]; decide
    split at ho
    · injection ho with ho
      injection ho with _ ho
      subst ho
      refine ⟨attr_writable hwf.2, fun ht => ?_⟩
      rcases hf _ _ (mem_getAttr hmem) with ⟨e, _⟩ | e
      · rw [e] at ht; cases ht
      · rw [if_neg (by decide), if_neg (by decide), if_neg (by decide)] at e
        have hacc := e.2 [.varchar (some 128)] (by simp [ContId.slots]) _ (List.mem_singleton.mpr rfl)
        unfold Validator.accepts at hacc
        dsimp only at hacc
        split at hacc
        · exact ⟨_, by assumption, by simpa using hacc⟩
        · cases hacc
    · cases ho
  have rest : ∀ v : Val, Writable v → (v.truthy = true → ∃ s, v.asStr = some s ∧ s.length ≤ 128) →
      ∃ m', (do
        let id ← if v.truthy = true then (.ok v : Res Val) else
          (fakeGolemUuid u (getAttr m.attrs p!"requestor_id")).map .str
        setDef E m p!"task_id" id) = .ok m' ∧ Going E offer m' := by
    intro v hvw hvs
    by_cases ht : v.truthy = true
    · obtain ⟨m', h1, h2⟩ := setDef_total (v := v) h (Or.inl rfl) (hvs ht) hvw
      refine ⟨m', ?_, h2⟩
      rw [if_pos ht]
      exact h1
    · obtain ⟨m', h1, h2⟩ := setDef_total (v := .str s) h (Or.inl rfl) ⟨s, rfl, by omega⟩ (str_writable (by omega))
      refine ⟨m', ?_, h2⟩
      rw [if_neg ht, hs]
      exact h1
  have nn : Writable .none ∧ (Val.none.truthy = true → ∃ s, Val.none.asStr = some s ∧ s.length ≤ 128) :=
    ⟨by simp only [Writable], fun e => nomatch e⟩
  have hx : getAttr kw p!"task_id" = .none := by unfold getAttr; rw [hk]
  unfold taskIdHook
  rw [if_neg (by rw [hi]; exact fun e => nomatch e), hx]
  cases hot : offeredTask m with
  | none => exact rest .none nn.1 nn.2
  | some p =>
    obtain ⟨key, v⟩ := p
    obtain ⟨i1, i2⟩ := hid key v hot
    by_cases hp : pyEq (getAttr m.attrs p!"requestor_id") key = true
    · have := rest v i1 i2
      simpa only [show Val.none.truthy = false from rfl, Bool.false_eq_true, if_false, hp, if_true] using this
    · have := rest .none nn.1 nn.2
      simpa only [show Val.none.truthy = false from rfl, Bool.false_eq_true, if_false, hp] using this

theorem ethsig_total {E : Env} {offer m : Msg} {eth : Bytes × Bytes} {kw : Attrs} (h : Going E offer m)
    (hfo : Fine E .WantToComputeTask offer) (hwo : WellTypedMsg E offer) (hk : subArgs p!"ethsig" kw = [])
    (heth : eth.2.length = 64) (hs : Signs E eth.1) :
    ∃ m', ethsigHook E eth kw m = .ok m' ∧ Going E offer m' := by
  have keep : ∀ {m : Msg} {n v}, Going E offer m → n ∈ Cls.TaskToCompute.payload → n ≠ p!"compute_task_def" →
      n ≠ p!"requestor_id" → n ≠ p!"want_to_compute_task" → Writable v →
      Going E offer { m with attrs := setName n v m.attrs } := by
    intro m n v h h0 h1 h2 h3 hw
    refine ⟨h.fine.set h0 hw, ?_, ?_, ?_⟩
    · rw [getAttr_setName, if_neg (Ne.symm h1)]; exact h.definition
    · rw [getAttr_setName, if_neg (Ne.symm h2)]; exact h.requestor
    · rw [getAttr_setName, if_neg (Ne.symm h3)]; exact h.offer
  have hpub : encodeHex (.bytes eth.2) = .ok (hexlify eth.2) := encodeHex_key heth
  have hne : (Val.str (hexlify eth.2)).truthy = true := by
    have : (hexlify eth.2).length = 128 := by rw [hexlify_length, heth]
    cases hx : hexlify eth.2 with
    | nil => rw [hx] at this; cases this
    | cons _ _ => rfl
  unfold ethsigHook
  simp only [bind, Except.bind]
  rw [hk]
  have a1 : getAttr ([] : Attrs) p!"privkey" = .none := rfl
  have a2 : (getAttr ([] : Attrs) p!"disable").truthy = false := rfl
  rw [a1, a2]
  simp only [ne_eq, not_true_eq_false, false_and, if_false, Bool.false_eq_true, true_and, if_true]
  by_cases ht : (getAttr m.attrs p!"requestor_ethereum_public_key").truthy = true
  · refine ⟨m, ?_, h⟩
    rw [if_neg (by rw [ht]; simp)]
  · rw [if_pos (by simpa using ht), hpub]
    dsimp only
    have g1 := keep (n := p!"requestor_ethereum_public_key") (v := .str (hexlify eth.2)) h (by decide) (by decide)
      (by decide) (by decide) (key_writable heth)
    split
    · exact ⟨_, rfl, g1⟩
    · obtain ⟨t, ht, hlt⟩ := hfo.ts
      obtain ⟨x, hx⟩ := (Props.digest_succeeds E offer t hwo hfo.writable (by rw [hfo.cls]; exact hfo.ty) ht hlt).1
      obtain ⟨sg, e1, e2⟩ := hs (E.sha3 x)
      refine ⟨_, ?_, keep (n := p!"ethsig") (v := .bytes sg) g1 (by decide) (by decide)
        (by decide) (by decide) (by simp only [Writable, e2]; decide)⟩
      unfold generateEthsig
      rw [g1.offer, show offer.val.asMsg = some offer from rfl, getAttr_setName, if_pos rfl, hne]
      simp only [Bool.not_true, Bool.false_eq_true, if_false]
      rw [hx]
      dsimp only
      unfold Env.ecdsaSign
      rw [e1]

/-- A task is made. -/
theorem task_total {E : Env} {G : Getter} {keccak : Bytes → Bytes} {d : TaskDraw} {kw : Attrs}
    (hkec : ∀ b, (keccak b).length = 32) (hd : TaskInRange d) (hs : Signs E d.eth.1) (hk : TaskArgs E kw)
    (hnd : (kw.map Prod.fst).Nodup) :
    ∃ m, taskFactory E G keccak d kw = .ok m ∧ Fine E .TaskToCompute m := by
  have hkey : ∃ b : Bytes, b.length = 64 ∧
      given kw p!"requestor_public_key" ((encodeHex (.bytes d.key)).map .str) = .ok (.str (hexlify b)) := by
    unfold given
    cases hl : lookupName p!"requestor_public_key" kw with
    | none => exact ⟨d.key, hd.key, by rw [encodeHex_key hd.key]; rfl⟩
    | some v =>
      rcases hk _ _ (mem_of_lookupName hl) with ⟨_, b, hb, rfl⟩ | ⟨e, _⟩ | ⟨e, _⟩ | ⟨e, _⟩ | ⟨e, _⟩ | ⟨e, _⟩ | ⟨e, _⟩
      · exact ⟨b, hb, rfl⟩
      all_goals exact absurd e (by decide)
  have absent : ∀ n, n ∉ [p!"requestor_public_key", p!"sign__privkey", p!"compute_task_def__deadline",
      p!"want_to_compute_task__provider_public_key", p!"want_to_compute_task__sign__privkey",
      p!"want_to_compute_task__task_header__requestor_public_key",
      p!"want_to_compute_task__task_header__sign__privkey"] → lookupName n kw = none := by
    intro n hn
    refine lookup_absent fun k v hm e => hn ?_
    subst e
    rcases hk k v hm with ⟨rfl, _⟩ | ⟨rfl, _⟩ | ⟨rfl, _⟩ | ⟨rfl, _⟩ | ⟨rfl, _⟩ | ⟨rfl, _⟩ | ⟨rfl, _⟩ <;> decide
  have hextra : extraArgs taskRoots kw = [] := by
    refine extra_none fun k v hm => ?_
    rcases hk k v hm with ⟨rfl, _⟩ | ⟨rfl, _⟩ | ⟨rfl, _⟩ | ⟨rfl, _⟩ | ⟨rfl, _⟩ | ⟨rfl, _⟩ | ⟨rfl, _⟩ <;> decide
  have hsubs : ∀ n ∈ [p!"task_id", p!"subtask_id", p!"ethsig"], subArgs n kw = [] := by
    intro n hn
    cases hx : subArgs n kw with
    | nil => rfl
    | cons kv rest =>
      have hm : (kv.1, kv.2) ∈ subArgs n kw := by rw [hx]; exact List.mem_cons_self
      simp only [List.mem_cons, List.not_mem_nil, or_false] at hn
      rcases hn with rfl | rfl | rfl <;>
        rcases hk _ _ (mem_subArgs hm) with ⟨e, _⟩ | ⟨e, _⟩ | ⟨e, _⟩ | ⟨e, _⟩ | ⟨e, _⟩ | ⟨e, _⟩ | ⟨e, _⟩ <;> cases e
  have hsub : subArgs p!"ethsig" kw = [] := hsubs _ (by decide)
  obtain ⟨b, hb, hkey⟩ := hkey
  obtain ⟨o, ho, hof, ⟨pb, hpb, hpk⟩, how, hoh⟩ := offer_total (G := G) hkec hd.offer (task_sub_offer hk) (Props.sub_nodup hnd)
  obtain ⟨items, hdf, hdw, hdok⟩ := def_total (E := E) hd.definition (task_sub_def hk)
  have h1 := hd.package
  have h2 := hd.size
  have h3 := hd.price
  obtain ⟨m, hm, hf, _, hfields⟩ := built_total (E := E) (G := G) (c := .TaskToCompute)
    (kw := [(p!"requestor_id", .str (hexlify b)), (p!"provider_id", .str (hexlify pb)),
      (p!"compute_task_def", .fdict .computeTaskDef items), (p!"requestor_public_key", .str (hexlify b)),
      (p!"want_to_compute_task", o.val), (p!"package_hash", .str (p!"sha1:" ++ d.package)), (p!"size", .int d.size),
      (p!"price", .int d.price), (p!"resources_options", .none)]) hd.now (fun e => nomatch e)
    (by simp only [List.map_cons, List.map_nil]; decide) (by simp only [List.map_cons, List.map_nil]; decide) (by
      intro k v hm
      simp only [List.mem_cons, List.not_mem_nil, or_false, Prod.mk.injEq] at hm
      rcases hm with ⟨_, rfl⟩ | ⟨_, rfl⟩ | ⟨_, rfl⟩ | ⟨_, rfl⟩ | ⟨_, rfl⟩ | ⟨_, rfl⟩ | ⟨_, rfl⟩ | ⟨_, rfl⟩ | ⟨_, rfl⟩
      · exact key_writable hb
      · exact key_writable hpb
      · exact hdw
      · exact key_writable hb
      · exact hof.val
      · exact str_writable (by simp only [List.length_append, List.length_cons, List.length_nil]; omega)
      · exact small_writable (by omega)
      · exact small_writable (by omega)
      · simp only [Writable])
  have g0 : Going E o m := by
    refine ⟨hf, ⟨items, ?_, ?_⟩, ?_, ?_⟩
    · exact (hfields p!"compute_task_def" (by decide) (.fdict .computeTaskDef items)).1 (by simp)
    · obtain ⟨items', e, h, _⟩ := hdok
      injection e with _ e
      subst e
      exact h
    · rw [(hfields p!"requestor_id" (by decide) (.str (hexlify b))).1 (by simp)]
      exact ⟨b, hb, rfl⟩
    · exact (hfields p!"want_to_compute_task" (by decide) o.val).1 (by simp)
  obtain ⟨m1, e1, g1⟩ := taskId_total (u := d.uuid1) (kw := kw) g0 hoh hof.writable (absent _ (by decide))
  obtain ⟨m2, e2, g2⟩ := subtaskId_total (u := d.uuid2) (kw := kw) g1 (absent _ (by decide))
  obtain ⟨m3, e3, g3⟩ := ethsig_total g2 hof how hsub hd.eth.2 hs
  have hbody : Props.taskBody E G keccak d kw = .ok m3 := by
    unfold Props.taskBody
    simp only [bind, Except.bind]
    rw [hkey]
    dsimp only
    rw [given_none (absent p!"requestor_id" (by decide))]
    dsimp only
    rw [given_none (absent p!"want_to_compute_task" (by decide)), ho]
    simp only [Except.map]
    rw [given_none (absent p!"provider_id" (by decide))]
    rw [show attrOf o.val p!"provider_public_key" = .ok (.str (hexlify pb)) from by
      unfold attrOf Msg.val; dsimp only; rw [hpk]]
    dsimp only
    rw [given_none (absent p!"compute_task_def" (by decide)), hdf]
    dsimp only
    rw [given_none (absent p!"package_hash" (by decide))]
    dsimp only
    rw [given_none (absent p!"size" (by decide))]
    dsimp only
    rw [given_none (absent p!"price" (by decide))]
    dsimp only
    rw [given_none (absent p!"resources_options" (by decide)), hextra]
    dsimp only
    rw [List.append_nil, hm]
    dsimp only
    rw [e1]
    dsimp only
    rw [e2]
    exact e3
  obtain ⟨m', i1, i2⟩ := g3.fine.sign (kw := kw) (Props.task_body_wellTyped hnd (task_argsOk hk) hbody)
    (signArg_total fun k v hm hp => by
      rcases hk k v hm with ⟨rfl, _⟩ | h | ⟨rfl, _⟩ | ⟨rfl, _⟩ | ⟨rfl, _⟩ | ⟨rfl, _⟩ | ⟨rfl, _⟩
      · exact absurd hp (by decide)
      · exact h
      all_goals exact absurd hp (by decide))
  refine ⟨m', ?_, i2⟩
  rw [taskFactory_free (hsubs _ (by decide)) (hsubs _ (by decide)) hsub, Props.task_body, hbody]; exact i1

end Verif
