import Verif.Lemmas.MadeWritable
import Verif.Lemmas.Errors
import Verif.Lemmas.Clone
import Verif.Props.Factories
/-!
# Headers, offers and definitions are made whatever is drawn
-/

set_option linter.unusedSimpArgs false

namespace Verif

open Spec

theorem given_none {kw : Attrs} {n : PStr} {r : Res Val} (h : lookupName n kw = none) : given kw n r = r := by
  unfold given; rw [h]

theorem encodeHex_key {b : Bytes} (h : b.length = 64) : encodeHex (.bytes b) = .ok (hexlify b) := by
  cases b with
  | nil => cases h
  | cons x xs => rfl

theorem decodeHex_key (b : Bytes) : decodeHex (.str (hexlify b)) = .ok b := by
  unfold decodeHex
  dsimp only
  rw [if_pos]
  · exact (unhexlify_iff _ _).mpr (hexText_hexlify b)
  · rw [List.all_eq_true]
    intro c hc
    have hl := hexlify_lower b c hc
    have : ∀ c ∈ hexLower, decide (c.toNat < 128) = true := by decide
    exact this c hl

theorem uuidText_length (u : Nat) : (uuidText u).length = 36 := by
  unfold uuidText
  simp only [List.length_append, List.length_take, List.length_drop, hexN_length, List.length_cons, List.length_nil]
  decide

theorem golemUuid_key (u : Nat) (b : Bytes) : ∃ s, fakeGolemUuid u (.str (hexlify b)) = .ok s ∧ s.length = 36 := by
  unfold fakeGolemUuid
  rw [decodeHex_key]
  exact ⟨_, rfl, uuidText_length _⟩

theorem digits_length {n : Nat} (h : n ≤ 9999) : (Nat.toDigits 10 n).length ≤ 4 :=
  (Nat.length_toDigits_le_iff (by decide) (by decide)).mpr (by omega)

theorem key_writable {b : Bytes} (h : b.length = 64) : Writable (.str (hexlify b)) :=
  str_writable (by rw [hexlify_length, h]; decide)

/-- A node with a name and a key. -/
theorem node_total {E : Env} {name key : PStr} (hk : key.length ≤ 128) (hn : name.length < 2 ^ 32) :
    ∃ v, mkCont E .node (.dict [(.str p!"key", .str key), (.str p!"node_name", .str name)]) = .ok v ∧
      SimpleOk E .node v ∧ Writable v := by
  have h := (contCall_iff (E := E) (hook := contHook E .node) (c := .node)
    (kw := [(p!"key", .str key), (p!"node_name", .str name)]) (by simp)).mpr ⟨by simp only [List.map_cons, List.map_nil]; decide,
      by simp only [List.map_cons, List.map_nil]; decide, ?_⟩
  · obtain ⟨v, hv⟩ := h
    refine ⟨v, hv, ?_, ?_⟩
    · refine node_made (name := name) (kw := [(p!"key", .str key)]) ?_ hv
      intro k v hm
      simp only [List.mem_singleton, Prod.mk.injEq] at hm
      rw [hm.2]; rfl
    · refine cont_writable (args_writable (kw := [(p!"key", .str key), (p!"node_name", .str name)]) ?_ (by simp))
        (fun k x y hx e => by injection e with e; subst e; exact hx) hv
      simp only [WritableA, Writable]
      exact ⟨by decide, by omega, by decide, by omega, trivial⟩
  · intro k vs v hs hm
    right
    refine ⟨?_, v, rfl⟩
    simp only [List.mem_cons, Prod.mk.injEq, List.not_mem_nil, or_false] at hm
    rcases hm with ⟨rfl, rfl⟩ | ⟨rfl, rfl⟩
    · have : vs = [.varchar (some 128)] := by
        simp only [ContId.slots, List.mem_cons, Prod.mk.injEq, List.mem_nil_iff, or_false] at hs
        simpa using hs
      subst this
      simp [Validator.accepts, Val.asStr, hk]
    · have : vs = [.varchar none] := by
        simp only [ContId.slots, List.mem_cons, Prod.mk.injEq, List.mem_nil_iff, or_false] at hs
        simpa using hs
      subst this
      simp [Validator.accepts, Val.asStr]

theorem owner_total {E : Env} {name key : PStr} (hk : key.length ≤ 128) (hn : name.length < 2 ^ 32) :
    ∃ v, fakeOwner E name (.str key) = .ok v ∧ Writable v ∧ v.asDict.isSome = true ∧
      (∀ c fs, v ≠ .cont c fs) ∧ ∃ w, leafCall E .node v = .ok w := by
  obtain ⟨v, h1, h2, h3⟩ := node_total (E := E) hk hn
  obtain ⟨fs, d, rfl, hd, hc, _, _⟩ := Clone.node h2
  have ho : fakeOwner E name (.str key) = .ok (.dict d) := by
    unfold fakeOwner
    simp only [bind, Except.bind]
    rw [h1]; exact hd
  exact ⟨_, ho, fits_toDict h3 hd, rfl, (fun c fs e => nomatch e), _, hc⟩

/-- Arguments for a header that `with_signed_nested_messages` passes. -/
def HeaderArgs (E : Env) (kw : Attrs) : Prop :=
  ∀ k v, (k, v) ∈ kw → (k = p!"requestor_public_key" ∧ ∃ b : Bytes, b.length = 64 ∧ v = .str (hexlify b)) ∨
    (k = p!"sign__privkey" ∧ ∃ b, Signs E b ∧ v = .bytes b)

theorem lookup_absent {kw : Attrs} {n : PStr} (h : ∀ k v, (k, v) ∈ kw → k ≠ n) : lookupName n kw = none := by
  rw [lookupName_none]
  intro hm
  obtain ⟨⟨k, v⟩, hkv, e⟩ := List.mem_map.mp hm
  exact h k v hkv e

/-- The key for signing among the arguments. -/
theorem signArg_total {E : Env} {kw : Attrs}
    (h : ∀ k v, (k, v) ∈ kw → (p!"sign__").isPrefixOf k = true → k = p!"sign__privkey" ∧ ∃ b, Signs E b ∧ v = .bytes b) :
    ∃ o, signArg kw = .ok o ∧ ∀ b, o = some b → Signs E b := by
  have hs : ∀ k v, (k, v) ∈ subArgs p!"sign" kw → k = p!"privkey" ∧ ∃ b, Signs E b ∧ v = .bytes b := by
    intro k v hm
    unfold subArgs at hm
    obtain ⟨⟨k', v'⟩, hm', e⟩ := List.mem_filterMap.mp hm
    split at e
    · rename_i hp
      injection e with e
      injection e with e1 e2
      obtain ⟨rfl, hb⟩ := h k' v' hm' hp
      exact ⟨e1.symm, e2 ▸ hb⟩
    · cases e
  unfold signArg
  dsimp only
  rw [if_neg]
  · unfold getAttr
    cases hl : lookupName p!"privkey" (subArgs p!"sign" kw) with
    | none => exact ⟨none, rfl, fun b e => nomatch e⟩
    | some v =>
      obtain ⟨_, b, hb, rfl⟩ := hs _ _ (mem_of_lookupName hl)
      cases b with
      | nil => exact ⟨none, rfl, fun b e => nomatch e⟩
      | cons x xs => exact ⟨_, rfl, fun b e => by injection e with e; exact e ▸ hb⟩
  · simp only [List.any_eq_true, not_exists, not_and, Bool.not_eq_true, bne_eq_false_iff_eq]
    rintro ⟨k, v⟩ hm
    exact (hs k v hm).1

theorem extra_none {roots : List PStr} {kw : Attrs}
    (h : ∀ k v, (k, v) ∈ kw → ∃ r ∈ roots, k = r ∨ (r ++ p!"__").isPrefixOf k = true) : extraArgs roots kw = [] := by
  unfold extraArgs
  rw [List.filter_eq_nil_iff]
  rintro ⟨k, v⟩ hm
  obtain ⟨r, hr, e⟩ := h k v hm
  simp only [List.all_eq_true, Bool.and_eq_true, bne_iff_ne, ne_eq, Bool.not_eq_true']
  intro hx
  have hx := hx r hr
  rcases e with e | e
  · exact hx.1 e
  · rw [e] at hx; cases hx.2

theorem wide_pow : 2 ^ 65 ≤ 256 ^ (2 ^ 64 - 1) := by
  generalize hn : 2 ^ 64 - 1 = n
  exact Nat.le_trans (by decide) (Nat.pow_le_pow_right (i := 9) (by decide) (by omega))

theorem wireOkD_filter {p : Val × Val → Bool} : ∀ {d : List (Val × Val)}, Val.wireOkD d = true →
    Val.wireOkD (d.filter p) = true
  | [], h => h
  | (k, x) :: rest, h => by
    simp only [Val.wireOkD, Bool.and_eq_true] at h
    rw [List.filter_cons]
    split
    · simp only [Val.wireOkD, Bool.and_eq_true]
      exact ⟨h.1, wireOkD_filter h.2⟩
    · exact wireOkD_filter h.2

theorem keysOk_filter {p : Val × Val → Bool} : ∀ {d : List (Val × Val)}, keysOk (Val.wireNormD d) = true →
    keysOk (Val.wireNormD (d.filter p)) = true ∧
      ∀ kv ∈ Val.wireNormD (d.filter p), kv ∈ Val.wireNormD d
  | [], h => ⟨h, fun _ h => h⟩
  | (k, x) :: rest, h => by
    simp only [Val.wireNormD, keysOk, Bool.and_eq_true] at h
    obtain ⟨i1, i2⟩ := keysOk_filter (p := p) h.2
    rw [List.filter_cons]
    split
    · simp only [Val.wireNormD, keysOk, Bool.and_eq_true]
      refine ⟨⟨⟨h.1.1, List.all_eq_true.mpr fun kv hm => List.all_eq_true.mp h.1.2 kv (i2 kv hm)⟩, i1⟩, ?_⟩
      intro kv hm
      rcases List.mem_cons.mp hm with rfl | hm
      · exact List.mem_cons_self
      · exact List.mem_cons_of_mem _ (i2 kv hm)
    · exact ⟨i1, fun kv hm => by simp only [Val.wireNormD]; exact List.mem_cons_of_mem _ (i2 kv hm)⟩

theorem writableD_filter {p : Val × Val → Bool} : ∀ {d : List (Val × Val)}, WritableD d → WritableD (d.filter p)
  | [], h => h
  | (k, x) :: rest, h => by
    simp only [WritableD] at h
    rw [List.filter_cons]
    split
    · simp only [WritableD]
      exact ⟨h.1, h.2.1, writableD_filter h.2.2⟩
    · exact writableD_filter h.2.2

/-- A header is made, and can be written. -/
theorem header_total {E : Env} {d : HeaderDraw} {kw : Attrs} (hd : HeaderInRange d) (hk : HeaderArgs E kw) :
    ∃ v, headerFactory E d kw = .ok v ∧ Writable v := by
  have absent : ∀ n, n ≠ p!"requestor_public_key" → n ≠ p!"sign__privkey" → lookupName n kw = none := by
    intro n h1 h2
    refine lookup_absent fun k v hm e => ?_
    subst e
    rcases hk k v hm with ⟨e, _⟩ | ⟨e, _⟩
    · exact h1 e
    · exact h2 e
  have hkey : ∃ b : Bytes, b.length = 64 ∧
      given kw p!"requestor_public_key" ((encodeHex (.bytes d.key)).map .str) = .ok (.str (hexlify b)) := by
    unfold given
    cases hl : lookupName p!"requestor_public_key" kw with
    | none => exact ⟨d.key, hd.key, by rw [encodeHex_key hd.key]; rfl⟩
    | some v =>
      rcases hk _ _ (mem_of_lookupName hl) with ⟨_, b, hb, rfl⟩ | ⟨e, _⟩
      · exact ⟨b, hb, rfl⟩
      · exact absurd e (by decide)
  obtain ⟨b, hb, hkey⟩ := hkey
  obtain ⟨id, hid, hidl⟩ := golemUuid_key d.uuid b
  have hkl : (hexlify b).length = 128 := by rw [hexlify_length, hb]
  obtain ⟨o, ho, how, hod, hoc, w, how'⟩ := owner_total (E := E) (name := d.nodeName) (key := hexlify b) (by omega) hd.nodeName
  obtain ⟨sg, hsg, hsig⟩ := signArg_total (E := E) (kw := kw) (by
    intro k v hm hp
    rcases hk k v hm with ⟨rfl, _⟩ | e
    · exact absurd hp (by decide)
    · exact e)
  have hextra : extraArgs headerRoots kw = [] := by
    refine extra_none fun k v hm => ?_
    rcases hk k v hm with ⟨rfl, _⟩ | ⟨rfl, _⟩
    · exact ⟨p!"requestor_public_key", by decide, Or.inl rfl⟩
    · exact ⟨p!"sign", by decide, Or.inr (by decide)⟩
  unfold headerFactory
  simp only [bind, Except.bind]
  rw [hkey]
  have g : ∀ n r, n ≠ p!"requestor_public_key" → n ≠ p!"sign__privkey" → given kw n r = r :=
    fun n r h1 h2 => given_none (absent n h1 h2)
  simp only [hid, ho, Except.map, hextra, List.append_nil, g p!"mask" _ (by decide) (by decide),
    g p!"timestamp" _ (by decide) (by decide),
    g p!"task_id" _ (by decide) (by decide),
    g p!"market_type" _ (by decide) (by decide),
    g p!"task_owner" _ (by decide) (by decide),
    g p!"deadline" _ (by decide) (by decide),
    g p!"subtask_timeout" _ (by decide) (by decide),
    g p!"environment" _ (by decide) (by decide),
    g p!"min_version" _ (by decide) (by decide),
    g p!"estimated_memory" _ (by decide) (by decide),
    g p!"max_price" _ (by decide) (by decide),
    g p!"subtask_budget" _ (by decide) (by decide),
    g p!"subtasks_count" _ (by decide) (by decide)]
  generalize hLe : ([(p!"mask", Val.bytes d.mask), (p!"timestamp", .int d.now), (p!"task_id", .str id),
    (p!"market_type", .enum .marketType p!"Brass"), (p!"task_owner", o), (p!"deadline", .int (d.now + 3600)),
    (p!"subtask_timeout", .int d.timeout), (p!"environment", .str p!"DEFAULT"),
    (p!"min_version", .str (fakeVersion d.version.1 d.version.2.1 d.version.2.2)),
    (p!"estimated_memory", .int d.memory), (p!"max_price", .int d.maxPrice), (p!"subtask_budget", .int d.budget),
    (p!"subtasks_count", .int d.count)] : Attrs) = L
  have hmem : ∀ k x, (k, x) ∈ L → (k = p!"mask" ∧ x = .bytes d.mask) ∨ (k = p!"timestamp" ∧ x = .int d.now) ∨
      (k = p!"task_id" ∧ x = .str id) ∨ (k = p!"market_type" ∧ x = .enum .marketType p!"Brass") ∨
      (k = p!"task_owner" ∧ x = o) ∨ (k = p!"deadline" ∧ x = .int (d.now + 3600)) ∨
      (k = p!"subtask_timeout" ∧ x = .int d.timeout) ∨ (k = p!"environment" ∧ x = .str p!"DEFAULT") ∨
      (k = p!"min_version" ∧ x = .str (fakeVersion d.version.1 d.version.2.1 d.version.2.2)) ∨
      (k = p!"estimated_memory" ∧ x = .int d.memory) ∨ (k = p!"max_price" ∧ x = .int d.maxPrice) ∨
      (k = p!"subtask_budget" ∧ x = .int d.budget) ∨ (k = p!"subtasks_count" ∧ x = .int d.count) := by
    intro k x hm
    rw [← hLe] at hm
    simpa only [List.mem_cons, List.not_mem_nil, or_false, Prod.mk.injEq] using hm
  have hnames : L.map Prod.fst = [p!"mask", p!"timestamp", p!"task_id", p!"market_type", p!"task_owner", p!"deadline",
      p!"subtask_timeout", p!"environment", p!"min_version", p!"estimated_memory", p!"max_price", p!"subtask_budget",
      p!"subtasks_count"] := by rw [← hLe]; rfl
  have hnow := hd.now
  unfold Clock at hnow
  have hver : (fakeVersion d.version.1 d.version.2.1 d.version.2.2).length ≤ 14 := by
    obtain ⟨h1, h2, h3⟩ := hd.version
    have := digits_length h1
    have := digits_length h2
    have := digits_length h3
    unfold fakeVersion
    simp only [List.length_append, List.length_cons]
    omega
  have hWL : ∀ k x, (k, x) ∈ L → Writable x := by
    intro k x hm
    have r1 := hd.timeout
    have r2 := hd.memory
    have r3 := hd.maxPrice
    have r4 := hd.budget
    have r5 := hd.count
    rcases hmem k x hm with ⟨_, rfl⟩ | ⟨_, rfl⟩ | ⟨_, rfl⟩ | ⟨_, rfl⟩ | ⟨_, rfl⟩ | ⟨_, rfl⟩ | ⟨_, rfl⟩ | ⟨_, rfl⟩ |
      ⟨_, rfl⟩ | ⟨_, rfl⟩ | ⟨_, rfl⟩ | ⟨_, rfl⟩ | ⟨_, rfl⟩
    · simp only [Writable, hd.mask]; decide
    · exact clock_writable hd.now
    · exact str_writable (by omega)
    · simp only [Writable]; decide
    · exact how
    · simp only [Writable]
      exact Nat.lt_of_lt_of_le (m := 2 ^ 65) (by omega) (wide_pow)
    · exact small_writable (by omega)
    · exact str_writable (by decide)
    · exact str_writable (by omega)
    all_goals exact small_writable (by omega)
  have hmk : ∃ v, mkCont E .taskHeader (.dict (asPairs L)) = .ok v := by
    refine (contCall_iff (hook := contHook E .taskHeader) (by rw [hnames]; decide)).mpr
      ⟨by rw [hnames]; decide, by rw [hnames]; decide, fun k vs v hs hm => Or.inr ?_⟩
    have hvs := lookupName_of_mem (slots_nodup .taskHeader) hs
    rcases hmem k v hm with ⟨rfl, rfl⟩ | ⟨rfl, rfl⟩ | ⟨rfl, rfl⟩ | ⟨rfl, rfl⟩ | ⟨rfl, rfl⟩ | ⟨rfl, rfl⟩ | ⟨rfl, rfl⟩ |
      ⟨rfl, rfl⟩ | ⟨rfl, rfl⟩ | ⟨rfl, rfl⟩ | ⟨rfl, rfl⟩ | ⟨rfl, rfl⟩ | ⟨rfl, rfl⟩ <;>
      (have hvs : some _ = some vs := hvs; injection hvs with hvs; subst hvs)
    · exact ⟨by simp [Validator.accepts], _, rfl⟩
    · exact ⟨by simp [Validator.accepts, Val.asInt], _, rfl⟩
    · exact ⟨by simp [Validator.accepts, Val.asStr, hidl], _, rfl⟩
    · exact ⟨by simp, _, rfl⟩
    · refine ⟨?_, w, ?_⟩
      · simp only [List.mem_singleton, forall_eq]
        cases v <;> first | exact hod | exact absurd rfl (hoc _ _)
      · show (match v with | .cont .node _ => (.ok v : Res Val) | _ => leafCall E .node v) = .ok w
        split
        · exact absurd rfl (hoc _ _)
        · exact how'
    · exact ⟨by simp [Validator.accepts, Val.asInt], _, rfl⟩
    · have := hd.timeout
      exact ⟨by simp [Validator.accepts, Val.asInt]; omega, _, rfl⟩
    · exact ⟨by simp [Validator.accepts, Val.asStr], _, rfl⟩
    · exact ⟨by simp [Validator.accepts, Val.asStr, Props.fake_version_parses], _, rfl⟩
    · exact ⟨by simp [Validator.accepts, Val.asInt], _, rfl⟩
    · exact ⟨by simp [Validator.accepts, Val.asInt], _, rfl⟩
    · exact ⟨by simp [Validator.accepts, Val.asInt], _, rfl⟩
    · have := hd.count
      exact ⟨by simp [Validator.accepts, Val.asInt]; omega, _, rfl⟩
  obtain ⟨v, hv⟩ := hmk
  have hW : Writable v := by
    refine header_writable (args_writable (kw := L) (fitsA_mem.mpr fun k x hm => ⟨?_, hWL k x hm⟩) ?_) hv
    · have : ∀ k ∈ L.map Prod.fst, 4 * k.length < 2 ^ 64 := by rw [hnames]; decide
      exact this k (List.mem_map.mpr ⟨_, hm, rfl⟩)
    · rw [← List.length_map (f := Prod.fst), hnames]; decide
  have hok : HeaderOk E v := by
    refine header_fields (fun kw' hdict k x hm hmk => ?_) hv
    rw [pairs_inj hdict] at hm
    rcases hmem k x hm with ⟨_, rfl⟩ | ⟨_, rfl⟩ | ⟨_, rfl⟩ | ⟨rfl, rfl⟩ | ⟨_, rfl⟩ | ⟨_, rfl⟩ | ⟨_, rfl⟩ | ⟨_, rfl⟩ |
      ⟨_, rfl⟩ | ⟨_, rfl⟩ | ⟨_, rfl⟩ | ⟨_, rfl⟩ | ⟨_, rfl⟩
    all_goals first
      | rfl
      | exact absurd rfl hmk
      | exact owner_made (key := .str (hexlify b)) (by unfold Data data; rfl) ho
  have hv' : mkCont E .taskHeader (.dict (L.map fun kv => (.str kv.1, kv.2))) = .ok v := hv
  rw [hv', hsg]
  dsimp only
  obtain ⟨⟨fs, rfl⟩, dd, hdd, htrip⟩ := header_wire hok
  cases sg with
  | none => exact ⟨_, rfl, hW⟩
  | some priv =>
    dsimp only
    have hdd' : toDictF .taskHeader fs = .ok dd := by
      unfold toDict at hdd
      dsimp only at hdd
      split at hdd
      · cases hdd
      · rename_i x hx
        injection hdd with hdd
        injection hdd with hdd
        rw [hx, hdd]
    simp only [Writable] at hW
    obtain ⟨hdw, hdl⟩ := fits_toDictF _ _ _ hW.2 hdd'
    obtain ⟨bb, hbb⟩ := dumps_fits (v := .dict (dd.filter fun kv => kv.1 ≠ .str p!"signature"))
      (by
        have h1 := htrip.1
        simp only [Val.wireOk, Bool.and_eq_true] at h1 ⊢
        exact ⟨wireOkD_filter h1.1, (keysOk_filter h1.2).1⟩)
      (by
        simp only [Writable]
        exact ⟨Nat.lt_of_le_of_lt (List.length_filter_le _ _) (hdl ▸ hW.1), writableD_filter hdw⟩)
    obtain ⟨sgn, hsgn, hl⟩ := hsig priv rfl (E.sha3 (E.sha1 bb))
    have : headerSign E fs priv = .ok (setName p!"signature" (.bytes sgn) fs) := by
      unfold headerSign headerHash
      rw [hdd']
      dsimp only
      rw [hbb]
      dsimp only
      unfold Env.ecdsaSign
      rw [hsgn]
    refine ⟨.cont .taskHeader (setName p!"signature" (.bytes sgn) fs), by rw [this], ?_⟩
    simp only [Writable]
    refine ⟨?_, fits_setName (by decide) (by simp only [Writable, hl]; decide) hW.2⟩
    obtain ⟨fs', e, hn, _⟩ := hok
    injection e with _ e
    subst e
    have : p!"signature" ∈ fs.map Prod.fst := by rw [hn]; decide
    rw [← List.length_map (f := Prod.fst), setName_names _ _ _ this, List.length_map]
    exact hW.1

end Verif
