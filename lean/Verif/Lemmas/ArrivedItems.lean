import Verif.Lemmas.Decoded
import Verif.Lemmas.WireItems
import Verif.Lemmas.Slots
/-! # What containers and dictionaries hold when built from data -/

set_option linter.unusedSimpArgs false

namespace Verif

open Spec

theorem fdSetAll_every {E : Env} {conv : PStr → Val → Res Val} {c : FDictId} {P : PStr → Val → Prop} :
    ∀ {pairs : List (Val × Val)} {items items' : Attrs},
    (∀ k v v', (.str k, v) ∈ pairs → conv k v = .ok v' → P k v') → (∀ k x, (k, x) ∈ items → P k x) →
    fdSetAll E conv c items pairs = .ok items' → ∀ k x, (k, x) ∈ items' → P k x
  | [], items, items', _, hi, h => by unfold fdSetAll at h; cases h; exact hi
  | (key, v) :: rest, items, items', hp, hi, h => by
    unfold fdSetAll at h
    split at h
    · cases h
    rename_i i1 h1
    obtain ⟨k, v', rfl, hc, _, _, rfl⟩ := fdSetV_ok h1
    refine fdSetAll_every (fun k v v' hm => hp k v v' (by simp [hm])) ?_ h
    intro k' x hm
    rcases setName_mem hm with ⟨rfl, rfl⟩ | hm
    · exact hp k' v x (by simp) hc
    · exact hi k' x hm

theorem fdDefaults_every {E : Env} {conv : PStr → Val → Res Val} {c : FDictId} {P : PStr → Val → Prop} :
    ∀ {l items items' : Attrs},
    (∀ k v v', (k, v) ∈ l → conv k v = .ok v' → P k v') → (∀ k x, (k, x) ∈ items → P k x) →
    fdDefaults E conv c items l = .ok items' → ∀ k x, (k, x) ∈ items' → P k x
  | [], items, items', _, hi, h => by unfold fdDefaults at h; cases h; exact hi
  | (k, v) :: rest, items, items', hp, hi, h => by
    unfold fdDefaults at h
    split at h
    · exact fdDefaults_every (fun k v v' hm => hp k v v' (by simp [hm])) hi h
    split at h
    · cases h
    rename_i i1 h1
    obtain ⟨k', v', e, hc, _, _, rfl⟩ := fdSetV_ok h1
    cases e
    refine fdDefaults_every (fun k v v' hm => hp k v v' (by simp [hm])) ?_ h
    intro k' x hm
    rcases setName_mem hm with ⟨rfl, rfl⟩ | hm
    · exact hp k' v x (by simp) hc
    · exact hi k' x hm

theorem fdBuild_every {E : Env} {conv : PStr → Val → Res Val} {c : FDictId} {P : PStr → Val → Prop}
    {pairs : List (Val × Val)} {w : Val}
    (hp : ∀ k v v', (.str k, v) ∈ pairs → conv k v = .ok v' → P k v')
    (hd : ∀ k v v', (k, v) ∈ c.items → conv k v = .ok v' → P k v')
    (h : fdBuild E conv c pairs = .ok w) :
    ∃ items, w = .fdict c items ∧ DeclaredKeys c items ∧
      ∀ k x, (k, x) ∈ items → itemOk E c k x ∧ P k x := by
  obtain ⟨items, rfl, hi, hfull, _⟩ := fdBuild_ok h
  refine ⟨items, rfl, ⟨hi.nodup, fun k => ⟨hi.known k, hfull k⟩⟩, fun k x hm =>
    ⟨(itemOk_iff E c k x).mp (hi.valid k x hm), ?_⟩⟩
  unfold fdBuild at h
  split at h
  · cases h
  rename_i i1 h1
  split at h
  · cases h
  rename_i i2 h2
  cases h
  exact fdDefaults_every hd (fdSetAll_every hp (by simp) h1) h2 k x hm

theorem items_data (c : FDictId) (h : c ≠ .fileInfo) : ∀ k v, (k, v) ∈ c.items → Data v := by
  cases c <;> first
    | exact absurd rfl h
    | (intro k v hm
       simp only [FDictId.items, List.mem_cons, List.not_mem_nil, or_false, Prod.mk.injEq] at hm
       rcases hm with ⟨_, rfl⟩ | ⟨_, rfl⟩ | ⟨_, rfl⟩ | ⟨_, rfl⟩ | ⟨_, rfl⟩ | ⟨_, rfl⟩ | ⟨_, rfl⟩ <;> rfl)
    | (intro k v hm
       simp only [FDictId.items, List.mem_cons, List.not_mem_nil, or_false, Prod.mk.injEq] at hm
       rcases hm with ⟨_, rfl⟩ | ⟨_, rfl⟩ | ⟨_, rfl⟩ | ⟨_, rfl⟩ <;> rfl)
    | (intro k v hm
       simp only [FDictId.items, List.mem_cons, List.not_mem_nil, or_false, Prod.mk.injEq] at hm
       rcases hm with ⟨_, rfl⟩ | ⟨_, rfl⟩ | ⟨_, rfl⟩ <;> rfl)

/-- Frozen dictionaries of data built without conversion. -/
theorem fdBuild_data {E : Env} {c : FDictId} {pairs : List (Val × Val)} {w : Val} (hc : c ≠ .fileInfo)
    (hp : ∀ k v, (.str k, v) ∈ pairs → Data v) (h : fdBuild E noConv c pairs = .ok w) :
    DictOk E c w :=
  fdBuild_every (P := fun _ x => Data x)
    (fun k v v' hm e => by unfold noConv at e; cases e; exact hp k v hm)
    (fun k v v' hm e => by unfold noConv at e; cases e; exact items_data c hc k v hm) h

theorem asDict_data {v : Val} {d : List (Val × Val)} (h : Data v) (hd : v.asDict = some d) :
    DictData d := by
  cases v <;> simp only [Val.asDict] at hd <;> cases hd
  · exact dictData_iff.mp h
  · simp [Data, data] at h

theorem fdArg_data {v : Val} {ps : List (Val × Val)} (h : Data v) (hp : fdArg v = .ok ps) :
    ∀ k x, (k, x) ∈ ps → Data x := by
  unfold fdArg at hp
  split at hp
  · rename_i d hd; cases hp; exact (asDict_data h hd).vals
  · split at hp
    · cases hp
    · rename_i l hl
      exact fun k x hm => (pairsOf_data (iter_data h hl) hp k x hm).2

theorem mkFDict_data {E : Env} {c : FDictId} {v w : Val} (hc : c ≠ .fileInfo) (hp : c ≠ .peer)
    (hv : Data v) (h : mkFDict E c v = .ok w) : DictOk E c w := by
  unfold mkFDict at h
  split at h
  · cases h
  rename_i ps hps
  have : fdConv E c = noConv := by cases c <;> first | rfl | exact absurd rfl hp
  rw [this] at h
  exact fdBuild_data hc (fun k v hm => fdArg_data hv hps _ v hm) h

theorem kwargs_data {v : Val} {kw : Attrs} (hv : Data v) (h : kwargsOf v = .ok kw) :
    ∀ k x, (k, x) ∈ kw → Data x := by
  unfold kwargsOf at h
  split at h
  · cases h
  rename_i d hd
  split at h
  · cases h
  rename_i kw' hk
  split at h
  · cases h
  cases h
  have := textKeys_ok hk
  subst this
  intro k x hm
  exact (asDict_data hv hd).vals (.str k) x (List.mem_map.mpr ⟨(k, x), hm, rfl⟩)

theorem fdCall_data {E : Env} {c : FDictId} {v w : Val} (hc : c ≠ .fileInfo)
    (hv : Data v) (h : fdCall E c v = .ok w) : DictOk E c w := by
  unfold fdCall at h
  split at h
  · cases h
  rename_i kw hkw
  refine fdBuild_data hc (fun k v hm => ?_) h
  obtain ⟨p, hp, e⟩ := List.mem_map.mp hm
  cases e
  exact kwargs_data hv hkw _ _ hp

/-! ### Containers -/

/-- The fields of a container: a field that was given comes out of its deserialiser. -/
theorem contCall_fields {E : Env} {hook : PStr → Val → Res Val} {c : ContId} {v w : Val}
    {Q P : PStr → Val → Prop}
    (hv : ∀ kw : Attrs, v.asDict = some (kw.map fun p => (.str p.1, p.2)) → ∀ k x, (k, x) ∈ kw → Q k x)
    (h : contCall E hook c v = .ok w)
    (hdef : ∀ k vs, (k, vs) ∈ c.slots → k ∉ c.required →
      (c.default k = .none ∨ P k (c.default k)))
    (hP : ∀ k vs y x, (k, vs) ∈ c.slots → Q k y → ¬(y = .none ∧ k ∉ c.required) →
      (∀ r ∈ vs, r.accepts E y = true) → hook k y = .ok x → (x = .none ∧ k ∉ c.required) ∨ P k x) :
    Fields c P w := by
  obtain ⟨kw, fs, hd, _, rfl, hn, _, hf⟩ := contCall_ok h
  have hkwd := hv kw hd
  refine ⟨fs, rfl, hn, fun k x hm => ?_⟩
  have hk : k ∈ c.slots.map Prod.fst := by rw [← hn]; exact List.mem_map.mpr ⟨_, hm, rfl⟩
  obtain ⟨⟨k', vs⟩, hs, e⟩ := List.mem_map.mp hk
  simp only at e
  subst e
  obtain ⟨x', hx', hf'⟩ := hf k' vs hs
  have hnd : (fs.map Prod.fst).Nodup := by rw [hn]; exact slots_nodup c
  have hxx : x' = x := (getAttr_of_mem hnd hx').symm.trans (getAttr_of_mem hnd hm)
  subst hxx
  unfold contField at hf'
  split at hf'
  · split at hf'
    · cases hf'
    · rename_i hr
      injection hf' with hf'
      subst hf'
      rcases hdef k' vs hs hr with e | e
      · exact Or.inl ⟨e, hr⟩
      · exact Or.inr e
  · rename_i y hy
    have hyd := hkwd k' y (mem_of_lookupName hy)
    unfold contDeser at hf'
    split at hf'
    · rename_i h0
      injection hf' with hf'
      subst hf'
      exact Or.inl h0
    · rename_i h0
      split at hf'
      · cases hf'
      · rename_i hu
        rw [runAll_ok] at hu
        exact hP k' vs y x' hs hyd h0 hu hf'

/-- The fields of a container built from data. -/
theorem contCall_data {E : Env} {hook : PStr → Val → Res Val} {c : ContId} {v w : Val}
    {P : PStr → Val → Prop} (hv : Data v) (h : contCall E hook c v = .ok w)
    (hdef : ∀ k vs, (k, vs) ∈ c.slots → k ∉ c.required →
      (c.default k = .none ∨ P k (c.default k)))
    (hP : ∀ k vs y x, (k, vs) ∈ c.slots → Data y → ¬(y = .none ∧ k ∉ c.required) →
      (∀ r ∈ vs, r.accepts E y = true) → hook k y = .ok x → (x = .none ∧ k ∉ c.required) ∨ P k x) :
    Fields c P w :=
  contCall_fields (Q := fun _ y => Data y) (fun _ hd k x hm =>
    (asDict_data hv hd).vals (.str k) x (List.mem_map.mpr ⟨(k, x), hm, rfl⟩)) h hdef hP

theorem simple_default {c : ContId} (hc : c = .node ∨ c = .blockIoStats ∨ c = .memoryStats ∨ c = .pidStats)
    (E : Env) (k : PStr) (vs : List Validator) (hs : (k, vs) ∈ c.slots) :
    c.default k = .none ∨ DataField E c k (c.default k) := by
  rcases hc with rfl | rfl | rfl | rfl
  · simp only [ContId.default]
    have hnil : ∀ n, n ∈ [p!"prv_addresses", p!"port_statuses", p!"nat_type"] →
        ∀ vs, (n, vs) ∈ ContId.slots .node → vs = [] := by
      intro n hn vs hm
      simp only [ContId.slots, List.mem_cons, Prod.mk.injEq, List.mem_nil_iff, or_false] at hm hn
      rcases hn with rfl | rfl | rfl <;> simpa using hm
    split
    · rename_i e; subst e
      exact Or.inr ⟨rfl, fun vs' hm w hw => by rw [hnil _ (by simp) vs' hm] at hw; cases hw⟩
    split
    · rename_i e; subst e
      exact Or.inr ⟨rfl, fun vs' hm w hw => by rw [hnil _ (by simp) vs' hm] at hw; cases hw⟩
    split
    · rename_i e; subst e
      exact Or.inr ⟨rfl, fun vs' hm w hw => by rw [hnil _ (by simp) vs' hm] at hw; cases hw⟩
    · exact Or.inl rfl
  all_goals exact Or.inl rfl

theorem slots_unique {c : ContId} {k : PStr} {vs vs' : List Validator} (h : (k, vs) ∈ c.slots)
    (h' : (k, vs') ∈ c.slots) : vs = vs' := by
  have hn := slots_nodup c
  have e1 := lookupName_of_mem hn h
  have e2 := lookupName_of_mem hn h'
  rw [e1] at e2
  injection e2

theorem data_field {E : Env} {c : ContId} {k : PStr} {vs : List Validator} {y : Val}
    (hs : (k, vs) ∈ c.slots) (hy : Data y) (ha : ∀ r ∈ vs, r.accepts E y = true) :
    DataField E c k y :=
  ⟨hy, fun vs' hs' w hw => ha w (by rw [slots_unique hs hs']; exact hw)⟩

theorem leaf_data {E : Env} {c : ContId} {v w : Val}
    (hc : c = .node ∨ c = .blockIoStats ∨ c = .memoryStats ∨ c = .pidStats)
    (hv : Data v) (h : leafCall E c v = .ok w) : SimpleOk E c w := by
  refine contCall_data hv h (fun k vs hs _ => simple_default hc E k vs hs) ?_
  intro k vs y x hs hy _ ha hx
  have : leafHook E c k y = .ok y := by rcases hc with rfl | rfl | rfl | rfl <;> rfl
  rw [this] at hx
  cases hx
  exact Or.inr (data_field hs hy ha)

theorem cpu_data {E : Env} {v w : Val} (hv : Data v) (h : leafCall E .cpuStats v = .ok w) :
    CpuOk E w := by
  refine contCall_data hv h (fun k vs hs _ => Or.inl rfl) ?_
  intro k vs y x hs hy _ ha hx
  have hr : k ∉ ContId.required .cpuStats := by simp [ContId.required]
  unfold leafHook at hx
  simp only at hx
  split at hx
  · rename_i e; subst e
    split at hx
    · exact Or.inr (Or.inl ⟨rfl, fdCall_data (by decide) hy hx⟩)
    · cases hx; exact Or.inl ⟨rfl, hr⟩
  split at hx
  · rename_i e; subst e
    split at hx
    · exact Or.inr (Or.inr ⟨rfl, fdCall_data (by decide) hy hx⟩)
    · cases hx; exact Or.inl ⟨rfl, hr⟩
  · rename_i h1 h2
    simp only [ContId.slots, List.mem_cons, Prod.mk.injEq, List.mem_nil_iff, or_false] at hs
    rcases hs with ⟨e, _⟩ | ⟨e, _⟩
    · exact absurd e h1
    · exact absurd e h2

theorem stats_data {E : Env} {v w : Val} (hv : Data v) (h : mkCont E .providerStats v = .ok w) :
    StatsOk E w := by
  refine contCall_data hv h (fun k vs hs _ => Or.inl rfl) ?_
  intro k vs y x hs hy _ ha hx
  have hr : k ∉ ContId.required .providerStats := by simp [ContId.required]
  simp only [ContId.slots, List.mem_cons, Prod.mk.injEq, List.mem_nil_iff, or_false] at hs
  simp only [contHook] at hx
  rcases hs with ⟨rfl, _⟩ | ⟨rfl, _⟩ | ⟨rfl, _⟩ | ⟨rfl, _⟩
  · rw [show statsClass p!"blkio_stats" = some .blockIoStats from rfl] at hx
    simp only at hx
    split at hx
    · exact Or.inr (Or.inl ⟨rfl, leaf_data (by simp) hy hx⟩)
    · cases hx; exact Or.inl ⟨rfl, hr⟩
  · rw [show statsClass p!"cpu_stats" = some .cpuStats from rfl] at hx
    simp only at hx
    split at hx
    · exact Or.inr (Or.inr (Or.inl ⟨rfl, cpu_data hy hx⟩))
    · cases hx; exact Or.inl ⟨rfl, hr⟩
  · rw [show statsClass p!"memory_stats" = some .memoryStats from rfl] at hx
    simp only at hx
    split at hx
    · exact Or.inr (Or.inr (Or.inr (Or.inl ⟨rfl, leaf_data (by simp) hy hx⟩)))
    · cases hx; exact Or.inl ⟨rfl, hr⟩
  · rw [show statsClass p!"pids_stats" = some .pidStats from rfl] at hx
    simp only at hx
    split at hx
    · exact Or.inr (Or.inr (Or.inr (Or.inr ⟨rfl, leaf_data (by simp) hy hx⟩)))
    · cases hx; exact Or.inl ⟨rfl, hr⟩

theorem header_fields {E : Env} {v w : Val}
    (hv : ∀ kw : Attrs, v.asDict = some (kw.map fun p => (.str p.1, p.2)) →
      ∀ k x, (k, x) ∈ kw → k ≠ p!"market_type" → Data x)
    (h : mkCont E .taskHeader v = .ok w) : HeaderOk E w := by
  refine contCall_fields (Q := fun k x => k ≠ p!"market_type" → Data x) hv h (fun k vs hs _ => Or.inl rfl) ?_
  intro k vs y x hs hy _ ha hx
  right
  simp only [contHook] at hx
  by_cases k1 : k = p!"task_owner"
  · rw [if_pos k1] at hx
    subst k1
    rw [if_neg (by decide), if_neg (by decide), if_pos rfl]
    have hy := hy (by decide)
    split at hx
    · simp [Data, data] at hy
    · exact leaf_data (by simp) hy hx
  rw [if_neg k1] at hx
  by_cases k2 : k = p!"mask"
  · rw [if_pos k2] at hx ⊢
    subst k2
    have hvs : vs = [.isBytes] := by
      simp only [ContId.slots, List.mem_cons, Prod.mk.injEq, List.mem_nil_iff, or_false] at hs
      simpa using hs
    subst hvs
    have := ha .isBytes (by simp)
    cases y <;> simp only [Validator.accepts, Bool.false_eq_true] at this
    cases hx
    exact ⟨_, rfl⟩
  rw [if_neg k2] at hx ⊢
  by_cases k3 : k = p!"market_type"
  · rw [if_pos k3] at hx ⊢
    split at hx
    · rename_i m hm
      cases hx
      exact enum_lookup_ok hm
    · cases hx
  rw [if_neg k3] at hx ⊢
  rw [if_neg k1]
  cases hx
  exact data_field hs (hy k3) ha

theorem header_data {E : Env} {v w : Val} (hv : Data v) (h : mkCont E .taskHeader v = .ok w) :
    HeaderOk E w :=
  header_fields (fun _ hd k x hm _ =>
    (asDict_data hv hd).vals (.str k) x (List.mem_map.mpr ⟨(k, x), hm, rfl⟩)) h

/-! ### Peers and files -/

theorem peer_data {E : Env} {v w : Val} (hv : Data v) (h : mkFDict E .peer v = .ok w) : PeerOk E w := by
  unfold mkFDict at h
  split at h
  · cases h
  rename_i ps hps
  have conv : ∀ k v v', Data v → fdConv E .peer k v = .ok v' →
      Data v' ∨ (k = p!"node" ∧ SimpleOk E .node v') := by
    intro k v v' hd e
    simp only [fdConv, peerConv] at e
    split at e
    · rename_i hk; exact Or.inr ⟨hk.1, leaf_data (by simp) hd e⟩
    · cases e; exact Or.inl hd
  obtain ⟨items, rfl, hd, hi⟩ := fdBuild_every
    (P := fun k x => Data x ∨ (k = p!"node" ∧ SimpleOk E .node x))
    (fun k v v' hm e => conv k v v' (fdArg_data hv hps _ v hm) e)
    (fun k v v' hm e => conv k v v' (items_data .peer (by decide) k v hm) e) h
  refine ⟨items, rfl, hd, fun k x hm => ?_⟩
  obtain ⟨h1, h2⟩ := hi k x hm
  refine ⟨h1, ?_⟩
  split
  · rename_i hk
    rcases h2 with h2 | h2
    · obtain ⟨fs, rfl⟩ := h1.2.2 hk
      simp [Data, data] at h2
    · exact h2.2
  · rename_i hk
    rcases h2 with h2 | h2
    · exact h2
    · exact absurd h2.1 hk

theorem file_data {E : Env} {v w : Val} (hv : Data v) (h : deserFileInfo E v = .ok w) : FileOk E w := by
  have fin : ∀ ps : List (Val × Val), (∀ k x, (.str k, x) ∈ ps → k ≠ p!"category" → Data x) →
      mkFDict E .fileInfo (.dict ps) = .ok w → FileOk E w := by
    intro ps hp h
    unfold mkFDict fdArg Val.asDict at h
    simp only [fdConv] at h
    obtain ⟨items, rfl, hd, hi⟩ := fdBuild_every (P := fun k x => k ≠ p!"category" → Data x)
      (fun k v v' hm e => by unfold noConv at e; cases e; exact hp k v hm)
      (fun k v v' hm e => by
        unfold noConv at e; cases e
        simp only [FDictId.items, List.mem_cons, List.not_mem_nil, or_false, Prod.mk.injEq] at hm
        rcases hm with ⟨rfl, rfl⟩ | ⟨rfl, rfl⟩ | ⟨rfl, rfl⟩ | ⟨rfl, rfl⟩
        · exact fun _ => rfl
        · exact fun _ => rfl
        · exact fun _ => rfl
        · exact fun h => absurd rfl h) h
    exact ⟨items, rfl, hd, hi⟩
  unfold deserFileInfo at h
  split at h
  · rename_i d
    have hd := dictData_iff.mp hv
    dsimp only at h
    split at h
    · refine fin _ ?_ h
      intro k x hm hk
      rcases dictSet_mem hm with ⟨e, _⟩ | ⟨_, e, _⟩ | hm
      · cases e; exact absurd rfl hk
      · rw [keyEq_str] at e; cases e; exact absurd rfl hk
      · exact hd.vals _ _ hm
    · exact fin _ (fun k x hm _ => hd.vals _ _ hm) h
  · simp [Data, data] at hv
  · cases h

end Verif
