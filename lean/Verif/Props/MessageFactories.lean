import Verif.Lemmas.MessageFactories
import Verif.Props.PastDeadline
/-!
# C90, C91: arguments and keys given to factories
-/

set_option linter.unusedSimpArgs false

namespace Verif.Props

open Verif Spec

/-! ### Arguments -/

theorem lookup_extra {r : List PStr} {n : PStr} (hn : ∀ x ∈ r, n ≠ x ∧ (x ++ p!"__").isPrefixOf n = false) :
    ∀ kw : Attrs, lookupName n (extraArgs r kw) = lookupName n kw
  | [] => rfl
  | (k, v) :: rest => by
    have ih := lookup_extra hn rest
    unfold extraArgs at ih ⊢
    by_cases hk : k = n
    · subst hk
      rw [List.filter_cons_of_pos, lookupName_cons, lookupName_cons]
      · simp
      · simp only [List.all_eq_true, Bool.and_eq_true, bne_iff_ne, ne_eq, Bool.not_eq_true']
        exact fun x hx => ⟨(hn x hx).1, (hn x hx).2⟩
    · rw [lookupName_cons, if_neg hk, ← ih]
      by_cases hp : (r.all fun x => (k, v).1 != x && !(x ++ p!"__").isPrefixOf (k, v).1) = true
      · rw [List.filter_cons_of_pos (by exact hp), lookupName_cons, if_neg hk]
      · rw [List.filter_cons_of_neg (by exact hp)]

theorem extra_root {r : List PStr} {n : PStr} (hn : n ∈ r) (kw : Attrs) :
    lookupName n (extraArgs r kw) = none := by
  rw [lookupName_none]
  intro hm
  obtain ⟨kv, hkv, rfl⟩ := List.mem_map.mp hm
  unfold extraArgs at hkv
  have := (List.mem_filter.mp hkv).2
  simp only [List.all_eq_true, Bool.and_eq_true, bne_iff_ne, ne_eq, Bool.not_eq_true'] at this
  exact (this _ hn).1 rfl

theorem lookup_filter_none {p : PStr × Val → Bool} : ∀ {l : Attrs} {k : PStr},
    (∀ v, p (k, v) = false) → lookupName k (l.filter p) = none
  | [], _, _ => rfl
  | (a, v) :: rest, k, h => by
    by_cases hp : p (a, v) = true
    · rw [List.filter_cons_of_pos hp, lookupName_cons, if_neg, lookup_filter_none h]
      rintro rfl
      rw [h v] at hp
      cases hp
    · rw [List.filter_cons_of_neg hp, lookup_filter_none h]

theorem lookup_filter_key {p : PStr → Bool} : ∀ {l : Attrs} {k : PStr}, p k = true →
    lookupName k (l.filter fun kv => p kv.1) = lookupName k l
  | [], _, _ => rfl
  | (a, v) :: rest, k, h => by
    by_cases hp : p a = true
    · rw [List.filter_cons_of_pos (by exact hp), lookupName_cons, lookupName_cons, lookup_filter_key h]
    · rw [List.filter_cons_of_neg (by exact hp), lookupName_cons, if_neg, lookup_filter_key h]
      rintro rfl
      exact hp h

/-- Given arguments win over those declared with a sub-factory. -/
theorem lookup_merge (a kw : Attrs) (k : PStr) :
    lookupName k (mergeArgs a kw) = match lookupName k kw with
      | some v => some v
      | none => lookupName k a := by
  unfold mergeArgs
  rw [lookupName_append]
  cases hk : lookupName k kw with
  | some v =>
    rw [lookup_filter_none (fun v => by simp [hk])]
  | none =>
    rw [lookup_filter_key (p := fun x => (lookupName x kw).isNone) (by simp [hk])]
    cases lookupName k a <;> rfl

theorem merge_nodup {a kw : Attrs} (ha : (a.map Prod.fst).Nodup) (hk : (kw.map Prod.fst).Nodup) :
    ((mergeArgs a kw).map Prod.fst).Nodup := by
  unfold mergeArgs
  rw [List.map_append, List.nodup_append]
  refine ⟨List.Nodup.sublist (List.Sublist.map _ List.filter_sublist) ha, hk, ?_⟩
  rintro x hx y hy rfl
  obtain ⟨kv, hkv, rfl⟩ := List.mem_map.mp hx
  have := (List.mem_filter.mp hkv).2
  rw [Option.isNone_iff_eq_none, lookupName_none] at this
  exact this hy

/-! ### The tables -/

private def tableOk (c : Cls) : Bool :=
  match c.factory with
  | none => true
  | some f =>
    decide (f.decls.map Prod.fst).Nodup &&
    (c == .FileTransferToken || decide (f.hooks.map fun nh => nh.2.target nh.1).Nodup) &&
    f.decls.all (fun nd => decide (nd.2.preset.map Prod.fst).Nodup &&
      (nd.2.preset.all fun kv => kv.1 == p!"upload" || kv.1 == p!"download")) &&
    (c.msgSlots.all fun fs => f.decls.all fun nd => nd.1 != fs.1 || decide (nd.2.makes = some fs.2.cls)) &&
    c.payload.all (fun n => (f.decls.map Prod.fst).contains n || (f.hooks.map Prod.fst).contains n ||
      f.roots.all fun r => n != r && !(r ++ p!"__").isPrefixOf n) &&
    c.msgSlots.all (fun fs => c.payload.contains fs.1 && fs.1 != p!"files" &&
      (special.contains (c, fs.1) || (f.decls.map Prod.fst).contains fs.1 ||
        f.hooks.any fun nh => nh.1 == fs.1 && decide (nh.2.makes = some fs.2.cls))) &&
    f.hooks.all (fun nh => !(f.decls.map Prod.fst).contains nh.1) &&
    f.hooks.all (fun nh => !(c.payload.contains nh.1) || special.contains (c, nh.1) ||
      (nh.2.makes.isSome && (c == .RejectReportComputedTask || c == .ForceReportComputedTaskResponse))) &&
    f.hooks.all (fun nh => special.contains (c, nh.2.target nh.1) || nh.2.target nh.1 == nh.1) &&
    f.decls.all (fun nd => c.payload.contains nd.1)

private theorem tables_ok : ∀ c ∈ Cls.all, tableOk c = true := by decide +kernel

theorem every_cls (c : Cls) : c ∈ Cls.all := by cases c <;> decide

/-- What the tables have in common. -/
structure FactoryTable (c : Cls) (f : MsgFactory) : Prop where
  once : (f.decls.map Prod.fst).Nodup
  targets : c = .FileTransferToken ∨ (f.hooks.map fun nh => nh.2.target nh.1).Nodup
  preset : ∀ n dcl, (n, dcl) ∈ f.decls → (dcl.preset.map Prod.fst).Nodup ∧
    ∀ k, k ≠ p!"upload" → k ≠ p!"download" → lookupName k dcl.preset = none
  message : ∀ n sd dcl, (n, sd) ∈ c.msgSlots → (n, dcl) ∈ f.decls → dcl.makes = some sd.cls
  field : ∀ n ∈ c.payload, n ∈ f.decls.map Prod.fst ∨ n ∈ f.hooks.map Prod.fst ∨
    ∀ r ∈ f.roots, n ≠ r ∧ (r ++ p!"__").isPrefixOf n = false
  slot : ∀ n sd, (n, sd) ∈ c.msgSlots → n ∈ c.payload ∧ n ≠ p!"files" ∧ ((c, n) ∉ special →
    n ∈ f.decls.map Prod.fst ∨ ∃ hook, (n, hook) ∈ f.hooks ∧ hook.makes = some sd.cls)
  apart : ∀ n hook, (n, hook) ∈ f.hooks → n ∉ f.decls.map Prod.fst
  made : ∀ n hook, (n, hook) ∈ f.hooks → n ∈ c.payload → (c, n) ∉ special →
    hook.makes.isSome ∧ (c = .RejectReportComputedTask ∨ c = .ForceReportComputedTaskResponse)
  target : ∀ n hook, (n, hook) ∈ f.hooks → (c, hook.target n) ∈ special ∨ hook.target n = n
  declared : ∀ n dcl, (n, dcl) ∈ f.decls → n ∈ c.payload

theorem factory_table {c : Cls} {f : MsgFactory} (hf : c.factory = some f) : FactoryTable c f := by
  have h := tables_ok c (every_cls c)
  unfold tableOk at h
  rw [hf] at h
  simp only [Bool.and_eq_true, List.all_eq_true, Bool.or_eq_true, decide_eq_true_eq, List.contains_iff_mem,
    bne_iff_ne, ne_eq, beq_iff_eq, Bool.not_eq_true', List.any_eq_true] at h
  obtain ⟨⟨⟨⟨⟨⟨⟨⟨⟨h1, h2⟩, h3⟩, h4⟩, h5⟩, h6⟩, h7⟩, h8⟩, h9⟩, h10⟩ := h
  refine ⟨h1, h2, fun n dcl hm => ⟨(h3 _ hm).1, fun k hu hd => ?_⟩, fun n sd dcl hs hm => ?_, ?_, fun n sd hs => ?_,
    fun n hook hm => ?_, fun n hook hm hp hs => ?_, fun n hook hm => h9 _ hm, fun n dcl hm => h10 _ hm⟩
  · rw [lookupName_none]
    intro hk
    obtain ⟨kv, hkv, rfl⟩ := List.mem_map.mp hk
    rcases (h3 _ hm).2 kv hkv with e | e
    · exact hu e
    · exact hd e
  · rcases h4 _ hs _ hm with e | e
    · exact absurd rfl e
    · exact e
  · intro n hn
    rcases h5 n hn with (e | e) | e
    · exact Or.inl e
    · exact Or.inr (Or.inl e)
    · exact Or.inr (Or.inr e)
  · obtain ⟨⟨a, b⟩, e⟩ := h6 _ hs
    refine ⟨a, b, fun hsp => ?_⟩
    rcases e with (e | e) | ⟨nh, hnh, e1, e2⟩
    · exact absurd e hsp
    · exact Or.inl e
    · obtain ⟨x, y⟩ := nh
      simp only at e1
      subst e1
      exact Or.inr ⟨y, hnh, e2⟩
  · have := h7 _ hm
    simpa using this
  · rcases h8 _ hm with (e | e) | e
    · have : List.contains c.payload n = true := List.contains_iff_mem.mpr hp
      rw [this] at e
      cases e
    · exact absurd e hs
    · exact e

/-! ### Fields of a made message -/

theorem from_blank {E : Env} {G : Getter} {now : Int} {c : Cls} {kw : Attrs} {m : Msg}
    (h : newMessage E G now c none .none .none false kw = .ok m) (hnd : (kw.map Prod.fst).Nodup) :
    m.cls = c ∧ m.ty = .int c.typeId ∧ m.ts = .int now ∧ m.enc = .bool false ∧ m.sig = .none ∧
    ∀ n ∈ c.payload, getAttr m.attrs n = defaulted c n (getAttr kw n) := by
  obtain ⟨_, _, _, _, hc, hs, hh, _⟩ := new_ok h
  simp only [Option.getD_none, Prod.mk.injEq] at hh
  obtain ⟨loaded, hl, hf⟩ := new_fields h hnd
  have hd : dictOf .none = [] := rfl
  rw [hd, loadSlots_empty] at hl
  injection hl with hl
  refine ⟨hc, hh.1, hh.2.1, hh.2.2, hs, fun n hn => ?_⟩
  rw [hf n hn, if_pos]
  right
  rw [← hl]
  exact getAttr_blank _ _

theorem getAttr_found {n : PStr} {v : Val} {as : Attrs} (h : lookupName n as = some v) :
    getAttr as n = v := by
  unfold getAttr
  rw [h]

private theorem getAttr_lost {n : PStr} {as : Attrs} (h : lookupName n as = none) :
    getAttr as n = .none := by
  unfold getAttr
  rw [h]

theorem defaulted_slot {c : Cls} {n : PStr} {sd : SlotDef} (h : (n, sd) ∈ c.msgSlots) (v : Val) :
    defaulted c n v = v := by
  have key : ∀ c ∈ Cls.all, ∀ fs ∈ c.msgSlots, fs.1 ∉ [p!"peers", p!"tasks", p!"resource_peers", p!"gossip",
    p!"concent_enabled", p!"num_subtasks", p!"reason"] := by decide
  have := key c (every_cls c) _ h
  simp only [List.mem_cons, List.not_mem_nil, or_false, not_or] at this
  simp [defaulted, this]

/-- The parts of a made message: what the constructor gets, and what hooks leave of it. -/
theorem made_parts {E : Env} {G : Getter} {keccak : Bytes → Bytes} {d : Draws} {k : Nat}
    {path : List PStr} {c : Cls} {files : Option (List Attrs)} {kw : Attrs} {m : Msg}
    (h1 : c ≠ .TaskToCompute) (h2 : c ≠ .WantToComputeTask) (hk : (kw.map Prod.fst).Nodup)
    (h : makeAt E G keccak d (k + 1) path c files kw = .ok m) :
    ∃ f fields m1, c.factory = some f ∧ FactoryTable c f ∧
      declared E d (makeAt E G keccak d k) path kw (withFiles files f.decls) = .ok fields ∧
      runHooks E G d (makeAt E G keccak d k) path kw f.hooks m1 = .ok m ∧
      m1.cls = c ∧ m1.ty = .int c.typeId ∧ m1.enc = .bool false ∧
      (∀ n ∈ c.payload, getAttr m1.attrs n = defaulted c n (getAttr (fields ++ extraArgs f.roots kw) n)) ∧
      ((signArg kw = .ok none ∧ m1.sig = .none) ∨
        ∃ priv m0, signArg kw = .ok (some priv) ∧ Msg.signMessage E m0 priv = .ok m1) := by
  obtain ⟨f, fields, m0, m1, hf, hfields, hm0, hm1, hrun⟩ := makeAt_ok h1 h2 h
  have T := factory_table hf
  have hn := declared_names hfields
  rw [withFiles_names] at hn
  have hnd : ((fields ++ extraArgs f.roots kw).map Prod.fst).Nodup := by
    refine given_nodup (fun x hx => ?_) (by rw [hn]; exact T.once) hk
    rw [hn] at hx
    unfold MsgFactory.roots
    exact List.mem_append_left _ hx
  obtain ⟨a1, a2, a3, a4, a5, a6⟩ := from_blank hm0 hnd
  obtain ⟨b1, b2, b3, b4, b5⟩ := signHook_same hm1
  refine ⟨f, fields, m1, hf, T, hfields, hrun, b1.trans a1, b2.trans a2, b4.trans a4, ?_, ?_⟩
  · intro n hn
    rw [b5, a6 n hn]
  · rcases signHook_cases hm1 with ⟨e1, rfl⟩ | ⟨priv, e1, e2⟩
    · exact Or.inl ⟨e1, a5⟩
    · exact Or.inr ⟨priv, m0, e1, e2⟩

private theorem below_none {n : PStr} {kw : Attrs} (h : ∀ k, lookupName (n ++ p!"__" ++ k) kw = none) :
    subArgs n kw = [] := by
  cases hs : subArgs n kw with
  | nil => rfl
  | cons a rest =>
    have := h a.1
    rw [← lookup_sub, hs, lookupName_cons] at this
    simp at this

/-- A field given by name has that value. -/
private theorem made_leaf {E : Env} {G : Getter} {keccak : Bytes → Bytes} {d : Draws} {k : Nat}
    {path : List PStr} {c : Cls} {files : Option (List Attrs)} {kw : Attrs} {m : Msg} {n : PStr} {v : Val}
    (h1 : c ≠ .TaskToCompute) (h2 : c ≠ .WantToComputeTask) (hk : (kw.map Prod.fst).Nodup)
    (h : makeAt E G keccak d (k + 1) path c files kw = .ok m) (hn : n ∈ c.payload) (hs : (c, n) ∉ special)
    (hv : lookupName n kw = some v) (hb : ∀ k, lookupName (n ++ p!"__" ++ k) kw = none) :
    m.cls = c ∧ getAttr m.attrs n = defaulted c n v := by
  obtain ⟨f, fields, m1, hf, T, hfields, hrun, e1, _, _, hget, _⟩ := made_parts h1 h2 hk h
  obtain ⟨c1, _, _, _, _, c6⟩ := hooks_keep hrun
  refine ⟨c1.trans e1, ?_⟩
  by_cases hh : n ∈ f.hooks.map Prod.fst
  · obtain ⟨⟨n', hook⟩, hm, rfl⟩ := List.mem_map.mp hh
    obtain ⟨hsome, hcls⟩ := T.made _ _ hm hn hs
    have htn : (f.hooks.map fun nh => nh.2.target nh.1).Nodup := by
      rcases T.targets with e | e
      · rcases hcls with e' | e' <;> rw [e] at e' <;> cases e'
      · exact e
    cases hook with
    | optional c' =>
      obtain ⟨a, b, hab, _, hmb⟩ := hooks_at hrun hm htn
      have ht : (Hook.optional c').target n' = n' := rfl
      rw [ht] at hmb
      simp only
      rw [hmb]
      have hsub : subArgs n' kw = [] := below_none hb
      unfold Hook.run at hab
      dsimp only at hab
      rw [hsub] at hab
      have : ¬ ((List.filter (fun kv => kv.1 != p!"_generate") ([] : Attrs)) ≠ [] ∨
          (getAttr ([] : Attrs) p!"_generate").truthy = true) := by decide
      rw [if_neg this] at hab
      injection hab with hab
      subst hab
      rw [set_same, getAttr_found hv]
      rcases hcls with rfl | rfl <;> simp [defaulted]
    | _ => cases hsome
  · have hkeep : getAttr m.attrs n = getAttr m1.attrs n := by
      refine c6 n fun nh hnh e => ?_
      rcases T.target _ _ hnh with ht | ht
      · exact hs (e ▸ ht)
      · exact hh (List.mem_map.mpr ⟨nh, hnh, by rw [e, ht]⟩)
    rw [hkeep, hget n hn]
    congr 1
    have hnames := declared_names hfields
    rw [withFiles_names] at hnames
    refine getAttr_found ?_
    rw [lookupName_append]
    rcases T.field n hn with e | e | e
    · have : n ∈ (withFiles files f.decls).map Prod.fst := by rw [withFiles_names]; exact e
      obtain ⟨⟨n', dcl⟩, hm, rfl⟩ := List.mem_map.mp this
      obtain ⟨w, hw1, hw2⟩ := declared_get hfields (by rw [withFiles_names]; exact T.once) hm
      simp only at hv ⊢
      unfold given at hw2
      rw [hv] at hw2
      injection hw2 with hw2
      rw [hw1, hw2]
    · exact absurd e hh
    · have h3 : lookupName n fields = none := by
        rw [lookupName_none, hnames]
        intro hx
        exact (e n (List.mem_append_left _ hx)).1 rfl
      rw [h3, lookup_extra e, hv]

/-- A message field whose parts are given is made by the factory of its class with these parts. -/
private theorem made_step {E : Env} {G : Getter} {keccak : Bytes → Bytes} {d : Draws} {k : Nat}
    {path : List PStr} {c : Cls} {files : Option (List Attrs)} {kw : Attrs} {m : Msg} {n key : PStr}
    {sd : SlotDef} {v : Val}
    (h1 : c ≠ .TaskToCompute) (h2 : c ≠ .WantToComputeTask) (hk : (kw.map Prod.fst).Nodup)
    (h : makeAt E G keccak d (k + 1) path c files kw = .ok m) (hn : (n, sd) ∈ c.msgSlots)
    (hs : (c, n) ∉ special) (hv : lookupName n kw = none)
    (hkey : lookupName (n ++ p!"__" ++ key) kw = some v) (hg : key ≠ p!"_generate") :
    ∃ path' files' kw' x, makeAt E G keccak d k path' sd.cls files' kw' = .ok x ∧
      getAttr m.attrs n = x.val ∧ (kw'.map Prod.fst).Nodup ∧
      ∀ a, a ≠ p!"upload" → a ≠ p!"download" → a ≠ p!"_generate" →
        lookupName a kw' = lookupName (n ++ p!"__" ++ a) kw := by
  obtain ⟨f, fields, m1, hf, T, hfields, hrun, e1, _, _, hget, _⟩ := made_parts h1 h2 hk h
  obtain ⟨c1, _, _, _, _, c6⟩ := hooks_keep hrun
  obtain ⟨hp, hnf, hslot⟩ := T.slot n sd hn
  by_cases hd : n ∈ f.decls.map Prod.fst
  · have hh : n ∉ f.hooks.map Prod.fst := by
      intro hx
      obtain ⟨⟨n', hook⟩, hm, rfl⟩ := List.mem_map.mp hx
      exact T.apart _ _ hm hd
    have hkeep : getAttr m.attrs n = getAttr m1.attrs n := by
      refine c6 n fun nh hnh e => ?_
      rcases T.target _ _ hnh with ht | ht
      · exact hs (e ▸ ht)
      · exact hh (List.mem_map.mpr ⟨nh, hnh, by rw [e, ht]⟩)
    obtain ⟨⟨n', dcl⟩, hm, rfl⟩ := List.mem_map.mp hd
    simp only at *
    obtain ⟨w, hw1, hw2⟩ := declared_get hfields (by rw [withFiles_names]; exact T.once)
      (withFiles_mem hnf hm)
    unfold given at hw2
    rw [hv] at hw2
    simp only at hw2
    have hmk := T.message _ _ _ hn hm
    obtain ⟨hpn, hpk⟩ := T.preset _ _ hm
    cases dcl with
    | message c' args other =>
      simp only [Decl.makes, Option.some.injEq] at hmk
      subst hmk
      unfold Decl.value at hw2
      dsimp only at hw2
      cases hx : makeAt E G keccak d k (path ++ [n']) sd.cls other (mergeArgs args (subArgs n' kw)) with
      | error e => rw [hx] at hw2; cases hw2
      | ok x =>
        rw [hx] at hw2
        simp only [Except.map, Except.ok.injEq] at hw2
        refine ⟨_, _, _, x, hx, ?_, merge_nodup hpn (sub_nodup hk), fun a ha hb hc => ?_⟩
        · rw [hkeep, hget _ hp, defaulted_slot hn]
          refine getAttr_found ?_
          rw [lookupName_append, hw1, hw2]
        · rw [lookup_merge, lookup_sub, ]
          have := hpk a ha hb
          simp only [Decl.preset] at this
          rw [this]
          cases lookupName (n' ++ p!"__" ++ a) kw <;> rfl
    | _ => cases hmk
  · rcases hslot hs with e | ⟨hook, hm, hmk⟩
    · exact absurd e hd
    obtain ⟨_, hcls⟩ := T.made _ _ hm hp hs
    have htn : (f.hooks.map fun nh => nh.2.target nh.1).Nodup := by
      rcases T.targets with e | e
      · rcases hcls with e' | e' <;> rw [e] at e' <;> cases e'
      · exact e
    cases hook with
    | optional c' =>
      simp only [Hook.makes, Option.some.injEq] at hmk
      subst hmk
      obtain ⟨a, b, hab, _, hmb⟩ := hooks_at hrun hm htn
      have ht : (Hook.optional sd.cls).target n = n := rfl
      rw [ht] at hmb
      unfold Hook.run at hab
      dsimp only at hab
      have hne : (subArgs n kw).filter (fun kv => kv.1 != p!"_generate") ≠ [] := by
        intro e
        have h3 : lookupName key ((subArgs n kw).filter fun kv => kv.1 != p!"_generate") = some v := by
          rw [lookup_filter_key (p := fun x => x != p!"_generate") (by simpa using hg), lookup_sub, hkey]
        rw [e] at h3
        cases h3
      rw [if_pos (Or.inl hne)] at hab
      split at hab
      · cases hab
      rename_i x hx
      injection hab with hab
      subst hab
      refine ⟨_, _, _, x, hx, by rw [hmb, set_same], ?_, fun a _ _ hc => ?_⟩
      · exact List.Nodup.sublist (List.Sublist.map _ List.filter_sublist) (sub_nodup hk)
      · rw [lookup_filter_key (p := fun x => x != p!"_generate") (by simpa using hc), lookup_sub]
    | _ => cases hmk

/-! ### Tasks and offers -/

private theorem given_pairs {kw : Attrs} {n : PStr} {v : Val} (hv : lookupName n kw = some v) :
    ∀ {L : Attrs}, (∀ p ∈ L, ∃ r, given kw p.1 r = .ok p.2) → n ∈ L.map Prod.fst → lookupName n L = some v
  | [], _, hm => by cases hm
  | (k, x) :: rest, h, hm => by
    rw [lookupName_cons]
    by_cases e : k = n
    · subst e
      obtain ⟨r, hr⟩ := h _ (List.mem_cons_self ..)
      unfold given at hr
      simp only at hr
      rw [hv] at hr
      injection hr with hr
      rw [if_pos rfl, hr]
    · rw [if_neg e]
      refine given_pairs hv (fun p hp => h p (List.mem_cons_of_mem _ hp)) ?_
      simp only [List.map_cons, List.mem_cons] at hm
      exact hm.resolve_left fun h => e h.symm

private theorem setDef_other {E : Env} {m m' : Msg} {key : PStr} {v : Val} (h : setDef E m key v = .ok m') :
    m'.cls = m.cls ∧ m'.sig = m.sig ∧
      ∀ n, n ≠ p!"compute_task_def" → getAttr m'.attrs n = getAttr m.attrs n := by
  unfold setDef at h
  split at h
  · split at h
    · cases h
    · injection h with h
      subst h
      exact ⟨rfl, rfl, fun n hn => by simp only; rw [getAttr_setName, if_neg hn]⟩
  · injection h with h
    subst h
    exact ⟨rfl, rfl, fun n hn => by simp only; rw [getAttr_setName, if_neg hn]⟩
  · cases h

private theorem taskIdHook_other {E : Env} {u : Nat} {kw : Attrs} {m m' : Msg}
    (h : taskIdHook E u kw m = .ok m') :
    m'.cls = m.cls ∧ m'.sig = m.sig ∧
      ∀ n, n ≠ p!"compute_task_def" → getAttr m'.attrs n = getAttr m.attrs n := by
  unfold taskIdHook at h
  simp only [bind, Except.bind] at h
  repeat' split at h
  all_goals first
    | exact setDef_other h
    | (cases h; done)
    | (cases h; exact ⟨rfl, rfl, fun _ _ => rfl⟩)

private theorem subtaskIdHook_other {E : Env} {u : Nat} {kw : Attrs} {m m' : Msg}
    (h : subtaskIdHook E u kw m = .ok m') :
    m'.cls = m.cls ∧ m'.sig = m.sig ∧
      ∀ n, n ≠ p!"compute_task_def" → getAttr m'.attrs n = getAttr m.attrs n := by
  unfold subtaskIdHook at h
  simp only [bind, Except.bind] at h
  split at h
  · cases h; exact ⟨rfl, rfl, fun _ _ => rfl⟩
  · split at h
    · exact setDef_other h
    · split at h
      · cases h
      · exact setDef_other h

private theorem generateEthsig_other {E : Env} {priv : Bytes} {m m' : Msg}
    (h : generateEthsig E m priv = .ok m') :
    m'.cls = m.cls ∧ m'.sig = m.sig ∧ ∀ n, n ≠ p!"ethsig" → getAttr m'.attrs n = getAttr m.attrs n := by
  unfold generateEthsig at h
  split at h
  · cases h
  split at h
  · cases h
  split at h
  · cases h
  split at h
  · cases h
  injection h with h
  subst h
  exact ⟨rfl, rfl, fun n hn => by simp only; rw [getAttr_setName, if_neg hn]⟩

private theorem ethsigHook_other {E : Env} {eth : Bytes × Bytes} {kw : Attrs} {m m' : Msg}
    (h : ethsigHook E eth kw m = .ok m') :
    m'.cls = m.cls ∧ m'.sig = m.sig ∧
      ∀ n, n ≠ p!"ethsig" → n ≠ p!"requestor_ethereum_public_key" →
        getAttr m'.attrs n = getAttr m.attrs n := by
  unfold ethsigHook at h
  simp only [bind, Except.bind] at h
  repeat' split at h
  all_goals first
    | (cases h; done)
    | (cases h; exact ⟨rfl, rfl, fun _ _ _ => rfl⟩)
    | (cases h; exact ⟨rfl, rfl, fun n _ hn => by simp only; rw [getAttr_setName, if_neg hn]⟩)
    | (obtain ⟨a, b, c⟩ := generateEthsig_other h
       exact ⟨a, b, fun n h1 h2 => by rw [c n h1]; try (simp only; rw [getAttr_setName, if_neg h2])⟩)

theorem task_cls {E : Env} {G : Getter} {keccak : Bytes → Bytes} {d : TaskDraw} {kw : Attrs} {m : Msg}
    (h : taskFactory E G keccak d kw = .ok m) : m.cls = .TaskToCompute := by
  obtain ⟨keys, _, h⟩ := taskFactory_made h
  unfold taskMade at h
  simp only [bind, Except.bind] at h
  repeat (split at h; · cases h)
  rename_i m0 hm0 _ m1 hm1 _ m2 hm2 _ m3 hm3
  rw [(signHook_same h).1, (ethsigHook_other hm3).1, (subtaskIdHook_other hm2).1, (taskIdHook_other hm1).1]
  exact (new_ok hm0).choose_spec.choose_spec.2.2.1

/-- The parts of a made task. -/
theorem task_parts {E : Env} {G : Getter} {keccak : Bytes → Bytes} {d : TaskDraw} {kw : Attrs}
    {m : Msg} (hk : (kw.map Prod.fst).Nodup) (h : taskFactory E G keccak d kw = .ok m) :
    ∃ (L : Attrs) (offer : Val) (m0 : Msg),
      given kw p!"want_to_compute_task"
        ((offerFactory E G keccak d.offer (subArgs p!"want_to_compute_task" kw)).map Msg.val) = .ok offer ∧
      lookupName p!"want_to_compute_task" L = some offer ∧
      (∀ p ∈ L, ∃ r, given kw p.1 r = .ok p.2) ∧
      L.map Prod.fst = [p!"requestor_id", p!"provider_id", p!"compute_task_def", p!"requestor_public_key",
        p!"want_to_compute_task", p!"package_hash", p!"size", p!"price", p!"resources_options"] ∧
      m.cls = .TaskToCompute ∧ signHook E kw m0 = .ok m ∧
      ∀ n ∈ Cls.TaskToCompute.payload, (Cls.TaskToCompute, n) ∉ special →
        getAttr m.attrs n = defaulted .TaskToCompute n (getAttr (L ++ extraArgs taskRoots kw) n) := by
  obtain ⟨keys, _, h⟩ := taskFactory_made h
  unfold taskMade at h
  simp only [bind, Except.bind] at h
  split at h
  · cases h
  rename_i x1 hx1
  split at h
  · cases h
  rename_i x2 hx2
  split at h
  · cases h
  rename_i x3 hx3
  split at h
  · cases h
  rename_i x4 hx4
  split at h
  · cases h
  rename_i x5 hx5
  split at h
  · cases h
  rename_i x6 hx6
  split at h
  · cases h
  rename_i x7 hx7
  split at h
  · cases h
  rename_i x8 hx8
  split at h
  · cases h
  rename_i x9 hx9
  split at h
  · cases h
  rename_i m0 hm0
  split at h
  · cases h
  rename_i m1 hm1
  split at h
  · cases h
  rename_i m2 hm2
  split at h
  · cases h
  rename_i m3 hm3
  have hnd := given_nodup (r := taskRoots) (L := [(p!"requestor_id", x2), (p!"provider_id", x4),
      (p!"compute_task_def", x5), (p!"requestor_public_key", x1),
      (p!"want_to_compute_task", x3), (p!"package_hash", x6), (p!"size", x7),
      (p!"price", x8), (p!"resources_options", x9)]) (by simp [taskRoots]) (by simp) hk
  obtain ⟨a1, _, _, _, _, a6⟩ := from_blank hm0 hnd
  obtain ⟨b1, _, b3⟩ := taskIdHook_other hm1
  obtain ⟨c1, _, c3⟩ := subtaskIdHook_other hm2
  obtain ⟨d1, _, d3⟩ := ethsigHook_other hm3
  obtain ⟨e1, _, _, _, e5⟩ := signHook_same h
  refine ⟨[(p!"requestor_id", x2), (p!"provider_id", x4), (p!"compute_task_def", x5),
    (p!"requestor_public_key", x1), (p!"want_to_compute_task", x3), (p!"package_hash", x6), (p!"size", x7),
    (p!"price", x8), (p!"resources_options", x9)], x3, m3, hx3, by rfl, ?_, rfl, ?_, h, ?_⟩
  rotate_left
  · rw [e1, d1, c1, b1, a1]
  · intro n hn hs
    have n1 : n ≠ p!"compute_task_def" := by rintro rfl; exact hs (by decide)
    have n2 : n ≠ p!"ethsig" := by rintro rfl; exact hs (by decide)
    have n3 : n ≠ p!"requestor_ethereum_public_key" := by rintro rfl; exact hs (by decide)
    rw [e5, d3 n n2 n3, c3 n n1, b3 n n1, a6 n hn]
  · intro p hp
    simp only [List.mem_cons, List.not_mem_nil, or_false] at hp
    rcases hp with rfl | rfl | rfl | rfl | rfl | rfl | rfl | rfl | rfl
    all_goals first
      | exact ⟨_, hx2⟩
      | exact ⟨_, hx4⟩
      | exact ⟨_, hx5⟩
      | exact ⟨_, hx1⟩
      | exact ⟨_, hx3⟩
      | exact ⟨_, hx6⟩
      | exact ⟨_, hx7⟩
      | exact ⟨_, hx8⟩
      | exact ⟨_, hx9⟩

/-- The hook of the payment signature in the making of a task: what it starts from and what becomes
of its result. -/
theorem task_ethsig {E : Env} {G : Getter} {keccak : Bytes → Bytes} {d : TaskDraw} {kw : Attrs}
    {m : Msg} (hk : (kw.map Prod.fst).Nodup) (h : taskFactory E G keccak d kw = .ok m) :
    ∃ keys m2 m3, ethsigKeys kw = .ok keys ∧ ethsigHook E (keys.getD d.eth) kw m2 = .ok m3 ∧
      m.attrs = m3.attrs ∧ getAttr m2.attrs p!"ethsig" = .none ∧
      getAttr m2.attrs p!"requestor_ethereum_public_key" =
        getAttr kw p!"requestor_ethereum_public_key" := by
  obtain ⟨keys, hkeys, h⟩ := taskFactory_made h
  unfold taskMade at h
  simp only [bind, Except.bind] at h
  split at h
  · cases h
  rename_i x1 hx1
  split at h
  · cases h
  rename_i x2 hx2
  split at h
  · cases h
  rename_i x3 hx3
  split at h
  · cases h
  rename_i x4 hx4
  split at h
  · cases h
  rename_i x5 hx5
  split at h
  · cases h
  rename_i x6 hx6
  split at h
  · cases h
  rename_i x7 hx7
  split at h
  · cases h
  rename_i x8 hx8
  split at h
  · cases h
  rename_i x9 hx9
  split at h
  · cases h
  rename_i m0 hm0
  split at h
  · cases h
  rename_i m1 hm1
  split at h
  · cases h
  rename_i m2 hm2
  split at h
  · cases h
  rename_i m3 hm3
  have hnd := given_nodup (r := taskRoots) (L := [(p!"requestor_id", x2), (p!"provider_id", x4),
      (p!"compute_task_def", x5), (p!"requestor_public_key", x1),
      (p!"want_to_compute_task", x3), (p!"package_hash", x6), (p!"size", x7),
      (p!"price", x8), (p!"resources_options", x9)]) (by simp [taskRoots]) (by simp) hk
  obtain ⟨_, _, _, _, _, a6⟩ := from_blank hm0 hnd
  obtain ⟨_, _, b3⟩ := taskIdHook_other hm1
  obtain ⟨_, _, c3⟩ := subtaskIdHook_other hm2
  obtain ⟨_, _, _, _, e5⟩ := signHook_same h
  refine ⟨keys, m2, m3, hkeys, hm3, e5, ?_, ?_⟩
  · rw [c3 _ (by decide), b3 _ (by decide), a6 _ (by decide)]
    have : getAttr ([(p!"requestor_id", x2), (p!"provider_id", x4), (p!"compute_task_def", x5),
        (p!"requestor_public_key", x1), (p!"want_to_compute_task", x3), (p!"package_hash", x6), (p!"size", x7),
        (p!"price", x8), (p!"resources_options", x9)] ++ extraArgs taskRoots kw) p!"ethsig" = .none := by
      have none_of : ∀ l : Attrs, lookupName p!"ethsig" l = none → getAttr l p!"ethsig" = .none := by
        intro l hl; unfold getAttr; rw [hl]
      refine none_of _ ?_
      rw [lookupName_none, List.map_append, List.mem_append]
      rintro (hm | hm)
      · simp only [List.map_cons, List.map_nil] at hm
        exact absurd hm (by decide)
      · obtain ⟨kv, hm, e⟩ := List.mem_map.mp hm
        have := (List.mem_filter.mp hm).2
        rw [List.all_eq_true] at this
        have := this p!"ethsig" (by decide)
        rw [e] at this
        exact absurd this (by decide)
    rw [this]
    rfl
  · rw [c3 _ (by decide), b3 _ (by decide), a6 _ (by decide)]
    have key : ∀ x ∈ taskRoots, p!"requestor_ethereum_public_key" ≠ x ∧
        (x ++ p!"__").isPrefixOf p!"requestor_ethereum_public_key" = false := by decide
    have : getAttr ([(p!"requestor_id", x2), (p!"provider_id", x4), (p!"compute_task_def", x5),
        (p!"requestor_public_key", x1), (p!"want_to_compute_task", x3), (p!"package_hash", x6), (p!"size", x7),
        (p!"price", x8), (p!"resources_options", x9)] ++ extraArgs taskRoots kw)
          p!"requestor_ethereum_public_key" = getAttr kw p!"requestor_ethereum_public_key" := by
      unfold getAttr
      rw [lookupName_append, lookup_extra key]
      rfl
    rw [this]
    rfl

private theorem task_leaf {E : Env} {G : Getter} {keccak : Bytes → Bytes} {d : TaskDraw} {kw : Attrs}
    {m : Msg} {n : PStr} {v : Val} (hk : (kw.map Prod.fst).Nodup)
    (h : taskFactory E G keccak d kw = .ok m) (hn : n ∈ Cls.TaskToCompute.payload)
    (hs : (Cls.TaskToCompute, n) ∉ special) (hv : lookupName n kw = some v) :
    getAttr m.attrs n = defaulted .TaskToCompute n v := by
  obtain ⟨L, offer, m0, _, _, hL, hnames, _, _, hget⟩ := task_parts hk h
  rw [hget n hn hs]
  congr 1
  refine getAttr_found ?_
  rw [lookupName_append]
  have key : ∀ n ∈ Cls.TaskToCompute.payload, (Cls.TaskToCompute, n) ∉ special →
      n ∈ [p!"requestor_id", p!"provider_id", p!"compute_task_def", p!"requestor_public_key",
        p!"want_to_compute_task", p!"package_hash", p!"size", p!"price", p!"resources_options"] ∨
      ∀ x ∈ taskRoots, n ≠ x ∧ (x ++ p!"__").isPrefixOf n = false := by decide
  rcases key n hn hs with e | e
  · rw [given_pairs hv hL (by rw [hnames]; exact e)]
  · have h3 : lookupName n L = none := by
      rw [lookupName_none, hnames]
      intro hx
      refine (e n ?_).1 rfl
      exact (show ∀ y ∈ [p!"requestor_id", p!"provider_id", p!"compute_task_def", p!"requestor_public_key",
        p!"want_to_compute_task", p!"package_hash", p!"size", p!"price", p!"resources_options"],
        y ∈ taskRoots by decide) n hx
    rw [h3, lookup_extra e, hv]

private theorem task_step {E : Env} {G : Getter} {keccak : Bytes → Bytes} {d : TaskDraw} {kw : Attrs}
    {m : Msg} {n : PStr} {sd : SlotDef} (hk : (kw.map Prod.fst).Nodup)
    (h : taskFactory E G keccak d kw = .ok m) (hn : (n, sd) ∈ Cls.TaskToCompute.msgSlots)
    (hv : lookupName n kw = none) :
    n = p!"want_to_compute_task" ∧ sd.cls = .WantToComputeTask ∧
    ∃ x, offerFactory E G keccak d.offer (subArgs n kw) = .ok x ∧ getAttr m.attrs n = x.val := by
  have key : ∀ fs ∈ Cls.TaskToCompute.msgSlots,
      fs.1 = p!"want_to_compute_task" ∧ fs.2.cls = .WantToComputeTask := by decide
  obtain ⟨rfl, k2⟩ := key _ hn
  refine ⟨rfl, k2, ?_⟩
  obtain ⟨L, offer, m0, ho, hl, hL, hnames, _, _, hget⟩ := task_parts hk h
  unfold given at ho
  rw [hv] at ho
  simp only at ho
  cases hx : offerFactory E G keccak d.offer (subArgs p!"want_to_compute_task" kw) with
  | error e => rw [hx] at ho; cases ho
  | ok x =>
    rw [hx] at ho
    injection ho with ho
    refine ⟨x, rfl, ?_⟩
    rw [hget _ (by decide) (by decide), defaulted_slot hn]
    exact getAttr_found (by rw [lookupName_append, hl, ho])

theorem offer_leaf {E : Env} {G : Getter} {keccak : Bytes → Bytes} {d : OfferDraw} {kw : Attrs}
    {m : Msg} {n : PStr} {v : Val} (hk : (kw.map Prod.fst).Nodup)
    (h : offerFactory E G keccak d kw = .ok m) :
    m.cls = .WantToComputeTask ∧ (n ∈ Cls.WantToComputeTask.payload → lookupName n kw = some v →
      getAttr m.attrs n = defaulted .WantToComputeTask n v) := by
  unfold offerFactory at h
  simp only [bind, Except.bind] at h
  split at h
  · cases h
  rename_i x1 hx1
  split at h
  · cases h
  rename_i x2 hx2
  split at h
  · cases h
  rename_i x3 hx3
  split at h
  · cases h
  rename_i x4 hx4
  split at h
  · cases h
  rename_i m0 hm0
  have hnd := given_nodup (r := offerRoots) (L := [(p!"provider_public_key", x1),
      (p!"provider_ethereum_address", x2), (p!"task_header", x3), (p!"price", x4)])
      (by simp [offerRoots]) (by simp) hk
  obtain ⟨a1, _, _, _, _, a6⟩ := from_blank hm0 hnd
  obtain ⟨e1, _, _, _, e5⟩ := signHook_same h
  refine ⟨e1.trans a1, fun hn hv => ?_⟩
  rw [e5, a6 n hn]
  congr 1
  refine getAttr_found ?_
  rw [lookupName_append]
  have key : ∀ n ∈ Cls.WantToComputeTask.payload,
      n ∈ [p!"provider_public_key", p!"provider_ethereum_address", p!"task_header", p!"price"] ∨
      ∀ x ∈ offerRoots, n ≠ x ∧ (x ++ p!"__").isPrefixOf n = false := by decide
  have hnames : ([(p!"provider_public_key", x1), (p!"provider_ethereum_address", x2), (p!"task_header", x3),
      (p!"price", x4)] : Attrs).map Prod.fst = [p!"provider_public_key", p!"provider_ethereum_address",
        p!"task_header", p!"price"] := rfl
  rcases key n hn with e | e
  · rw [given_pairs hv (fun p hp => ?_) (by rw [hnames]; exact e)]
    simp only [List.mem_cons, List.not_mem_nil, or_false] at hp
    rcases hp with rfl | rfl | rfl | rfl
    all_goals first
      | exact ⟨_, hx1⟩
      | exact ⟨_, hx2⟩
      | exact ⟨_, hx3⟩
      | exact ⟨_, hx4⟩
  · have h3 : lookupName n ([(p!"provider_public_key", x1), (p!"provider_ethereum_address", x2),
        (p!"task_header", x3), (p!"price", x4)] : Attrs) = none := by
      rw [lookupName_none, hnames]
      intro hx
      refine (e n ?_).1 rfl
      exact (show ∀ y ∈ [p!"provider_public_key", p!"provider_ethereum_address", p!"task_header",
        p!"price"], y ∈ offerRoots by decide) n hx
    rw [h3, lookup_extra e, hv]

/-! ### Arguments reach the messages they are for -/

private theorem two_dashes (a b : PStr) : a ++ p!"__" ++ b ≠ p!"upload" ∧ a ++ p!"__" ++ b ≠ p!"download" ∧
    a ++ p!"__" ++ b ≠ p!"_generate" := by
  have key : ∀ s : PStr, s.count '_' < 2 → a ++ p!"__" ++ b ≠ s := by
    rintro s hs rfl
    rw [List.count_append, List.count_append] at hs
    have : (p!"__" : PStr).count '_' = 2 := by decide
    omega
  exact ⟨key _ (by decide), key _ (by decide), key _ (by decide)⟩

private theorem joined_plain {c : Cls} {path : List PStr} {n : PStr} (hn : n ∈ c.payload) :
    joined path n ≠ p!"upload" ∧ joined path n ≠ p!"download" ∧ joined path n ≠ p!"_generate" := by
  cases path with
  | nil =>
    have key : ∀ c ∈ Cls.all, ∀ n ∈ c.payload, n ≠ p!"upload" ∧ n ≠ p!"download" ∧ n ≠ p!"_generate" := by
      decide
    exact key c (every_cls c) n hn
  | cons f rest => exact two_dashes f _

private theorem slot_payload {c : Cls} {n : PStr} {sd : SlotDef} (h : (n, sd) ∈ c.msgSlots) : n ∈ c.payload := by
  have key : ∀ c ∈ Cls.all, ∀ fs ∈ c.msgSlots, fs.1 ∈ c.payload := by decide
  exact key c (every_cls c) _ h

private theorem reach_at {E : Env} {G : Getter} {keccak : Bytes → Bytes} {d : Draws} {c c' : Cls}
    {p : List PStr} (R : Route c p c') : ∀ {k : Nat} {path : List PStr} {files : Option (List Attrs)}
    {kw : Attrs} {m : Msg} {n : PStr} {v : Val}, makeAt E G keccak d k path c files kw = .ok m →
    (kw.map Prod.fst).Nodup → (∀ q f r, p = q ++ f :: r → lookupName (joined q f) kw = none) →
    lookupName (joined p n) kw = some v → (∀ key, lookupName (joined p (n ++ p!"__" ++ key)) kw = none) →
    n ∈ c'.payload → (c', n) ∉ special →
    ∃ x, Follow p m x ∧ x.cls = c' ∧ getAttr x.attrs n = defaulted c' n v := by
  induction R with
  | here c =>
    intro k path files kw m n v h hk _ hv hb hn hs
    cases k with
    | zero => cases h
    | succ k =>
      refine ⟨m, rfl, ?_⟩
      by_cases h1 : c = .TaskToCompute
      · subst h1
        have h : taskFactory E G keccak (d.task path) kw = .ok m := h
        obtain ⟨_, _, _, _, _, _, _, hc, _, _⟩ := task_parts hk h
        exact ⟨hc, task_leaf hk h hn hs hv⟩
      by_cases h2 : c = .WantToComputeTask
      · subst h2
        have h : offerFactory E G keccak (d.task path).offer kw = .ok m := h
        obtain ⟨hc, hl⟩ := offer_leaf (n := n) (v := v) hk h
        exact ⟨hc, hl hn hv⟩
      exact made_leaf h1 h2 hk h hn hs hv hb
  | @step c c' f sd p slot plain rest ih =>
    intro k path files kw m n v h hk hpre hv hb hn hs
    have hf : lookupName f kw = none := hpre [] f p rfl
    cases k with
    | zero => cases h
    | succ k =>
      by_cases h2 : c = .WantToComputeTask
      · subst h2
        have : Cls.WantToComputeTask.msgSlots = [] := by decide
        rw [this] at slot
        cases slot
      by_cases h1 : c = .TaskToCompute
      · subst h1
        have h : taskFactory E G keccak (d.task path) kw = .ok m := h
        obtain ⟨rfl, hsd, x, hx, hget⟩ := task_step hk h slot hf
        rw [hsd] at rest
        cases rest with
        | here =>
          refine ⟨x, ⟨x, hget, rfl⟩, ?_⟩
          obtain ⟨hc, hl⟩ := offer_leaf (n := n) (v := v) (sub_nodup hk) hx
          exact ⟨hc, hl hn (by rw [lookup_sub]; exact hv)⟩
        | step slot =>
          have : Cls.WantToComputeTask.msgSlots = [] := by decide
          rw [this] at slot
          cases slot
      obtain ⟨path', files', kw', x, hx, hget, hk', hl⟩ :=
        made_step h1 h2 hk h slot plain hf hv (joined_plain hn).2.2
      obtain ⟨y, hy, hc, hg⟩ := ih (n := n) (v := v) hx hk'
        (fun q g r e => by
          have hm : joined q g ≠ p!"upload" ∧ joined q g ≠ p!"download" ∧ joined q g ≠ p!"_generate" := by
            cases q with
            | nil =>
              simp only [List.nil_append] at e
              subst e
              cases rest with
              | step slot _ _ => exact joined_plain (path := []) (slot_payload slot)
            | cons a q => exact two_dashes a _
          rw [hl _ hm.1 hm.2.1 hm.2.2]
          exact hpre (f :: q) g r (by rw [e]; rfl))
        (by
          have hm := joined_plain (path := p) hn
          rw [hl _ hm.1 hm.2.1 hm.2.2]
          exact hv)
        (fun key => by
          have hm : joined p (n ++ p!"__" ++ key) ≠ p!"upload" ∧ joined p (n ++ p!"__" ++ key) ≠ p!"download" ∧
              joined p (n ++ p!"__" ++ key) ≠ p!"_generate" := by
            cases p with
            | nil => exact two_dashes n key
            | cons a q => exact two_dashes a _
          rw [hl _ hm.1 hm.2.1 hm.2.2]
          exact hb key)
        hn hs
      exact ⟨y, ⟨x, hget, hy⟩, hc, hg⟩

/-- **C90**: arguments of factories reach the messages they are for, however deep. -/
theorem argument_reaches (E : Env) (G : Getter) (keccak : Bytes → Bytes) (d : Draws) (c c' : Cls)
    (path : List PStr) (n : PStr) (v : Val) (kw : Attrs) (m : Msg) (R : Route c path c')
    (hk : (kw.map Prod.fst).Nodup) (h : make E G keccak d c kw = .ok m)
    (hn : n ∈ c'.payload) (hs : (c', n) ∉ special) (hv : lookupName (joined path n) kw = some v)
    (hup : ∀ q f r, path = q ++ f :: r → lookupName (joined q f) kw = none)
    (hdown : ∀ key, lookupName (joined path (n ++ p!"__" ++ key)) kw = none) :
    ∃ x, Follow path m x ∧ x.cls = c' ∧ getAttr x.attrs n = defaulted c' n v :=
  reach_at R h hk hup hv hdown hn hs

/-! ### Signatures asked for -/

private theorem signArg_key {kw : Attrs} {priv : Bytes} {r : Option Bytes}
    (hv : lookupName p!"sign__privkey" kw = some (.bytes priv)) (hp : priv ≠ []) (h : signArg kw = .ok r) :
    r = some priv := by
  unfold signArg at h
  dsimp only at h
  split at h
  · cases h
  have e : getAttr (subArgs p!"sign" kw) p!"privkey" = .bytes priv := by
    refine getAttr_found ?_
    rw [lookup_sub]
    exact hv
  rw [e] at h
  cases priv with
  | nil => exact absurd rfl hp
  | cons a b => injection h with h; exact h.symm

private theorem late_targets {c : Cls} {f : MsgFactory} (hf : c.factory = some f) :
    ∀ nh ∈ f.hooks, nh.2.target nh.1 ∈ lateFields c := by
  have key : ∀ c ∈ Cls.all, ∀ f ∈ c.factory, ∀ nh ∈ f.hooks, nh.2.target nh.1 ∈ lateFields c := by
    decide +kernel
  exact key c (every_cls c) f hf

private theorem late_none {c : Cls} {f : MsgFactory} (hf : c.factory = some f) (h : lateFields c = []) :
    f.hooks = [] := by
  cases hh : f.hooks with
  | nil => rfl
  | cons nh rest =>
    have := late_targets hf nh (by rw [hh]; exact List.mem_cons_self ..)
    rw [h] at this
    cases this

/-- What signing with a key leaves in a message that is changed afterwards. -/
private def Early (E : Env) (pub : Bytes) (c : Cls) (x : Msg) : Prop :=
  x.cls = c ∧ (lateFields c = [] → x.verifySig E pub = .ok ()) ∧
  ∃ y : Msg, y.verifySig E pub = .ok () ∧ y.cls = c ∧ y.ty = x.ty ∧ y.ts = x.ts ∧ y.enc = x.enc ∧
    y.sig = x.sig ∧ ∀ n, n ∉ lateFields c → getAttr y.attrs n = getAttr x.attrs n

private theorem early_same {E : Env} {pub : Bytes} {x : Msg} (h : x.verifySig E pub = .ok ()) :
    Early E pub x.cls x :=
  ⟨rfl, fun _ => h, x, h, rfl, rfl, rfl, rfl, rfl, fun _ _ => rfl⟩

private theorem signed_hook {E : Env} {kw : Attrs} {m m' : Msg} {priv pub : Bytes} (K : Spec.KeyPair E priv pub)
    (hp : priv ≠ []) (hv : lookupName p!"sign__privkey" kw = some (.bytes priv))
    (h : signHook E kw m = .ok m') : m'.verifySig E pub = .ok () := by
  rcases signHook_cases h with ⟨e, _⟩ | ⟨p, e, h⟩
  · cases signArg_key hv hp e
  · cases signArg_key hv hp e
    exact (signed_verifies K h).1

private theorem sign_at {E : Env} {G : Getter} {keccak : Bytes → Bytes} {d : Draws} {c c' : Cls}
    {p : List PStr} {priv pub : Bytes} (K : Spec.KeyPair E priv pub) (hp : priv ≠ []) (R : Route c p c') :
    ∀ {k : Nat} {path : List PStr} {files : Option (List Attrs)}
    {kw : Attrs} {m : Msg}, makeAt E G keccak d k path c files kw = .ok m →
    (kw.map Prod.fst).Nodup → (∀ q f r, p = q ++ f :: r → lookupName (joined q f) kw = none) →
    lookupName (joined p p!"sign__privkey") kw = some (.bytes priv) →
    ∃ x, Follow p m x ∧ Early E pub c' x := by
  have plainSign : ∀ p : List PStr, joined p p!"sign__privkey" ≠ p!"upload" ∧
      joined p p!"sign__privkey" ≠ p!"download" ∧ joined p p!"sign__privkey" ≠ p!"_generate" := by
    intro p
    cases p with
    | nil => exact two_dashes p!"sign" p!"privkey"
    | cons a q => exact two_dashes a _
  induction R with
  | here c =>
    intro k path files kw m h hk _ hv
    cases k with
    | zero => cases h
    | succ k =>
      refine ⟨m, rfl, ?_⟩
      by_cases h1 : c = .TaskToCompute
      · subst h1
        have h : taskFactory E G keccak (d.task path) kw = .ok m := h
        obtain ⟨_, _, _, _, _, _, _, hc, hs, _⟩ := task_parts hk h
        rw [← hc]
        exact early_same (signed_hook K hp hv hs)
      by_cases h2 : c = .WantToComputeTask
      · subst h2
        have h : offerFactory E G keccak (d.task path).offer kw = .ok m := h
        obtain ⟨hc, _⟩ := offer_leaf (n := []) (v := .none) hk h
        rw [← hc]
        unfold offerFactory at h
        simp only [bind, Except.bind] at h
        repeat (split at h; · cases h)
        exact early_same (signed_hook K hp hv h)
      obtain ⟨f, fields, m0, m1, hf, _, hm0, hm1, hrun⟩ := makeAt_ok h1 h2 h
      have hv1 := signed_hook K hp hv hm1
      obtain ⟨b1, _⟩ := signHook_same hm1
      obtain ⟨c1, c2, c3, c4, c5, c6⟩ := hooks_keep hrun
      have hc : m.cls = c := c1.trans (b1.trans (new_ok hm0).choose_spec.choose_spec.2.2.1)
      refine ⟨hc, fun hl => ?_, m1, hv1, c1.symm.trans hc, c2.symm, c3.symm, c4.symm, c5.symm, fun n hn => ?_⟩
      · rw [late_none hf hl] at hrun
        injection hrun with hrun
        rw [← hrun]
        exact hv1
      · refine (c6 n fun nh hnh e => hn ?_).symm
        rw [e]
        exact late_targets hf nh hnh
  | @step c c' f sd p slot plain rest ih =>
    intro k path files kw m h hk hpre hv
    have hf : lookupName f kw = none := hpre [] f p rfl
    cases k with
    | zero => cases h
    | succ k =>
      by_cases h2 : c = .WantToComputeTask
      · subst h2
        have : Cls.WantToComputeTask.msgSlots = [] := by decide
        rw [this] at slot
        cases slot
      by_cases h1 : c = .TaskToCompute
      · subst h1
        have h : taskFactory E G keccak (d.task path) kw = .ok m := h
        obtain ⟨rfl, hsd, x, hx, hget⟩ := task_step hk h slot hf
        rw [hsd] at rest
        cases rest with
        | here =>
          refine ⟨x, ⟨x, hget, rfl⟩, ?_⟩
          obtain ⟨hc, _⟩ := offer_leaf (n := []) (v := .none) (sub_nodup hk) hx
          rw [← hc]
          unfold offerFactory at hx
          simp only [bind, Except.bind] at hx
          repeat (split at hx; · cases hx)
          exact early_same (signed_hook K hp (by rw [lookup_sub]; exact hv) hx)
        | step slot =>
          have : Cls.WantToComputeTask.msgSlots = [] := by decide
          rw [this] at slot
          cases slot
      obtain ⟨path', files', kw', x, hx, hget, hk', hl⟩ :=
        made_step h1 h2 hk h slot plain hf hv (plainSign p).2.2
      obtain ⟨y, hy, hE⟩ := ih hx hk'
        (fun q g r e => by
          have hm : joined q g ≠ p!"upload" ∧ joined q g ≠ p!"download" ∧ joined q g ≠ p!"_generate" := by
            cases q with
            | nil =>
              simp only [List.nil_append] at e
              subst e
              cases rest with
              | step slot _ _ => exact joined_plain (path := []) (slot_payload slot)
            | cons a q => exact two_dashes a _
          rw [hl _ hm.1 hm.2.1 hm.2.2]
          exact hpre (f :: q) g r (by rw [e]; rfl))
        (by
          have hm := plainSign p
          rw [hl _ hm.1 hm.2.1 hm.2.2]
          exact hv)
      exact ⟨y, ⟨x, hget, hy⟩, hE⟩

/-- **C91** (partial): a key given for a message, however deep, signs that message, unless its factory
writes to it afterwards. -/
theorem sign_reaches_partial (E : Env) (G : Getter) (keccak : Bytes → Bytes) (d : Draws) (c c' : Cls)
    (path : List PStr) (priv pub : Bytes) (kw : Attrs) (m : Msg) (K : Spec.KeyPair E priv pub)
    (R : Route c path c') (hk : (kw.map Prod.fst).Nodup) (h : make E G keccak d c kw = .ok m)
    (hv : lookupName (joined path p!"sign__privkey") kw = some (.bytes priv))
    (hup : ∀ q f r, path = q ++ f :: r → lookupName (joined q f) kw = none) (hl : lateFields c' = []) :
    ∃ x, Follow path m x ∧ x.cls = c' ∧ x.verifySig E pub = .ok () := by
  obtain ⟨x, hx, hc, hs, _⟩ := sign_at K K.given R h hk hup hv
  exact ⟨x, hx, hc, hs hl⟩

/-- **C91** in general: what is signed is the message without those fields. -/
theorem sign_early (E : Env) (G : Getter) (keccak : Bytes → Bytes) (d : Draws) (c c' : Cls)
    (path : List PStr) (priv pub : Bytes) (kw : Attrs) (m : Msg) (K : Spec.KeyPair E priv pub)
    (R : Route c path c') (hk : (kw.map Prod.fst).Nodup) (h : make E G keccak d c kw = .ok m)
    (hv : lookupName (joined path p!"sign__privkey") kw = some (.bytes priv))
    (hup : ∀ q f r, path = q ++ f :: r → lookupName (joined q f) kw = none) :
    ∃ x y : Msg, Follow path m x ∧ x.cls = c' ∧ y.verifySig E pub = .ok () ∧ y.cls = c' ∧ y.ty = x.ty ∧
      y.ts = x.ts ∧ y.enc = x.enc ∧ y.sig = x.sig ∧
      ∀ n, n ∉ lateFields c' → getAttr y.attrs n = getAttr x.attrs n := by
  obtain ⟨x, hx, hc, _, y, hy⟩ := sign_at K K.given R h hk hup hv
  exact ⟨x, y, hx, hc, hy⟩

/-! ### Examples -/

private def sk (x : UInt8) : Bytes := List.replicate 32 x
private def vk (x : UInt8) : Bytes := List.replicate 64 x

private def taskDraws : TaskDraw where
  key := vk 8
  eth := (sk 6, vk 6)
  offer := { key := vk 10, now := 1500000000, header :=
    { key := vk 9, mask := [1, 2], now := 1500000000, uuid := 0x11111111111141118111111111111111,
      nodeName := p!"Ada", timeout := 60, version := (1, 2, 3), memory := 1, maxPrice := 5, budget := 7, count := 3 } }
  definition := { taskId := p!"t", subtaskId := p!"s", resource := p!"r", now := 1500000000 }
  uuid1 := 0x22222222222242228222222222222222
  uuid2 := 0x33333333333343338333333333333333
  package := p!"abc"
  size := 5
  price := 6
  now := 1500000000

private def draws : Draws where
  text _ := p!"some text"
  num _ := 42
  bytes _ := vk 3
  member _ e := e.values.headD []
  task _ := taskDraws
  now _ := 1500000000

/-- The toy environment with digests that depend on all bytes. -/
private def mixEnv : Env :=
  { toyEnv with sha1 := fun b => List.replicate 20 (b.foldl (fun a x => 31 * a + x) 7) }

private theorem mix_keys (k : UInt8) : Spec.KeyPair mixEnv (sk k) (vk k) := by
  refine ⟨fun x s hs => ?_, by simp [vk], by simp [sk]⟩
  have hl : (mixEnv.sha3 x).length = 32 := by simp [mixEnv, toyEnv]
  generalize mixEnv.sha3 x = h at *
  simp only [mixEnv, toyEnv, sk] at hs ⊢
  injection hs with hs
  subst hs
  have e0 : List.take 32 (List.replicate 32 k) = List.replicate 32 k := by simp
  rw [e0]
  have e : (List.replicate 32 k ++ h ++
      List.replicate (65 - (List.replicate 32 k).length - h.length) 0).take 32
      = List.replicate 32 k := by
    rw [List.append_assoc, List.take_left' (by simp)]
  refine ⟨by simp [hl], ?_⟩
  rw [e, if_pos rfl]
  simp [vk, List.replicate_append_replicate]

private def toyKeccak (b : Bytes) : Bytes := (b ++ List.replicate 32 0).take 32
private def toyMake (c : Cls) (kw : Attrs) : Res Msg := make mixEnv (fun _ _ _ => .ok .none) toyKeccak draws c kw

/-- The message found by going through these fields. -/
private def at? (r : Res Msg) (path : List PStr) : Option Msg :=
  path.foldl (fun x f => x.bind fun m => (getAttr m.attrs f).asMsg) (match r with | .ok m => some m | .error _ => none)

/-- Every factory makes a message. -/
example : ∀ c ∈ Cls.all, c.factory.isSome = true → (toyMake c []).isOk = true := by decide +kernel

private def deepArgs : Attrs :=
  [(p!"force_get_task_result__report_computed_task__task_to_compute__want_to_compute_task__num_subtasks", .int 9),
   (p!"force_get_task_result__report_computed_task__task_to_compute__sign__privkey", .bytes (sk 5)),
   (p!"force_get_task_result__report_computed_task__secret", .str p!"hidden")]

private theorem deep_route : Route .ForceGetTaskResultUpload [p!"force_get_task_result",
    p!"report_computed_task", p!"task_to_compute"] .TaskToCompute :=
  .step (sd := { cls := .ForceGetTaskResult }) (by decide) (by decide)
    (.step (sd := { cls := .ReportComputedTask }) (by decide) (by decide)
      (.step (sd := { cls := .TaskToCompute }) (by decide) (by decide) (.here _)))

/-- An argument and a key reach a task three levels down. -/
example : (toyMake .ForceGetTaskResultUpload deepArgs).isOk = true ∧
    (at? (toyMake .ForceGetTaskResultUpload deepArgs) [p!"force_get_task_result", p!"report_computed_task",
      p!"task_to_compute"]).map (fun m => m.verifySig mixEnv (vk 5)) = some (.ok ()) ∧
    (at? (toyMake .ForceGetTaskResultUpload deepArgs) [p!"force_get_task_result", p!"report_computed_task",
      p!"task_to_compute", p!"want_to_compute_task"]).map (fun m => getAttr m.attrs p!"num_subtasks") =
      some (.int 9) := by
  refine ⟨?_, ?_, ?_⟩ <;> decide +kernel

/-- So the hypotheses of C91 can be met. -/
example : ∃ m x, toyMake .ForceGetTaskResultUpload deepArgs = .ok m ∧
    Follow [p!"force_get_task_result", p!"report_computed_task", p!"task_to_compute"] m x ∧
    x.verifySig mixEnv (vk 5) = .ok () := by
  cases h : toyMake .ForceGetTaskResultUpload deepArgs with
  | error e =>
    have : (toyMake .ForceGetTaskResultUpload deepArgs).isOk = true := by decide +kernel
    rw [h] at this
    cases this
  | ok m =>
    obtain ⟨x, h1, _, h2⟩ := sign_reaches_partial mixEnv _ _ draws _ _ _ (sk 5) (vk 5) _ m (mix_keys 5) deep_route
      (by decide) h (by decide) (by
        intro q f r e
        rcases q with _ | ⟨a, _ | ⟨b, _ | ⟨c, q⟩⟩⟩ <;>
          simp only [List.cons_append, List.nil_append, List.cons.injEq] at e
        · obtain ⟨rfl, _⟩ := e; decide
        · obtain ⟨rfl, rfl, _⟩ := e; decide
        · obtain ⟨rfl, rfl, rfl, _⟩ := e; decide
        · have := e.2.2.2
          cases q <;> cases this) rfl
    exact ⟨m, x, rfl, h1, h2⟩

private def found (r : Res Msg) (path : List PStr) : Msg :=
  (at? r path).getD ⟨.Hello, .none, .none, .none, .none, []⟩

/-- C90 fails for the special fields: what is given for the report in the acknowledgement of a verdict
is lost (the hook puts a copy of the other report there), and so is a signature given for a task. -/
theorem argument_lost_refuted :
    (∃ E G keccak d m x, make E G keccak d .VerdictReportComputedTask
        [(joined [p!"ack_report_computed_task", p!"report_computed_task"] p!"size", .int 77)] = .ok m ∧
      Follow [p!"ack_report_computed_task", p!"report_computed_task"] m x ∧
      getAttr x.attrs p!"size" ≠ .int 77) ∧
    ∃ E G keccak d m, make E G keccak d .TaskToCompute [(p!"ethsig", .bytes (vk 1))] = .ok m ∧
      getAttr m.attrs p!"ethsig" ≠ .bytes (vk 1) := by
  refine ⟨⟨mixEnv, fun _ _ _ => .ok .none, toyKeccak, draws,
    found (toyMake .VerdictReportComputedTask
      [(p!"ack_report_computed_task__report_computed_task__size", .int 77)]) [],
    found (toyMake .VerdictReportComputedTask
      [(p!"ack_report_computed_task__report_computed_task__size", .int 77)])
      [p!"ack_report_computed_task", p!"report_computed_task"], ?_,
    ⟨found (toyMake .VerdictReportComputedTask
      [(p!"ack_report_computed_task__report_computed_task__size", .int 77)]) [p!"ack_report_computed_task"],
      ?_, _, ?_, rfl⟩, ?_⟩, mixEnv, fun _ _ _ => .ok .none, toyKeccak, draws,
    found (toyMake .TaskToCompute [(p!"ethsig", .bytes (vk 1))]) [], ?_, ?_⟩ <;> decide +kernel

/-- C91 fails for messages that are changed after they are signed: a rejection made with a task in
it, a verdict, and a token for downloads. -/
theorem sign_reaches_refuted :
    (∃ E G keccak d priv pub m, Spec.KeyPair E priv pub ∧
      makeVariant E G keccak d .withTaskToCompute [(p!"sign__privkey", .bytes priv)] = .ok m ∧
      m.verifySig E pub = .error .invalidSignature) ∧
    (∃ E G keccak d priv pub m, Spec.KeyPair E priv pub ∧
      make E G keccak d .VerdictReportComputedTask
        [(p!"force_report_computed_task__report_computed_task__size", .int 77),
          (p!"sign__privkey", .bytes priv)] = .ok m ∧
      m.verifySig E pub = .error .invalidSignature) ∧
    ∃ E G keccak d priv pub m x, Spec.KeyPair E priv pub ∧
      make E G keccak d .ForceGetTaskResultDownload
        [(joined [p!"file_transfer_token"] p!"sign__privkey", .bytes priv)] = .ok m ∧
      Follow [p!"file_transfer_token"] m x ∧ x.verifySig E pub = .error .invalidSignature := by
  refine ⟨⟨mixEnv, fun _ _ _ => .ok .none, toyKeccak, draws, sk 5, vk 5,
    found (makeVariant mixEnv (fun _ _ _ => .ok .none) toyKeccak draws .withTaskToCompute
      [(p!"sign__privkey", .bytes (sk 5))]) [], mix_keys 5, ?_, ?_⟩,
    ⟨mixEnv, fun _ _ _ => .ok .none, toyKeccak, draws, sk 5, vk 5,
    found (toyMake .VerdictReportComputedTask [(p!"force_report_computed_task__report_computed_task__size", .int 77),
      (p!"sign__privkey", .bytes (sk 5))]) [], mix_keys 5, ?_, ?_⟩,
    mixEnv, fun _ _ _ => .ok .none, toyKeccak, draws, sk 5, vk 5,
    found (toyMake .ForceGetTaskResultDownload [(p!"file_transfer_token__sign__privkey", .bytes (sk 5))]) [],
    found (toyMake .ForceGetTaskResultDownload [(p!"file_transfer_token__sign__privkey", .bytes (sk 5))])
      [p!"file_transfer_token"], mix_keys 5, ?_, ⟨_, ?_, rfl⟩, ?_⟩ <;> decide +kernel

end Verif.Props
