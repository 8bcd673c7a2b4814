import Verif.Lemmas.Construct
import Verif.Lemmas.Toy
import Verif.Props.RoundTrip
import Verif.Props.Version
import Verif.Spec.Names
/-!
# C59, C60, C61, C62: building messages
-/

set_option linter.unusedSimpArgs false

namespace Verif.Props

open Verif Spec

theorem new_ok {E : Env} {G : Getter} {now : Int} {c : Cls} {hdr : Option (Val × Val × Val)}
    {sig slots : Val} {des : Bool} {kw : List (PStr × Val)} {m : Msg}
    (h : newMessage E G now c hdr sig slots des kw = .ok m) :
    ∃ loaded as, loadSlots E (loadMsg E maxDepth) c (dictOf slots) c.payload = .ok loaded ∧
      applyKws G c (kw.filter fun kv => !takesConnId c kv) (seedConnId c kw loaded) = .ok as ∧
      m.cls = c ∧ m.sig = sig ∧
      (m.ty, m.ts, m.enc) = hdr.getD (.int c.typeId, .int now, .bool false) ∧
      m.attrs = ownVersion E c des (postInit c as) := by
  unfold newMessage at h
  split at h
  · cases h
  rename_i loaded hl
  split at h
  · cases h
  rename_i as ha
  refine ⟨loaded, as, wrapLoad_ok hl, ha, ?_⟩
  cases hdr <;> (injection h with h; subst h; exact ⟨rfl, rfl, rfl, rfl⟩)

private theorem seed_names {c : Cls} {kw : List (PStr × Val)} {as : Attrs}
    (h : as.map Prod.fst = c.payload) : (seedConnId c kw as).map Prod.fst = c.payload := by
  unfold seedConnId
  split
  · rename_i hc
    rw [setName_names _ _ _ (by rw [h, hc]; decide), h]
  · exact h

private theorem filter_nodup {kw : List (PStr × Val)} (p : PStr × Val → Bool)
    (h : (kw.map Prod.fst).Nodup) : ((kw.filter p).map Prod.fst).Nodup :=
  List.Nodup.sublist (List.Sublist.map _ List.filter_sublist) h

private theorem getAttr_filter {c : Cls} : ∀ (kw : List (PStr × Val)) (n : PStr),
    ¬ (c = .StartSessionResponse ∧ n = p!"conn_id") →
    getAttr (kw.filter fun kv => !takesConnId c kv) n = getAttr kw n
  | [], _, _ => rfl
  | (k, v) :: rest, n, h => by
    have ih := getAttr_filter rest n h
    by_cases ht : takesConnId c (k, v) = true
    · rw [List.filter_cons_of_neg (by simp [ht]), ih]
      have hk : ¬ k = n := by
        rintro rfl
        unfold takesConnId at ht
        simp only [Bool.and_eq_true, beq_iff_eq] at ht
        exact h ht
      simp [getAttr, lookupName, hk]
    · rw [List.filter_cons_of_pos (by simpa using ht)]
      unfold getAttr at ih ⊢
      simp only [lookupName]
      by_cases hk : k = n
      · simp [hk]
      · simp only [if_neg hk]; exact ih

private theorem own_get {E : Env} {c : Cls} {des : Bool} {as : Attrs} {n : PStr}
    (hn : n ≠ p!"_version") : getAttr (ownVersion E c des as) n = getAttr as n := by
  unfold ownVersion
  split
  · rw [getAttr_setName, if_neg hn]
  · rfl

private theorem post_get {c : Cls} {as : Attrs} {n : PStr}
    (h : as.map Prod.fst = c.payload ∨ c = .Hello) :
    getAttr (postInit c as) n = defaulted c n (getAttr as n) := by
  rcases h with h | h
  · exact getAttr_postInit h n
  · subst h
    simp [postInit, defaulted]

/-- The fields of a constructed message in terms of the loaded slots. -/
theorem new_fields {E : Env} {G : Getter} {now : Int} {c : Cls} {hdr : Option (Val × Val × Val)}
    {sig slots : Val} {des : Bool} {kw : List (PStr × Val)} {m : Msg}
    (h : newMessage E G now c hdr sig slots des kw = .ok m) (hnd : (kw.map Prod.fst).Nodup) :
    ∃ loaded, loadSlots E (loadMsg E maxDepth) c (dictOf slots) c.payload = .ok loaded ∧
      ∀ n ∈ c.payload, getAttr m.attrs n = defaulted c n
        (if (c = .StartSessionResponse ∧ n = p!"conn_id") ∨ getAttr loaded n = .none then getAttr kw n
         else getAttr loaded n) := by
  obtain ⟨loaded, as, hl, ha, hc, _, _, hm⟩ := new_ok h
  refine ⟨loaded, hl, fun n hn => ?_⟩
  have hln := loadSlots_names hl
  have hsn := seed_names (kw := kw) hln
  have hne : n ≠ p!"_version" := fun e => payload_no_version c (e ▸ hn)
  have hnames := applyKws_names ha (fun x hx => by rw [hsn]; exact hx)
  rw [hsn] at hnames
  rw [hm, own_get hne, post_get (by
    rcases hnames with h | h
    · exact Or.inl h.1
    · exact Or.inr h.1)]
  rw [applyKws_get ha (filter_nodup _ hnd) n]
  simp only [nameKind_payload hn, true_and]
  by_cases hs : c = .StartSessionResponse ∧ n = p!"conn_id"
  · obtain ⟨rfl, rfl⟩ := hs
    simp only [and_self, true_or, if_true]
    have h1 : getAttr (seedConnId .StartSessionResponse kw loaded) p!"conn_id" = getAttr kw p!"conn_id" := by
      unfold seedConnId
      rw [if_pos rfl, getAttr_setName, if_pos rfl]
    have h2 : getAttr (kw.filter fun kv => !takesConnId .StartSessionResponse kv) p!"conn_id" = .none := by
      unfold getAttr
      rw [(lookupName_none _ _).mpr]
      intro hmem
      obtain ⟨kv, hkv, hk⟩ := List.mem_map.mp hmem
      have := (List.mem_filter.mp hkv).2
      simp [takesConnId, hk] at this
    rw [h1, h2]
    split
    · rename_i g; rw [g]
    · rfl
  · have h1 : getAttr (seedConnId c kw loaded) n = getAttr loaded n := by
      unfold seedConnId
      split
      · rename_i hc'
        rw [getAttr_setName, if_neg (fun e => hs ⟨hc', e⟩)]
      · rfl
    rw [h1, getAttr_filter kw n hs]
    simp only [hs, false_or]

/-! ### C59 -/

/-- C59: a message built with field values has exactly these values, `None` for the fields not
given, class defaults filled in; its header carries the type of the class, the current time
and no encryption; nothing else is stored, except that `Hello` gets the library version.
Construction cannot fail. -/
theorem constructed_fields (E : Env) (G : Getter) (now : Int) (c : Cls) (kw : List (PStr × Val))
    (hnd : (kw.map Prod.fst).Nodup) (hin : ∀ k ∈ kw.map Prod.fst, k ∈ c.payload) :
    ∃ m, newMessage E G now c none .none .none false kw = .ok m ∧
      m.cls = c ∧ m.ty = .int c.typeId ∧ m.ts = .int now ∧ m.enc = .bool false ∧ m.sig = .none ∧
      m.attrs.map Prod.fst = c.payload ++ (if c = .Hello then [p!"_version"] else []) ∧
      (c = .Hello → getAttr m.attrs p!"_version" = .str E.version) ∧
      ∀ name ∈ c.payload, ∀ v, ((name, v) ∈ kw → getAttr m.attrs name = defaulted c name v) ∧
        (name ∉ kw.map Prod.fst → getAttr m.attrs name = defaulted c name .none) := by
  have hl := loadSlots_empty E (loadMsg E maxDepth) c c.payload
  have hln := loadSlots_names hl
  have hsn := seed_names (kw := kw) hln
  obtain ⟨as, ha⟩ := applyKws_total (G := G) (c := c)
    (kw := kw.filter fun kv => !takesConnId c kv)
    (as := seedConnId c kw (c.payload.map fun n => (n, Val.none))) (by
      intro k hk
      obtain ⟨kv, hkv, rfl⟩ := List.mem_map.mp hk
      exact nameKind_payload (hin _ (List.mem_map.mpr ⟨kv, (List.mem_filter.mp hkv).1, rfl⟩)))
  have hnew : newMessage E G now c none .none .none false kw =
      .ok ⟨c, .int c.typeId, .int now, .bool false, .none, ownVersion E c false (postInit c as)⟩ := by
    unfold newMessage
    rw [dictOf_none, hl]
    simp only [wrapLoad]
    rw [ha]
  refine ⟨_, hnew, rfl, rfl, rfl, rfl, rfl, ?_⟩
  obtain ⟨loaded, hl', hf⟩ := new_fields hnew hnd
  rw [dictOf_none, hl] at hl'
  injection hl' with hl'
  subst hl'
  have hnames := applyKws_names ha (fun x hx => by rw [hsn]; exact hx)
  rw [hsn] at hnames
  have hv : p!"_version" ∉ (kw.filter fun kv => !takesConnId c kv).map Prod.fst := by
    intro hm
    obtain ⟨kv, hkv, hk⟩ := List.mem_map.mp hm
    exact payload_no_version c (hk ▸ hin _ (List.mem_map.mpr ⟨kv, (List.mem_filter.mp hkv).1, rfl⟩))
  have hn : as.map Prod.fst = c.payload := by
    rcases hnames with h | h
    · exact h.1
    · exact absurd h.2.2.1 hv
  have hp : (postInit c as).map Prod.fst = c.payload := by rw [postInit_names, hn]
  have hlk : lookupName p!"_version" (postInit c as) = none := by
    rw [lookupName_none, hp]; exact payload_no_version c
  refine ⟨?_, ?_, ?_⟩
  · simp only [ownVersion]
    by_cases hc : c = .Hello
    · rw [if_pos ⟨hc, trivial, by rw [hlk]; rfl⟩, if_pos hc,
        setName_names_new (by rw [hp]; exact payload_no_version c), List.map_append, hp]
      rfl
    · rw [if_neg (fun g => hc g.1), if_neg hc, hp, List.append_nil]
  · intro hc
    simp only [ownVersion]
    rw [if_pos ⟨hc, trivial, by rw [hlk]; rfl⟩, getAttr_setName, if_pos rfl]
  · intro name hname v
    have := hf name hname
    rw [getAttr_blank] at this
    simp only [or_true, if_true] at this
    refine ⟨fun hmem => ?_, fun hnot => ?_⟩
    · rw [this, getAttr_of_mem hnd hmem]
    · rw [this]
      unfold getAttr
      rw [(lookupName_none _ _).mpr hnot]

/-- An offer built from three of its fields. -/
example : newMessage toyEnv (fun _ _ _ => .ok .none) 1500000000 .WantToComputeTask none .none .none false
      [(p!"price", .int 5), (p!"concent_enabled", .int 1), (p!"perf_index", .none)] =
    .ok ⟨.WantToComputeTask, .int 2001, .int 1500000000, .bool false, .none,
      [(p!"perf_index", .none), (p!"cpu_usage", .none), (p!"max_resource_size", .none),
       (p!"max_memory_size", .none), (p!"price", .int 5), (p!"num_subtasks", .int 1),
       (p!"concent_enabled", .bool true), (p!"extra_data", .none), (p!"provider_public_key", .none),
       (p!"provider_ethereum_address", .none), (p!"task_header", .none)]⟩ := by decide +kernel

/-! ### C60 -/

/-- C60 (partial): keyword arguments only fill fields that the slots leave empty.  A field the slots
give a value to keeps it; a field that is absent from the slots or read as `None` gets the
keyword argument.  Missing, because false: `conn_id` of `StartSessionResponse`
(`keyword_wins_refuted`). -/
theorem keywords_fill_gaps_partial (E : Env) (G : Getter) (now : Int) (c : Cls)
    (hdr : Option (Val × Val × Val)) (sig : Val) (des : Bool) (ps : List (Val × Val))
    (kw : List (PStr × Val)) (m : Msg)
    (h : newMessage E G now c hdr sig (wirePairs ps) des kw = .ok m)
    (hk : ∀ q ∈ ps, q.1.hashable = true) (hnd : (kw.map Prod.fst).Nodup)
    (name : PStr) (hn : name ∈ c.payload)
    (hc : ¬ (c = .StartSessionResponse ∧ name = p!"conn_id")) :
    (lastValue name ps = none → getAttr m.attrs name = defaulted c name (getAttr kw name)) ∧
    ∀ w, lastValue name ps = some w →
      ∃ v, deserSlot E (loadMsg E maxDepth) c name w = .ok v ∧
        (v ≠ .none → getAttr m.attrs name = defaulted c name v) ∧
        (v = .none → getAttr m.attrs name = defaulted c name (getAttr kw name)) := by
  obtain ⟨loaded, hl, hf⟩ := new_fields h hnd
  have hg := (loadSlots_get hl (payload_nodup c) name hn).2 hc
  rw [dictOf_wire ps hk] at hg
  have := hf name hn
  simp only [hc, false_or] at this
  refine ⟨fun hv => ?_, fun w hw => ?_⟩
  · rw [hg.1 hv] at this
    simpa using this
  · refine ⟨getAttr loaded name, hg.2 w hw, fun hv => ?_, fun hv => ?_⟩
    · rw [if_neg hv] at this; exact this
    · rw [if_pos hv] at this; exact this

/-- C60 is false for `StartSessionResponse`: the keyword argument wins over the slots. -/
theorem keyword_wins_refuted :
    ∃ (c : Cls) (name : PStr) (m : Msg), name ∈ c.payload ∧
      newMessage toyEnv (fun _ _ _ => .ok .none) 0 c none .none
        (wirePairs [(.str name, .int 1)]) false [(name, .int 2)] = .ok m ∧
      getAttr m.attrs name = .int 2 :=
  ⟨.StartSessionResponse, p!"conn_id",
    ⟨.StartSessionResponse, .int 2016, .int 0, .bool false, .none, [(p!"conn_id", .int 2)]⟩,
    by decide, by decide +kernel, by decide⟩

/-- A received message is built by the same constructor: `deserialize_with_header` passes the
decoded slots and, for `Hello`, the version as keyword argument. -/
theorem received_is_constructed (E : Env) (G : Getter) (now : Int) (c : Cls) (h : Header)
    (sig : Bytes) (version : Option PStr) (slots : Val)
    (hv : version.isSome = true ↔ c = .Hello) :
    construct E c h sig version slots =
      newMessage E G now c (some (.int h.type, .int h.timestamp, .bool h.encrypted)) (.bytes sig) slots
        true (version.toList.map fun v => (p!"_version", .str v)) := by
  unfold construct loadAttrs newMessage
  cases hl : loadSlots E (loadMsg E maxDepth) c (dictOf slots) c.payload with
  | error e => cases e <;> rfl
  | ok loaded =>
    have hn := loadSlots_names hl
    simp only [wrapLoad]
    cases version with
    | none =>
      have hc : c ≠ .Hello := fun e => by simpa using hv.mpr e
      have hs : seedConnId c ([] : List (PStr × Val)) loaded = loaded := by
        unfold seedConnId
        split
        · rename_i hc'
          subst hc'
          have : getAttr loaded p!"conn_id" = .none :=
            (loadSlots_get hl (payload_nodup _) p!"conn_id" (by decide)).1 ⟨rfl, rfl⟩
          refine attrs_ext (setName_names _ _ _ (by rw [hn]; decide)) ?_ ?_
          · rw [setName_names _ _ _ (by rw [hn]; decide), hn]; decide
          · intro n _
            rw [getAttr_setName]
            split
            · rename_i hx; rw [hx, this]; rfl
            · rfl
        · rfl
      simp only [Option.toList, List.map_nil, List.filter_nil, hs, applyKws, ownVersion]
      rw [if_neg (fun g => hc g.1)]
    | some v =>
      have hc : c = .Hello := hv.mp rfl
      subst hc
      simp only [Option.toList, List.map_cons, List.map_nil]
      have hf : ([(p!"_version", Val.str v)].filter fun kv => !takesConnId .Hello kv) =
          [(p!"_version", Val.str v)] := rfl
      rw [hf]
      have hg : getAttr loaded p!"_version" = .none := by
        unfold getAttr
        rw [(lookupName_none _ _).mpr (by rw [hn]; exact payload_no_version _)]
      have hset : setName p!"_version" (.str v) loaded = loaded ++ [(p!"_version", .str v)] :=
        setName_names_new (by rw [hn]; exact payload_no_version _)
      simp only [applyKws, applyKw_slot (show Cls.nameKind .Hello p!"_version" = .slot from rfl),
        seedConnId, if_neg (show ¬ Cls.Hello = .StartSessionResponse by decide), hg, if_true, hset,
        postInit, ownVersion]
      rw [if_neg (fun g => by simp at g)]

/-! ### C61 -/

/-- C61: whatever keyword arguments are given, a constructed message stores nothing but its
declared fields, and for `Hello` possibly the version. -/
theorem nothing_else_stored (E : Env) (G : Getter) (now : Int) (c : Cls)
    (hdr : Option (Val × Val × Val)) (sig slots : Val) (des : Bool) (kw : List (PStr × Val)) (m : Msg)
    (h : newMessage E G now c hdr sig slots des kw = .ok m) :
    m.attrs.map Prod.fst = c.payload ∨
    (c = .Hello ∧ m.attrs.map Prod.fst = c.payload ++ [p!"_version"]) := by
  obtain ⟨loaded, as, hl, ha, hc, _, _, hm⟩ := new_ok h
  have hsn := seed_names (kw := kw) (loadSlots_names hl)
  have hnames := applyKws_names ha (fun x hx => by rw [hsn]; exact hx)
  rw [hsn] at hnames
  rw [hm]
  unfold ownVersion
  rcases hnames with ⟨hn, _⟩ | ⟨hh, _, _, hn⟩
  · have hp : (postInit c as).map Prod.fst = c.payload := by rw [postInit_names, hn]
    split
    · rename_i g
      right
      refine ⟨g.1, ?_⟩
      rw [setName_names_new (by rw [hp]; exact payload_no_version c), List.map_append, hp]
      rfl
    · exact Or.inl hp
  · right
    have hp : (postInit c as).map Prod.fst = c.payload ++ [p!"_version"] := by rw [postInit_names, hn]
    refine ⟨hh, ?_⟩
    split
    · rename_i g
      have : p!"_version" ∉ (postInit c as).map Prod.fst := by
        rw [← lookupName_none]
        simpa using g.2.2
      exact absurd (by rw [hp]; simp) this
    · exact hp

private theorem absent_names {c : Cls} {name : PStr} (hp : name ∉ c.payload) (hv : ¬ (c = .Hello ∧ name = p!"_version"))
    (ha : name ∉ classAttributes c) (hr : name ∈ classProperties c → name = p!"timestamp" ∨ name = p!"encrypted") :
    c.nameKind name = .absent := by
  have h1 : ∀ c ∈ Cls.all, ∀ n ∈ c.properties, n ∈ classProperties c ∧ n ≠ p!"timestamp" ∧ n ≠ p!"encrypted" := by
    decide +kernel
  have h2 : ∀ c ∈ Cls.all, ∀ n ∈ messageNames ++ c.bodyNames ++ (if c.isTask then taskNames else []),
      n ∈ classAttributes c ∨ (n ∈ classProperties c ∧ n ≠ p!"timestamp" ∧ n ≠ p!"encrypted") := by decide +kernel
  have hall : c ∈ Cls.all := by cases c <;> decide
  have hno : ∀ n, n ∈ classProperties c ∧ n ≠ p!"timestamp" ∧ n ≠ p!"encrypted" → name ≠ n := by
    rintro n ⟨hn, h3, h4⟩ rfl
    exact (hr hn).elim h3 h4
  unfold Cls.nameKind
  rw [if_neg, if_neg, if_neg]
  · simp only [Bool.or_eq_true, List.contains_iff_mem, Bool.and_eq_true]
    intro hx
    rcases h2 c hall name (by
      rcases hx with (hx | hx) | ⟨h5, hx⟩
      · exact List.mem_append_left _ (List.mem_append_left _ hx)
      · exact List.mem_append_left _ (List.mem_append_right _ hx)
      · exact List.mem_append_right _ (by rw [if_pos h5]; exact hx)) with h | h
    · exact ha h
    · exact hno name h rfl
  · simp only [List.contains_iff_mem]
    exact fun hx => hno name (h1 c hall name hx) rfl
  · simp only [Bool.or_eq_true, List.contains_iff_mem, Bool.and_eq_true, beq_iff_eq]
    exact fun hx => hx.elim hp hv

/-- C61 (partial): a keyword that names neither a field nor anything else the class body or its bases have is
refused with `AttributeError`; so are `timestamp` and `encrypted`.  Missing, because false: names of class
attributes and methods (`class_attribute_ignored`). -/
theorem unknown_keyword_refused_partial (E : Env) (G : Getter) (now : Int) (c : Cls)
    (hdr : Option (Val × Val × Val)) (sig : Val) (des : Bool) (kw : List (PStr × Val)) (name : PStr)
    (hk : name ∈ kw.map Prod.fst) (hp : name ∉ c.payload) (hv : ¬ (c = .Hello ∧ name = p!"_version"))
    (hat : name ∉ classAttributes c)
    (hpr : name ∈ classProperties c → name = p!"timestamp" ∨ name = p!"encrypted")
    (hG : ∀ n as e, G c n as = .error e → e = .attributeError) :
    newMessage E G now c hdr sig .none des kw = .error .attributeError := by
  have ha := absent_names hp hv hat hpr
  unfold newMessage
  rw [dictOf_none, loadSlots_empty]
  simp only [wrapLoad]
  have hk' : name ∈ (kw.filter fun kv => !takesConnId c kv).map Prod.fst := by
    obtain ⟨kv, hkv, rfl⟩ := List.mem_map.mp hk
    refine List.mem_map.mpr ⟨kv, List.mem_filter.mpr ⟨hkv, ?_⟩, rfl⟩
    have : takesConnId c kv = false := by
      cases ht : takesConnId c kv with
      | false => rfl
      | true =>
        unfold takesConnId at ht
        simp only [Bool.and_eq_true, beq_iff_eq] at ht
        rw [ht.1, ht.2] at ha
        cases ha
    rw [this]; rfl
  obtain ⟨e, he, hee⟩ := applyKws_absent (G := G) ha (as := seedConnId c kw
    (c.payload.map fun n => (n, Val.none))) hk'
  rw [he]
  simp only
  by_cases hx : e = .attributeError
  · rw [hx]
  · rw [hee fun n a hn => hx (hG n a e hn)]

example : p!"nodes" ∉ Cls.payload .Peers ∧ p!"nodes" ∉ classAttributes .Peers ∧ p!"nodes" ∉ classProperties .Peers ∧
    newMessage toyEnv (fun _ _ _ => .ok .none) 0 .Peers none .none .none false
      [(p!"peers", .list []), (p!"nodes", .int 1)] = .error .attributeError := by decide +kernel

private theorem lookup_skip {n k : PStr} (h : k ≠ n) (v : Val) (l1 l2 : List (PStr × Val)) :
    lookupName n (l1 ++ (k, v) :: l2) = lookupName n (l1 ++ l2) := by
  induction l1 with
  | nil =>
    show (if k = n then some v else lookupName n l2) = _
    rw [if_neg h]
    rfl
  | cons p ps ih =>
    simp only [List.cons_append]
    unfold lookupName
    rw [ih]

private theorem skip_keyword {E : Env} {G : Getter} {now : Int} {c : Cls} {hdr : Option (Val × Val × Val)}
    {sig slots : Val} {des : Bool} {kw1 kw2 : List (PStr × Val)} {name : PStr} {v : Val} (hp : name ∉ c.payload)
    (hx : ∀ as, applyKw G c name v as = .ok as) :
    newMessage E G now c hdr sig slots des (kw1 ++ (name, v) :: kw2) =
      newMessage E G now c hdr sig slots des (kw1 ++ kw2) := by
  have h3 : ∀ as, applyKws G c ((kw1 ++ (name, v) :: kw2).filter fun kv => !takesConnId c kv) as =
      applyKws G c ((kw1 ++ kw2).filter fun kv => !takesConnId c kv) as := by
    induction kw1 with
    | nil =>
      intro as
      simp only [List.nil_append, List.filter_cons]
      split
      · rw [applyKws, hx]
      · rfl
    | cons kv kws ih =>
      intro as
      simp only [List.cons_append, List.filter_cons]
      split
      · unfold applyKws
        split
        · rfl
        · exact ih _
      · exact ih as
  have h4 : ∀ as, seedConnId c (kw1 ++ (name, v) :: kw2) as = seedConnId c (kw1 ++ kw2) as := by
    intro as
    unfold seedConnId
    split
    · rename_i hs
      have hne : name ≠ p!"conn_id" := by
        rintro rfl
        exact hp (by rw [hs]; decide)
      have := lookup_skip hne v kw1 kw2
      unfold getAttr
      rw [this]
    · rfl
  unfold newMessage
  split
  · rfl
  · rw [h4, h3]

/-- C61 is false for the names of class attributes and methods: a keyword with such a name is dropped,
whatever its value is. -/
theorem class_attribute_ignored (E : Env) (G : Getter) (now : Int) (c : Cls)
    (hdr : Option (Val × Val × Val)) (sig slots : Val) (des : Bool) (kw1 kw2 : List (PStr × Val)) (name : PStr) (v : Val)
    (hp : name ∉ c.payload) (hn : name ∈ classAttributes c) :
    newMessage E G now c hdr sig slots des (kw1 ++ (name, v) :: kw2) =
      newMessage E G now c hdr sig slots des (kw1 ++ kw2) := by
  have h1 : ∀ c ∈ Cls.all, ∀ n ∈ classAttributes c, n ∉ c.payload → c.nameKind n = .const := by decide +kernel
  have hall : c ∈ Cls.all := by cases c <;> decide
  have hc := h1 c hall name hn hp
  exact skip_keyword hp fun as => by unfold applyKw; rw [hc]

private theorem property_names {c : Cls} {name : PStr} (hp : name ∉ c.payload) (hn : name ∈ classProperties c)
    (h1 : name ≠ p!"timestamp") (h2 : name ≠ p!"encrypted") :
    c.nameKind name = .prop ∨ (c.nameKind name = .const ∧ (name = p!"_type" ∨ name = p!"ENUM_SLOTS")) := by
  have h3 : ∀ c ∈ Cls.all, ∀ n ∈ classProperties c, n ∉ c.payload → n ≠ p!"timestamp" → n ≠ p!"encrypted" →
      c.nameKind n = .prop ∨ (c.nameKind n = .const ∧ (n = p!"_type" ∨ n = p!"ENUM_SLOTS")) := by decide +kernel
  exact h3 c (by cases c <;> decide) name hn hp h1 h2

/-- C61 is false for the names of properties too: if the property has a value other than `None`, a keyword
with its name is dropped. -/
theorem property_ignored (E : Env) (G : Getter) (now : Int) (c : Cls)
    (hdr : Option (Val × Val × Val)) (sig slots : Val) (des : Bool) (kw1 kw2 : List (PStr × Val)) (name : PStr) (v : Val)
    (hp : name ∉ c.payload) (hn : name ∈ classProperties c) (h1 : name ≠ p!"timestamp") (h2 : name ≠ p!"encrypted")
    (hG : ∀ as, ∃ w, G c name as = .ok w ∧ w ≠ .none) :
    newMessage E G now c hdr sig slots des (kw1 ++ (name, v) :: kw2) =
      newMessage E G now c hdr sig slots des (kw1 ++ kw2) := by
  refine skip_keyword hp fun as => ?_
  unfold applyKw
  rcases property_names hp hn h1 h2 with h | ⟨h, _⟩
  · rw [h]
    dsimp only
    obtain ⟨w, hw, hne⟩ := hG as
    rw [hw]
    exact if_neg hne
  · rw [h]

/-- C61: a keyword with the name of a property that is `None` or cannot be read is refused with `AttributeError`
(`_type` and `ENUM_SLOTS` always have a value). -/
theorem property_refused (E : Env) (G : Getter) (now : Int) (c : Cls)
    (hdr : Option (Val × Val × Val)) (sig : Val) (des : Bool) (v : Val) (name : PStr)
    (hp : name ∉ c.payload) (hn : name ∈ classProperties c) (h1 : name ≠ p!"_type") (h2 : name ≠ p!"ENUM_SLOTS")
    (hG : ∀ as, G c name as = .ok .none ∨ G c name as = .error .attributeError) :
    newMessage E G now c hdr sig .none des [(name, v)] = .error .attributeError := by
  have hkw : ∀ as, applyKw G c name v as = .error .attributeError := by
    intro as
    unfold applyKw
    by_cases ht : name = p!"timestamp" ∨ name = p!"encrypted"
    · have : c.nameKind name = .absent := by
        have h3 : ∀ c ∈ Cls.all, c.nameKind p!"timestamp" = .absent ∧ c.nameKind p!"encrypted" = .absent := by
          decide +kernel
        have := h3 c (by cases c <;> decide)
        rcases ht with rfl | rfl
        · exact this.1
        · exact this.2
      rw [this]
    · rcases property_names hp hn (fun e => ht (.inl e)) (fun e => ht (.inr e)) with h | ⟨_, h⟩
      · rw [h]
        dsimp only
        rcases hG as with e | e <;> rw [e]
        exact if_pos rfl
      · exact (h.elim h1 h2).elim
  have hc : takesConnId c (name, v) = false := by
    cases ht : takesConnId c (name, v) with
    | false => rfl
    | true =>
      unfold takesConnId at ht
      simp only [Bool.and_eq_true, beq_iff_eq] at ht
      exact absurd (by rw [ht.1, ht.2]; decide) hp
  unfold newMessage
  rw [dictOf_none, loadSlots_empty]
  simp only [wrapLoad, List.filter_cons, hc, Bool.not_false, if_true, List.filter_nil]
  rw [applyKws, hkw]

/-- `TaskFailure(requestor_id=...)` without task: the property has no value. -/
example : p!"requestor_id" ∈ classProperties .TaskFailure ∧ p!"requestor_id" ∉ Cls.payload .TaskFailure ∧
    newMessage toyEnv (fun _ _ _ => .ok .none) 0 .TaskFailure none .none .none false
      [(p!"requestor_id", .str p!"x")] = .error .attributeError ∧
    newMessage toyEnv (fun _ _ _ => .ok (.str p!"y")) 0 .Ping none .none .none false
      [(p!"_type", .str p!"x")] = newMessage toyEnv (fun _ _ _ => .ok .none) 0 .Ping none .none .none false [] := by
  decide +kernel

/-- C61 is false for the names of class attributes and methods: `Ping(SIGN=True)` is built
without complaint, and the value is dropped. -/
theorem class_attribute_ignored_refuted :
    ∃ (c : Cls) (name : PStr) (m : Msg), name ∉ c.payload ∧
      newMessage toyEnv (fun _ _ _ => .ok .none) 0 c none .none .none false [(name, .bool true)] = .ok m ∧
      m.attrs = [] :=
  ⟨.Ping, p!"SIGN", ⟨.Ping, .int 1001, .int 0, .bool false, .none, []⟩, by decide, by decide +kernel, rfl⟩

/-! ### C62 -/

/-- C62 (partial): a message that is built now from values of the declared kinds, dumped for a recipient,
and received within the time limits by a node with a compatible library, arrives as it was
sent - unless the validation of its class refuses it.  Missing, because false: a `conn_id` of
`StartSessionResponse` (`conn_id_refuted`) and empty lists of messages (`empty_list_refuted`). -/
theorem fresh_message_arrives_partial (E : Env) (G : Getter) (encrypt dec : Bytes → Bytes → Res Bytes) (now : Nat)
    (c : Cls) (kw : List (PStr × Val)) (m m' : Msg) (priv rpub rpriv : Option Bytes) (b : Bytes)
    (laterUs : Int) (own : Ver)
    (hnd : (kw.map Prod.fst).Nodup) (hin : ∀ k ∈ kw.map Prod.fst, k ∈ c.payload)
    (hnew : newMessage E G now c none .none .none false kw = .ok m)
    (hw : WellTypedMsg E m)
    (hdump : dump E encrypt m priv rpub = (.ok b, m'))
    (hrange : minTimestamp < now ∧ now < maxTimestamp)
    (hlate : laterUs ≤ (now + 600) * 1000000) (hearly : (now - 300) * 1000000 ≤ laterUs)
    (hown : E.version = own.text) (hwf : own.Wf) (hlen : own.text.length ≤ 31)
    (hrel : ¬ (own.patch = 0 ∧ own.pre ≠ []))
    (hsg : ∀ k x s, priv = some k → E.sign k x = .ok s → s.length = 65)
    (hdec : ∀ k p c, rpub = some k → encrypt k p = .ok c →
      c ≠ [] ∧ loadDecrypt dec rpriv c = .ok p) :
    (m'.cls = c ∧ m'.ts = .int now ∧ m'.attrs = m.attrs) ∧
    (load E dec (some b) rpriv none true laterUs).2 = taskChecks E m' := by
  obtain ⟨m0, h0, hcls, hty, hts, henc, hsig, hnm, hver, hf⟩ := constructed_fields E G now c kw hnd hin
  rw [hnew] at h0
  injection h0 with h0
  subst h0
  have hgk : ∀ {k}, givenKey priv = some k → priv = some k := by
    intro k hk
    cases priv with
    | none => cases hk
    | some x =>
      cases x with
      | nil => cases hk
      | cons y ys => exact hk
  have hd : ∀ {f : Option (Bytes → Res Bytes)} {b0 : Bytes}, Nonempty (Dumped E m priv f b0 m') →
      ∀ s, m'.sig = .bytes s → s.length = 65 := by
    rintro f b0 ⟨⟨sl, pl, hd, sg, bd, hsl, hpl, hm, hhd, hb, hbody, hs⟩⟩ s hms
    rw [hm] at hms
    injection hms with hms
    subst hms
    rw [hsig] at hs
    rcases hs with ⟨h1, _⟩ | ⟨_, ⟨_, key, hh, h1, _, h2⟩ | ⟨_, rfl⟩⟩
    · cases h1
    · exact hsg key _ sg (hgk h1) h2
    · rfl
  have hss : ∀ s, m'.sig = .bytes s → s.length = 65 := by
    rcases serialize_ok (show serialize E m priv ((givenKey rpub).map encrypt) = (.ok b, m') from hdump) with
      h | ⟨_, b0, v, h, _⟩
    · exact hd h.2
    · exact hd h
  have htime : verifyTime laterUs now = .ok () := by
    unfold verifyTime
    unfold minTimestamp maxTimestamp at hrange
    rw [if_neg (by simp; omega), if_neg (by simp only [msgTtl]; omega),
      if_neg (by simp only [futureTolerance]; omega)]
  have := dump_load_roundtrip_partial E encrypt dec m m' priv rpub rpriv b now true laterUs hdump hw
    (by rw [hty, hcls]) hts hrange (fun _ => htime) hss (by
      intro v hv hh
      rw [hver (hcls ▸ hh)] at hv
      injection hv with hv
      rw [← hv, hown]
      refine ⟨hlen, verText_ascii own hwf, ((verify_version_decision own hwf own.text).1).mpr ⟨hrel, own, hwf,
        Or.inl (text_said own), rfl, rfl, hrel⟩⟩) hdec
  refine ⟨⟨this.1.1.trans hcls, this.1.2.2.1.trans hts, this.1.2.2.2.1⟩, this.2⟩

/-- A fresh `RandVal`, signed and sent: the hypotheses are met and it arrives. -/
example : ∃ (m m' : Msg) (b : Bytes),
    newMessage toyEnv (fun _ _ _ => .ok .none) (1500000000 : Nat) .RandVal none .none .none false
      [(p!"rand_val", .int 42)] = .ok m ∧
    WellTypedMsg toyEnv m ∧
    dump toyEnv (fun _ d => .ok d) m (some (List.replicate 32 7)) none = (.ok b, m') ∧
    (load toyEnv (fun _ d => .ok d) (some b) none none true 1500000100000000).2 = .ok m' := by
  refine ⟨⟨.RandVal, .int 1, .int 1500000000, .bool false, .none, [(p!"rand_val", .int 42)]⟩, _, _,
    by decide +kernel, ?_, rfl, by decide +kernel⟩
  unfold WellTypedMsg
  rw [if_neg (by decide)]
  refine WellTyped.mk _ _ rfl ?_ ?_ ?_ ?_
  · intro name v hv _
    simp only [List.mem_singleton, Prod.mk.injEq] at hv
    obtain ⟨rfl, rfl⟩ := hv
    exact ⟨rfl, rfl⟩
  all_goals
    intro name sd v
    intros
    rename_i h _
    first | cases h | skip
  all_goals simp_all [Cls.msgSlots, lookupName]

end Verif.Props
