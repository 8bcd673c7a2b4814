import Verif.Lemmas.Objects
import Verif.Lemmas.Toy
/-!
# C103: dictionaries and nodes made from defaults are independent
-/

namespace Verif.Props

open Verif Spec

/-- C103: whatever a program has done since the modules were loaded, the declared defaults are what
they were. -/
theorem defaults_kept (E : Env) (h : Objects) (K : List Ref) (hs : Steps E (classObjects, []) (h, K)) (c : FDictId) :
    ReadsAs h (classItems c) c.items :=
  (started hs).2.2 c

/-- C103: and a dictionary is made with the values given and the declared defaults, or refused, as if
nothing had been done. -/
theorem dict_value (E : Env) (h : Objects) (K : List Ref) (hs : Steps E (classObjects, []) (h, K)) (c : FDictId)
    (hc : c ≠ .peer) (given : Items) (args : List (PStr × Val)) (hg : ReadsAs h given args) :
    (∀ v, mkFDict E c (.dict (args.map fun p => (.str p.1, p.2))) = .ok v →
      ∃ h' r, newDict E c (classItems c) h given = .ok (h', r) ∧ h'.value r = some v) ∧
    ∀ e, mkFDict E c (.dict (args.map fun p => (.str p.1, p.2))) = .error e →
      newDict E c (classItems c) h given = .error e := by
  have := newDict_alike (E := E) hc ((started hs).2.2 c) hg
  constructor
  · intro v hv
    rw [hv] at this
    cases hn : newDict E c (classItems c) h given with
    | error e => rw [hn] at this; exact this.elim
    | ok p => rw [hn] at this; exact ⟨p.1, p.2, rfl, this⟩
  · intro e he
    rw [he] at this
    cases hn : newDict E c (classItems c) h given with
    | error e' => rw [hn] at this; exact congrArg _ this
    | ok p => rw [hn] at this; exact this.elim

/-- C103: `ComputeTaskDef()` is always the empty definition. -/
theorem fresh_definition (E : Env) (h : Objects) (K : List Ref) (hs : Steps E (classObjects, []) (h, K)) :
    ∃ h' r, newDict E .computeTaskDef (classItems .computeTaskDef) h [] = .ok (h', r) ∧
      h'.value r = some (.fdict .computeTaskDef [(p!"task_id", .str p!""), (p!"subtask_id", .str p!""),
        (p!"deadline", .int 0), (p!"extra_data", .dict []), (p!"performance", .int 0),
        (p!"docker_images", .none), (p!"resources", .list [])]) :=
  (dict_value E h K hs .computeTaskDef (by decide) [] [] trivial).1 _ rfl

/-- C103: `CpuUsage()` is always the empty statistics. -/
theorem fresh_usage (E : Env) (h : Objects) (K : List Ref) (hs : Steps E (classObjects, []) (h, K)) :
    ∃ h' r, newDict E .cpuUsage (classItems .cpuUsage) h [] = .ok (h', r) ∧
      h'.value r = some (.fdict .cpuUsage [(p!"percpu_usage", .list []), (p!"total_usage", .int 0),
        (p!"usage_in_kernelmode", .int 0), (p!"usage_in_usermode", .int 0)]) :=
  (dict_value E h K hs .cpuUsage (by decide) [] [] trivial).1 _ rfl

private theorem holds {h h' : Objects} {given : Items} {r : Ref} (a1 : Added (fun q => q ∈ given.map Prod.snd) h h')
    (a2 : New h h' r) (a : Nat) (ha : Reach h' r a) : h.length ≤ a ∨ ∃ kv ∈ given, Reach h kv.2 a := by
  have a3 : Added (fun q => Known h (given.map Prod.snd) q) h h' := a1.mono fun q hq => known_mem hq
  refine (reach_added a3 (.inl a2) ha).imp id ?_
  rintro ⟨q, hq, hqa⟩
  obtain ⟨kv, hm, rfl⟩ := List.mem_map.mp hq
  exact ⟨kv, hm, hqa⟩

/-- C103: a new dictionary holds new objects and what it was given, nothing else. -/
theorem dict_reach (E : Env) (h h' : Objects) (c : FDictId) (ITEMS given : Items)
    (r : Ref) (hn : newDict E c ITEMS h given = .ok (h', r)) (a : Nat) (ha : Reach h' r a) :
    h.length ≤ a ∨ ∃ kv ∈ given, Reach h kv.2 a := by
  obtain ⟨a1, a2, _⟩ := newDict_spec hn
  exact holds a1 a2 a ha

/-- C103: and so does a new node. -/
theorem node_reach (E : Env) (h h' : Objects) (given : Items) (r : Ref) (hn : newNode E h given = .ok (h', r))
    (a : Nat) (ha : Reach h' r a) : h.length ≤ a ∨ ∃ kv ∈ given, Reach h kv.2 a := by
  obtain ⟨a1, a2⟩ := newNode_spec hn
  exact holds a1 a2 a ha

/-- C103: a node is made with the values given and the declared defaults, or refused. -/
theorem node_value (E : Env) (h : Objects) (given : Items) (args : List (PStr × Val)) (hg : ReadsAs h given args) :
    (∀ v, contBuild E (contHook E .node) .node args = .ok v →
      ∃ h' r, newNode E h given = .ok (h', r) ∧ h'.value r = some v) ∧
    ∀ e, contBuild E (contHook E .node) .node args = .error e → newNode E h given = .error e := by
  have := newNode_alike (E := E) hg
  rw [show contHook E .node = leafHook E .node from rfl]
  constructor
  · intro v hv
    rw [hv] at this
    cases hn : newNode E h given with
    | error e => rw [hn] at this; exact this.elim
    | ok p => rw [hn] at this; exact ⟨p.1, p.2, rfl, this⟩
  · intro e he
    rw [he] at this
    cases hn : newNode E h given with
    | error e' => rw [hn] at this; exact congrArg _ this
    | ok p => rw [hn] at this; exact this.elim

/-- C103: `Node()` is always the empty node. -/
theorem fresh_node (E : Env) (h : Objects) :
    ∃ h' r, newNode E h [] = .ok (h', r) ∧
      h'.value r = some (.cont .node [(p!"node_name", .none), (p!"key", .none), (p!"prv_port", .none),
        (p!"pub_port", .none), (p!"p2p_prv_port", .none), (p!"p2p_pub_port", .none), (p!"prv_addr", .none),
        (p!"pub_addr", .none), (p!"prv_addresses", .list []), (p!"hyperdrive_prv_port", .none),
        (p!"hyperdrive_pub_port", .none), (p!"port_statuses", .dict []), (p!"nat_type", .list [])]) :=
  (node_value E h [] [] trivial).1 _ rfl

private theorem alone {E : Env} {h h' : Objects} {K : List Ref} (hs : Steps E (classObjects, []) (h, K))
    {given : Items} (hg : ∀ kv ∈ given, Known h K kv.2) {r : Ref}
    (a1 : Added (fun q => q ∈ given.map Prod.snd) h h') (a2 : New h h' r) {L : List Ref} (hL : ∀ q ∈ L, Known h K q)
    (hd : ∀ kv ∈ given, ∀ a, Reach h kv.2 a → ¬ ReachAny h L a) :
    (∀ h2 K2, Steps E (h', L) (h2, K2) → ∀ v, h'.value r = some v → h2.value r = some v) ∧
    (∀ h2 K2, Steps E (h', [r]) (h2, K2) → ∀ q ∈ L, ∀ v, h'.value q = some v → h2.value q = some v) ∧
    ∀ q ∈ L, ∀ v, h.value q = some v → h'.value q = some v := by
  obtain ⟨hcl, hK, _⟩ := started hs
  have hG : ∀ a, Ref.obj a ∈ given.map Prod.snd → a < h.length := by
    intro a hm
    obtain ⟨kv, hm, e⟩ := List.mem_map.mp hm
    have := hg kv hm
    rw [e] at this
    exact reachAny_lt hcl hK this
  have hL' : ∀ a, Ref.obj a ∈ L → a < h.length := fun a hm => reachAny_lt hcl hK (hL _ hm)
  obtain ⟨b1, b2⟩ := made_apart hcl hG hL' (by
    rintro a ⟨q, hq, hqa⟩
    obtain ⟨kv, hm, rfl⟩ := List.mem_map.mp hq
    exact hd kv hm a hqa) a1 a2
  refine ⟨fun h2 K2 h3 v hv => ?_, fun h2 K2 h3 q hq v hv => ?_, fun q hq v hv => ?_⟩
  · obtain ⟨_, b, c⟩ := apart_steps b1 h3
    exact value_same b c hv
  · obtain ⟨_, b, c⟩ := apart_steps (b2 q hq) h3
    exact value_same b c hv
  · obtain ⟨l, e, _⟩ := a1
    rw [e]
    exact value_append hv

/-- C103: a new dictionary and those who have references `L` that share nothing with what it was
given are independent: whatever they do, its value stays the same; whatever is done with it, the values
of theirs stay the same. -/
theorem dict_alone (E : Env) (h h' : Objects) (K : List Ref) (hs : Steps E (classObjects, []) (h, K)) (c : FDictId)
    (given : Items) (hg : ∀ kv ∈ given, Known h K kv.2) (r : Ref)
    (hn : newDict E c (classItems c) h given = .ok (h', r)) (L : List Ref) (hL : ∀ q ∈ L, Known h K q)
    (hd : ∀ kv ∈ given, ∀ a, Reach h kv.2 a → ¬ ReachAny h L a) :
    (∀ h2 K2, Steps E (h', L) (h2, K2) → ∀ v, h'.value r = some v → h2.value r = some v) ∧
    (∀ h2 K2, Steps E (h', [r]) (h2, K2) → ∀ q ∈ L, ∀ v, h'.value q = some v → h2.value q = some v) ∧
    ∀ q ∈ L, ∀ v, h.value q = some v → h'.value q = some v := by
  obtain ⟨a1, a2, _⟩ := newDict_spec hn
  exact alone hs hg a1 a2 hL hd

/-- C103: so are a new node and they. -/
theorem node_alone (E : Env) (h h' : Objects) (K : List Ref) (hs : Steps E (classObjects, []) (h, K))
    (given : Items) (hg : ∀ kv ∈ given, Known h K kv.2) (r : Ref)
    (hn : newNode E h given = .ok (h', r)) (L : List Ref) (hL : ∀ q ∈ L, Known h K q)
    (hd : ∀ kv ∈ given, ∀ a, Reach h kv.2 a → ¬ ReachAny h L a) :
    (∀ h2 K2, Steps E (h', L) (h2, K2) → ∀ v, h'.value r = some v → h2.value r = some v) ∧
    (∀ h2 K2, Steps E (h', [r]) (h2, K2) → ∀ q ∈ L, ∀ v, h'.value q = some v → h2.value q = some v) ∧
    ∀ q ∈ L, ∀ v, h.value q = some v → h'.value q = some v := by
  obtain ⟨a1, a2⟩ := newNode_spec hn
  exact alone hs hg a1 a2 hL hd

/-- A program makes two definitions, adds a resource to the first and an entry to its extra data; the second is
empty. -/
example : ∃ h K, Steps toyEnv (classObjects, []) (h, K) ∧ K = [.obj 8, .obj 5] ∧
    h.value (.obj 5) = some (.fdict .computeTaskDef [(p!"task_id", .str p!""), (p!"subtask_id", .str p!""),
        (p!"deadline", .int 0), (p!"extra_data", .dict [(.str p!"k", .int 1)]), (p!"performance", .int 0),
        (p!"docker_images", .none), (p!"resources", .list [.str p!"r"])]) ∧
    h.value (.obj 8) = some (.fdict .computeTaskDef [(p!"task_id", .str p!""), (p!"subtask_id", .str p!""),
        (p!"deadline", .int 0), (p!"extra_data", .dict []), (p!"performance", .int 0),
        (p!"docker_images", .none), (p!"resources", .list [])]) := by
  let d (e x : Nat) : Obj := (.fdict .computeTaskDef [p!"task_id", p!"subtask_id", p!"deadline", p!"extra_data",
    p!"performance", p!"docker_images", p!"resources"],
    [.atom (.str []), .atom (.str []), .atom (.int 0), .obj e, .atom (.int 0), .atom .none, .obj x])
  let h0 : Objects := [(.dict [], []), (.list, []), (.list, []), (.dict [], []), (.list, []), d 3 4,
    (.dict [], []), (.list, []), d 6 7]
  have s1 : Steps toyEnv (classObjects, []) (h0, [.obj 8, .obj 5]) :=
    .more (.more .none (.dict (c := .computeTaskDef) (given := []) (h' := h0.take 6) (r := .obj 5)
      (by decide) (by intro kv hm; cases hm) (by decide +kernel)))
      (.dict (c := .computeTaskDef) (given := []) (by decide) (by intro kv hm; cases hm) (by decide +kernel))
  have r1 : ReachAny h0 [.obj 8, .obj 5] 4 :=
    ⟨.obj 5, by decide, .there (s := (d 3 4).1) (rs := (d 3 4).2) (r := .obj 4) rfl (by decide) .here⟩
  have s2 := Steps.more s1 (.change (s := .list) (rs := [.atom (.str p!"r")]) r1 (fun r hr => by
    rcases List.mem_singleton.mp hr with rfl; trivial))
  have r2 : ReachAny (h0.set 4 (.list, [.atom (.str p!"r")])) [.obj 8, .obj 5] 3 :=
    ⟨.obj 5, by decide, .there (s := (d 3 4).1) (rs := (d 3 4).2) (r := .obj 3) rfl (by decide) .here⟩
  have s3 := Steps.more s2 (.change (s := .dict [.str p!"k"]) (rs := [.atom (.int 1)]) r2 (fun r hr => by
    rcases List.mem_singleton.mp hr with rfl; trivial))
  exact ⟨_, _, s3, rfl, by decide +kernel, by decide +kernel⟩

end Verif.Props
