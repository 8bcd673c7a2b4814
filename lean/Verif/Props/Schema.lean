import Verif.Lemmas.Schema
import Verif.Lemmas.Toy
/-!
# C64: the schemas of the containers
-/

set_option linter.unusedSimpArgs false

namespace Verif.Props

open Verif Spec

/-- C64: a container is built from decoded keywords exactly if they conform to its schema. -/
theorem container_schema (E : Env) (c : ContId) (kw : Attrs) (h : Data (.dict (asPairs kw))) :
    (∃ w, mkCont E c (.dict (asPairs kw)) = .ok w) ↔ Conforms (fieldsOf E c) kw :=
  agree_iff (agree_all E c) h

/-- Anything else that the codec can deliver is refused: only a dictionary with text keys makes
a container. -/
theorem container_needs_record (E : Env) (c : ContId) (v w : Val) (hv : Data v)
    (h : mkCont E c v = .ok w) : Record (fieldsOf E c) v := by
  obtain ⟨kw, _, hd, _⟩ := contCall_ok h
  have e : v = .dict (asPairs kw) := by
    cases v <;> simp [Data, data] at hv <;> simp [Val.asDict] at hd
    rw [hd]; rfl
  subst e
  exact ⟨kw, rfl, (container_schema E c kw hv).mp ⟨w, h⟩⟩

/-- What the message classes with containers hold: nodes, task headers and statistics. -/
def ContainersHeld (E : Env) (c : Cls) (attrs : Attrs) : Prop :=
  (c = .WantToComputeTask → getAttr attrs p!"task_header" = .none ∨
    HeaderHeld E (getAttr attrs p!"task_header")) ∧
  (c = .Tasks → ListOf (HeaderHeld E) (getAttr attrs p!"tasks")) ∧
  (c = .ReportComputedTask → getAttr attrs p!"stats" = .none ∨
    StatsHeld (getAttr attrs p!"stats")) ∧
  ((c = .Hello ∨ c = .WantToStartTaskSession ∨ c = .SetTaskSession) →
    holds (getAttr attrs p!"node_info") = false ∨ NodeHeld E (getAttr attrs p!"node_info")) ∧
  ((c = .WantToStartTaskSession ∨ c = .SetTaskSession) →
    holds (getAttr attrs p!"super_node_info") = false ∨
      NodeHeld E (getAttr attrs p!"super_node_info"))

private theorem arrived_field {E : Env} {c : Cls} {as : Attrs} (h : Arrived E c as) (name : PStr)
    (hp : name ∈ c.payload) (hl : lookupName name c.msgSlots = none)
    (hm : mandatory c name = false) : FieldOk E c name (getAttr as name) := by
  obtain ⟨_, _, names, fields, _, _, _⟩ := h
  have hmem : (name, getAttr as name) ∈ as := mem_getAttr (by rw [names]; exact hp)
  rcases (fields name _ hmem hl).1 with h | ⟨_, h⟩
  · exact h
  · rw [hm] at h; cases h

private theorem held_arrived {E : Env} {c : Cls} {as : Attrs} (h : Arrived E c as) :
    ContainersHeld E c as := by
  refine ⟨?_, ?_, ?_, ?_, ?_⟩
  · rintro rfl
    have := arrived_field h p!"task_header" (by decide) (by decide) (by decide)
    rcases (show _ ∨ _ from this) with h1 | h1
    · exact Or.inl h1
    · exact Or.inr (header_held h1)
  · rintro rfl
    have := arrived_field h p!"tasks" (by decide) (by decide) (by decide)
    obtain ⟨l, h1, h2⟩ := (show ListOf _ _ from this)
    exact ⟨l, h1, fun x hx => header_held (h2 x hx)⟩
  · rintro rfl
    have := arrived_field h p!"stats" (by decide) (by decide) (by decide)
    rcases (show _ ∨ _ from this) with h1 | h1
    · exact Or.inl h1
    · exact Or.inr (stats_held h1)
  · rintro (rfl | rfl | rfl) <;>
    · have := arrived_field h p!"node_info" (by decide) (by decide) (by decide)
      rcases (show _ ∨ _ from this) with h1 | h1
      · exact Or.inl h1.2
      · exact Or.inr (node_held h1)
  · rintro (rfl | rfl) <;>
    · have := arrived_field h p!"super_node_info" (by decide) (by decide) (by decide)
      rcases (show _ ∨ _ from this) with h1 | h1
      · exact Or.inl h1.2
      · exact Or.inr (node_held h1)

/-- C64: in a loaded message, at every depth, the fields that hold nodes, task headers and
statistics hold objects whose fields are as the schema says. -/
theorem loaded_containers (E : Env) (dec : Bytes → Bytes → Res Bytes) (data : Bytes)
    (priv pub : Option Bytes) (ct : Bool) (now : Int) (m : Msg)
    (h : (load E dec (some data) priv pub ct now).2 = .ok m) :
    Everywhere (ContainersHeld E) m.val := by
  obtain ⟨p, slots, as, _, hl, ha, hm⟩ := load_construct h
  have harr := arrived_of_load _ (loads_data hl) ha
  have hall := arrived_everywhere (Q := ContainersHeld E) (fun c as h => held_arrived h) harr
    m.ty m.ts m.enc m.sig
  unfold Msg.val
  rw [hm]
  cases hall with
  | mk _ _ _ _ _ _ here nested =>
    have key : ∀ name, name ≠ p!"_version" → ∀ o, getAttr (as ++ versionAttr o) name =
        getAttr as name := fun name hn o => getAttr_version as o name hn
    refine .mk _ _ _ _ _ _ ?_ ?_
    · unfold ContainersHeld at here ⊢
      rw [key _ (by decide), key _ (by decide), key _ (by decide), key _ (by decide),
        key _ (by decide)]
      exact here
    · intro name sd x hs hx
      rw [key _ (payload_ne_version (msgSlot_payload hs))] at hx
      exact nested name sd x hs hx

/-- A header in a loaded offer, spelled out for the fields that decide about work and money. -/
theorem header_numbers (E : Env) (w : Val) (h : HeaderHeld E w) : ∃ fs, w = .cont .taskHeader fs ∧
    (∃ n : Int, getAttr fs p!"subtasks_count" = .int n ∧ 1 ≤ n) ∧
    (∃ t : Int, getAttr fs p!"timestamp" = .int t) ∧
    (∃ s, getAttr fs p!"task_id" = .str s ∧ s.length ≤ 128) ∧
    (getAttr fs p!"subtask_timeout" = .none ∨
      ∃ n : Int, getAttr fs p!"subtask_timeout" = .int n ∧ 0 ≤ n) ∧
    (getAttr fs p!"max_price" = .none ∨ ∃ n : Int, getAttr fs p!"max_price" = .int n) ∧
    NodeHeld E (getAttr fs p!"task_owner") := by
  obtain ⟨fs, e, _, hf⟩ := h
  refine ⟨fs, e, ?_, ?_, ?_, ?_, ?_, ?_⟩
  · rcases hf ⟨p!"subtasks_count", true, IntegerFrom 1⟩ (by simp [headerFields]) with ⟨_, h⟩ | h
    · cases h
    · exact h
  · rcases hf ⟨p!"timestamp", true, Integer⟩ (by simp [headerFields]) with ⟨_, h⟩ | h
    · cases h
    · exact h
  · rcases hf ⟨p!"task_id", true, TextUpTo 128⟩ (by simp [headerFields]) with ⟨_, h⟩ | h
    · cases h
    · exact h
  · rcases hf ⟨p!"subtask_timeout", false, IntegerFrom 0⟩ (by simp [headerFields]) with ⟨h, _⟩ | h
    · exact Or.inl h
    · exact Or.inr h
  · rcases hf ⟨p!"max_price", false, Integer⟩ (by simp [headerFields]) with ⟨h, _⟩ | h
    · exact Or.inl h
    · exact Or.inr h
  · rcases hf ⟨p!"task_owner", true, NodeHeld E⟩ (by simp [headerFields]) with ⟨_, h⟩ | h
    · cases h
    · exact h

/-- Non-vacuity: keywords that make a task header, and the same with no subtasks, which do
not. -/
example : (∃ w, mkCont toyEnv .taskHeader (.dict (asPairs
    [(p!"task_id", .str p!"t"), (p!"task_owner", .dict (asPairs [(p!"pub_port", .int 40102)])),
     (p!"subtasks_count", .int 1), (p!"min_version", .str p!"1.2.3"), (p!"timestamp", .int 7),
     (p!"market_type", .str p!"Usage")])) = .ok w) ∧
    mkCont toyEnv .taskHeader (.dict (asPairs
    [(p!"task_id", .str p!"t"), (p!"task_owner", .dict (asPairs [(p!"pub_port", .int 40102)])),
     (p!"subtasks_count", .int 0), (p!"min_version", .str p!"1.2.3"), (p!"timestamp", .int 7),
     (p!"market_type", .str p!"Usage")])) = .error (.fieldError p!"subtasks_count") :=
  ⟨⟨_, rfl⟩, rfl⟩

/-- Non-vacuity: provider statistics with an empty part and a nested part. -/
example : ∃ w, mkCont toyEnv .providerStats (.dict (asPairs
    [(p!"pids_stats", .dict []), (p!"cpu_stats", .dict (asPairs
      [(p!"cpu_usage", .dict (asPairs [(p!"total_usage", .int 5)]))]))])) = .ok w :=
  ⟨_, rfl⟩

end Verif.Props
