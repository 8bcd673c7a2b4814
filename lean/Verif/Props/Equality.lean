import Verif.Lemmas.Keyed
import Verif.Lemmas.Toy
import Verif.Model.Tasks
/-!
# C19: equality of messages
-/

set_option linter.unusedSimpArgs false

namespace Verif.Props

open Verif Spec

private theorem keyed_msg {m : Msg} (h : Keyed m.val) :
    Keyed m.ty ∧ Keyed m.ts ∧ Keyed m.enc ∧ Keyed m.sig ∧ KeyedF m.attrs := by
  simpa only [Msg.val, Keyed] using h

private theorem keyed_getAttr {as : Attrs} (h : KeyedF as) (n : PStr) : Keyed (getAttr as n) := by
  unfold getAttr
  cases hl : lookupName n as with
  | none => simp [Keyed]
  | some v => exact keyedF_mem.mp h _ (mem_of_lookupName hl)

theorem pyEq_comm {a b : Val} (ha : Keyed a) (hb : Keyed b) : pyEq a b = pyEq b a := by
  rw [Bool.eq_iff_iff]
  exact ⟨pyEq_symm a b ha hb, pyEq_symm b a hb ha⟩

/-- What equality of messages means, when it can be decided. -/
private theorem eq_true {a b : Msg} : Msg.eq a b = .ok true ↔
    (a.cls = .Hello → pyEq (getAttr a.attrs p!"_version") (getAttr b.attrs p!"_version") = true) ∧
    a.cls = b.cls ∧ pyEq a.ty b.ty = true ∧ pyEq a.ts b.ts = true ∧ pyEq a.sig b.sig = true ∧
    ∃ sa sb, a.slots = .ok sa ∧ b.slots = .ok sb ∧ pyEq sa sb = true := by
  unfold Msg.eq
  constructor
  · intro h
    split at h
    · cases h
    rename_i h0
    split at h
    · cases h
    rename_i h1
    split at h
    · cases h
    rename_i h2
    split at h
    · cases h
    rename_i h3
    split at h
    · cases h
    rename_i h4
    split at h
    · cases h
    rename_i sa hsa
    split at h
    · cases h
    rename_i sb hsb
    injection h with h
    refine ⟨?_, Decidable.of_not_not h1, by simpa using h2, by simpa using h3, by simpa using h4,
      sa, sb, hsa, hsb, h⟩
    intro hc
    simpa [hc] using h0
  · rintro ⟨h0, h1, h2, h3, h4, sa, sb, hsa, hsb, h⟩
    rw [hsa, hsb, h2, h3, h4]
    have : (decide (a.cls = .Hello) &&
        !pyEq (getAttr a.attrs p!"_version") (getAttr b.attrs p!"_version")) = false := by
      by_cases hc : a.cls = .Hello
      · simp [h0 hc]
      · simp [hc]
    rw [this]
    simp [h1, h]

/-- C19: a message whose content can be dumped equals itself. -/
theorem eq_refl_partial (m : Msg) (s : Val) (hk : Keyed m.val) (hs : m.slots = .ok s) :
    m.eq m = .ok true := by
  obtain ⟨h1, h2, _, h4, h5⟩ := keyed_msg hk
  rw [eq_true]
  exact ⟨fun _ => pyEq_refl _ (keyed_getAttr h5 _), rfl, pyEq_refl _ h1, pyEq_refl _ h2,
    pyEq_refl _ h4, s, s, hs, hs, pyEq_refl _ (keyed_slots h5 hs)⟩

/-- C19: whatever comparing two messages yields, comparing them the other way round yields. -/
theorem eq_symm (a b : Msg) (x : Bool) (ha : Keyed a.val) (hb : Keyed b.val)
    (h : a.eq b = .ok x) : b.eq a = .ok x := by
  obtain ⟨a1, a2, _, a4, a5⟩ := keyed_msg ha
  obtain ⟨b1, b2, _, b4, b5⟩ := keyed_msg hb
  by_cases hc : a.cls = b.cls
  · unfold Msg.eq at h ⊢
    rw [← hc, pyEq_comm b1 a1, pyEq_comm b2 a2, pyEq_comm b4 a4,
      pyEq_comm (keyed_getAttr b5 _) (keyed_getAttr a5 _)]
    rw [← hc] at h
    cases hsa : a.slots with
    | error e =>
      rw [hsa] at h
      cases hsb : b.slots with
      | error e' =>
        rw [hsb] at h
        repeat' split at h
        all_goals first | cases h; done | (simp_all; done)
      | ok sb =>
        rw [hsb] at h
        repeat' split at h
        all_goals first | cases h; done | (simp_all; done)
    | ok sa =>
      cases hsb : b.slots with
      | error e' =>
        rw [hsa, hsb] at h
        repeat' split at h
        all_goals first | cases h; done | (simp_all; done)
      | ok sb =>
        rw [hsa, hsb] at h
        dsimp only at h ⊢
        rw [pyEq_comm (keyed_slots b5 hsb) (keyed_slots a5 hsa)]
        exact h
  · unfold Msg.eq at h ⊢
    rw [if_pos (c := a.cls ≠ b.cls) hc] at h
    rw [if_pos (c := b.cls ≠ a.cls) (fun e => hc e.symm)]
    have hx : x = false := by
      split at h <;> · injection h with h; exact h.symm
    subst hx
    split <;> rfl

/-- C19: equality is transitive. -/
theorem eq_trans (a b c : Msg) (h : a.eq b = .ok true) (h' : b.eq c = .ok true) :
    a.eq c = .ok true := by
  rw [eq_true] at h h' ⊢
  obtain ⟨h0, h1, h2, h3, h4, sa, sb, hsa, hsb, h5⟩ := h
  obtain ⟨k0, k1, k2, k3, k4, sb', sc, hsb', hsc, k5⟩ := h'
  rw [hsb] at hsb'
  injection hsb' with e
  subst e
  exact ⟨fun hc => pyEq_trans _ _ _ (h0 hc) (k0 (h1 ▸ hc)), h1.trans k1, pyEq_trans _ _ _ h2 k2,
    pyEq_trans _ _ _ h3 k3, pyEq_trans _ _ _ h4 k4, sa, sc, hsa, hsc, pyEq_trans _ _ _ h5 k5⟩

/-- C19: the way two messages were transported does not matter. -/
theorem eq_ignores_encrypted (a b : Msg) (x y : Val) :
    Msg.eq { a with enc := x } { b with enc := y } = a.eq b := rfl

/-- C19: messages that are equal have the same class, type number, timestamp and signature;
and if their content is made of `None`, integers, text, bytes, lists and tuples, also the same
content, hence the same digest whatever the hash function.  Partial: for other content see
`eq_content_refuted`. -/
theorem eq_distinguishes_partial (a b : Msg) (t t' s s' : Int)
    (ha : a.ty = .int t ∧ a.ts = .int s ∧ literal a.sig = true)
    (hb : b.ty = .int t' ∧ b.ts = .int s' ∧ literal b.sig = true) (h : a.eq b = .ok true) :
    a.cls = b.cls ∧ t = t' ∧ s = s' ∧ a.sig = b.sig ∧
    (∀ sa sb, a.slots = .ok sa → b.slots = .ok sb → literal sa = true → literal sb = true →
      a.slots = b.slots ∧ (a.cls ≠ .Hello → ∀ E, shortHash E a = shortHash E b)) := by
  rw [eq_true] at h
  obtain ⟨h0, h1, h2, h3, h4, sa, sb, hsa, hsb, h5⟩ := h
  rw [ha.1, hb.1] at h2
  rw [ha.2.1, hb.2.1] at h3
  have e2 : t = t' := by simpa [pyEq, Val.numKey] using h2
  have e3 : s = s' := by simpa [pyEq, Val.numKey] using h3
  refine ⟨h1, e2, e3, pyEq_literal _ _ ha.2.2 hb.2.2 h4, ?_⟩
  intro sa' sb' ea eb la lb
  rw [hsa] at ea
  rw [hsb] at eb
  injection ea with ea
  injection eb with eb
  subst ea eb
  have e5 := pyEq_literal _ _ la lb h5
  subst e5
  refine ⟨hsa.trans hsb.symm, fun hn E => ?_⟩
  unfold shortHash
  rw [hsa, hsb]
  dsimp only
  cases dumps sa with
  | error e => rfl
  | ok p =>
    dsimp only
    unfold shortHashOf
    rw [ha.1, hb.1, ha.2.1, hb.2.1, e2, e3]
    simp only [hn, h1 ▸ hn, if_false]

/-- C19, the converse: messages with the same class, type number, timestamp, signature and
dumped content (and, for `Hello`, version) are equal. -/
theorem eq_complete (a b : Msg) (s : Val) (hk : Keyed a.val) (hc : a.cls = b.cls)
    (hty : a.ty = b.ty) (hts : a.ts = b.ts) (hsig : a.sig = b.sig) (ha : a.slots = .ok s)
    (hb : b.slots = .ok s) (hv : getAttr a.attrs p!"_version" = getAttr b.attrs p!"_version") :
    a.eq b = .ok true := by
  obtain ⟨h1, h2, _, h4, h5⟩ := keyed_msg hk
  rw [eq_true, ← hty, ← hts, ← hsig, ← hv]
  exact ⟨fun _ => pyEq_refl _ (keyed_getAttr h5 _), hc, pyEq_refl _ h1, pyEq_refl _ h2,
    pyEq_refl _ h4, s, s, ha, hb, pyEq_refl _ (keyed_slots h5 ha)⟩

/-! ### Where the claim fails -/

/-- C19: equal messages can differ in dumped content: Python regards `True` and `1` as equal,
the payload codec and the signed digest do not. -/
theorem eq_content_refuted :
    ∃ (a b : Msg) (sa sb : Val) (pa pb : Bytes), a.eq b = .ok true ∧ a.slots = .ok sa ∧ b.slots = .ok sb ∧
      dumps sa = .ok pa ∧ dumps sb = .ok pb ∧ pa ≠ pb :=
  ⟨⟨.Degree, .int 1010, .int 1500000000, .bool false, .none, [(p!"degree", .int 1)]⟩,
   ⟨.Degree, .int 1010, .int 1500000000, .bool false, .none, [(p!"degree", .bool true)]⟩,
   .list [.list [.str p!"degree", .int 1]], .list [.list [.str p!"degree", .bool true]],
   _, _, by decide +kernel, by decide +kernel, by decide +kernel, rfl, rfl, by decide +kernel⟩

private def emptyOf (c : Cls) : Msg :=
  ⟨c, .int c.typeId, .int 1500000000, .bool false, .none, c.payload.map fun n => (n, .none)⟩

/-- C19: a `TaskToCompute` without its offer cannot be compared, not even with itself. -/
theorem eq_total_refuted :
    ∃ m : Msg, m.eq m = .error (.fieldError p!"want_to_compute_task") :=
  ⟨emptyOf .TaskToCompute, by decide +kernel⟩

private def withNested (enc : Bool) : Msg :=
  { emptyOf .CannotComputeTask with attrs := Cls.CannotComputeTask.payload.map fun n =>
    (n, if n = p!"task_to_compute" then
      { emptyOf .TaskToCompute with enc := .bool enc, attrs := Cls.TaskToCompute.payload.map fun n =>
        (n, if n = p!"want_to_compute_task" then (emptyOf .WantToComputeTask).val else .none) }.val
      else .none) }

/-- C19: the flag telling how a nested message was transported does count. -/
theorem eq_nested_flag_refuted :
    ∃ (a b : Msg), a.eq b = .ok false ∧ a.eq a = .ok true ∧
      ∃ x y, a.taskToCompute = Msg.val x ∧ b.taskToCompute = Msg.val y ∧ x = { y with enc := .bool true } :=
  ⟨withNested true, withNested false, by decide +kernel, by decide +kernel, 
    { emptyOf .TaskToCompute with enc := .bool true, attrs := Cls.TaskToCompute.payload.map fun n =>
        (n, if n = p!"want_to_compute_task" then (emptyOf .WantToComputeTask).val else .none) },
    { emptyOf .TaskToCompute with attrs := Cls.TaskToCompute.payload.map fun n =>
        (n, if n = p!"want_to_compute_task" then (emptyOf .WantToComputeTask).val else .none) },
    by decide +kernel, by decide +kernel, by decide +kernel⟩

/-! ### The hypotheses can be met -/

private def gossip (d : Val) : Msg :=
  ⟨.Gossip, .int 1011, .int 1500000000, .bool false, .bytes [1], [(p!"gossip", d)]⟩

/-- Two different but equal messages: dictionaries in another order. -/
example :
    let a := gossip (.dict [(.str p!"a", .int 1), (.str p!"b", .int 2)])
    let b := gossip (.dict [(.str p!"b", .int 2), (.str p!"a", .int 1)])
    Keyed a.val ∧ Keyed b.val ∧ a ≠ b ∧ a.eq b = .ok true := by
  refine ⟨?_, ?_, by decide +kernel, by decide +kernel⟩
  · simp [gossip, Msg.val, Keyed, KeyedF, KeyedD, distinctKeys, sameKey, numValue]
  · simp [gossip, Msg.val, Keyed, KeyedF, KeyedD, distinctKeys, sameKey, numValue]

/-- Two messages of literal content, equal and different. -/
example :
    let a := gossip (.list [.str p!"a", .int 2])
    let b := gossip (.list [.str p!"a", .int 3])
    (∃ s, a.slots = .ok s ∧ literal s = true) ∧ literal a.sig = true ∧
      a.eq a = .ok true ∧ a.eq b = .ok false ∧ a.eq { a with sig := .bytes [2] } = .ok false ∧
      a.eq { a with ts := .int 1500000001 } = .ok false := by
  refine ⟨⟨_, rfl, ?_⟩, ?_, ?_, ?_, ?_, ?_⟩ <;> decide +kernel

end Verif.Props
