import Verif.Model.Misc
import Verif.Lemmas.Errors
import Verif.Lemmas.PyEq
import Verif.Lemmas.FDict
import Verif.Lemmas.Attrs
/-! # C117: comparing nodes (`datastructures/p2p.py:60-65`) -/

namespace Verif.Props

open Verif Spec

/-- The attributes of a node, in order. -/
def nodeAttributes : List PStr :=
  [p!"node_name", p!"key", p!"prv_port", p!"pub_port", p!"p2p_prv_port", p!"p2p_pub_port", p!"prv_addr",
   p!"pub_addr", p!"prv_addresses", p!"hyperdrive_prv_port", p!"hyperdrive_pub_port", p!"port_statuses",
   p!"nat_type"]

/-- Enumeration members count as their values. -/
def memberValue : Val → Val
  | .enum _ s => .str s
  | v => v

private def items (fs : Attrs) : List (Val × Val) := fs.map fun kv => (.str kv.1, memberValue kv.2)

private theorem toDictV_node (k : PStr) (v : Val) : toDictV .node k v = .ok (memberValue v) := by
  cases v <;> rfl

private theorem toDictF_node : ∀ fs : Attrs, toDictF .node fs = .ok (items fs)
  | [] => rfl
  | (k, v) :: rest => by
    unfold toDictF
    rw [toDictV_node, toDictF_node rest]
    rfl

private theorem get_items (n : PStr) : ∀ fs : Attrs,
    dictGet (.str n) (items fs) = (lookupName n fs).map memberValue
  | [] => rfl
  | (k, v) :: rest => by
    show dictGet (.str n) ((.str k, memberValue v) :: items rest) = _
    rw [dictGet_cons, lookupName_cons, get_items n rest]
    by_cases h : k = n
    · subst h; simp
    · simp [h]

private theorem node_eq (fs gs : Attrs) : nodeEq fs (.cont .node gs) =
    .ok (pyEq (.dict (items fs)) (.dict (items gs))) := by
  unfold nodeEq
  dsimp only
  rw [toDictF_node, toDictF_node]

private theorem getAttr_some {n : PStr} {v : Val} {fs : Attrs} (h : lookupName n fs = some v) :
    getAttr fs n = v := by
  unfold getAttr
  rw [h]

/-- C117: nodes are equal exactly if they agree in each of the thirteen attributes. -/
theorem node_equal_iff (fs gs : Attrs) (hf : fs.map Prod.fst = nodeAttributes)
    (hg : gs.map Prod.fst = nodeAttributes) :
    nodeEq fs (.cont .node gs) = .ok true ↔
      ∀ n ∈ nodeAttributes, pyEq (memberValue (getAttr fs n)) (memberValue (getAttr gs n)) = true := by
  have hl : fs.length = gs.length := by
    have := congrArg List.length (hf.trans hg.symm)
    simpa using this
  have hnd : (fs.map Prod.fst).Nodup := by rw [hf]; decide
  rw [node_eq]
  have e1 : pyEq (.dict (items fs)) (.dict (items gs)) = pyEqD (items fs) (items gs) := by
    rw [pyEq_dictLike (d := items fs) rfl]
    show dictEq _ _ = _
    unfold dictEq
    have : (items fs).length = (items gs).length := by simpa [items] using hl
    rw [this]
    simp
  rw [e1]
  constructor
  · intro h n hn
    injection h with h
    rw [pyEqD_iff] at h
    rw [← hf] at hn
    obtain ⟨⟨k, v⟩, hkv, rfl⟩ := List.mem_map.mp hn
    obtain ⟨w, hw, he⟩ := h (.str k, memberValue v) (List.mem_map.mpr ⟨(k, v), hkv, rfl⟩)
    rw [get_items] at hw
    cases hx : lookupName k gs with
    | none => rw [hx] at hw; cases hw
    | some x =>
      rw [hx] at hw
      injection hw with hw
      subst hw
      rw [getAttr_some (lookupName_of_mem hnd hkv), getAttr_some hx]
      exact he
  · intro h
    congr 1
    rw [pyEqD_iff]
    intro kv hm
    obtain ⟨⟨k, v⟩, hkv, rfl⟩ := List.mem_map.mp hm
    have hk : k ∈ nodeAttributes := by rw [← hf]; exact List.mem_map.mpr ⟨(k, v), hkv, rfl⟩
    have he := h k hk
    rw [getAttr_some (lookupName_of_mem hnd hkv)] at he
    have hs : (lookupName k gs).isSome := by rw [lookupName_isSome, hg]; exact hk
    obtain ⟨x, hx⟩ := Option.isSome_iff_exists.mp hs
    rw [getAttr_some hx] at he
    refine ⟨memberValue x, ?_, he⟩
    dsimp only
    rw [get_items, hx]
    rfl

/-- C117: comparing a node with a node always has an answer; with anything else, `None` included, it
raises `TypeError`. -/
theorem node_compare_raises (fs : Attrs) (v : Val) (e : Exc) :
    nodeEq fs v = .error e ↔ (∀ gs, v ≠ .cont .node gs) ∧ e = .typeError := by
  constructor
  · intro h
    have hv : ∀ gs, v ≠ .cont .node gs := by
      rintro gs rfl
      rw [node_eq] at h
      cases h
    refine ⟨hv, ?_⟩
    unfold nodeEq at h
    split at h
    · exact absurd rfl (hv _)
    · injection h with h
      exact h.symm
  · rintro ⟨h, rfl⟩
    unfold nodeEq
    split
    · exact absurd rfl (h _)
    · rfl

private theorem keyed_value {v : Val} (h : Keyed v) : Keyed (memberValue v) := by
  cases v <;> first | exact h | (unfold memberValue Keyed; trivial)

private theorem keyed_attr {fs : Attrs} (h : Keyed (.cont .node fs)) (n : PStr) : Keyed (getAttr fs n) := by
  unfold Keyed at h
  cases hn : lookupName n fs with
  | none =>
    unfold getAttr
    rw [hn]
    unfold Keyed
    trivial
  | some v =>
    rw [getAttr_some hn]
    exact keyedF_mem.mp h.2 (n, v) (mem_of_lookupName hn)

/-- C117: every node equals itself, and equality of nodes is symmetric and transitive. -/
theorem node_equality (fs gs hs : Attrs) (hf : fs.map Prod.fst = nodeAttributes)
    (hg : gs.map Prod.fst = nodeAttributes) (hh : hs.map Prod.fst = nodeAttributes)
    (kf : Keyed (.cont .node fs)) (kg : Keyed (.cont .node gs)) :
    nodeEq fs (.cont .node fs) = .ok true ∧
    (nodeEq fs (.cont .node gs) = .ok true → nodeEq gs (.cont .node fs) = .ok true) ∧
    (nodeEq fs (.cont .node gs) = .ok true → nodeEq gs (.cont .node hs) = .ok true →
      nodeEq fs (.cont .node hs) = .ok true) := by
  rw [node_equal_iff _ _ hf hf, node_equal_iff _ _ hf hg, node_equal_iff _ _ hg hf, node_equal_iff _ _ hg hh,
    node_equal_iff _ _ hf hh]
  refine ⟨fun n _ => pyEq_refl _ (keyed_value (keyed_attr kf n)), fun h n hn => ?_, fun h h' n hn => ?_⟩
  · exact pyEq_symm _ _ (keyed_value (keyed_attr kf n)) (keyed_value (keyed_attr kg n)) (h n hn)
  · exact pyEq_trans _ _ _ (h n hn) (h' n hn)

/-- C117: every node that is made or received has exactly these attributes. -/
theorem node_made_attributes (E : Env) (v w : Val) (h : mkCont E .node v = .ok w) :
    ∃ fs, w = .cont .node fs ∧ fs.map Prod.fst = nodeAttributes := by
  obtain ⟨_, fs, _, _, hw, hnames, _⟩ := contCall_ok h
  exact ⟨fs, hw, hnames⟩

/-- A node with a name, an address and a list of addresses. -/
private def nodeOf (name addr : Val) : Attrs :=
  [(p!"node_name", name), (p!"key", .str p!"ab"), (p!"prv_port", .int 1), (p!"pub_port", .none),
   (p!"p2p_prv_port", .none), (p!"p2p_pub_port", .none), (p!"prv_addr", addr), (p!"pub_addr", .none),
   (p!"prv_addresses", .list [addr]), (p!"hyperdrive_prv_port", .none), (p!"hyperdrive_pub_port", .none),
   (p!"port_statuses", .dict [(.int 1, .str p!"open")]), (p!"nat_type", .list [])]

/-- Equal and different nodes; a node and `None`. -/
example : (nodeOf (.str p!"a") (.str p!"10.0.0.1")).map Prod.fst = nodeAttributes ∧
    nodeEq (nodeOf (.str p!"a") (.str p!"10.0.0.1")) (.cont .node (nodeOf (.str p!"a") (.str p!"10.0.0.1")))
      = .ok true ∧
    nodeEq (nodeOf (.str p!"a") (.str p!"10.0.0.1")) (.cont .node (nodeOf (.str p!"b") (.str p!"10.0.0.1")))
      = .ok false ∧
    nodeEq (nodeOf (.str p!"a") (.str p!"10.0.0.1")) .none = .error .typeError := by
  decide +kernel

end Verif.Props
