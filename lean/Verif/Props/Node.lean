import Verif.Model.Misc
import Verif.Lemmas.Attrs
/-!
# C42: node public information (`datastructures/p2p.py:41-55`)
-/

set_option linter.unusedSimpArgs false

namespace Verif.Props

open Verif

/-- The public fields and their private counterparts. -/
def publicFields : List (PStr × PStr) :=
  [(p!"pub_addr", p!"prv_addr"), (p!"pub_port", p!"prv_port"),
   (p!"p2p_pub_port", p!"p2p_prv_port"), (p!"hyperdrive_pub_port", p!"hyperdrive_prv_port")]

private theorem getAttr_fillFrom (pub prv x : PStr) (fs : Attrs) :
    getAttr (fillFrom pub prv fs) x =
      if x = pub ∧ getAttr fs pub = .none then getAttr fs prv else getAttr fs x := by
  unfold fillFrom
  by_cases h : getAttr fs pub = .none
  · rw [if_pos h, getAttr_setName]
    by_cases hx : x = pub <;> simp [hx, h]
  · rw [if_neg h, if_neg (by simp [h])]

/-- Every public field keeps its value if it is set, and otherwise gets the private one. -/
theorem node_public_field (fs : Attrs) (pub prv : PStr) (h : (pub, prv) ∈ publicFields) :
    getAttr (updatePublicInfo fs) pub =
      if getAttr fs pub = .none then getAttr fs prv else getAttr fs pub := by
  unfold updatePublicInfo
  simp only [publicFields, List.mem_cons, Prod.mk.injEq, List.mem_nil_iff, or_false] at h
  rcases h with ⟨rfl, rfl⟩ | ⟨rfl, rfl⟩ | ⟨rfl, rfl⟩ | ⟨rfl, rfl⟩ <;>
    simp [getAttr_fillFrom]

/-- No other field changes, and no field appears or disappears. -/
theorem node_other_field (fs : Attrs) (x : PStr) (h : ∀ p ∈ publicFields, x ≠ p.1) :
    getAttr (updatePublicInfo fs) x = getAttr fs x := by
  have h1 := h _ (show (p!"pub_addr", p!"prv_addr") ∈ publicFields by decide)
  have h2 := h _ (show (p!"pub_port", p!"prv_port") ∈ publicFields by decide)
  have h3 := h _ (show (p!"p2p_pub_port", p!"p2p_prv_port") ∈ publicFields by decide)
  have h4 := h _ (show (p!"hyperdrive_pub_port", p!"hyperdrive_prv_port") ∈ publicFields by decide)
  unfold updatePublicInfo
  simp only at h1 h2 h3 h4
  simp only [getAttr_fillFrom, h1, h2, h3, h4, false_and, if_false]

private theorem fillFrom_names (pub prv : PStr) (fs : Attrs) (h : pub ∈ fs.map Prod.fst) :
    (fillFrom pub prv fs).map Prod.fst = fs.map Prod.fst := by
  unfold fillFrom
  split
  · exact setName_names _ _ _ h
  · rfl

/-- The field names of a node are not changed. -/
theorem node_field_names (fs : Attrs) (h : ∀ p ∈ publicFields, p.1 ∈ fs.map Prod.fst) :
    (updatePublicInfo fs).map Prod.fst = fs.map Prod.fst := by
  have h1 := h _ (show (p!"pub_addr", p!"prv_addr") ∈ publicFields by decide)
  have h2 := h _ (show (p!"pub_port", p!"prv_port") ∈ publicFields by decide)
  have h3 := h _ (show (p!"p2p_pub_port", p!"p2p_prv_port") ∈ publicFields by decide)
  have h4 := h _ (show (p!"hyperdrive_pub_port", p!"hyperdrive_prv_port") ∈ publicFields by decide)
  unfold updatePublicInfo
  have e1 := fillFrom_names p!"pub_addr" p!"prv_addr" fs h1
  have e2 := fillFrom_names p!"pub_port" p!"prv_port" _ (by rw [e1]; exact h2)
  have e3 := fillFrom_names p!"p2p_pub_port" p!"p2p_prv_port" _ (by rw [e2, e1]; exact h3)
  have e4 := fillFrom_names p!"hyperdrive_pub_port" p!"hyperdrive_prv_port" _
    (by rw [e3, e2, e1]; exact h4)
  rw [e4, e3, e2, e1]

private theorem fillFrom_same (pub prv : PStr) (fs : Attrs) (hp : pub ∈ fs.map Prod.fst)
    (h : getAttr fs pub = .none → getAttr fs prv = .none) : fillFrom pub prv fs = fs := by
  unfold fillFrom
  by_cases hn : getAttr fs pub = .none
  · rw [if_pos hn, h hn]
    apply setName_same
    rw [← lookupName_isSome] at hp
    obtain ⟨v, hv⟩ := Option.isSome_iff_exists.mp hp
    unfold getAttr at hn
    rw [hv] at hn ⊢
    exact congrArg some hn
  · rw [if_neg hn]

/-- Idempotent. -/
theorem node_update_idempotent (fs : Attrs) (h : ∀ p ∈ publicFields, p.1 ∈ fs.map Prod.fst) :
    updatePublicInfo (updatePublicInfo fs) = updatePublicInfo fs := by
  have hn := node_field_names fs h
  have step : ∀ pub prv, (pub, prv) ∈ publicFields →
      fillFrom pub prv (updatePublicInfo fs) = updatePublicInfo fs := by
    intro pub prv hp
    apply fillFrom_same
    · rw [hn]; exact h _ hp
    · rw [node_public_field fs pub prv hp, node_other_field fs prv (by
        simp only [publicFields, List.mem_cons, Prod.mk.injEq, List.mem_nil_iff, or_false] at hp
        rcases hp with ⟨rfl, rfl⟩ | ⟨rfl, rfl⟩ | ⟨rfl, rfl⟩ | ⟨rfl, rfl⟩ <;> decide)]
      by_cases hx : getAttr fs pub = .none
      · rw [if_pos hx]; exact id
      · rw [if_neg hx]; intro e; exact absurd e hx
  rw [updatePublicInfo.eq_1 (updatePublicInfo fs), step _ _ (by decide), step _ _ (by decide),
    step _ _ (by decide), step _ _ (by decide)]

/-- A node whose addresses are text is a super node exactly if both are set and equal. -/
theorem node_super (fs : Attrs)
    (hpub : getAttr fs p!"pub_addr" = .none ∨ ∃ s, getAttr fs p!"pub_addr" = .str s)
    (hprv : getAttr fs p!"prv_addr" = .none ∨ ∃ s, getAttr fs p!"prv_addr" = .str s) :
    isSuperNode fs = true ↔
      ∃ s, getAttr fs p!"pub_addr" = .str s ∧ getAttr fs p!"prv_addr" = .str s := by
  unfold isSuperNode
  rcases hpub with hp | ⟨s, hp⟩ <;> rcases hprv with hq | ⟨t, hq⟩ <;> rw [hp, hq]
  · simp
  · simp
  · simp
  · rw [if_neg (by simp)]
    simp only [pyEq, beq_iff_eq]
    constructor
    · rintro rfl; exact ⟨s, rfl, rfl⟩
    · rintro ⟨u, h1, h2⟩
      injection h1 with h1; injection h2 with h2
      rw [h1, h2]

/-- Non-vacuity: a node with a private address and a public port. -/
example :
    let fs : Attrs := [(p!"prv_addr", .str p!"10.0.0.1"), (p!"pub_addr", .none),
      (p!"prv_port", .int 40102), (p!"pub_port", .int 1), (p!"p2p_prv_port", .none),
      (p!"p2p_pub_port", .none), (p!"hyperdrive_prv_port", .int 3282),
      (p!"hyperdrive_pub_port", .none)]
    (∀ p ∈ publicFields, p.1 ∈ fs.map Prod.fst) ∧
    isSuperNode fs = false ∧ isSuperNode (updatePublicInfo fs) = true ∧
    getAttr (updatePublicInfo fs) p!"pub_port" = .int 1 ∧
    getAttr (updatePublicInfo fs) p!"hyperdrive_pub_port" = .int 3282 := by decide

end Verif.Props
