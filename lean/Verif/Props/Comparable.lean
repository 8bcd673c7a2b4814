import Verif.Lemmas.WireKeyed
import Verif.Lemmas.ToyMake
import Verif.Props.Made
import Verif.Props.Equality
/-!
# Well-formed messages can be compared (C19)
-/

set_option linter.unusedSimpArgs false

namespace Verif.Props

open Verif Spec

private theorem data_keyed {v : Val} (h : Data v) : Keyed v := keyed_of_wireOk v (data_wire h).1

private theorem slots_keyed {E : Env} {m : Msg} (hw : WellTypedMsg E m) :
    ∃ s, m.slots = .ok s ∧ Keyed s := by
  obtain ⟨as, hwt, hser, _⟩ := wellTyped_split hw
  obtain ⟨l, h1, h2, _⟩ := wellTyped_nested hwt
  rw [← hser] at h1
  exact ⟨.list l, by unfold Msg.slots; rw [h1], by simp only [Keyed]; exact keyedL_of_wireOk l h2⟩

private theorem version_text {E : Env} {m : Msg} (hw : WellTypedMsg E m) (hh : m.cls = .Hello) :
    ∃ v, getAttr m.attrs p!"_version" = .str v := by
  obtain ⟨as, _, _, h⟩ := wellTyped_split hw
  rcases h with ⟨h, _⟩ | ⟨_, v, _, h⟩
  · exact absurd hh h
  · exact ⟨v, h⟩

/-- C19: comparing well-formed messages always has an outcome. -/
theorem wellTyped_comparable (E : Env) (a b : Msg) (ha : WellTypedMsg E a) (hb : WellTypedMsg E b) :
    ∃ x, a.eq b = .ok x := by
  obtain ⟨sa, h1, _⟩ := slots_keyed ha
  obtain ⟨sb, h2, _⟩ := slots_keyed hb
  unfold Msg.eq
  rw [h1, h2]
  repeat' split
  all_goals first | exact ⟨_, rfl⟩ | simp_all

/-- C19: a well-formed message whose header fields and signature are data equals itself, whatever it
contains. -/
theorem wellTyped_equals_itself (E : Env) (m : Msg) (hw : WellTypedMsg E m)
    (hty : Data m.ty) (hts : Data m.ts) (hsig : Data m.sig) : m.eq m = .ok true := by
  obtain ⟨s, h1, hk⟩ := slots_keyed hw
  have e1 : pyEq m.ty m.ty = true := pyEq_refl _ (data_keyed hty)
  have e2 : pyEq m.ts m.ts = true := pyEq_refl _ (data_keyed hts)
  have e3 : pyEq m.sig m.sig = true := pyEq_refl _ (data_keyed hsig)
  have e4 : m.cls = .Hello → pyEq (getAttr m.attrs p!"_version") (getAttr m.attrs p!"_version") = true := by
    intro hh
    obtain ⟨v, h⟩ := version_text hw hh
    rw [h]; simp [pyEq]
  unfold Msg.eq
  rw [h1, if_neg (by
    intro h
    simp only [Bool.and_eq_true, decide_eq_true_eq] at h
    rw [e4 h.1] at h
    cases h.2), if_neg (by simp), e1, e2, e3]
  simp [pyEq_refl s hk]

/-- C19: comparing well-formed messages in either order has the same outcome. -/
theorem wellTyped_symmetric (E : Env) (a b : Msg) (ha : WellTypedMsg E a) (hb : WellTypedMsg E b)
    (da : Data a.ty ∧ Data a.ts ∧ Data a.sig) (db : Data b.ty ∧ Data b.ts ∧ Data b.sig) : a.eq b = b.eq a := by
  obtain ⟨sa, h1, k1⟩ := slots_keyed ha
  obtain ⟨sb, h2, k2⟩ := slots_keyed hb
  by_cases hc : a.cls = b.cls
  · unfold Msg.eq
    rw [← hc, h1, h2, pyEq_comm (data_keyed db.1) (data_keyed da.1), pyEq_comm (data_keyed db.2.1) (data_keyed da.2.1),
      pyEq_comm (data_keyed db.2.2) (data_keyed da.2.2)]
    dsimp only
    rw [pyEq_comm k2 k1]
    by_cases hh : a.cls = .Hello
    · obtain ⟨v, e1⟩ := version_text ha hh
      obtain ⟨w, e2⟩ := version_text hb (hc.symm.trans hh)
      rw [e1, e2, pyEq_comm (a := .str w) (b := .str v) (by simp [Keyed]) (by simp [Keyed])]
    · simp [hh]
  · have h3 : ∀ x y : Msg, x.cls ≠ y.cls → x.eq y = .ok false := by
      intro x y h
      unfold Msg.eq
      rw [if_pos (c := x.cls ≠ y.cls) h]
      split <;> rfl
    rw [h3 a b hc, h3 b a (Ne.symm hc)]

private theorem no_hello : ∀ c ∈ Cls.all, ∀ ns ∈ c.msgSlots, ns.2.cls ≠ .Hello ∧ ns.1 ∈ c.payload := by decide

private theorem slots_distinct : ∀ c ∈ Cls.all, (c.msgSlots.map Prod.fst).Nodup := by decide

/-- C19: so does every message in a message field of a well-formed message. -/
theorem nested_equals_itself (E : Env) (c : Cls) (as : Attrs) (n : PStr) (sd : SlotDef) (hw : WellTyped E c as)
    (hs : (n, sd) ∈ c.msgSlots) (x : Msg) (hx : x.val ∈ members (getAttr as n)) : x.eq x = .ok true := by
  obtain ⟨hh, hp⟩ := no_hello c (every_cls c) _ hs
  have hl : lookupName n c.msgSlots = some sd := lookupName_of_mem (slots_distinct c (every_cls c)) hs
  cases hw with
  | mk _ _ names fields slots heads nested =>
    have hm : (n, getAttr as n) ∈ as := mem_getAttr (by rw [names]; exact hp)
    have hc : x.cls = sd.cls := by
      have := slots n sd _ hm hl
      generalize getAttr as n = v at this hx
      have : isMsg sd.cls x.val = true := by
        unfold SlotOk at this
        split at this
        · obtain ⟨l, rfl, _, h⟩ := this
          exact h _ hx
        · rcases this with ⟨rfl, _⟩ | h
          · cases hx
          · cases v <;> first | (cases h; done) | skip
            simp only [members, List.mem_singleton] at hx
            rw [hx]
            exact h
      unfold Msg.val isMsg at this
      simpa using this
    obtain ⟨xc, ty, ts, enc, sig, xas⟩ := x
    simp only at hc
    subst hc
    have h1 := heads n sd _ ty ts enc sig xas hm hl hx
    have h2 := nested n sd _ ty ts enc sig xas hm hl hx
    refine wellTyped_equals_itself E ⟨sd.cls, ty, ts, enc, sig, xas⟩ ?_ h1.1 h1.2.1 h1.2.2.2
    unfold WellTypedMsg
    rw [if_neg hh]
    exact h2

/-! ### Cases: all that factories make in the examples, with what is in it -/

example (c : Cls) (m : Msg) (h : toyMake c [] = .ok m) (h1 : c ≠ .ForcePayment) (h2 : c ≠ .ForcePaymentRejected) :
    WellTypedMsg toyEnv m := by
  have hc : m.cls = c := made_cls h
  refine made_wellTyped toyEnv _ _ toyDraws c [] m toyDraws_members List.nodup_nil ?_ h
    ⟨fun e => absurd (hc.symm.trans e) h1, fun e => absurd (hc.symm.trans e) h2⟩
  exact ⟨fun _ _ _ _ h => (nomatch h), fun _ _ h => (nomatch h), fun _ _ h => (nomatch h),
    fun _ _ _ h => (nomatch h), fun _ h => (nomatch h)⟩

example : ∀ c ∈ Cls.all, (match toyMake c [] with
    | .ok m => data m.ty && data m.ts && data m.sig
    | .error _ => true) = true := by decide +kernel

example : (match toyMake .TaskToCompute [], toyMake .TaskToCompute [(p!"price", .int 3)] with
    | .ok a, .ok b => decide (a.eq a = .ok true ∧ a.eq b = .ok false)
    | _, _ => false) = true := by decide +kernel

end Verif.Props
