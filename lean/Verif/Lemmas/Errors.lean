import Verif.Lemmas.Carried
import Verif.Lemmas.ContRoundTrip
/-! # Exceptions of loaded messages: helper lemmas -/

set_option linter.unusedSimpArgs false

namespace Verif

open Spec

/-! ### `to_dict` of loaded containers -/

theorem toDictF_total {c : ContId} : ∀ {fs : Attrs},
    (∀ k v, (k, v) ∈ fs → (c = .taskHeader ∧ k = p!"mask" → v.structInt = none) ∧
      ∀ c' fs', v = .cont c' fs' → callsToDict c k = true → ∃ d, toDictF c' fs' = .ok d) →
    ∃ d, toDictF c fs = .ok d
  | [], _ => ⟨[], by unfold toDictF; rfl⟩
  | (k, v) :: rest, h => by
    obtain ⟨d, hd⟩ := toDictF_total (fs := rest) (fun k' v' hm => h k' v' (by simp [hm]))
    obtain ⟨h1, h2⟩ := h k v (by simp)
    have hv : ∃ w, toDictV c k v = .ok w := by
      unfold toDictV
      cases v <;> dsimp only <;> try (
        unfold toDictLeaf
        cases c <;> dsimp only <;> repeat' split
        all_goals first
          | exact ⟨_, rfl⟩
          | (rename_i hk _; cases h1 ⟨rfl, hk⟩)
          | (rename_i hk; cases h1 ⟨rfl, hk⟩))
      rename_i c' fs'
      split
      · rename_i hc
        obtain ⟨d', hd'⟩ := h2 c' fs' rfl hc
        rw [hd']; exact ⟨_, rfl⟩
      · exact ⟨_, rfl⟩
    obtain ⟨w, hw⟩ := hv
    unfold toDictF
    rw [hw, hd]
    exact ⟨_, rfl⟩

theorem toDictF_leaf {c : ContId} (h : c.leaf = true) (fs : Attrs) : ∃ d, toDictF c fs = .ok d := by
  refine toDictF_total fun k v _ => ⟨?_, ?_⟩
  · rintro ⟨rfl, _⟩; cases h
  · intro _ _ _ hc
    cases c <;> first | (cases hc; done) | (cases h; done)

/-- The fields of a built container come from its hook or are defaults. -/
theorem mkCont_total {E : Env} {c : ContId} {v w : Val} (h : mkCont E c v = .ok w) :
    ∃ fs d, w = .cont c fs ∧ toDictF c fs = .ok d := by
  obtain ⟨kw, fs, _, _, hw, hnames, _, hf⟩ := contCall_ok h
  refine ⟨fs, ?_⟩
  suffices hs : ∃ d, toDictF c fs = .ok d by
    obtain ⟨d, hd⟩ := hs; exact ⟨d, hw, hd⟩
  by_cases hl : c.leaf = true
  · exact toDictF_leaf hl fs
  have hmem : ∀ k x, (k, x) ∈ fs → ∃ vs, (k, vs) ∈ c.slots ∧ contField E (contHook E c) c kw k vs = .ok x := by
    intro k x hx
    have : k ∈ c.slots.map Prod.fst := by rw [← hnames]; exact List.mem_map.mpr ⟨_, hx, rfl⟩
    obtain ⟨⟨k', vs⟩, hm, e⟩ := List.mem_map.mp this
    simp only at e; subst e
    obtain ⟨x', hx', hc⟩ := hf _ _ hm
    have hn : (fs.map Prod.fst).Nodup := by rw [hnames]; exact slots_nodup c
    have e1 := lookupName_of_mem hn hx
    have e2 := lookupName_of_mem hn hx'
    rw [e1] at e2; injection e2 with e2
    exact ⟨vs, hm, e2 ▸ hc⟩
  refine toDictF_total fun k x hx => ?_
  obtain ⟨vs, hvs, hc⟩ := hmem k x hx
  unfold contField at hc
  have hdef : c.default k = .none := by
    cases c <;> first | rfl | (exact absurd rfl hl)
  rw [hdef] at hc
  constructor
  · rintro ⟨rfl, rfl⟩
    have hvs' : vs = [.isBytes] := by
      revert hvs; simp [ContId.slots]
    subst hvs'
    split at hc
    · rw [if_neg (by decide)] at hc; injection hc with hc; subst hc; rfl
    · rename_i y hy
      unfold contDeser at hc
      split at hc
      · rename_i hn; injection hc with hc; rw [← hc, hn.1]; rfl
      · split at hc
        · cases hc
        rename_i hr
        have := (runAll_ok (u := ())).mp hr .isBytes (by simp)
        unfold Validator.accepts at this
        cases y <;> simp at this
        simp [contHook] at hc
        rw [← hc]; rfl
  · rintro c' fs' rfl hk
    have key : ∀ y, contHook E c k y = .ok (.cont c' fs') → c'.leaf = true := by
      intro y hy
      unfold contHook at hy
      cases c <;> first | (exact absurd rfl hl) | skip
      · simp only [callsToDict, beq_iff_eq] at hk
        subst hk
        simp only [if_true] at hy
        split at hy
        · injection hy with hy; injection hy with hy; subst hy; rfl
        · obtain ⟨_, e⟩ := leafCall_cont hy
          injection e with e; subst e; rfl
      · simp only [callsToDict] at hk
        cases hsc : statsClass k with
        | none => rw [hsc] at hk; cases hk
        | some c1 =>
          rw [hsc] at hy
          simp only at hy
          split at hy
          · obtain ⟨_, e⟩ := leafCall_cont hy
            injection e with e; subst e; exact statsClass_leaf hsc
          · cases hy
    split at hc
    · split at hc <;> cases hc
    · unfold contDeser at hc
      split at hc
      · rename_i hn; rw [hn.1] at hc; cases hc
      · split at hc
        · cases hc
        exact toDictF_leaf (key _ hc) fs'

theorem toDict_loaded {E : Env} {c : ContId} {v w : Val} (h : mkCont E c v = .ok w) :
    ∃ d, toDict w = .ok d := by
  obtain ⟨fs, d, rfl, hd⟩ := mkCont_total h
  unfold toDict
  dsimp only
  rw [hd]; exact ⟨_, rfl⟩

/-! ### `slots()` of loaded messages -/

theorem mapRes_err {α β : Type _} {f : α → Res β} : ∀ {l : List α} {e : Exc},
    mapRes f l = .error e → ∃ x ∈ l, f x = .error e
  | [], e, h => by unfold mapRes at h; cases h
  | x :: xs, e, h => by
    unfold mapRes at h
    split at h
    · rename_i e' he; injection h with h; subst h; exact ⟨x, by simp, he⟩
    · split at h
      · rename_i e' he
        injection h with h; subst h
        obtain ⟨y, hy, h⟩ := mapRes_err he
        exact ⟨y, by simp [hy], h⟩
      · cases h

/-- `slots()` of this message raises nothing but `FieldError`. -/
def FieldOnly (x : Val) : Prop :=
  ∀ c ty ts enc sig as, x = .msg c ty ts enc sig as → ∀ e, serAttrs c as = .error e → e.isFieldError = true

theorem serMsgs_err {want : Cls} {key : PStr} : ∀ {l : List Val} {e : Exc}, (∀ x ∈ l, FieldOnly x) →
    serMsgs want key l = .error e → e.isFieldError = true
  | [], e, _, h => by unfold serMsgs at h; cases h
  | x :: rest, e, hl, h => by
    unfold serMsgs at h
    split at h
    · rename_i heq; cases heq
    · rename_i heq
      injection heq with h1 h2
      subst h1 h2
      split at h
      · split at h
        · rename_i e' he
          injection h with h; subst h
          exact hl _ List.mem_cons_self _ _ _ _ _ _ rfl _ he
        · split at h
          · rename_i e' he
            injection h with h; subst h
            exact serMsgs_err (fun y hy => hl y (by simp [hy])) he
          · cases h
      · injection h with h; subst h; rfl
    · injection h with h; subst h; rfl

theorem serSlot_err {c : Cls} {key : PStr} {v : Val} {e : Exc}
    (hh : ∀ e', serHook c key v = some (.error e') → e'.isFieldError = true)
    (hm : lookupName key c.msgSlots ≠ none → ∀ x ∈ members v, FieldOnly x)
    (h : serSlot c key v = .error e) : e.isFieldError = true := by
  unfold serSlot at h
  split at h
  · rename_i r hr
    exact hh _ (h ▸ hr)
  · cases hl : lookupName key c.msgSlots with
    | none =>
      rw [hl] at h
      cases v <;> cases h
    | some sd =>
      rw [hl] at h
      have hm := hm (by rw [hl]; simp)
      cases v with
      | none =>
        dsimp only at h
        split at h <;> cases h; rfl
      | list l =>
        dsimp only at h
        split at h
        · rename_i e' he
          injection h with h; subst h
          exact serMsgs_err hm he
        · cases h
      | msg c' ty ts enc sig attrs =>
        dsimp only at h
        split at h
        · split at h
          · rename_i e' he
            injection h with h; subst h
            exact hm (.msg c' ty ts enc sig attrs) (by simp [members]) _ _ _ _ _ _ rfl _ he
          · cases h
        · injection h with h; subst h; rfl
      | _ => cases h <;> rfl

theorem serAttrs_err {c : Cls} : ∀ {as : Attrs} {e : Exc},
    (∀ k v, (k, v) ∈ as → c.validSlot k = true → ∀ e, serSlot c k v = .error e → e.isFieldError = true) →
    serAttrs c as = .error e → e.isFieldError = true
  | [], e, _, h => by unfold serAttrs at h; cases h
  | (k, v) :: rest, e, hs, h => by
    have ih := fun e => serAttrs_err (c := c) (as := rest) (e := e)
      (fun k' v' hm => hs k' v' (by simp [hm]))
    unfold serAttrs at h
    split at h
    · rename_i hv
      split at h
      · rename_i e' he
        injection h with h; subst h
        exact hs k v (by simp) hv _ he
      · split at h
        · rename_i e' he
          injection h with h; subst h
          exact ih _ he
        · cases h
    · exact ih _ h

theorem serPeer_loaded {E : Env} {v w : Val} (h : mkFDict E .peer v = .ok w) :
    ∃ d, serPeer w = .ok d := by
  unfold mkFDict at h
  split at h
  · cases h
  obtain ⟨items, rfl, hi, hfull, _⟩ := fdBuild_ok h
  have hk := hfull p!"node" (by decide)
  rw [← lookupName_isSome] at hk
  obtain ⟨n, hn⟩ := Option.isSome_iff_exists.mp hk
  have hv := hi.valid _ _ (mem_of_lookupName hn)
  have hc : ∃ fs, n = .cont .node fs := by
    unfold fdValidate at hv
    dsimp only at hv
    rw [if_neg (by decide), if_neg (by decide), if_pos rfl] at hv
    split at hv
    · exact ⟨_, rfl⟩
    · cases hv
  obtain ⟨fs, rfl⟩ := hc
  obtain ⟨d, hd⟩ := toDictF_leaf (c := .node) rfl fs
  unfold serPeer
  dsimp only
  rw [hn]
  dsimp only [toDict]
  rw [hd]
  exact ⟨_, rfl⟩

theorem serHook_loaded {E : Env} {rec : Loader} {c : Cls} {slots : Val} {as : Attrs}
    (h : loadAttrs E rec c slots = .ok as) {key : PStr} (hk : key ∈ c.payload) {e : Exc}
    (hh : serHook c key (getAttr as key) = some (.error e)) : e.isFieldError = true := by
  obtain ⟨v0, hv, hex, hg⟩ := loadAttrs_get h key hk
  unfold serHook at hh
  split at hh
  · injection hh with hh
    split at hh
    · cases hh
    · injection hh with hh; subst hh; rfl
    · injection hh with hh; subst hh; rfl
  rename_i hnode
  have hget : c ≠ .StartSessionResponse → v0 = .none ∨ ∃ w, deserSlot E rec c key w = .ok v0 := by
    intro hne
    have hg := hg (fun e => hne e.1)
    cases hd : dictGet (.str key) (dictOf slots) with
    | none => exact Or.inl (hg.1 hd)
    | some w => exact Or.inr ⟨w, hg.2 w hd⟩
  split at hh
  · rename_i hp
    obtain ⟨rfl, rfl⟩ := hp
    have hl : ∃ l, getAttr as p!"peers" = .list l ∧ ∀ x ∈ l, ∃ d, serPeer x = .ok d := by
      rw [hv]
      unfold defaulted
      rw [if_pos (by decide)]
      split
      · rcases hget (by decide) with e | ⟨w, hw⟩
        · rename_i ht; rw [e] at ht; cases ht
        · unfold deserSlot at hw
          rw [if_neg (by decide), if_pos ⟨rfl, rfl⟩] at hw
          split at hw
          · split at hw
            · cases hw
            · rename_i l _ hm
              injection hw with hw
              refine ⟨_, hw.symm, fun x hx => ?_⟩
              obtain ⟨y, _, hy⟩ := mapRes_ok hm x hx
              exact serPeer_loaded hy
          · cases hw
      · exact ⟨[], rfl, fun x hx => by cases hx⟩
    obtain ⟨l, hl, hser⟩ := hl
    rw [hl] at hh
    injection hh with hh
    simp only [Val.iter] at hh
    split at hh
    · rename_i e' he
      obtain ⟨x, hx, hx'⟩ := mapRes_err he
      obtain ⟨d, hd⟩ := hser x hx
      rw [hd] at hx'; cases hx'
    · cases hh
  split at hh
  · rename_i _ hp
    obtain ⟨rfl, rfl⟩ := hp
    have hl : ∃ l, getAttr as p!"tasks" = .list l ∧ ∀ x ∈ l, ∃ d, toDict x = .ok d := by
      rw [hv]
      unfold defaulted
      rw [if_pos (by decide)]
      split
      · rcases hget (by decide) with e | ⟨w, hw⟩
        · rename_i ht; rw [e] at ht; cases ht
        · unfold deserSlot at hw
          rw [if_neg (by decide), if_neg (by decide), if_pos ⟨rfl, rfl⟩] at hw
          split at hw
          · split at hw
            · cases hw
            · rename_i l _ hm
              injection hw with hw
              refine ⟨_, hw.symm, fun x hx => ?_⟩
              obtain ⟨y, _, hy⟩ := mapRes_ok hm x hx
              split at hy
              · cases hy
              exact toDict_loaded hy
          · cases hw
      · exact ⟨[], rfl, fun x hx => by cases hx⟩
    obtain ⟨l, hl, hser⟩ := hl
    rw [hl] at hh
    injection hh with hh
    dsimp only at hh
    split at hh
    · rename_i e' he
      obtain ⟨x, hx, hx'⟩ := mapRes_err he
      obtain ⟨d, hd⟩ := hser x hx
      rw [hd] at hx'; cases hx'
    · cases hh
  split at hh
  · rename_i _ _ hp
    obtain ⟨rfl, rfl⟩ := hp
    split at hh
    · rename_i fs hfs
      injection hh with hh
      have hd : defaulted .WantToComputeTask p!"task_header" v0 = v0 := by
        unfold defaulted
        rw [if_neg (by decide), if_neg (by decide), if_neg (by decide), if_neg (by decide)]
      rw [hd, hfs] at hv
      rcases hget (by decide) with e | ⟨w, hw⟩
      · rw [e] at hv; cases hv
      · unfold deserSlot at hw
        rw [if_neg (by decide), if_neg (by decide), if_neg (by decide)] at hw
        split at hw
        · obtain ⟨d, hd⟩ := toDict_loaded hw
          rw [← hv, ← hfs, hh] at hd; cases hd
        · rename_i hn
          have hwn : w = .none := by
            by_cases hwn : w = .none
            · exact hwn
            · exact absurd ⟨rfl, rfl, hwn⟩ hn
          subst hwn
          rw [if_neg (by decide), if_neg (by decide), if_neg (by decide), if_neg (by decide),
            if_neg (by decide), if_neg (by decide)] at hw
          unfold deserBase at hw
          rw [if_pos rfl] at hw
          dsimp only at hw
          rw [show lookupName p!"task_header" (Cls.msgSlots .WantToComputeTask) = none from rfl] at hw
          injection hw with hw; rw [← hv] at hw; cases hw
    · cases hh
  split at hh
  · rename_i _ _ _ hp
    obtain ⟨rfl, rfl⟩ := hp
    split at hh
    · rename_i fs hfs
      injection hh with hh
      have hd : defaulted .ReportComputedTask p!"stats" v0 = v0 := by
        unfold defaulted
        rw [if_neg (by decide), if_neg (by decide), if_neg (by decide), if_neg (by decide)]
      rw [hd, hfs] at hv
      rcases hget (by decide) with e | ⟨w, hw⟩
      · rw [e] at hv; cases hv
      · unfold deserSlot at hw
        rw [if_neg (by decide), if_neg (by decide), if_neg (by decide), if_neg (by simp),
          if_neg (by simp), if_neg (by decide), if_neg (by decide), if_neg (by decide)] at hw
        split at hw
        · obtain ⟨d, hd⟩ := toDict_loaded hw
          rw [← hv, ← hfs, hh] at hd; cases hd
        · rename_i hn
          have hwn : w = .none := by
            by_cases hwn : w = .none
            · exact hwn
            · exact absurd ⟨rfl, rfl, hwn⟩ hn
          subst hwn
          rw [if_neg (by decide)] at hw
          unfold deserBase at hw
          rw [if_pos rfl] at hw
          dsimp only at hw
          rw [show lookupName p!"stats" (Cls.msgSlots .ReportComputedTask) = none from rfl] at hw
          injection hw with hw; rw [← hv] at hw; cases hw
    · cases hh
  · cases hh

/-- `slots()` of loaded attributes raises nothing but `FieldError`, at every depth. -/
theorem loaded_fieldOnly (E : Env) : ∀ (n : Nat) (c : Cls) (slots : Val) (as : Attrs) (e : Exc),
    loadAttrs E (loadMsg E n) c slots = .ok as → serAttrs c as = .error e → e.isFieldError = true := by
  intro n
  induction n with
  | zero =>
    intro c slots as e h he
    refine serAttrs_err (fun k v hm hs e he => ?_) he
    have hk : k ∈ c.payload := List.contains_iff_mem.mp hs
    have hn : (as.map Prod.fst).Nodup := by rw [loadAttrs_names h]; exact payload_nodup c
    have hg : getAttr as k = v := by unfold getAttr; rw [lookupName_of_mem hn hm]
    subst hg
    refine serSlot_err (fun e' he' => serHook_loaded h hk he') (fun hl x hx => ?_) he
    obtain ⟨sd, hsd⟩ := Option.ne_none_iff_exists'.mp hl
    refine (loadAttrs_typed (P := FieldOnly) ?_ h).2.2 k sd x (msgSlots_lookup.mpr hsd) hx
    intro c' ty ts enc sig slots x hx
    obtain ⟨_, _, e, _⟩ := loadMsg_isMsg hx
    cases e
  | succ n ih =>
    intro c slots as e h he
    refine serAttrs_err (fun k v hm hs e he => ?_) he
    have hk : k ∈ c.payload := List.contains_iff_mem.mp hs
    have hn : (as.map Prod.fst).Nodup := by rw [loadAttrs_names h]; exact payload_nodup c
    have hg : getAttr as k = v := by unfold getAttr; rw [lookupName_of_mem hn hm]
    subst hg
    refine serSlot_err (fun e' he' => serHook_loaded h hk he') (fun hl x hx => ?_) he
    obtain ⟨sd, hsd⟩ := Option.ne_none_iff_exists'.mp hl
    refine (loadAttrs_typed (P := FieldOnly) ?_ h).2.2 k sd x (msgSlots_lookup.mpr hsd) hx
    intro c' ty ts enc sig slots x hx
    obtain ⟨n', as', e, ha, rfl⟩ := loadMsg_isMsg hx
    injection e with e; subst e
    refine ⟨by simp [isMsg], ?_⟩
    intro c1 _ _ _ _ as1 heq e' he'
    injection heq with h1 _ _ _ _ h2
    subst h1 h2
    exact ih _ _ _ _ ha he'

end Verif
