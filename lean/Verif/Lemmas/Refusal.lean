import Verif.Lemmas.FaultRules
import Verif.Spec.Refusal
/-! # Lemmas about why a payload cannot be read -/

set_option linter.unusedSimpArgs false
set_option linter.unusedVariables false

namespace Verif

open Spec

/-- An outcome is an exception exactly if it is blamed. -/
def Gives {α : Type _} (r : Res α) (B : Exc → Prop) : Prop := ∀ e, r = .error e ↔ B e

/-! ### Nested messages -/

/-- The constructor of the class raises exactly what is blamed. -/
def BlamesAll (E : Env) (rec : Loader) (cls : Cls) : Prop :=
  ∀ ty ts enc sig v, Data v → Gives (rec cls ty ts enc sig v) (Blames E cls v)

theorem single_gives {E : Env} {rec : Loader} {sd : SlotDef} {key : PStr} {x : Val}
    (hb : BlamesAll E rec sd.cls) (h : Data x) (hn : ¬ (x = .none ∧ sd.allowNone = true)) :
    Gives (deserSingle rec sd key x) (BlamesMessage E sd.cls key x) := by
  have env : ∀ {r : Res Val}, r = .error (.fieldError key) → ¬ Enveloped x → Gives r (BlamesMessage E sd.cls key x) := by
    rintro r rfl he e
    constructor
    · intro h
      injection h with h
      subst h
      exact .envelope he
    · intro hS
      cases hS with
      | envelope _ => rfl
      | inside a b _ => exact absurd ⟨_, _, _, _, _, _, a, b⟩ he
  unfold deserSingle
  by_cases h0 : x = .none
  · rw [if_pos h0]
    have : sd.allowNone = false := by
      cases ha : sd.allowNone with
      | false => rfl
      | true => exact absurd ⟨h0, ha⟩ hn
    rw [this]
    refine env rfl ?_
    rintro ⟨_, _, _, _, _, _, a, _⟩
    subst h0
    cases a
  · rw [if_neg h0]
    split
    · rename_i header sig slots h1
      have hd := iter_data h h1
      have g1 := (elements_iff h).mp h1
      split
      · rename_i ty ts enc h2
        have g2 := (elements_iff (hd header (by simp))).mp h2
        have hg := hb ty ts enc sig slots (hd slots (by simp))
        intro e
        constructor
        · intro he
          split at he
          · cases he
          · rename_i f hr
            injection he with he
            subst he
            exact .inside (x := .fieldError f) g1 g2 ((hg _).mp hr)
          · rename_i e' hne hr
            injection he with he
            subst he
            have : inField key e' = .fieldError key := by
              cases e' <;> first | rfl | exact absurd rfl (hne _)
            rw [← this]
            exact .inside g1 g2 ((hg _).mp hr)
        · intro hS
          cases hS with
          | envelope hne => exact absurd ⟨_, _, _, _, _, _, g1, g2⟩ hne
          | inside a b c =>
            have h1' := (elements_iff h).mpr a
            rw [h1] at h1'
            simp only [Option.some.injEq, List.cons.injEq, and_true] at h1'
            obtain ⟨rfl, rfl, rfl⟩ := h1'
            rename_i e
            rw [(hg e).mpr c]
            cases e <;> rfl
      · rename_i hne
        refine env rfl ?_
        rintro ⟨header', sig', slots', ty, ts, enc, a, b⟩
        have h1' := (elements_iff h).mpr a
        rw [h1] at h1'
        simp only [Option.some.injEq, List.cons.injEq, and_true] at h1'
        obtain ⟨rfl, rfl, rfl⟩ := h1'
        exact hne _ _ _ ((elements_iff (hd header (by simp))).mpr b)
    · rename_i hne
      refine env rfl ?_
      rintro ⟨header', sig', slots', ty, ts, enc, a, b⟩
      exact hne _ _ _ ((elements_iff h).mpr a)

/-- Everything blamed inside a field for messages is a `FieldError`. -/
theorem message_field {E : Env} {cls : Cls} {key : PStr} {x : Val} {e : Exc} (h : BlamesMessage E cls key x e) :
    wrapped e = e := by
  cases h with
  | envelope _ => rfl
  | @inside _ _ _ _ _ _ _ _ _ y _ _ _ => cases y <;> rfl

theorem elements_two {w a b c d : Val} (h : Data w) (h1 : Elements w [a, b]) (h2 : Elements w [c, d]) :
    a = c ∧ b = d := by
  have h1 := (elements_iff h).mpr h1
  have h2 := (elements_iff h).mpr h2
  rw [h1] at h2
  simp only [Option.some.injEq, List.cons.injEq, and_true] at h2
  exact h2

/-- Fields with a rule of their own are the fields with such a rule. -/
theorem badRule_rule {E : Env} {c : Cls} {name : PStr} {w : Val} {e : Exc} (h : BadRule E c name w e) :
    fieldRule E c name ≠ none := by
  cases h with
  | number a _ => rcases a with rfl | rfl <;> simp [fieldRule]
  | _ => simp [fieldRule]

theorem message_gives {E : Env} {rec : Loader} {sd : SlotDef} {c : Cls} {key : PStr} {w : Val}
    (hu : fieldRule E c key = none) (hr : ReadsAll E rec sd.cls) (hb : BlamesAll E rec sd.cls)
    (hl : sd.isList = true → sd.allowNone = false) (h : Data w) :
    Gives (deserMessage rec sd key w) (BlamesField E c key (.message sd.cls sd.allowNone sd.isList) w) := by
  have inv : ∀ {e : Exc}, BlamesField E c key (.message sd.cls sd.allowNone sd.isList) w e →
      (¬ Announced sd.allowNone sd.isList w ∧ e = .fieldError key) ∨
      (sd.isList = false ∧ ∃ flag x, Elements w [flag, x] ∧ sameKey flag (.bool false) = true ∧
        ¬ (x = .none ∧ sd.allowNone = true) ∧ BlamesMessage E sd.cls key x e) ∨
      (sd.isList = true ∧ ∃ flag x before after, Elements w [flag, .list (before ++ x :: after)] ∧
        sameKey flag (.bool true) = true ∧ (∀ z ∈ before, LegibleMessage E sd.cls z) ∧
        BlamesMessage E sd.cls key x e) := by
    intro e hS
    generalize hk : Kind.message sd.cls sd.allowNone sd.isList = kind at hS
    cases hS with
    | ruled a => exact absurd hu (badRule_rule a)
    | noNode _ _ _ => cases hk
    | node _ _ _ => cases hk
    | choice _ _ => cases hk
    | announced _ a =>
      injection hk with k1 k2 k3
      exact .inl ⟨by rw [k2, k3]; exact a, rfl⟩
    | single _ a b d f =>
      injection hk with k1 k2 k3
      exact .inr (.inl ⟨k3, _, _, a, b, by rw [k2]; exact d, by rw [k1]; exact f⟩)
    | several _ a b d f =>
      injection hk with k1 k2 k3
      exact .inr (.inr ⟨k3, _, _, _, _, a, b, by rw [k1]; exact d, by rw [k1]; exact f⟩)
  have ann : ∀ {r : Res Val}, r = .error (.fieldError key) → ¬ Announced sd.allowNone sd.isList w →
      Gives r (BlamesField E c key (.message sd.cls sd.allowNone sd.isList) w) := by
    rintro r rfl he e
    constructor
    · intro h
      injection h with h
      subst h
      exact .announced hu he
    · intro hS
      rcases inv hS with ⟨_, rfl⟩ | ⟨k, _, _, a, b, _⟩ | ⟨k, _, _, _, _, a, b, _⟩
      · rfl
      · exact absurd ⟨_, _, a, .inr (.inl ⟨k, b⟩)⟩ he
      · exact absurd ⟨_, _, a, .inr (.inr ⟨k, b, _, rfl, by simp⟩)⟩ he
  unfold deserMessage
  split
  · rename_i flag value hi
    have hd := iter_data h hi
    have hv : Data value := hd value (by simp)
    have gi := (elements_iff h).mp hi
    rw [eqBool_sameKey]
    by_cases h1 : (value.truthy && !sameKey flag (.bool sd.isList)) = true
    · rw [if_pos h1]
      refine ann rfl ?_
      rintro ⟨flag', x, a, b⟩
      obtain ⟨rfl, rfl⟩ := elements_two h gi a
      simp only [Bool.and_eq_true, Bool.not_eq_true'] at h1
      obtain ⟨t1, t2⟩ := h1
      rcases b with ⟨rfl, _⟩ | ⟨b1, b2⟩ | ⟨b1, b2, _⟩
      · cases t1
      · rw [b1, b2] at t2; cases t2
      · rw [b1, b2] at t2; cases t2
    · rw [if_neg h1]
      by_cases ht : value.truthy = true
      · have hs : sameKey flag (.bool sd.isList) = true := by
          simpa [ht] using h1
        rw [ht, sameKey_truthy hs, Bool.true_and]
        by_cases hbl : sd.isList = true
        · rw [if_pos hbl]
          rw [hbl] at hs
          split
          · rename_i l
            have hdl := data_list hv
            have hno := hl hbl
            intro e
            have gs : ∀ x ∈ l, Gives (deserSingle rec sd key x) (BlamesMessage E sd.cls key x) :=
              fun x hx => single_gives hb (hdl x hx) (by rw [hno]; simp)
            have ok : ∀ x ∈ l, (∃ y, deserSingle rec sd key x = .ok y) ↔ LegibleMessage E sd.cls x := by
              intro x hx
              rw [single_iff hr (hdl x hx)]
              exact ⟨fun h => h.elim (fun h => by rw [hno] at h; cases h.2) id, .inr⟩
            constructor
            · intro he
              cases hm : mapRes (deserSingle rec sd key) l with
              | ok r => rw [hm] at he; cases he
              | error e' =>
                rw [hm] at he
                injection he with he
                subst he
                obtain ⟨b, x, a, hl1, hl2, hl3⟩ := mapRes_first.mp hm
                subst hl1
                rw [hbl]
                exact .several hu gi hs (fun y hy => (ok y (by simp [hy])).mp (hl2 y hy)) ((gs x (by simp) _).mp hl3)
            · intro hS
              rcases inv hS with ⟨hna, _⟩ | ⟨k, _⟩ | ⟨_, f, x, b, a, ha, hf, hbe, hx⟩
              · refine absurd ⟨_, _, gi, .inr (.inr ⟨hbl, hs, l, rfl, ?_⟩)⟩ hna
                rintro rfl
                simp [Val.truthy] at ht
              · rw [hbl] at k; cases k
              · obtain ⟨_, e2⟩ := elements_two h gi ha
                injection e2 with e2
                subst e2
                rw [mapRes_first.mpr ⟨_, _, _, rfl, fun y hy => (ok y (by simp [hy])).mpr (hbe y hy),
                  (gs x (by simp) _).mpr hx⟩]
          · rename_i hne
            refine ann rfl ?_
            rintro ⟨flag', x, a, b⟩
            obtain ⟨rfl, rfl⟩ := elements_two h gi a
            rcases b with ⟨rfl, _⟩ | ⟨b1, b2⟩ | ⟨b1, b2, l, rfl, _⟩
            · cases ht
            · rw [hbl] at b1; cases b1
            · exact hne l rfl
        · rw [if_neg hbl]
          have hbl := Bool.not_eq_true _ ▸ hbl
          rw [hbl] at hs
          have hno : ¬ (value = .none ∧ sd.allowNone = true) := by
            rintro ⟨rfl, _⟩
            cases ht
          intro e
          rw [single_gives (key := key) hb hv hno e]
          constructor
          · intro he
            rw [hbl]
            exact .single hu gi hs hno he
          · intro hS
            rcases inv hS with ⟨hna, _⟩ | ⟨_, f, x, ha, _, _, hx⟩ | ⟨k, _⟩
            · exact absurd ⟨_, _, gi, .inr (.inl ⟨hbl, hs⟩)⟩ hna
            · obtain ⟨_, rfl⟩ := elements_two h gi ha
              exact hx
            · rw [hbl] at k; cases k
      · have ht := Bool.not_eq_true _ ▸ ht
        rw [ht, Bool.false_and, if_neg (by decide)]
        by_cases hnn : value = .none ∧ sd.allowNone = true
        · have : deserSingle rec sd key value = .ok .none := by
            unfold deserSingle
            rw [if_pos hnn.1, if_pos hnn.2]
          rw [this]
          intro e
          constructor
          · intro he; cases he
          · intro hS
            exfalso
            rcases inv hS with ⟨hna, _⟩ | ⟨_, f, x, ha, _, hno, _⟩ | ⟨k, f, x, b, a, ha, _⟩
            · exact hna ⟨_, _, gi, .inl hnn⟩
            · obtain ⟨_, rfl⟩ := elements_two h gi ha
              exact hno hnn
            · obtain ⟨_, e⟩ := elements_two h gi ha
              rw [hnn.1] at e
              cases e
        · have hne : ¬ Enveloped value := by
            rintro ⟨_, _, _, _, _, _, a, _⟩
            generalize hg : [_, _, _] = l at a
            cases a with
            | list l => subst hg; simp [Val.truthy] at ht
            | text s =>
              cases s with
              | nil => cases hg
              | cons => simp [Val.truthy] at ht
            | bytes b =>
              cases b with
              | nil => cases hg
              | cons => simp [Val.truthy] at ht
            | dict d =>
              cases d with
              | nil => cases hg
              | cons => simp [Val.truthy] at ht
          rw [(single_gives (key := key) hb hv hnn _).mpr (.envelope hne)]
          intro e
          constructor
          · intro he
            injection he with he
            subst he
            by_cases hf : sd.isList = false ∧ sameKey flag (.bool false) = true
            · rw [hf.1]
              exact .single hu gi hf.2 hnn (.envelope hne)
            · refine .announced hu ?_
              rintro ⟨flag', x, a, b⟩
              obtain ⟨rfl, rfl⟩ := elements_two h gi a
              rcases b with b | b | ⟨_, _, l, rfl, hl0⟩
              · exact hnn b
              · exact hf b
              · cases l with
                | nil => exact hl0 rfl
                | cons => cases ht
          · intro hS
            rcases inv hS with ⟨_, rfl⟩ | ⟨_, f, x, ha, _, hno, hx⟩ | ⟨k, f, x, b, a, ha, _⟩
            · rfl
            · obtain ⟨_, rfl⟩ := elements_two h gi ha
              cases hx with
              | envelope _ => rfl
              | inside a b _ => exact absurd ⟨_, _, _, _, _, _, a, b⟩ hne
            · obtain ⟨_, e⟩ := elements_two h gi ha
              rw [e] at ht
              simp [Val.truthy] at ht
  · rename_i hne
    refine ann rfl ?_
    rintro ⟨flag, x, a, _⟩
    exact hne _ _ ((elements_iff h).mpr a)

/-! ### All fields -/

/-- A field raises what is blamed; what leaves the constructor is `wrapped`. -/
theorem field_gives {E : Env} {rec : Loader} {e : Entry} {name : PStr} {kind : Kind} {w : Val} (he : e ∈ catalogue)
    (hf : (name, kind) ∈ e.fields) (h : Data w) (hr : ∀ cls, Declares e.cls cls → ReadsAll E rec cls)
    (hb : ∀ cls, Declares e.cls cls → BlamesAll E rec cls) (x : Exc) :
    Raises (deserSlot E rec e.cls name w) x ↔ BlamesField E e.cls name kind w x := by
  cases hu : fieldRule E e.cls name with
  | some P =>
    rw [rule_raises hu h]
    refine ⟨.ruled, fun hS => ?_⟩
    cases hS with
    | ruled a => exact a
    | noNode a _ _ => rw [hu] at a; cases a
    | node a _ _ => rw [hu] at a; cases a
    | choice a _ => rw [hu] at a; cases a
    | announced a _ => rw [hu] at a; cases a
    | single a _ _ _ _ => rw [hu] at a; cases a
    | several a _ _ _ _ => rw [hu] at a; cases a
  | none =>
    have hk : kind = slotKind e.cls name := slotKind_table e he _ hf
    unfold slotKind at hk
    by_cases hn : e.cls.nodeSlots.contains name = true
    · rw [if_pos hn] at hk
      subst hk
      unfold deserSlot
      rw [if_pos hn]
      by_cases ht : w.truthy = true
      · rw [if_pos ht]
        refine Iff.trans (dict_raises (c := .node) h) ?_
        constructor
        · rintro (⟨hd, rfl⟩ | ⟨⟨d, rfl⟩, hx⟩)
          · exact .noNode hu (by rw [holds_eq]; exact ht) hd
          · exact .node hu (by rintro rfl; simp [Val.truthy] at ht) hx
        · intro hS
          cases hS with
          | ruled a => exact absurd hu (badRule_rule a)
          | noNode _ _ hd => exact .inl ⟨hd, rfl⟩
          | node _ _ hx => exact .inr ⟨⟨_, rfl⟩, hx⟩
      · rw [if_neg ht, raises_ok]
        refine ⟨False.elim, fun hS => ?_⟩
        cases hS with
        | ruled a => exact absurd hu (badRule_rule a)
        | noNode _ hh _ => rw [holds_eq] at hh; exact ht hh
        | @node _ _ d _ _ hd _ =>
          refine ht ?_
          cases d with
          | nil => exact absurd rfl hd
          | cons => simp [Val.truthy]
    · rw [if_neg hn] at hk
      rw [deserSlot_unruled hu (by simpa using hn)]
      cases hce : lookupName name e.cls.enumSlots with
      | some en =>
        rw [hce] at hk
        dsimp only at hk
        subst hk
        have hch := choice_iff (rec := rec) h hce (enum_not_msg e.cls _ (mem_of_lookupName hce))
        have only : ∀ x, deserBase rec e.cls name w = .error x → x = .fieldError name := by
          intro x hx
          unfold deserBase at hx
          rw [hce, enum_not_msg e.cls _ (mem_of_lookupName hce)] at hx
          split at hx
          · split at hx
            · cases hx
            · injection hx with hx; exact hx.symm
          · cases hx
        constructor
        · rintro ⟨y, hy, rfl⟩
          have := only y hy
          subst this
          refine .choice hu fun p => ?_
          obtain ⟨z, hz⟩ := hch.mpr p
          rw [hy] at hz
          cases hz
        · intro hS
          cases hS with
          | ruled a => exact absurd hu (badRule_rule a)
          | choice _ a =>
            obtain ⟨y, hy⟩ := no_ok.mp fun h => a (hch.mp h)
            have := only y hy
            subst this
            exact ⟨_, hy, rfl⟩
      | none =>
        rw [hce] at hk
        dsimp only at hk
        cases hm : lookupName name e.cls.msgSlots with
        | some sd =>
          rw [hm] at hk
          dsimp only at hk
          subst hk
          have hmem := mem_of_lookupName hm
          have hd : Declares e.cls sd.cls := ⟨name, sd, hmem, rfl⟩
          have eqn : deserBase rec e.cls name w = deserMessage rec sd name w := by
            unfold deserBase
            rw [hce, hm]
            simp
          rw [eqn]
          have hg := message_gives hu (hr _ hd) (hb _ hd) (list_required e.cls _ hmem) h
          have same : ∀ {x : Exc},
              BlamesField E e.cls name (.message sd.cls sd.allowNone sd.isList) w x → wrapped x = x := by
            intro x hS
            generalize hk : Kind.message sd.cls sd.allowNone sd.isList = kind at hS
            cases hS with
            | ruled a => exact absurd hu (badRule_rule a)
            | noNode _ _ _ => cases hk
            | node _ _ _ => cases hk
            | choice _ _ => rfl
            | announced _ _ => rfl
            | single _ _ _ _ hS' => exact message_field hS'
            | several _ _ _ _ hS' => exact message_field hS'
          constructor
          · rintro ⟨y, hy, rfl⟩
            have hS := (hg y).mp hy
            rw [same hS]
            exact hS
          · intro hS
            exact ⟨x, (hg x).mpr hS, same hS⟩
        | none =>
          rw [hm] at hk
          dsimp only at hk
          subst hk
          rw [deserBase_plain hce hm, raises_ok]
          refine ⟨False.elim, fun hS => ?_⟩
          cases hS with
          | ruled a => exact absurd hu (badRule_rule a)

theorem loadSlots_first {E : Env} {rec : Loader} {c : Cls} {d : List (Val × Val)} :
    ∀ {names : List PStr} {e : Exc}, loadSlots E rec c d names = .error e ↔
      ∃ before n after w, names = before ++ n :: after ∧
        (∀ m ∈ before, ¬ Unread c m → ∀ x, dictGet (.str m) d = some x → ∃ y, deserSlot E rec c m x = .ok y) ∧
        ¬ Unread c n ∧ dictGet (.str n) d = some w ∧ deserSlot E rec c n w = .error e
  | [], e => by
    constructor
    · intro h; cases h
    · rintro ⟨b, n, a, w, h, _⟩
      cases b <;> cases h
  | n :: rest, e => by
    have ih := loadSlots_first (E := E) (rec := rec) (c := c) (d := d) (names := rest) (e := e)
    have step : loadSlots E rec c d (n :: rest) = .error e ↔
        (¬ Unread c n ∧ ∃ w, dictGet (.str n) d = some w ∧ deserSlot E rec c n w = .error e) ∨
        ((¬ Unread c n → ∀ x, dictGet (.str n) d = some x → ∃ y, deserSlot E rec c n x = .ok y) ∧
          loadSlots E rec c d rest = .error e) := by
      rw [loadSlots]
      unfold Unread
      have tail : ∀ v, (match loadSlots E rec c d rest with
          | .error e => (Except.error e : Res Attrs)
          | .ok r => .ok ((n, v) :: r)) = .error e ↔ loadSlots E rec c d rest = .error e := by
        intro v
        cases loadSlots E rec c d rest <;> simp
      by_cases hu : c = .StartSessionResponse ∧ n = p!"conn_id"
      · rw [if_pos hu]
        refine Iff.trans (tail .none) ?_
        simp [hu]
      · rw [if_neg hu]
        cases dictGet (.str n) d with
        | none =>
          refine Iff.trans (tail .none) ?_
          simp
        | some w =>
          dsimp only
          cases hx : deserSlot E rec c n w with
          | error e' => simp [hu, hx]
          | ok v =>
            refine Iff.trans (tail v) ?_
            simp [hx]
    rw [step, ih]
    constructor
    · rintro (⟨h1, w, h2, h3⟩ | ⟨h1, b, m, a, w, h2, h3, h4⟩)
      · exact ⟨[], n, rest, w, rfl, by simp, h1, h2, h3⟩
      · refine ⟨n :: b, m, a, w, by rw [h2]; rfl, ?_, h4⟩
        intro k hk
        rcases List.mem_cons.mp hk with rfl | hk
        · exact h1
        · exact h3 k hk
    · rintro ⟨b, m, a, w, h1, h2, h3, h4, h5⟩
      cases b with
      | nil =>
        injection h1 with e1 e2
        subst e1
        exact .inl ⟨h3, w, h4, h5⟩
      | cons k ks =>
        injection h1 with e1 e2
        subst e1
        exact .inr ⟨h2 n (by simp), ks, m, a, w, e2, fun k hk => h2 k (List.mem_cons_of_mem _ hk), h3, h4, h5⟩

theorem catalogue_same : ∀ e ∈ catalogue, ∀ e' ∈ catalogue, e.cls = e'.cls → e.fields = e'.fields := by
  decide +kernel

theorem blames_inv {E : Env} {c : Cls} {v : Val} {x : Exc} (h : Blames E c v x) :
    ∃ e ∈ catalogue, e.cls = c ∧ ∃ before name kind after w, e.fields = before ++ (name, kind) :: after ∧
      (∀ n k x, (n, k) ∈ before → ¬ Unread e.cls n → Given v n x → LegibleField E e.cls n k x) ∧
      ¬ Unread e.cls name ∧ Given v name w ∧ BlamesField E e.cls name kind w x := by
  cases h with
  | mk a b c d e f => exact ⟨_, a, rfl, _, _, _, _, _, b, c, d, e, f⟩

theorem attrs_give {E : Env} {rec : Loader} {c : Cls} {v : Val} (h : Data v)
    (hr : ∀ cls, Declares c cls → ReadsAll E rec cls) (hb : ∀ cls, Declares c cls → BlamesAll E rec cls) :
    Gives (loadAttrs E rec c v) (Blames E c v) := by
  have wrap : ∀ x, loadAttrs E rec c v = .error x ↔
      ∃ y, loadSlots E rec c (dictOf v) c.payload = .error y ∧ wrapped y = x := by
    intro x
    unfold loadAttrs wrapLoad
    cases loadSlots E rec c (dictOf v) c.payload with
    | ok r => simp
    | error y => cases y <;> simp [wrapped]
  have split_map : ∀ {fields : List (PStr × Kind)} {b : List PStr} {n : PStr} {a : List PStr},
      fields.map Prod.fst = b ++ n :: a → ∃ before kind after, fields = before ++ (n, kind) :: after ∧
        before.map Prod.fst = b := by
    intro fields b n a hm
    obtain ⟨l1, l2, e1, e2, e3⟩ := List.map_eq_append_iff.mp hm
    obtain ⟨⟨n', kind⟩, l3, e4, e5, e6⟩ := List.map_eq_cons_iff.mp e3
    subst e5
    exact ⟨l1, kind, l3, by rw [e1, e4], e2⟩
  intro x
  rw [wrap]
  constructor
  · rintro ⟨y, hy, rfl⟩
    obtain ⟨b, n, a, w, h1, h2, h3, h4, h5⟩ := loadSlots_first.mp hy
    obtain ⟨e, he, rfl⟩ := listed_cls c
    rw [payload_table e he] at h1
    obtain ⟨before, kind, after, hf, hbm⟩ := split_map h1
    have hg := (given_iff h n w).mp h4
    have hmem : (n, kind) ∈ e.fields := by rw [hf]; simp
    refine .mk he hf (fun n' k' x' hb' hu' hg' => ?_) h3 hg
      ((field_gives he hmem (given_data h hg) hr hb _).mp ⟨y, h5, rfl⟩)
    have hmem' : (n', k') ∈ e.fields := by rw [hf]; simp [hb']
    refine (field_iff he hmem' (given_data h hg') hr).mp (h2 n' ?_ hu' x' ((given_iff h n' x').mpr hg'))
    rw [← hbm]
    exact List.mem_map.mpr ⟨_, hb', rfl⟩
  · intro hS
    obtain ⟨e, he, rfl, before, name, kind, after, w, hf, hbe, hu, hg, hfield⟩ := blames_inv hS
    have hmem : (name, kind) ∈ e.fields := by rw [hf]; simp
    obtain ⟨y, hy, hw⟩ := (field_gives he hmem (given_data h hg) hr hb x).mpr hfield
    refine ⟨y, ?_, hw⟩
    rw [payload_table e he, hf]
    refine loadSlots_first.mpr ⟨before.map Prod.fst, name, after.map Prod.fst, w, by simp, ?_, hu,
      (given_iff h name w).mpr hg, hy⟩
    intro m hm hum x hx
    obtain ⟨⟨m', k⟩, hmk, rfl⟩ := List.mem_map.mp hm
    have hg' := (given_iff h m' x).mp hx
    have hmem' : (m', k) ∈ e.fields := by rw [hf]; simp [hmk]
    exact (field_iff he hmem' (given_data h hg') hr).mpr (hbe m' k x hmk hum hg')

theorem blames_all (E : Env) : ∀ (n : Nat) (c : Cls), c.rank < n → BlamesAll E (loadMsg E n) c
  | 0, _, h => absurd h (Nat.not_lt_zero _)
  | n + 1, c, h => by
    intro ty ts enc sig v hv e
    rw [← attrs_give (rec := loadMsg E n) hv
      (fun cls hd => reads_all E n cls (by have := declares_rank hd; omega))
      (fun cls hd => blames_all E n cls (by have := declares_rank hd; omega)) e]
    unfold loadMsg
    cases hl : loadAttrs E (loadMsg E n) c v with
    | error x => simp
    | ok as => simp

/-- The constructor of a class raises exactly what is blamed for the payload. -/
theorem construct_gives {E : Env} {c : Cls} {h : Header} {sig : Bytes} {version : Option PStr} {v : Val}
    (hv : Data v) : Gives (construct E c h sig version v) (Blames E c v) := by
  intro e
  rw [← attrs_give (rec := loadMsg E maxDepth) hv
    (fun cls _ => reads_all E _ cls (by have := rank_le cls; unfold maxDepth; omega))
    (fun cls _ => blames_all E _ cls (by have := rank_le cls; unfold maxDepth; omega)) e]
  unfold construct
  cases hl : loadAttrs E (loadMsg E maxDepth) c v with
  | error x => simp
  | ok as => simp

end Verif
