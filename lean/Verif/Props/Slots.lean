import Verif.Lemmas.Slots
import Verif.Lemmas.Serialize
import Verif.Lemmas.Toy
/-!
# C13, C14, C15, C38, C16 and C17 (counterexamples): fields of loaded messages
-/

set_option linter.unusedSimpArgs false

namespace Verif.Props

open Verif Spec

/-! ### C13 -/

/-- C13: a loaded message has exactly the declared fields (and `Hello` its version). -/
theorem loaded_names (E : Env) (dec : Bytes → Bytes → Res Bytes) (data : Bytes)
    (priv pub : Option Bytes) (ct : Bool) (now : Int) (m : Msg)
    (h : (load E dec (some data) priv pub ct now).2 = .ok m) :
    m.attrs.map Prod.fst = m.cls.payload ++ (if m.cls = .Hello then [p!"_version"] else []) := by
  obtain ⟨p, slots, as, _, _, ha, hm⟩ := load_construct h
  rw [hm, List.map_append, loadAttrs_names ha]
  by_cases hc : m.cls = .Hello
  · simp [hc, versionAttr]
  · simp [hc, versionAttr]

/-- C13: the fields of a loaded message whose payload is a list of pairs.  A declared field that
is absent is `None` before class defaults; one that is present has the value its slot reads from
the last pair with its name.  The one field that is never read is `conn_id` of
`StartSessionResponse`, see `conn_id_lost`. -/
theorem loaded_values (E : Env) (dec : Bytes → Bytes → Res Bytes) (data : Bytes)
    (priv pub : Option Bytes) (ct : Bool) (now : Int) (m : Msg)
    (h : (load E dec (some data) priv pub ct now).2 = .ok m) (p : Bytes) (ps : List (Val × Val))
    (hp : Payload (loadDecrypt dec priv) data p) (hl : loads p = .ok (wirePairs ps))
    (hk : ∀ q ∈ ps, q.1.hashable = true) (name : PStr) (hn : name ∈ m.cls.payload)
    (hc : ¬ (m.cls = .StartSessionResponse ∧ name = p!"conn_id")) :
    (lastValue name ps = none → getAttr m.attrs name = defaulted m.cls name .none) ∧
    ∀ w, lastValue name ps = some w → ∃ v, getAttr m.attrs name = defaulted m.cls name v ∧
      deserSlot E (loadMsg E maxDepth) m.cls name w = .ok v := by
  obtain ⟨p', slots, as, hp', hl', ha, hm⟩ := load_construct h
  have : p' = p := by
    unfold Payload at hp hp'
    split at hp
    · rename_i hf
      rw [if_pos hf] at hp'
      rw [hp] at hp'; injection hp' with hp'; exact hp'.symm
    · rename_i hf
      rw [if_neg hf] at hp'
      rw [hp, hp']
  subst this
  rw [hl] at hl'
  injection hl' with hl'
  subst hl'
  obtain ⟨v, hv, _, h2⟩ := loadAttrs_get ha name hn
  rw [dictOf_wire ps hk] at h2
  rw [hm, getAttr_version _ _ _ (payload_ne_version hn), hv]
  obtain ⟨h2, h3⟩ := h2 hc
  exact ⟨fun e => by rw [h2 e], fun w hw => ⟨v, rfl, h3 w hw⟩⟩

/-- C13: keys that are not declared, names with underscores, and all but the last of several
pairs with the same key have no influence on what is constructed. -/
theorem irrelevant_pairs (E : Env) (c : Cls) (hd : Header) (sig : Bytes) (version : Option PStr)
    (ps ps' : List (Val × Val)) (hk : ∀ q ∈ ps, q.1.hashable = true)
    (hk' : ∀ q ∈ ps', q.1.hashable = true)
    (h : ∀ name ∈ c.payload, lastValue name ps = lastValue name ps') :
    construct E c hd sig version (wirePairs ps) = construct E c hd sig version (wirePairs ps') := by
  have : loadAttrs E (loadMsg E maxDepth) c (wirePairs ps) =
      loadAttrs E (loadMsg E maxDepth) c (wirePairs ps') := by
    unfold loadAttrs
    rw [loadSlots_congr (d' := dictOf (wirePairs ps')) c.payload
      (fun n hn => by rw [dictOf_wire ps hk, dictOf_wire ps' hk', h n hn])]
  unfold construct
  rw [this]

/-- C13: declared names never start with an underscore. -/
theorem no_underscore (c : Cls) (name : PStr) (h : name ∈ c.payload) : name.head? ≠ some '_' := by
  have : ∀ n ∈ c.payload, n.head? ≠ some '_' := by cases c <;> decide
  exact this name h

example : lastValue p!"a" [(.str p!"a", .int 1), (.str p!"_b", .none), (.str p!"a", .int 2)] =
    some (.int 2) ∧ lastValue p!"c" [(.str p!"a", .int 1)] = none := by decide

/-! ### C14 -/

private theorem serMsgs_ok {want : Cls} {key : PStr} : ∀ {l : List Val} {r : List Val},
    serMsgs want key l = .ok r → ∀ x ∈ l, isMsg want x = true
  | [], r, h, x, hx => by cases hx
  | y :: ys, r, h, x, hx => by
    unfold serMsgs at h
    cases y <;> simp only at h
    case msg c ty ts enc sig attrs =>
      split at h
      · rename_i hc
        split at h
        · cases h
        split at h
        · cases h
        rename_i r' hr
        rcases List.mem_cons.mp hx with e | e
        · subst e; simp [isMsg, hc]
        · exact serMsgs_ok hr x e
      · cases h
    all_goals cases h

private theorem serMsgs_bad {want : Cls} {key : PStr} : ∀ {l : List Val},
    (∃ x ∈ l, isMsg want x ≠ true) →
    (∀ x ∈ l, ∀ c ty ts enc sig attrs, x = .msg c ty ts enc sig attrs →
      ∃ s, serAttrs c attrs = .ok s) →
    serMsgs want key l = .error (.fieldError key)
  | [], h, _ => by obtain ⟨x, hx, _⟩ := h; cases hx
  | y :: ys, h, hs => by
    unfold serMsgs
    cases y <;> simp only
    case msg c ty ts enc sig attrs =>
      by_cases hc : c = want
      · rw [if_pos hc]
        obtain ⟨s, hs'⟩ := hs (.msg c ty ts enc sig attrs) (by simp) _ _ _ _ _ _ rfl
        rw [hs']
        simp only
        obtain ⟨x, hx, hb⟩ := h
        rcases List.mem_cons.mp hx with e | e
        · subst e; simp [isMsg, hc] at hb
        · rw [serMsgs_bad ⟨x, e, hb⟩ (fun z hz => hs z (by simp [hz]))]
      · rw [if_neg hc]

private theorem serSlot_msgSlot {c : Cls} {name : PStr} {sd : SlotDef} {v r : Val}
    (hs : (name, sd) ∈ c.msgSlots) (h : serSlot c name v = .ok r) (he : ∀ e s, v ≠ .enum e s) :
    Dumpable sd v := by
  unfold serSlot at h
  rw [serHook_unhooked c name v (msgSlot_unhooked hs)] at h
  simp only [msgSlots_lookup.mp hs] at h
  cases v <;> simp only at h
  case none =>
    split at h
    · rename_i ha; exact Or.inl ⟨rfl, ha⟩
    · cases h
  case list l =>
    split at h
    · cases h
    rename_i r' hr
    exact Or.inr (Or.inr ⟨l, rfl, serMsgs_ok hr⟩)
  case msg c' ty ts enc sig attrs =>
    split at h
    · rename_i hc; exact Or.inr (Or.inl (by simp [isMsg, hc]))
    · cases h
  case enum e s => exact absurd rfl (he e s)
  all_goals cases h

/-- `serAttrs` succeeds only if every payload slot does. -/
private theorem serAttrs_ok {c : Cls} : ∀ {as : Attrs} {l : List Val}, serAttrs c as = .ok l →
    ∀ k v, (k, v) ∈ as → c.validSlot k = true → ∃ r, serSlot c k v = .ok r
  | [], l, h, k, v, hm, _ => by cases hm
  | (k', v') :: rest, l, h, k, v, hm, hv => by
    unfold serAttrs at h
    split at h
    · rename_i hk'
      split at h
      · cases h
      rename_i r hr
      split at h
      · cases h
      rename_i r' hr'
      rcases List.mem_cons.mp hm with e | e
      · injection e with e1 e2; subst e1 e2; exact ⟨r, hr⟩
      · exact serAttrs_ok hr' k v e hv
    · rename_i hk'
      rcases List.mem_cons.mp hm with e | e
      · injection e with e1 e2; subst e1 e2; exact absurd hv hk'
      · exact serAttrs_ok h k v e hv

private theorem dump_slots {E : Env} {encrypt : Bytes → Bytes → Res Bytes} {m m' : Msg}
    {priv pub : Option Bytes} {b : Bytes} (h : dump E encrypt m priv pub = (.ok b, m')) :
    ∃ l, serAttrs m.cls m.attrs = .ok l := by
  unfold dump at h
  have k0 : ∀ b0, Nonempty (Dumped E m priv ((givenKey pub).map encrypt) b0 m') →
      ∃ l, serAttrs m.cls m.attrs = .ok l := by
    rintro b0 ⟨⟨sl, _, _, _, _, hsl, _, _, _, _, _, _⟩⟩
    unfold Msg.slots at hsl
    split at hsl
    · cases hsl
    · rename_i l hl; exact ⟨l, hl⟩
  rcases serialize_ok h with ⟨_, hd⟩ | ⟨_, b0, v, hd, _⟩
  · exact k0 _ hd
  · exact k0 _ hd

/-- C14 (dumping): a message that dumps has in every message slot an instance of the declared
class, a list of them, or `None` where allowed - or an enumeration member, see
`enum_in_message_slot_refuted`. -/
theorem dumped_message_slots_partial (E : Env) (encrypt : Bytes → Bytes → Res Bytes) (m m' : Msg)
    (priv pub : Option Bytes) (b : Bytes) (h : dump E encrypt m priv pub = (.ok b, m'))
    (name : PStr) (sd : SlotDef) (v : Val) (hs : (name, sd) ∈ m.cls.msgSlots)
    (hv : (name, v) ∈ m.attrs) (he : ∀ e s, v ≠ .enum e s) : Dumpable sd v := by
  obtain ⟨l, hl⟩ := dump_slots h
  obtain ⟨r, hr⟩ := serAttrs_ok hl name v hv
    (by unfold Cls.validSlot; exact List.contains_iff_mem.mpr (msgSlot_payload hs))
  exact serSlot_msgSlot hs hr he

private theorem serAttrs_first_bad {c : Cls} {k : PStr} {v : Val} {e : Exc} {post : Attrs} :
    ∀ {pre : Attrs}, (∀ k' v', (k', v') ∈ pre → c.validSlot k' = true → ∃ r, serSlot c k' v' = .ok r) →
    c.validSlot k = true → serSlot c k v = .error e →
    serAttrs c (pre ++ (k, v) :: post) = .error e
  | [], _, hk, hv => by
    simp only [List.nil_append]
    unfold serAttrs
    rw [if_pos hk, hv]
  | (k', v') :: pre, h, hk, hv => by
    have ih := serAttrs_first_bad (pre := pre) (post := post)
      (fun k'' v'' hm => h k'' v'' (List.mem_cons_of_mem _ hm)) hk hv
    simp only [List.cons_append]
    unfold serAttrs
    by_cases hk' : c.validSlot k' = true
    · obtain ⟨r, hr⟩ := h k' v' (by simp) hk'
      rw [if_pos hk', hr]
      simp only
      rw [ih]
    · rw [if_neg hk']; exact ih

/-- C14 (dumping): otherwise the dump is refused with a `FieldError` naming the slot, provided
the slots before it can be written and the listed messages can be written themselves. -/
theorem undumpable_message_slot (E : Env) (encrypt : Bytes → Bytes → Res Bytes) (m : Msg)
    (pub : Option Bytes) (name : PStr) (sd : SlotDef) (v : Val) (pre post : Attrs)
    (hs : (name, sd) ∈ m.cls.msgSlots) (hm : m.attrs = pre ++ (name, v) :: post)
    (hpre : ∀ k w, (k, w) ∈ pre → k ∈ m.cls.payload → ∃ r, serSlot m.cls k w = .ok r)
    (hin : ∀ x ∈ members v, ∀ c ty ts enc sig attrs, x = .msg c ty ts enc sig attrs →
      ∃ s, serAttrs c attrs = .ok s)
    (hv : ¬ Dumpable sd v) (he : ∀ e s, v ≠ .enum e s) :
    (dump E encrypt m none pub).1 = .error (.fieldError name) := by
  have hbad : serSlot m.cls name v = .error (.fieldError name) := by
    unfold serSlot
    rw [serHook_unhooked m.cls name v (msgSlot_unhooked hs)]
    simp only [msgSlots_lookup.mp hs]
    cases v <;> simp only
    case none =>
      rw [if_neg (fun ha => hv (Or.inl ⟨rfl, ha⟩))]
    case list l =>
      have hex : ∃ x ∈ l, isMsg sd.cls x ≠ true := by
        refine Classical.byContradiction fun hne => hv (Or.inr (Or.inr ⟨l, rfl, fun x hx => ?_⟩))
        exact Classical.byContradiction fun hx' => hne ⟨x, hx, hx'⟩
      rw [serMsgs_bad hex hin]
    case msg c' ty ts enc sig attrs =>
      rw [if_neg (fun hc => hv (Or.inr (Or.inl (by simp [isMsg, hc]))))]
    case enum e s => exact absurd rfl (he e s)
  have hser : serAttrs m.cls m.attrs = .error (.fieldError name) := by
    rw [hm]
    refine serAttrs_first_bad (fun k w hk hw => hpre k w hk ?_) ?_ hbad
    · exact List.contains_iff_mem.mp hw
    · exact List.contains_iff_mem.mpr (msgSlot_payload hs)
  unfold dump serialize
  have hbase : ∀ f, (serializeBase E m none f).1 = .error (.fieldError name) := by
    intro f
    unfold serializeBase
    simp only [givenKey, Option.isSome_none, Bool.false_and, Bool.false_eq_true, if_false]
    unfold Msg.slots
    simp only
    rw [hser]
  split
  · have := hbase ((givenKey pub).map encrypt)
    split
    · rename_i e m' hx
      rw [hx] at this
      exact this
    · rename_i b m' hx
      rw [hx] at this
      cases this
  · exact hbase _

/-- C14 is false for dumping: an enumeration member in a message slot is not checked; it is
written as its text, and the frame cannot be loaded. -/
theorem enum_in_message_slot_refuted :
    ∃ (m : Msg) (b : Bytes) (m' : Msg), m.cls = .SubtaskResultsSettled ∧
      (p!"task_to_compute", { cls := .TaskToCompute }) ∈ m.cls.msgSlots ∧
      getAttr m.attrs p!"task_to_compute" = .enum .settledOrigin p!"results_rejected" ∧
      dump toyEnv (fun _ d => .ok d) m none none = (.ok b, m') ∧
      (load toyEnv (fun _ d => .ok d) (some b) none none false 0).2 =
        .error (.fieldError p!"task_to_compute") := by
  refine ⟨⟨.SubtaskResultsSettled, .int 4008, .int 1500000000, .bool false, .none,
    [(p!"origin", .none), (p!"task_to_compute", .enum .settledOrigin p!"results_rejected")]⟩,
    _, _, rfl, ?_, rfl, rfl, ?_⟩
  · decide
  · decide +kernel

/-- C14 (loading): everywhere in a loaded message tree a message slot holds `None` or what is
declared: an instance of the declared class, or a list of them where declared as list. -/
theorem loaded_message_slots (E : Env) (dec : Bytes → Bytes → Res Bytes) (data : Bytes)
    (priv pub : Option Bytes) (ct : Bool) (now : Int) (m : Msg)
    (h : (load E dec (some data) priv pub ct now).2 = .ok m) : Everywhere SlotsTyped m.val := by
  refine load_everywhere ?_ ?_ h
  · intro n c slots as ha name sd hs
    have := (loadAttrs_typed (P := fun _ => True) (fun c' ty ts enc sig sl x hx => ⟨by
      obtain ⟨_, _, _, _, rfl⟩ := loadMsg_isMsg hx
      simp [isMsg], trivial⟩) ha).1 name sd hs
    rcases this with ⟨a, _⟩ | a
    · exact Or.inl a
    · exact Or.inr a
  · intro as o _ name sd hs
    cases hs

private theorem single_field {rec : Loader} {sd : SlotDef} {key : PStr} {v : Val} {e : Exc}
    (h : deserSingle rec sd key v = .error e) : e.isFieldError = true := by
  unfold deserSingle at h
  repeat' split at h
  all_goals first
    | (cases h; done)
    | (injection h with h; subst h; rfl)

private theorem map_single_field {rec : Loader} {sd : SlotDef} {key : PStr} {e : Exc} : ∀ {l : List Val},
    mapRes (deserSingle rec sd key) l = .error e → e.isFieldError = true
  | [], h => by unfold mapRes at h; cases h
  | x :: l, h => by
    unfold mapRes at h
    split at h
    · rename_i e' he
      injection h with h; subst h
      exact single_field he
    · split at h
      · rename_i e' he
        injection h with h; subst h
        exact map_single_field he
      · cases h

private theorem message_field {rec : Loader} {sd : SlotDef} {key : PStr} {v : Val} {e : Exc}
    (h : deserMessage rec sd key v = .error e) : e.isFieldError = true := by
  unfold deserMessage at h
  repeat' split at h
  all_goals first
    | (cases h; done)
    | (injection h with h; subst h; rfl)
    | exact single_field h
    | skip
  rename_i e' he
  injection h with h; subst h
  exact map_single_field he

/-- C14 (loading): a payload that is refused although all its other fields can be read - so for what its
message slots hold, at any depth - is refused with `FieldError`. -/
theorem bad_message_slot (E : Env) (c : Cls) (hd : Header) (sig : Bytes) (version : Option PStr)
    (slots : Val) (e : Exc)
    (hok : ∀ name ∈ c.payload, lookupName name c.msgSlots = none → ∀ w,
      dictGet (.str name) (dictOf slots) = some w →
      ∃ v, deserSlot E (loadMsg E maxDepth) c name w = .ok v)
    (h : construct E c hd sig version slots = .error e) : e.isFieldError = true := by
  have key : ∀ (names : List PStr), (∀ n ∈ names, n ∈ c.payload) → ∀ e,
      loadSlots E (loadMsg E maxDepth) c (dictOf slots) names = .error e → e.isFieldError = true := by
    intro names
    induction names with
    | nil => intro _ e h; unfold loadSlots at h; cases h
    | cons name rest ih =>
      intro hn e h
      unfold loadSlots at h
      split at h
      · rename_i e' he
        injection h with h; subst h
        split at he
        · cases he
        · split at he
          · cases he
          · rename_i w hw
            cases hs : lookupName name c.msgSlots with
            | none =>
              obtain ⟨v, hv⟩ := hok name (hn name (by simp)) hs w hw
              rw [hv] at he; cases he
            | some sd =>
              rw [deserSlot_unhooked _ _ _ _ _ (msgSlot_unhooked (msgSlots_lookup.mpr hs))] at he
              unfold deserBase at he
              rw [msgSlot_not_enum (msgSlots_lookup.mpr hs), hs] at he
              have hno : (if w = .none then (none : Option EnumId) else none) = none := by
                split <;> rfl
              rw [hno] at he
              exact message_field he
      · split at h
        · rename_i e' he
          injection h with h; subst h
          exact ih (fun n hm => hn n (by simp [hm])) _ he
        · cases h
  unfold construct loadAttrs wrapLoad at h
  cases hl : loadSlots E (loadMsg E maxDepth) c (dictOf slots) c.payload with
  | ok as => rw [hl] at h; cases h
  | error e' =>
    have hf := key c.payload (fun _ hm => hm) e' hl
    rw [hl] at h
    cases e' <;> simp [Exc.isFieldError] at hf
    simp only at h
    injection h with h; subst h; rfl

/-! The hypotheses can be met: a report whose assignment has numbers for a header. -/

example : construct toyEnv .ReportComputedTask ⟨2005, 1500000000, false⟩ [] none
      (.list [.list [.str p!"task_to_compute", .list [.bool false, .list [.int 1, .int 2, .int 3]]]]) =
      .error (.fieldError p!"task_to_compute") ∧
    ∀ name ∈ Cls.ReportComputedTask.payload, name ≠ p!"task_to_compute" →
      dictGet (.str name) (dictOf (.list [.list [.str p!"task_to_compute",
        .list [.bool false, .list [.int 1, .int 2, .int 3]]]])) = none := by
  decide +kernel

/-- C14 (loading): a message slot that was present in the payload holds `None` only where
allowed. -/
theorem loaded_present_slot (E : Env) (dec : Bytes → Bytes → Res Bytes) (data : Bytes)
    (priv pub : Option Bytes) (ct : Bool) (now : Int) (m : Msg)
    (h : (load E dec (some data) priv pub ct now).2 = .ok m) (p : Bytes) (ps : List (Val × Val))
    (hp : Payload (loadDecrypt dec priv) data p) (hl : loads p = .ok (wirePairs ps))
    (hk : ∀ q ∈ ps, q.1.hashable = true) (name : PStr) (sd : SlotDef)
    (hs : (name, sd) ∈ m.cls.msgSlots) (hpres : lastValue name ps ≠ none)
    (hnone : getAttr m.attrs name = .none) : sd.allowNone = true := by
  obtain ⟨p', slots, as, hp', hl', ha, hm⟩ := load_construct h
  have : p' = p := by
    unfold Payload at hp hp'
    split at hp
    · rename_i hf
      rw [if_pos hf] at hp'
      rw [hp] at hp'; injection hp' with hp'; exact hp'.symm
    · rename_i hf
      rw [if_neg hf] at hp'
      rw [hp, hp']
  subst this
  rw [hl] at hl'
  injection hl' with hl'
  subst hl'
  have := (loadAttrs_typed (P := fun _ => True) (fun c' ty ts enc sig sl x hx => ⟨by
      obtain ⟨_, _, _, _, rfl⟩ := loadMsg_isMsg hx
      simp [isMsg], trivial⟩) ha).1 name sd hs
  rw [hm, getAttr_version _ _ _ (payload_ne_version (msgSlot_payload hs))] at hnone
  rcases this with ⟨_, b | b⟩ | b
  · exact b
  · rw [dictOf_wire ps hk] at b; exact absurd b hpres
  · rw [hnone] at b
    rcases b with ⟨_, b⟩ | ⟨_, l, b, _⟩
    · cases b
    · cases b

/-! ### C15 -/

/-- C15: everywhere in a loaded message tree an enum slot holds `None` or a member of the
declared enumeration. -/
theorem loaded_enum_slots (E : Env) (dec : Bytes → Bytes → Res Bytes) (data : Bytes)
    (priv pub : Option Bytes) (ct : Bool) (now : Int) (m : Msg)
    (h : (load E dec (some data) priv pub ct now).2 = .ok m) : Everywhere EnumsTyped m.val := by
  refine load_everywhere ?_ ?_ h
  · intro n c slots as ha name e hs
    exact (loadAttrs_typed (P := fun _ => True) (fun c' ty ts enc sig sl x hx => ⟨by
      obtain ⟨_, _, _, _, rfl⟩ := loadMsg_isMsg hx
      simp [isMsg], trivial⟩) ha).2.1 name e hs
  · intro as o _ name sd hs
    cases hs

/-- C15: the decision about an enum slot of a payload: `None` is kept, the text of a member is
the member, and every other value of a payload is refused with a `FieldError` naming the slot. -/
theorem enum_slot_decision (E : Env) (rec : Loader) (c : Cls) (name : PStr) (e : EnumId) (w : Val)
    (hs : (name, e) ∈ c.enumSlots) (hw : ∀ e' s, w ≠ .enum e' s) :
    deserSlot E rec c name w =
      if w = .none then .ok .none
      else if ∃ s ∈ e.values, w = .str s then
        (match w with | .str s => .ok (.enum e s) | _ => .error (.fieldError name))
      else .error (.fieldError name) := by
  rw [deserSlot_unhooked _ _ _ _ _ (enumSlot_unhooked hs)]
  unfold deserBase
  rw [enumSlots_lookup.mp hs, enumSlot_not_msg hs]
  by_cases h : w = .none
  · simp [h]
  · rw [if_neg h, if_neg h]
    simp only
    cases w
    case enum e' s => exact absurd rfl (hw e' s)
    all_goals simp_all [EnumId.lookup]
    rename_i s
    by_cases hc : s ∈ e.values
    · simp [hc]
    · simp [hc]

/-- C15: dumping writes the text of a member, and loading the text gives the member back. -/
theorem enum_slot_round_trip (E : Env) (rec : Loader) (c : Cls) (name : PStr) (e : EnumId)
    (s : PStr) (hs : (name, e) ∈ c.enumSlots) (hm : s ∈ e.values) :
    serSlot c name (.enum e s) = .ok (.str s) ∧
    deserSlot E rec c name (.str s) = .ok (.enum e s) := by
  constructor
  · unfold serSlot
    rw [serHook_unhooked _ _ _ (enumSlot_unhooked hs)]
  · rw [enum_slot_decision E rec c name e (.str s) hs (by intro e' s' h; cases h)]
    simp [hm]

example : (p!"reason", EnumId.taskFailureReason) ∈ Cls.enumSlots .TaskFailure ∧
    p!"TimeExceeded" ∈ EnumId.values .taskFailureReason := by decide

/-! ### C38 -/

private theorem integer_ok {E : Env} {key : PStr} {v w : Val}
    (h : (match Validator.integer.run E key v with
      | .error e => (.error e : Res Val)
      | .ok _ => .ok v) = .ok w) : ∃ i, w = .int i := by
  unfold Validator.run at h
  cases v <;> simp_all [Validator.accepts, Val.asInt]
  exact ⟨_, h.symm⟩

/-- C38: everywhere in a loaded message tree the numeric and boolean fields of offers and tasks
have the declared kinds (absent ones are `None`, `num_subtasks` is 1 then). -/
theorem loaded_numbers (E : Env) (dec : Bytes → Bytes → Res Bytes) (data : Bytes)
    (priv pub : Option Bytes) (ct : Bool) (now : Int) (m : Msg)
    (h : (load E dec (some data) priv pub ct now).2 = .ok m) : Everywhere NumbersTyped m.val := by
  refine load_everywhere ?_ ?_ h
  · intro n c slots as ha
    constructor
    · intro hc
      subst hc
      refine ⟨?_, ?_, ?_⟩
      · obtain ⟨v, hv, _, h2⟩ := loadAttrs_get ha p!"cpu_usage" (by decide)
        obtain ⟨h2, h3⟩ := h2 (by simp)
        have hd : defaulted .WantToComputeTask p!"cpu_usage" v = v := by simp [defaulted]
        rw [hv, hd]
        cases hg : dictGet (.str p!"cpu_usage") (dictOf slots) with
        | none => exact Or.inl (h2 hg)
        | some w =>
          have := h3 w hg
          by_cases hw : w = .none
          · subst hw
            simp [deserSlot, deserBase, Cls.nodeSlots, lookupName, Cls.msgSlots, Cls.enumSlots] at this
            exact Or.inl this.symm
          · simp [deserSlot, Cls.nodeSlots, hw] at this
            cases w <;> simp [runAll, Validator.run, Validator.accepts, Val.asInt] at this
            rename_i i
            by_cases hi : 0 ≤ i
            · simp [hi] at this
              exact Or.inr ⟨i.toNat, by rw [← this, Int.toNat_of_nonneg hi]⟩
            · simp [hi] at this
      · obtain ⟨v, hv, _, h2⟩ := loadAttrs_get ha p!"num_subtasks" (by decide)
        obtain ⟨h2, h3⟩ := h2 (by simp)
        have hd : defaulted .WantToComputeTask p!"num_subtasks" v =
            if v = .none then .int 1 else v := by simp [defaulted]
        rw [hv, hd]
        cases hg : dictGet (.str p!"num_subtasks") (dictOf slots) with
        | none => rw [h2 hg]; exact ⟨1, by decide, rfl⟩
        | some w =>
          have := h3 w hg
          simp [deserSlot, Cls.nodeSlots] at this
          cases w <;> simp [Validator.run, Validator.accepts, Val.asInt] at this
          rename_i i
          split at this
          · cases this
          · rename_i hr
            split at hr
            · rename_i hi
              injection this with this
              subst this
              refine ⟨i.toNat, by omega, ?_⟩
              simp only [reduceCtorEq, if_false, Val.int.injEq]
              omega
            · cases hr
      · obtain ⟨v, hv, _⟩ := loadAttrs_get ha p!"concent_enabled" (by decide)
        exact ⟨v.truthy, by rw [hv]; simp [defaulted]⟩
    · intro hc
      subst hc
      refine ⟨?_, ?_, ?_⟩
      · obtain ⟨v, hv, _, h2⟩ := loadAttrs_get ha p!"price" (by decide)
        obtain ⟨h2, h3⟩ := h2 (by simp)
        have hd : defaulted .TaskToCompute p!"price" v = v := by simp [defaulted]
        rw [hv, hd]
        cases hg : dictGet (.str p!"price") (dictOf slots) with
        | none => exact Or.inl (h2 hg)
        | some w =>
          have := h3 w hg
          simp [deserSlot, Cls.nodeSlots] at this
          exact Or.inr (integer_ok this)
      · obtain ⟨v, hv, _, h2⟩ := loadAttrs_get ha p!"size" (by decide)
        obtain ⟨h2, h3⟩ := h2 (by simp)
        have hd : defaulted .TaskToCompute p!"size" v = v := by simp [defaulted]
        rw [hv, hd]
        cases hg : dictGet (.str p!"size") (dictOf slots) with
        | none => exact Or.inl (h2 hg)
        | some w =>
          have := h3 w hg
          simp [deserSlot, Cls.nodeSlots] at this
          exact Or.inr (integer_ok this)
      · obtain ⟨v, hv, _⟩ := loadAttrs_get ha p!"concent_enabled" (by decide)
        exact ⟨v.truthy, by rw [hv]; simp [defaulted]⟩
  · intro as o _
    exact ⟨(fun h => by cases h), (fun h => by cases h)⟩

/-- C38: `concent_enabled` of a loaded offer or task is the truth value of what was sent, and
false if nothing was. -/
theorem concent_flag (E : Env) (dec : Bytes → Bytes → Res Bytes) (data : Bytes)
    (priv pub : Option Bytes) (ct : Bool) (now : Int) (m : Msg)
    (h : (load E dec (some data) priv pub ct now).2 = .ok m) (p : Bytes) (ps : List (Val × Val))
    (hp : Payload (loadDecrypt dec priv) data p) (hl : loads p = .ok (wirePairs ps))
    (hk : ∀ q ∈ ps, q.1.hashable = true)
    (hc : m.cls = .WantToComputeTask ∨ m.cls = .TaskToCompute) :
    getAttr m.attrs p!"concent_enabled" =
      .bool ((lastValue p!"concent_enabled" ps).any holds) := by
  have hn : p!"concent_enabled" ∈ m.cls.payload := by rcases hc with e | e <;> rw [e] <;> decide
  have hd : ∀ v, defaulted m.cls p!"concent_enabled" v = .bool (holds v) := by
    intro v
    rcases hc with e | e <;> rw [e] <;> rfl
  have hs : ∀ w v, deserSlot E (loadMsg E maxDepth) m.cls p!"concent_enabled" w = .ok v → v = w := by
    intro w v hw
    rcases hc with e | e <;> rw [e] at hw <;>
    · simp [deserSlot, deserBase, Cls.nodeSlots, lookupName, Cls.msgSlots, Cls.enumSlots] at hw
      exact hw.symm
  obtain ⟨h1, h2⟩ := loaded_values E dec data priv pub ct now m h p ps hp hl hk _ hn (by
    rcases hc with e | e <;> rw [e] <;> simp)
  cases hv : lastValue p!"concent_enabled" ps with
  | none => rw [h1 hv, hd]; rfl
  | some w =>
    obtain ⟨v, e, hw⟩ := h2 w hv
    rw [e, hd, hs w v hw]
    rfl

/-- C38: each present numeric field is accepted as it is exactly if it is of the declared kind,
otherwise refused with a `FieldError` naming it. -/
theorem number_decision (E : Env) (rec : Loader) (w : Val) :
    Decides (deserSlot E rec .WantToComputeTask p!"cpu_usage" w) p!"cpu_usage" w
      (w = .none ∨ ∃ n : Nat, w = .int n) ∧
    Decides (deserSlot E rec .WantToComputeTask p!"num_subtasks" w) p!"num_subtasks" w
      (∃ n : Nat, 0 < n ∧ w = .int n) ∧
    Decides (deserSlot E rec .TaskToCompute p!"price" w) p!"price" w (∃ i, w = .int i) ∧
    Decides (deserSlot E rec .TaskToCompute p!"size" w) p!"size" w (∃ i, w = .int i) := by
  unfold Decides
  refine ⟨?_, ?_, ?_, ?_⟩
  · by_cases hn : w = .none
    · subst hn
      simp [deserSlot, deserBase, Cls.nodeSlots, lookupName, Cls.msgSlots, Cls.enumSlots]
    · simp only [deserSlot, Cls.nodeSlots, hn]
      cases w <;> simp [runAll, Validator.run, Validator.accepts, Val.asInt] at hn ⊢
      rename_i i
      by_cases hi : 0 ≤ i
      · exact Or.inl ⟨⟨i.toNat, by omega⟩, by simp [hi]⟩
      · exact Or.inr ⟨fun n => by omega, by simp [hi]⟩
  · simp only [deserSlot, Cls.nodeSlots]
    cases w <;> simp [runAll, Validator.run, Validator.accepts, Val.asInt]
    rename_i i
    by_cases hi : 1 ≤ i
    · exact Or.inl ⟨⟨i.toNat, by omega, by omega⟩, by simp [hi]⟩
    · exact Or.inr ⟨fun n => by omega, by simp [hi]⟩
  · simp only [deserSlot, Cls.nodeSlots]
    cases w <;> simp [runAll, Validator.run, Validator.accepts, Val.asInt]
  · simp only [deserSlot, Cls.nodeSlots]
    cases w <;> simp [runAll, Validator.run, Validator.accepts, Val.asInt]

example : (load toyEnv (fun _ d => .ok d)
      (some ((dump toyEnv (fun _ d => .ok d)
        ⟨.RemoveTaskContainer, .int 1017, .int 1500000000, .bool false, .none,
          [(p!"remove_tasks", .list [.msg .RemoveTask (.int 1016) (.int 1500000000) (.bool false)
            (.bytes (List.replicate 65 1)) [(p!"task_id", .str p!"t")]])]⟩ none none).1.toOption.getD []))
      none none false 0).2 =
    .ok ⟨.RemoveTaskContainer, .int 1017, .int 1500000000, .bool false, .bytes (List.replicate 65 0),
      [(p!"remove_tasks", .list [.msg .RemoveTask (.int 1016) (.int 1500000000) (.bool false)
        (.bytes (List.replicate 65 1)) [(p!"task_id", .str p!"t")]])]⟩ := by decide +kernel

/-! ### C16, C17: counterexamples -/

/-- C16 is false for the empty list: it dumps, but the frame does not load. -/
theorem empty_list_refuted :
    ∃ (m : Msg) (b : Bytes) (m' : Msg), m.cls = .RemoveTaskContainer ∧
      getAttr m.attrs p!"remove_tasks" = .list [] ∧
      dump toyEnv (fun _ d => .ok d) m none none = (.ok b, m') ∧
      (load toyEnv (fun _ d => .ok d) (some b) none none false 0).2 =
        .error (.fieldError p!"remove_tasks") := by
  refine ⟨⟨.RemoveTaskContainer, .int 1017, .int 1500000000, .bool false, .none,
    [(p!"remove_tasks", .list [])]⟩, _, _, rfl, rfl, rfl, ?_⟩
  decide +kernel

/-- C17 is false for `conn_id` of `StartSessionResponse`: whatever is sent, the loaded message
has `None`. -/
theorem conn_id_lost (E : Env) (dec : Bytes → Bytes → Res Bytes) (data : Bytes)
    (priv pub : Option Bytes) (ct : Bool) (now : Int) (m : Msg)
    (h : (load E dec (some data) priv pub ct now).2 = .ok m) (hc : m.cls = .StartSessionResponse) :
    getAttr m.attrs p!"conn_id" = .none := by
  obtain ⟨p, slots, as, _, _, ha, hm⟩ := load_construct h
  rw [hm, getAttr_version _ _ _ (by decide)]
  obtain ⟨v, hv, h1, _⟩ := loadAttrs_get ha p!"conn_id" (by rw [hc]; decide)
  rw [hv, h1 ⟨hc, rfl⟩, hc]
  simp [defaulted]

/-- C17, the witness: a `StartSessionResponse` with a `conn_id` dumps and loads without it. -/
theorem conn_id_refuted :
    ∃ (m : Msg) (b : Bytes) (m' m'' : Msg), getAttr m.attrs p!"conn_id" = .int 7 ∧
      m.cls = .StartSessionResponse ∧
      dump toyEnv (fun _ d => .ok d) m none none = (.ok b, m') ∧
      (load toyEnv (fun _ d => .ok d) (some b) none none false 0).2 = .ok m'' ∧
      getAttr m''.attrs p!"conn_id" = .none := by
  refine ⟨⟨.StartSessionResponse, .int 2016, .int 1500000000, .bool false, .none,
    [(p!"conn_id", .int 7)]⟩, _, _, ⟨.StartSessionResponse, .int 2016, .int 1500000000,
    .bool false, .bytes fakeSig, [(p!"conn_id", .none)]⟩, rfl, rfl, rfl, ?_, rfl⟩
  decide +kernel

end Verif.Props
