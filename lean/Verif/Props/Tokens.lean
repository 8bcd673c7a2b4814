import Verif.Lemmas.FDict
import Verif.Lemmas.FloatKey
import Verif.Lemmas.Toy
import Verif.Spec.Token
import Verif.Spec.Data
import Verif.Model.Misc
/-!
# C54: file transfer tokens
-/

set_option linter.unusedSimpArgs false

namespace Verif.Props

open Verif Spec

private theorem fileInfo_entry {E : Env} {pairs : List (Val × Val)} {w : Val}
    (h : fdBuild E noConv .fileInfo pairs = .ok w) : IsEntry w := by
  obtain ⟨items, hw, hi, hf, _⟩ := fdBuild_ok h
  refine ⟨items, hw, hi.nodup, fun k => ⟨fun hk => hi.known k hk, fun hk => hf k hk⟩, ?_⟩
  have hm : (p!"category", getAttr items p!"category") ∈ items := mem_getAttr (hf _ (by decide))
  exact (itemOk_iff E .fileInfo _ _).mp (hi.valid _ _ hm) rfl

private theorem entry_pairs {E : Env} {f w : Val} (h : deserFileInfo E f = .ok w) :
    ∃ pairs, fdBuild E noConv .fileInfo pairs = .ok w := by
  unfold deserFileInfo at h
  split at h
  · dsimp only at h
    split at h
    · exact ⟨_, h⟩
    · exact ⟨_, h⟩
  · split at h
    · split at h
      · cases h
      · exact ⟨_, h⟩
    · exact ⟨_, h⟩
  · cases h

/-- C54: in a loaded message, wherever a token occurs, its files are absent or entries with
exactly the four fields and a category. -/
theorem loaded_tokens (E : Env) (dec : Bytes → Bytes → Res Bytes) (data : Bytes)
    (priv pub : Option Bytes) (ct : Bool) (now : Int) (m : Msg)
    (h : (load E dec (some data) priv pub ct now).2 = .ok m) : Everywhere FilesOk m.val := by
  refine load_everywhere (fun n c slots as ha => ?_) (fun as o _ hc => by cases hc) h
  intro hc
  subst hc
  obtain ⟨v, hv, _, h2⟩ := loadAttrs_get ha p!"files" (by decide)
  obtain ⟨h2, h3⟩ := h2 (by rintro ⟨e, _⟩; cases e)
  rw [hv, show defaulted .FileTransferToken p!"files" v = v from by simp [defaulted]]
  cases hg : dictGet (.str p!"files") (dictOf slots) with
  | none => exact Or.inl (h2 hg)
  | some x =>
    right
    have hx := h3 x hg
    unfold deserSlot at hx
    simp only [show Cls.nodeSlots .FileTransferToken = [] from rfl, List.contains_nil, reduceCtorEq,
      false_and, if_false, true_and, if_true, Bool.false_eq_true] at hx
    split at hx
    · cases hx
    split at hx
    · cases hx
    rename_i r hr
    injection hx with hx
    refine ⟨r, hx.symm, fun f hf => ?_⟩
    obtain ⟨y, _, hy⟩ := mapRes_ok hr f hf
    obtain ⟨pairs, hp⟩ := entry_pairs hy
    exact fileInfo_entry hp

private theorem dictSet_mem {n : PStr} {m key v : Val} : ∀ {d : List (Val × Val)},
    (d.map Prod.fst).Nodup → ((key, v) ∈ dictSet (.str n) m d ↔
      (key = .str n ∧ v = m) ∨ ((key, v) ∈ d ∧ key ≠ .str n))
  | [], _ => by simp [dictSet]
  | (k, x) :: rest, hd => by
    simp only [List.map_cons, List.nodup_cons] at hd
    unfold dictSet
    by_cases hk : k = .str n
    · rw [if_pos ((keyEq_str _ _).mpr hk)]
      simp only [List.mem_cons, Prod.mk.injEq]
      constructor
      · rintro (⟨e1, e2⟩ | h)
        · exact Or.inl ⟨e1.trans hk, e2⟩
        · refine Or.inr ⟨Or.inr h, fun e => hd.1 (List.mem_map.mpr ⟨_, h, ?_⟩)⟩
          rw [hk, ← e]
      · rintro (⟨e1, e2⟩ | ⟨⟨e1, _⟩ | h, h2⟩)
        · exact Or.inl ⟨e1.trans hk.symm, e2⟩
        · exact absurd (e1.trans hk) h2
        · exact Or.inr h
    · rw [if_neg (fun e => hk ((keyEq_str _ _).mp e))]
      simp only [List.mem_cons, Prod.mk.injEq, dictSet_mem hd.2]
      constructor
      · rintro (⟨e1, e2⟩ | h | ⟨h, h2⟩)
        · exact Or.inr ⟨Or.inl ⟨e1, e2⟩, by rw [e1]; exact hk⟩
        · exact Or.inl h
        · exact Or.inr ⟨Or.inr h, h2⟩
      · rintro (h | ⟨h | h, h2⟩)
        · exact Or.inr (Or.inl h)
        · exact Or.inl h
        · exact Or.inr (Or.inr ⟨h, h2⟩)

private theorem dictSet_nodup {n : PStr} {m : Val} : ∀ {d : List (Val × Val)},
    (d.map Prod.fst).Nodup → ((dictSet (.str n) m d).map Prod.fst).Nodup
  | [], _ => by simp [dictSet]
  | (k, x) :: rest, hd => by
    have hd' := hd
    simp only [List.map_cons, List.nodup_cons] at hd
    unfold dictSet
    by_cases hk : k = .str n
    · rw [if_pos ((keyEq_str _ _).mpr hk)]
      exact hd'
    · rw [if_neg (fun e => hk ((keyEq_str _ _).mp e))]
      simp only [List.map_cons, List.nodup_cons]
      refine ⟨fun h => ?_, dictSet_nodup hd.2⟩
      obtain ⟨⟨a, b⟩, h', e⟩ := List.mem_map.mp h
      simp only at e
      subst e
      rcases (dictSet_mem hd.2).mp h' with ⟨e, _⟩ | ⟨h', _⟩
      · exact hk e
      · exact hd.1 (List.mem_map.mpr ⟨_, h', rfl⟩)

private theorem distinct_nodup : ∀ {l : List Val}, distinctKeys l = true → l.Nodup
  | [], _ => by simp
  | k :: rest, h => by
    simp only [distinctKeys, Bool.and_eq_true, List.all_eq_true] at h
    rw [List.nodup_cons]
    refine ⟨fun hm => ?_, distinct_nodup h.2⟩
    have := h.1 k hm
    rw [sameKey_keyEq, keyEq_iff.mpr rfl] at this
    cases this

private theorem plain_get {n : PStr} {x : Val} {d : List (Val × Val)} (hd : plain (.dict d) = true)
    (h : dictGet (.str n) d = some x) : plain x = true := by
  simp only [plain, Bool.and_eq_true] at hd
  replace hd := hd.1.1
  replace h := dictGet_mem h
  induction d with
  | nil => cases h
  | cons p rest ih =>
    obtain ⟨k, y⟩ := p
    simp only [plainD, Bool.and_eq_true] at hd
    rcases List.mem_cons.mp h with e | e
    · injection e with _ e; rw [e]; exact hd.1
    · exact ih hd.2 e

private theorem fileInfo_default (E : Env) : ∀ k v, (k, v) ∈ FDictId.items .fileInfo →
    fdValidate E .fileInfo k v = .ok () := by
  intro k v h
  simp only [FDictId.items, List.mem_cons, Prod.mk.injEq, List.mem_nil_iff, or_false] at h
  rcases h with ⟨rfl, rfl⟩ | ⟨rfl, rfl⟩ | ⟨rfl, rfl⟩ | ⟨rfl, rfl⟩ <;> rfl

private theorem known_iff {E : Env} {k : PStr} {v : Val} :
    (k ∈ (FDictId.items .fileInfo).map Prod.fst ∧ itemOk E .fileInfo k v) ↔
    (k ∈ fileFields ∧ (k = p!"category" → ∃ s ∈ fileCategories, v = .enum .ftCategory s)) :=
  Iff.rfl

private theorem default_iff {k : PStr} (h : k ∈ fileFields) :
    lookupName k (FDictId.items .fileInfo) = some (fileDefault k) := by
  simp only [fileFields, List.mem_cons, List.mem_nil_iff, or_false] at h
  rcases h with rfl | rfl | rfl | rfl <;> rfl

/-- C54: a received entry is accepted exactly if it has only known fields and its category, if
present, is a known one; the entry then has the received values, the member for the category,
and defaults (`results` for the category) elsewhere. -/
theorem file_entry_decision (E : Env) (d : List (Val × Val)) (hd : plain (.dict d) = true) :
    ((∃ w, deserFileInfo E (.dict d) = .ok w) ↔ EntryOk d) ∧
    ∀ items, deserFileInfo E (.dict d) = .ok (.fdict .fileInfo items) → ∀ k ∈ fileFields,
      getAttr items k = match dictGet (.str k) d with
        | none => fileDefault k
        | some (.str s) => if k = p!"category" then .enum .ftCategory s else .str s
        | some v => v := by
  have hnd : (d.map Prod.fst).Nodup := by
    simp only [plain, Bool.and_eq_true] at hd
    exact distinct_nodup hd.2
  have hkept : deserFileInfo E (.dict d) = fdBuild E noConv .fileInfo d →
      (∀ s, dictGet (.str p!"category") d ≠ some (.str s) ∨ s ∉ fileCategories) →
      (dictGet (.str p!"category") d ≠ none → ¬ (∃ w, deserFileInfo E (.dict d) = .ok w) ∧ ¬ EntryOk d) ∧
      (dictGet (.str p!"category") d = none →
        ((∃ w, deserFileInfo E (.dict d) = .ok w) ↔ EntryOk d)) := by
    intro e hs
    rw [e, fdBuild_iff (fileInfo_default E)]
    refine ⟨fun hn => ?_, fun hn => ?_⟩
    · obtain ⟨x, hx⟩ := Option.ne_none_iff_exists'.mp hn
      have hp := plain_get hd hx
      have hm := dictGet_mem hx
      refine ⟨fun h => ?_, fun h => ?_⟩
      · obtain ⟨k, e1, _, h3⟩ := h _ _ hm
        injection e1 with e1
        obtain ⟨t, _, e2⟩ := h3 e1.symm
        rw [e2] at hp
        cases hp
      · obtain ⟨t, ht, e2⟩ := h.2 _ hm
        rcases hs t with h | h
        · exact h (by rw [hx, e2])
        · exact h ht
    · have hno := dictGet_none.mp hn
      constructor
      · intro h
        refine ⟨fun key v hm => ?_, fun v hm => absurd hm (hno v)⟩
        obtain ⟨k, e1, h2, _⟩ := h key v hm
        exact ⟨k, h2, e1⟩
      · intro h key v hm
        obtain ⟨k, hk, e1⟩ := h.1 key v hm
        refine ⟨k, e1, known_iff.mpr ⟨hk, fun e2 => ?_⟩⟩
        subst e1 e2
        exact absurd hm (hno v)
  cases hg : dictGet (.str p!"category") d with
  | none =>
    have e : deserFileInfo E (.dict d) = fdBuild E noConv .fileInfo d := by
      unfold deserFileInfo
      dsimp only
      rw [hg]
      rfl
    refine ⟨(hkept e (fun s => Or.inl (by rw [hg]; simp))).2 hg, fun items h k hk => ?_⟩
    rw [e] at h
    have := fdBuild_lookup hnd h k
    rw [default_iff hk] at this
    unfold getAttr
    rw [this]
    cases hx : dictGet (.str k) d with
    | none => rfl
    | some x =>
      simp only [Option.some_or]
      split <;> rename_i e' <;> cases e'
      · rename_i s
        rw [if_neg]
        rintro rfl
        rw [hg] at hx
        cases hx
      · rfl
  | some x =>
    by_cases hs : ∃ s ∈ fileCategories, x = .str s
    · obtain ⟨s, hs, rfl⟩ := hs
      have e : deserFileInfo E (.dict d) = fdBuild E noConv .fileInfo
          (dictSet (.str p!"category") (.enum .ftCategory s) d) := by
        unfold deserFileInfo
        dsimp only
        rw [hg]
        have : EnumId.ftCategory.lookup (.str s) = some (.enum .ftCategory s) := by
          unfold EnumId.lookup
          simp only
          exact if_pos (List.contains_iff_mem.mpr hs)
        simp only [this]
        rfl
      refine ⟨?_, fun items h k hk => ?_⟩
      · rw [e, fdBuild_iff (fileInfo_default E)]
        simp only [known_iff]
        constructor
        · intro h
          refine ⟨fun key v hm => ?_, fun v hm => ?_⟩
          · by_cases hkc : key = .str p!"category"
            · exact ⟨_, by decide, hkc⟩
            · obtain ⟨k, e1, h2, _⟩ := h key v ((dictSet_mem hnd).mpr (Or.inr ⟨hm, hkc⟩))
              exact ⟨k, h2, e1⟩
          · have := dictGet_of_mem hnd hm
            rw [hg] at this
            injection this with this
            exact ⟨s, hs, this.symm⟩
        · intro h key v hm
          rcases (dictSet_mem hnd).mp hm with ⟨e1, e2⟩ | ⟨hm, hkc⟩
          · exact ⟨p!"category", e1, by decide, fun _ => ⟨s, hs, e2⟩⟩
          · obtain ⟨k, hk, e1⟩ := h.1 key v hm
            exact ⟨k, e1, hk, fun e2 => absurd (by rw [e1, e2]) hkc⟩
      · rw [e] at h
        have := fdBuild_lookup (dictSet_nodup hnd) h k
        rw [default_iff hk, dictGet_dictSet_str] at this
        unfold getAttr
        rw [this]
        by_cases hc : k = p!"category"
        · subst hc
          rw [if_pos rfl, hg]
          simp
        · rw [if_neg (by intro e; injection e with e; exact hc e.symm)]
          cases hx : dictGet (.str k) d with
          | none => rfl
          | some x =>
            simp only [Option.some_or]
            split <;> rename_i e' <;> cases e'
            · rw [if_neg hc]
            · rfl
    · have e : deserFileInfo E (.dict d) = fdBuild E noConv .fileInfo d := by
        unfold deserFileInfo
        dsimp only
        rw [hg]
        have : EnumId.ftCategory.lookup x = none := by
          have hp := plain_get hd hg
          cases x <;> first | rfl | skip
          · rename_i s
            unfold EnumId.lookup
            simp only
            rw [if_neg]
            intro hc
            exact hs ⟨s, List.contains_iff_mem.mp hc, rfl⟩
          · cases hp
        simp only [this]
        rfl
      obtain ⟨a, b⟩ := (hkept e (fun s => by
        by_cases h : x = .str s
        · exact Or.inr (fun hc => hs ⟨s, hc, h⟩)
        · exact Or.inl (by rw [hg]; simpa using h))).1 (by rw [hg]; simp)
      exact ⟨⟨fun h => absurd h a, fun h => absurd h b⟩, fun items h => absurd ⟨_, h⟩ a⟩

/-- C54: a payload with a files entry that is not acceptable is refused. -/
theorem bad_entry_refused (E : Env) (rec : Loader) (slots : Val) (l : List Val)
    (d : List (Val × Val)) (hd : plain (.dict d) = true)
    (hf : dictGet (.str p!"files") (dictOf slots) = some (.list l)) (hm : .dict d ∈ l)
    (hbad : ¬ EntryOk d) : ∀ as, loadAttrs E rec .FileTransferToken slots ≠ .ok as := by
  intro as ha
  obtain ⟨v, _, _, h2⟩ := loadAttrs_get ha p!"files" (by decide)
  have hx := (h2 (by rintro ⟨e, _⟩; cases e)).2 _ hf
  unfold deserSlot at hx
  simp only [show Cls.nodeSlots .FileTransferToken = [] from rfl, List.contains_nil, reduceCtorEq,
    false_and, if_false, true_and, if_true, Bool.false_eq_true, Val.iter] at hx
  split at hx
  · cases hx
  rename_i r hr
  have : ∀ {l : List Val} {r}, mapRes (deserFileInfo E) l = .ok r → ∀ x ∈ l,
      ∃ y, deserFileInfo E x = .ok y := by
    intro l
    induction l with
    | nil => intro r _ x hx; cases hx
    | cons a rest ih =>
      intro r h x hx
      unfold mapRes at h
      split at h
      · cases h
      rename_i z hz
      split at h
      · cases h
      rename_i r' hr'
      rcases List.mem_cons.mp hx with e | e
      · exact ⟨z, by rw [e]; exact hz⟩
      · exact ih hr' x e
  exact hbad ((file_entry_decision E d hd).1.mp (this hr _ hm))

/-- C54: `get_file_info` returns the first entry of the category, or nothing if there is none. -/
theorem get_file_info (pre post : List Val) (f : Val) (cat : Val)
    (hpre : ∀ g ∈ pre, pyEq (dictAttr g p!"category") cat = false) :
    (pyEq (dictAttr f p!"category") cat = true → getFileInfo (pre ++ f :: post) cat = some f) ∧
    getFileInfo pre cat = none := by
  unfold getFileInfo
  refine ⟨fun h => ?_, ?_⟩
  · rw [List.find?_append, List.find?_eq_none.mpr (fun x hx => by rw [hpre x hx]; simp)]
    simp [List.find?_cons, h]
  · exact List.find?_eq_none.mpr (fun x hx => by rw [hpre x hx]; simp)

/-- C54: for entries of a loaded token, "of the category" means that the category is that
member. -/
theorem entry_category (f : Val) (s : PStr) (hf : IsEntry f) :
    pyEq (dictAttr f p!"category") (.enum .ftCategory s) = true ↔
    ∃ items, f = .fdict .fileInfo items ∧ getAttr items p!"category" = .enum .ftCategory s := by
  obtain ⟨items, rfl, hn, hk, t, ht, he⟩ := hf
  have hm : (p!"category", Val.enum .ftCategory t) ∈ items := by
    rw [← he]; exact mem_getAttr ((hk _).mpr (by decide))
  have : dictAttr (.fdict .fileInfo items) p!"category" = .enum .ftCategory t := by
    unfold dictAttr Val.asDict
    simp only
    rw [dictGet_of_mem (x := .enum .ftCategory t)]
    · have : (items.map fun kv => (Val.str kv.1, kv.2)).map Prod.fst
          = (items.map Prod.fst).map Val.str := by simp
      rw [this]
      rw [List.nodup_iff_pairwise_ne] at hn ⊢
      exact List.Pairwise.map _ (fun a b h e => h (by injection e)) hn
    · exact List.mem_map.mpr ⟨_, hm, rfl⟩
  rw [this]
  simp only [pyEq, BEq.rfl, Bool.true_or, Bool.true_and, beq_iff_eq]
  constructor
  · rintro rfl; exact ⟨items, rfl, he⟩
  · rintro ⟨i', e, h⟩
    injection e with _ e
    subst e
    rw [he] at h
    injection h

/-! ### Non-vacuity -/

/-- An entry without category is accepted and gets `results`; one with an unknown category, or
an unknown field, is not. -/
example : EntryOk [(.str p!"path", .str p!"a")] ∧
    deserFileInfo toyEnv (.dict [(.str p!"path", .str p!"a")]) = .ok (.fdict .fileInfo
      [(p!"path", .str p!"a"), (p!"checksum", .str []), (p!"size", .int 0),
       (p!"category", .enum .ftCategory p!"results")]) ∧
    ¬ EntryOk [(.str p!"category", .str p!"nope")] ∧ ¬ EntryOk [(.str p!"nope", .int 1)] := by
  refine ⟨⟨?_, ?_⟩, by decide +kernel, ?_, ?_⟩
  · intro key v h
    simp only [List.mem_singleton, Prod.mk.injEq] at h
    exact ⟨_, by decide, h.1⟩
  · intro v h
    simp at h
  · intro h
    obtain ⟨s, hs, e⟩ := h.2 (.str p!"nope") (by simp)
    injection e with e
    subst e
    revert hs
    decide
  · intro h
    obtain ⟨s, hs, e⟩ := h.1 (.str p!"nope") (.int 1) (by simp)
    injection e with e
    subst e
    revert hs
    decide

/-- A payload with two files, loaded by the constructor. -/
example : (loadAttrs toyEnv (loadMsg toyEnv maxDepth) .FileTransferToken (.list [.list
      [.str p!"files", .list [.dict [(.str p!"category", .str p!"resources")],
        .dict [(.str p!"size", .int 7)]]]])).map (fun as =>
      getFileInfo (match getAttr as p!"files" with | .list l => l | _ => [])
        (.enum .ftCategory p!"results")) = .ok (some (.fdict .fileInfo
      [(p!"size", .int 7), (p!"path", .str []), (p!"checksum", .str []),
       (p!"category", .enum .ftCategory p!"results")])) := by decide +kernel

end Verif.Props
