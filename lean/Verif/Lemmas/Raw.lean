import Verif.Lemmas.Carried
import Verif.Lemmas.ContRoundTrip
/-! # Decoded data is built from plain values, lists, dictionaries and tags only -/

set_option linter.unusedSimpArgs false

namespace Verif

open Spec

mutual
/-- 0 exactly for values without tuples, enumeration members and objects of the library. -/
def alien (v : Val) : Nat :=
  match v with
  | .list l => alienL l
  | .dict d => alienD d
  | .tag _ w => alien w
  | .tuple _ | .cont _ _ | .fdict _ _ | .enum _ _ | .mask _ | .msg .. => 1
  | _ => 0
termination_by structural v
def alienL (l : List Val) : Nat :=
  match l with
  | [] => 0
  | x :: xs => max (alien x) (alienL xs)
termination_by structural l
def alienD (d : List (Val × Val)) : Nat :=
  match d with
  | [] => 0
  | (k, x) :: xs => max (max (alien k) (alien x)) (alienD xs)
termination_by structural d
end

theorem alienL_zero {l : List Val} : alienL l = 0 ↔ ∀ x ∈ l, alien x = 0 := by
  induction l with
  | nil => simp [alienL]
  | cons x xs ih => simp [alienL, Nat.max_eq_zero_iff, ih]

theorem alienD_zero {l : List (Val × Val)} :
    alienD l = 0 ↔ ∀ k x, (k, x) ∈ l → alien k = 0 ∧ alien x = 0 := by
  induction l with
  | nil => simp [alienD]
  | cons p xs ih =>
    obtain ⟨k, x⟩ := p
    simp only [alienD, Nat.max_eq_zero_iff, ih]
    constructor
    · rintro ⟨h1, h2⟩ k' x' hm
      rcases List.mem_cons.mp hm with e | e
      · injection e with e1 e2; rw [e1, e2]; exact h1
      · exact h2 _ _ e
    · intro h
      exact ⟨h k x (by simp), fun k' x' hm => h k' x' (by simp [hm])⟩

theorem alienD_get {k v : Val} : ∀ {d : List (Val × Val)}, alienD d = 0 → dictGet k d = some v →
    alien v = 0
  | [], _, h => by cases h
  | (k', w) :: rest, hn, h => by
    unfold dictGet at h
    simp only [alienD, Nat.max_eq_zero_iff] at hn
    split at h
    · injection h with h; subst h; exact hn.1.2
    · exact alienD_get hn.2 h

theorem alienD_set {k v : Val} (hk : alien k = 0) (hv : alien v = 0) : ∀ {d : List (Val × Val)},
    alienD d = 0 → alienD (dictSet k v d) = 0
  | [], _ => by simp [dictSet, alienD, hk, hv]
  | (k', w) :: rest, hn => by
    simp only [alienD, Nat.max_eq_zero_iff] at hn
    unfold dictSet
    split
    · simp [alienD, hv, hn.1.1, hn.2]
    · simp [alienD, hn.1.1, hn.1.2, alienD_set hk hv hn.2]

/-! ### Decoded data is raw -/

theorem alien_tagify {n : Nat} {v w : Val} (hv : alien v = 0) (h : tagify n v = .ok w) :
    alien w = 0 := by
  unfold tagify at h
  split at h
  · split at h <;> cases h; rfl
  · split at h
    · split at h <;> cases h; rfl
    · injection h with h; subst h; simpa [alien] using hv

theorem alien_simple {n : Nat} {b r : Bytes} {w : Val} (h : cborSimple n b = .ok (w, r)) :
    alien w = 0 := by
  unfold cborSimple at h
  have hm : ∀ (x : Res (Bytes × Bytes)) (f : Bytes × Bytes → Val × Bytes),
      (∀ p, alien (f p).1 = 0) → x.map f = .ok (w, r) → alien w = 0 := by
    intro x f hf hx
    cases x with
    | error e => cases hx
    | ok p => injection hx with hx; have := hf p; rw [hx] at this; exact this
  repeat' split at h
  · cases h; rfl
  · cases h; rfl
  · cases h; rfl
  · cases h; rfl
  · exact hm _ _ (fun _ => rfl) h
  · exact hm _ _ (fun _ => rfl) h
  · exact hm _ _ (fun _ => rfl) h
  · cases h

theorem alien_cbor (f : Nat) :
    (∀ b v r, cborDec f b = .ok (v, r) → alien v = 0) ∧
    (∀ n b v r, cborDecN f n b = .ok (v, r) → alienL v = 0) ∧
    (∀ n acc b v r, alienD acc = 0 → cborDecMapN f n acc b = .ok (v, r) → alienD v = 0) ∧
    (∀ b v r, cborDecUntil f b = .ok (v, r) → alienL v = 0) ∧
    (∀ acc b v r, alienD acc = 0 → cborDecMapUntil f acc b = .ok (v, r) → alienD v = 0) := by
  induction f with
  | zero =>
    refine ⟨?_, ?_, ?_, ?_, ?_⟩
    · intro b v r h; unfold cborDec at h; cases h
    · intro n b v r h; unfold cborDecN at h; cases h
    · intro n acc b v r _ h; unfold cborDecMapN at h; cases h
    · intro b v r h; unfold cborDecUntil at h; cases h
    · intro acc b v r _ h; unfold cborDecMapUntil at h; cases h
  | succ f ih =>
    obtain ⟨i1, i2, i3, i4, i5⟩ := ih
    refine ⟨?_, ?_, ?_, ?_, ?_⟩
    · intro b v r h
      have hmap : ∀ {α : Type} (x : Res α) (g : α → Val) (r' : Bytes),
          (∀ a, x = .ok a → alien (g a) = 0) →
          x.map (fun a => (g a, r')) = .ok (v, r) → alien v = 0 := by
        intro α x g r' hg hx
        cases x with
        | error e => cases hx
        | ok p => injection hx with hx; injection hx with h1 h2; subst h1; exact hg _ rfl
      unfold cborDec at h
      dsimp only at h
      split at h
      · cases h
      split at h
      · exact alien_simple h
      split at h
      · split at h
        · split at h
          · cases h
          · exact hmap _ _ _ (fun _ _ => rfl) h
        split at h
        · split at h
          · cases h
          · exact hmap _ _ _ (fun _ _ => rfl) h
        split at h
        · split at h
          · cases h
          · rename_i hx; injection h with h; injection h with h1 h2; subst h1
            simpa [alien] using i4 _ _ _ hx
        split at h
        · split at h
          · cases h
          · rename_i hx; injection h with h; injection h with h1 h2; subst h1
            simpa [alien] using i5 _ _ _ _ rfl hx
        · cases h
      · split at h
        · cases h
        split at h
        · injection h with h; injection h with h1 h2; subst h1; rfl
        split at h
        · injection h with h; injection h with h1 h2; subst h1; rfl
        split at h
        · split at h
          · cases h
          · injection h with h; injection h with h1 h2; subst h1; rfl
        split at h
        · split at h
          · cases h
          · refine hmap _ id _ ?_ h
            intro a ha
            unfold cborText at ha
            split at ha <;> cases ha
            rfl
        split at h
        · split at h
          · cases h
          · rename_i hx; injection h with h; injection h with h1 h2; subst h1
            simpa [alien] using i2 _ _ _ _ hx
        split at h
        · split at h
          · cases h
          · rename_i hx; injection h with h; injection h with h1 h2; subst h1
            simpa [alien] using i3 _ _ _ _ _ rfl hx
        · split at h
          · cases h
          · rename_i hx
            exact hmap _ id _ (fun a ha => alien_tagify (i1 _ _ _ hx) ha) h
    · intro n b v r h
      unfold cborDecN at h
      split at h
      · injection h with h; injection h with h1 h2; subst h1; rfl
      · split at h
        · cases h
        rename_i hx
        split at h
        · cases h
        rename_i hy
        injection h with h; injection h with h1 h2; subst h1
        simp [alienL, i1 _ _ _ hx, i2 _ _ _ _ hy]
    · intro n acc b v r ha h
      unfold cborDecMapN at h
      split at h
      · injection h with h; injection h with h1 h2; subst h1; exact ha
      · split at h
        · cases h
        rename_i hx
        split at h
        · cases h
        rename_i hy
        split at h
        · exact i3 _ _ _ _ _ (alienD_set (i1 _ _ _ hx) (i1 _ _ _ hy) ha) h
        · cases h
    · intro b v r h
      unfold cborDecUntil at h
      split at h
      · cases h
      split at h
      · injection h with h; injection h with h1 h2; subst h1; rfl
      split at h
      · cases h
      rename_i hx
      split at h
      · cases h
      rename_i hy
      injection h with h; injection h with h1 h2; subst h1
      simp [alienL, i1 _ _ _ hx, i4 _ _ _ hy]
    · intro acc b v r ha h
      unfold cborDecMapUntil at h
      split at h
      · cases h
      split at h
      · injection h with h; injection h with h1 h2; subst h1; exact ha
      split at h
      · cases h
      rename_i hx
      split at h
      · cases h
      rename_i hy
      split at h
      · exact i5 _ _ _ _ (alienD_set (i1 _ _ _ hx) (i1 _ _ _ hy) ha) h
      · cases h

theorem alien_loads {b : Bytes} {v : Val} (h : loads b = .ok v) : alien v = 0 := by
  unfold loads at h
  split at h
  · rename_i hx; injection h with h; subst h; exact (alien_cbor _).1 _ _ _ hx
  · cases h

theorem alien_iter {v : Val} {l : List Val} (h : alien v = 0) (hi : v.iter = some l) :
    ∀ x ∈ l, alien x = 0 := by
  intro x hx
  cases v <;> simp only [Val.iter] at hi <;> try cases hi
  · obtain ⟨c, _, rfl⟩ := List.mem_map.mp hx; rfl
  · obtain ⟨c, _, rfl⟩ := List.mem_map.mp hx; rfl
  · exact alienL_zero.mp (by simpa [alien] using h) x hx
  · simp [alien] at h
  · obtain ⟨⟨k, w⟩, hm, rfl⟩ := List.mem_map.mp hx
    exact (alienD_zero.mp (by simpa [alien] using h) k w hm).1
  · simp [alien] at h

theorem alien_asDict {v : Val} {d : List (Val × Val)} (h : alien v = 0) (hi : v.asDict = some d) :
    alienD d = 0 := by
  cases v <;> simp only [Val.asDict] at hi <;> try cases hi
  · simpa [alien] using h
  · simp [alien] at h

theorem alien_pairsOf : ∀ {l : List Val} {ps : List (Val × Val)}, (∀ x ∈ l, alien x = 0) →
    pairsOf l = .ok ps → alienD ps = 0
  | [], ps, _, h => by unfold pairsOf at h; injection h with h; subst h; rfl
  | x :: xs, ps, hl, h => by
    unfold pairsOf at h
    split at h
    · rename_i k v hi
      split at h
      · rename_i r hr
        injection h with h
        subst h
        have := alien_iter (hl x (by simp)) hi
        simp [alienD, this k (by simp), this v (by simp),
          alien_pairsOf (fun y hy => hl y (by simp [hy])) hr]
      · cases h
    · cases h
    · cases h

theorem alien_dictOfPairs : ∀ {ps acc d : List (Val × Val)}, alienD ps = 0 → alienD acc = 0 →
    dictOfPairs acc ps = some d → alienD d = 0
  | [], acc, d, _, ha, h => by unfold dictOfPairs at h; injection h with h; subst h; exact ha
  | (k, v) :: rest, acc, d, hp, ha, h => by
    simp only [alienD, Nat.max_eq_zero_iff] at hp
    unfold dictOfPairs at h
    split at h
    · exact alien_dictOfPairs hp.2 (alienD_set hp.1.1 hp.1.2 ha) h
    · cases h

theorem alien_dictOf {v : Val} (hv : alien v = 0) : alienD (dictOf v) = 0 := by
  unfold dictOf
  split
  · rename_i d hd; exact alien_asDict hv hd
  · split
    · rfl
    · rename_i l hl
      split
      · rfl
      · rename_i ps hps
        split
        · rename_i d hd; exact alien_dictOfPairs (alien_pairsOf (alien_iter hv hl) hps) rfl hd
        · rfl

theorem alien_fdArg {v : Val} {ps : List (Val × Val)} (hv : alien v = 0) (h : fdArg v = .ok ps) :
    alienD ps = 0 := by
  unfold fdArg at h
  split at h
  · rename_i d hd; injection h with h; subst h; exact alien_asDict hv hd
  · split at h
    · cases h
    · rename_i l hl; exact alien_pairsOf (alien_iter hv hl) h

/-! ### Values of frozen dictionaries -/

theorem fdSetAll_all {P : Val → Prop} {E : Env} {conv : PStr → Val → Res Val} {c : FDictId} :
    ∀ {pairs : List (Val × Val)} {items items' : Attrs},
    (∀ k v, (.str k, v) ∈ pairs → ∀ y, conv k v = .ok y → P y) → (∀ k v, (k, v) ∈ items → P v) →
    fdSetAll E conv c items pairs = .ok items' → ∀ k v, (k, v) ∈ items' → P v
  | [], items, items', _, hi, h => by
    unfold fdSetAll at h; injection h with h; subst h; exact hi
  | (k, v) :: rest, items, items', hp, hi, h => by
    unfold fdSetAll at h
    split at h
    · cases h
    rename_i i' hi'
    obtain ⟨k1, v1, rfl, h2, _, _, rfl⟩ := fdSetV_ok hi'
    refine fdSetAll_all (fun k' v' hm => hp k' v' (by simp [hm])) (fun k' v' hm => ?_) h
    rcases setName_mem hm with e | e
    · rw [e.2]; exact hp k1 v (by simp) _ h2
    · exact hi _ _ e

theorem fdDefaults_all {P : Val → Prop} {E : Env} {conv : PStr → Val → Res Val} {c : FDictId} :
    ∀ {l : Attrs} {items items' : Attrs},
    (∀ k v, (k, v) ∈ l → ∀ y, conv k v = .ok y → P y) → (∀ k v, (k, v) ∈ items → P v) →
    fdDefaults E conv c items l = .ok items' → ∀ k v, (k, v) ∈ items' → P v
  | [], items, items', _, hi, h => by
    unfold fdDefaults at h; injection h with h; subst h; exact hi
  | (k, v) :: rest, items, items', hp, hi, h => by
    have hp' := fun k' v' (hm : (k', v') ∈ rest) => hp k' v' (List.mem_cons_of_mem _ hm)
    unfold fdDefaults at h
    split at h
    · exact fdDefaults_all hp' hi h
    · split at h
      · cases h
      rename_i i' hi'
      obtain ⟨k1, v1, hk1, h2, _, _, rfl⟩ := fdSetV_ok hi'
      injection hk1 with hk1
      subst hk1
      refine fdDefaults_all hp' (fun k' v' hm => ?_) h
      rcases setName_mem hm with e | e
      · rw [e.2]; exact hp k v (by simp) _ h2
      · exact hi _ _ e

theorem fdBuild_all {P : Val → Prop} {E : Env} {conv : PStr → Val → Res Val} {c : FDictId}
    {pairs : List (Val × Val)} {items : Attrs}
    (hp : ∀ k v, (.str k, v) ∈ pairs → ∀ y, conv k v = .ok y → P y)
    (hd : ∀ k v, (k, v) ∈ c.items → ∀ y, conv k v = .ok y → P y)
    (h : fdBuild E conv c pairs = .ok (.fdict c items)) : ∀ k v, (k, v) ∈ items → P v := by
  unfold fdBuild at h
  split at h
  · cases h
  rename_i i1 h1
  split at h
  · cases h
  rename_i i2 h2
  injection h with h
  injection h with _ h
  subst h
  exact fdDefaults_all hd (fdSetAll_all hp (fun _ _ hm => by cases hm) h1) h2

/-- A task definition built from decoded data has text ids. -/
theorem ctd_text {E : Env} {v w : Val} (hv : alien v = 0) (h : mkFDict E .computeTaskDef v = .ok w)
    {key : PStr} (hk : key = p!"task_id" ∨ key = p!"subtask_id") :
    ∃ d s, w.asDict = some d ∧ dictGet (.str key) d = some (.str s) := by
  unfold mkFDict at h
  split at h
  · cases h
  rename_i pairs hp
  have ha := alien_fdArg hv hp
  obtain ⟨items, rfl, hi, hfull, _⟩ := fdBuild_ok h
  have hkey := hfull key (by rcases hk with rfl | rfl <;> decide)
  rw [← lookupName_isSome] at hkey
  obtain ⟨x, hx⟩ := Option.isSome_iff_exists.mp hkey
  have hm := mem_of_lookupName hx
  have h0 : alien x = 0 := by
    refine fdBuild_all (P := fun x => alien x = 0) ?_ ?_ h key x hm
    · intro k v hm y hy
      injection hy with hy; subst hy
      exact (alienD_zero.mp ha _ _ hm).2
    · intro k v hm y hy
      injection hy with hy; subst hy
      simp only [FDictId.items, List.mem_cons, Prod.mk.injEq, List.not_mem_nil, or_false] at hm
      rcases hm with ⟨_, rfl⟩ | ⟨_, rfl⟩ | ⟨_, rfl⟩ | ⟨_, rfl⟩ | ⟨_, rfl⟩ | ⟨_, rfl⟩ | ⟨_, rfl⟩ <;> rfl
  have hval := hi.valid _ _ hm
  have : ∃ s, x = .str s := by
    unfold fdValidate at hval
    dsimp only at hval
    rw [if_pos hk] at hval
    unfold Validator.run at hval
    split at hval
    · rename_i hacc
      unfold Validator.accepts at hacc
      dsimp only at hacc
      cases x <;> simp [Val.asStr, alien] at hacc h0 ⊢
    · cases hval
  obtain ⟨s, rfl⟩ := this
  refine ⟨_, s, rfl, ?_⟩
  rw [dictGet_textKeys]
  exact hx

/-- The ids of a carried `TaskToCompute` are text. -/
theorem carries_ids {E : Env} {dec : Bytes → Bytes → Res Bytes} {data : Bytes}
    {priv pub : Option Bytes} {ct : Bool} {now : Int} {m : Msg}
    (h : Carries E dec data priv pub ct now m) (hc : m.cls = .TaskToCompute)
    (hn : getAttr m.attrs p!"compute_task_def" ≠ .none) {key : PStr}
    (hk : key = p!"task_id" ∨ key = p!"subtask_id") :
    ∃ d s, (getAttr m.attrs p!"compute_task_def").asDict = some d ∧
      dictGet (.str key) d = some (.str s) := by
  obtain ⟨_, _, _, _, _, _, p, hp, hparse⟩ := h
  obtain ⟨slots, hl, hcon, _⟩ := parsePayload_ok hparse
  obtain ⟨as, ha, hm⟩ := construct_ok hcon
  simp only [versionAttr, List.append_nil] at hm
  have h2 : m.attrs = as := by rw [hm]
  rw [h2] at hn ⊢
  rw [hc] at ha
  obtain ⟨v, hv, _, hg⟩ := loadAttrs_get ha p!"compute_task_def" (by decide)
  have hg := hg (by decide)
  have hd : defaulted .TaskToCompute p!"compute_task_def" v = v := by
    unfold defaulted
    rw [if_neg (by decide), if_neg (by decide), if_neg (by decide), if_neg (by decide)]
  rw [hd] at hv
  rw [hv] at hn ⊢
  cases hw : dictGet (.str p!"compute_task_def") (dictOf slots) with
  | none => exact absurd (hg.1 hw) hn
  | some w =>
    have hx := hg.2 w hw
    unfold deserSlot at hx
    rw [if_neg (by decide), if_neg (by decide), if_neg (by decide), if_neg (by simp),
      if_neg (by simp), if_neg (by decide), if_pos ⟨rfl, rfl⟩] at hx
    exact ctd_text (alienD_get (alien_dictOf (alien_loads hl)) hw) hx hk

end Verif
