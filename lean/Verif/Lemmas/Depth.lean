import Verif.Lemmas.Carried
import Verif.Lemmas.ContRoundTrip
import Verif.Spec.Depth
/-! # Lemmas about the nesting of messages -/

set_option linter.unusedSimpArgs false

namespace Verif

open Spec

theorem nestL_zero {l : List Val} : nestL l = 0 ↔ ∀ x ∈ l, nest x = 0 := by
  induction l with
  | nil => simp [nestL]
  | cons x xs ih => simp [nestL, Nat.max_eq_zero_iff, ih]

theorem nestF_zero {l : Attrs} : nestF l = 0 ↔ ∀ k x, (k, x) ∈ l → nest x = 0 := by
  induction l with
  | nil => simp [nestF]
  | cons p xs ih =>
    obtain ⟨k, x⟩ := p
    simp only [nestF, Nat.max_eq_zero_iff, ih]
    constructor
    · rintro ⟨h1, h2⟩ k' x' hm
      rcases List.mem_cons.mp hm with e | e
      · injection e with _ e; rw [e]; exact h1
      · exact h2 _ _ e
    · intro h
      exact ⟨h k x (by simp), fun k' x' hm => h k' x' (by simp [hm])⟩

theorem nestD_zero {l : List (Val × Val)} :
    nestD l = 0 ↔ ∀ k x, (k, x) ∈ l → nest k = 0 ∧ nest x = 0 := by
  induction l with
  | nil => simp [nestD]
  | cons p xs ih =>
    obtain ⟨k, x⟩ := p
    simp only [nestD, Nat.max_eq_zero_iff, ih]
    constructor
    · rintro ⟨h1, h2⟩ k' x' hm
      rcases List.mem_cons.mp hm with e | e
      · injection e with e1 e2; rw [e1, e2]; exact h1
      · exact h2 _ _ e
    · intro h
      exact ⟨h k x (by simp), fun k' x' hm => h k' x' (by simp [hm])⟩

theorem nest_iter {v : Val} {l : List Val} (h : nest v = 0) (hi : v.iter = some l) :
    ∀ x ∈ l, nest x = 0 := by
  intro x hx
  cases v <;> simp only [Val.iter] at hi <;> try cases hi
  · obtain ⟨c, _, rfl⟩ := List.mem_map.mp hx; rfl
  · obtain ⟨c, _, rfl⟩ := List.mem_map.mp hx; rfl
  · exact nestL_zero.mp (by simpa [nest] using h) x hx
  · exact nestL_zero.mp (by simpa [nest] using h) x hx
  · obtain ⟨⟨k, w⟩, hm, rfl⟩ := List.mem_map.mp hx
    exact (nestD_zero.mp (by simpa [nest] using h) k w hm).1
  · obtain ⟨c, _, rfl⟩ := List.mem_map.mp hx; rfl

theorem nest_asDict {v : Val} {d : List (Val × Val)} (h : nest v = 0) (hi : v.asDict = some d) :
    nestD d = 0 := by
  cases v <;> simp only [Val.asDict] at hi <;> try cases hi
  · simpa [nest] using h
  · rw [nestD_zero]
    intro k x hm
    obtain ⟨⟨k', w⟩, hm', e⟩ := List.mem_map.mp hm
    injection e with e1 e2
    subst e1 e2
    exact ⟨rfl, nestF_zero.mp (by simpa [nest] using h) _ _ hm'⟩

theorem nestD_get {k v : Val} : ∀ {d : List (Val × Val)}, nestD d = 0 → dictGet k d = some v →
    nest v = 0
  | [], _, h => by cases h
  | (k', w) :: rest, hn, h => by
    unfold dictGet at h
    simp only [nestD, Nat.max_eq_zero_iff] at hn
    split at h
    · injection h with h; subst h; exact hn.1.2
    · exact nestD_get hn.2 h

theorem nestD_set {k v : Val} (hk : nest k = 0) (hv : nest v = 0) : ∀ {d : List (Val × Val)},
    nestD d = 0 → nestD (dictSet k v d) = 0
  | [], _ => by simp [dictSet, nestD, hk, hv]
  | (k', w) :: rest, hn => by
    simp only [nestD, Nat.max_eq_zero_iff] at hn
    unfold dictSet
    split
    · simp [nestD, hv, hn.1.1, hn.2]
    · simp [nestD, hn.1.1, hn.1.2, nestD_set hk hv hn.2]

theorem nestF_lookup {k : PStr} {v : Val} {d : Attrs} (hn : nestF d = 0)
    (h : lookupName k d = some v) : nest v = 0 := nestF_zero.mp hn _ _ (mem_of_lookupName h)

theorem nestF_set {k : PStr} {v : Val} (hv : nest v = 0) {d : Attrs} (hn : nestF d = 0) :
    nestF (setName k v d) = 0 := by
  rw [nestF_zero] at hn ⊢
  intro k' x hm
  rcases setName_mem hm with h | h
  · rw [h.2]; exact hv
  · exact hn _ _ h

/-! ### Decoded data contains no messages -/

theorem nest_tagify {n : Nat} {v w : Val} (hv : nest v = 0) (h : tagify n v = .ok w) :
    nest w = 0 := by
  unfold tagify at h
  split at h
  · split at h <;> cases h; rfl
  · split at h
    · split at h <;> cases h; rfl
    · injection h with h; subst h; simpa [nest] using hv

theorem nest_simple {n : Nat} {b r : Bytes} {w : Val} (h : cborSimple n b = .ok (w, r)) :
    nest w = 0 := by
  unfold cborSimple at h
  have hm : ∀ (x : Res (Bytes × Bytes)) (f : Bytes × Bytes → Val × Bytes),
      (∀ p, nest (f p).1 = 0) → x.map f = .ok (w, r) → nest w = 0 := by
    intro x f hf hx
    cases x with
    | error e => cases hx
    | ok p => injection hx with hx; have := hf p; rw [hx] at this; exact this
  repeat' split at h
  · cases h; rfl
  · cases h; rfl
  · cases h; rfl
  · cases h; rfl
  · exact hm _ _ (fun _ => rfl) h
  · exact hm _ _ (fun _ => rfl) h
  · exact hm _ _ (fun _ => rfl) h
  · cases h

theorem nest_cbor (f : Nat) :
    (∀ b v r, cborDec f b = .ok (v, r) → nest v = 0) ∧
    (∀ n b v r, cborDecN f n b = .ok (v, r) → nestL v = 0) ∧
    (∀ n acc b v r, nestD acc = 0 → cborDecMapN f n acc b = .ok (v, r) → nestD v = 0) ∧
    (∀ b v r, cborDecUntil f b = .ok (v, r) → nestL v = 0) ∧
    (∀ acc b v r, nestD acc = 0 → cborDecMapUntil f acc b = .ok (v, r) → nestD v = 0) := by
  induction f with
  | zero =>
    refine ⟨?_, ?_, ?_, ?_, ?_⟩
    · intro b v r h; unfold cborDec at h; cases h
    · intro n b v r h; unfold cborDecN at h; cases h
    · intro n acc b v r _ h; unfold cborDecMapN at h; cases h
    · intro b v r h; unfold cborDecUntil at h; cases h
    · intro acc b v r _ h; unfold cborDecMapUntil at h; cases h
  | succ f ih =>
    obtain ⟨i1, i2, i3, i4, i5⟩ := ih
    refine ⟨?_, ?_, ?_, ?_, ?_⟩
    · intro b v r h
      have hmap : ∀ {α : Type} (x : Res α) (g : α → Val) (r' : Bytes),
          (∀ a, x = .ok a → nest (g a) = 0) →
          x.map (fun a => (g a, r')) = .ok (v, r) → nest v = 0 := by
        intro α x g r' hg hx
        cases x with
        | error e => cases hx
        | ok p => injection hx with hx; injection hx with h1 h2; subst h1; exact hg _ rfl
      unfold cborDec at h
      dsimp only at h
      split at h
      · cases h
      split at h
      · exact nest_simple h
      split at h
      · split at h
        · split at h
          · cases h
          · exact hmap _ _ _ (fun _ _ => rfl) h
        split at h
        · split at h
          · cases h
          · exact hmap _ _ _ (fun _ _ => rfl) h
        split at h
        · split at h
          · cases h
          · rename_i hx; injection h with h; injection h with h1 h2; subst h1
            simpa [nest] using i4 _ _ _ hx
        split at h
        · split at h
          · cases h
          · rename_i hx; injection h with h; injection h with h1 h2; subst h1
            simpa [nest] using i5 _ _ _ _ rfl hx
        · cases h
      · split at h
        · cases h
        split at h
        · injection h with h; injection h with h1 h2; subst h1; rfl
        split at h
        · injection h with h; injection h with h1 h2; subst h1; rfl
        split at h
        · split at h
          · cases h
          · injection h with h; injection h with h1 h2; subst h1; rfl
        split at h
        · split at h
          · cases h
          · refine hmap _ id _ ?_ h
            intro a ha
            unfold cborText at ha
            split at ha <;> cases ha
            rfl
        split at h
        · split at h
          · cases h
          · rename_i hx; injection h with h; injection h with h1 h2; subst h1
            simpa [nest] using i2 _ _ _ _ hx
        split at h
        · split at h
          · cases h
          · rename_i hx; injection h with h; injection h with h1 h2; subst h1
            simpa [nest] using i3 _ _ _ _ _ rfl hx
        · split at h
          · cases h
          · rename_i hx
            exact hmap _ id _ (fun a ha => nest_tagify (i1 _ _ _ hx) ha) h
    · intro n b v r h
      unfold cborDecN at h
      split at h
      · injection h with h; injection h with h1 h2; subst h1; rfl
      · split at h
        · cases h
        rename_i hx
        split at h
        · cases h
        rename_i hy
        injection h with h; injection h with h1 h2; subst h1
        simp [nestL, i1 _ _ _ hx, i2 _ _ _ _ hy]
    · intro n acc b v r ha h
      unfold cborDecMapN at h
      split at h
      · injection h with h; injection h with h1 h2; subst h1; exact ha
      · split at h
        · cases h
        rename_i hx
        split at h
        · cases h
        rename_i hy
        split at h
        · exact i3 _ _ _ _ _ (nestD_set (i1 _ _ _ hx) (i1 _ _ _ hy) ha) h
        · cases h
    · intro b v r h
      unfold cborDecUntil at h
      split at h
      · cases h
      split at h
      · injection h with h; injection h with h1 h2; subst h1; rfl
      split at h
      · cases h
      rename_i hx
      split at h
      · cases h
      rename_i hy
      injection h with h; injection h with h1 h2; subst h1
      simp [nestL, i1 _ _ _ hx, i4 _ _ _ hy]
    · intro acc b v r ha h
      unfold cborDecMapUntil at h
      split at h
      · cases h
      split at h
      · injection h with h; injection h with h1 h2; subst h1; exact ha
      split at h
      · cases h
      rename_i hx
      split at h
      · cases h
      rename_i hy
      split at h
      · exact i5 _ _ _ _ (nestD_set (i1 _ _ _ hx) (i1 _ _ _ hy) ha) h
      · cases h

theorem nest_loads {b : Bytes} {v : Val} (h : loads b = .ok v) : nest v = 0 := by
  unfold loads at h
  split at h
  · rename_i hx; injection h with h; subst h; exact (nest_cbor _).1 _ _ _ hx
  · cases h

/-! ### Neither do the containers built from it -/

theorem nest_enum {e : EnumId} {w v : Val} (h : e.lookup w = some v) : nest v = 0 := by
  obtain ⟨s, _, rfl⟩ := enum_lookup_ok h; rfl

theorem nest_contCall {E : Env} {hook : PStr → Val → Res Val} {c : ContId} {v w : Val}
    (hh : ∀ k x y, nest x = 0 → hook k x = .ok y → nest y = 0) (hv : nest v = 0)
    (h : contCall E hook c v = .ok w) : nest w = 0 := by
  obtain ⟨kw, fs, h1, _, rfl, h3, _, h5⟩ := contCall_ok h
  have hkw : nestF kw = 0 := by
    have := nest_asDict hv h1
    rw [nestD_zero] at this
    rw [nestF_zero]
    intro k x hm
    exact (this (.str k) x (List.mem_map.mpr ⟨_, hm, rfl⟩)).2
  have : nestF fs = 0 := by
    rw [nestF_zero]
    intro k x hm
    have hk : k ∈ c.slots.map Prod.fst := by rw [← h3]; exact List.mem_map.mpr ⟨_, hm, rfl⟩
    obtain ⟨⟨k', vs⟩, hvs, rfl⟩ := List.mem_map.mp hk
    obtain ⟨y, hy, hf⟩ := h5 _ _ hvs
    have hnd : (fs.map Prod.fst).Nodup := by rw [h3]; exact slots_nodup c
    have e1 := lookupName_of_mem hnd hm
    have e2 := lookupName_of_mem hnd hy
    rw [e1] at e2
    injection e2 with e2
    subst e2
    unfold contField at hf
    split at hf
    · split at hf
      · cases hf
      · injection hf with hf; subst hf
        unfold ContId.default
        split
        · split
          · rfl
          split
          · rfl
          split <;> rfl
        · rfl
    · rename_i z hz
      unfold contDeser at hf
      split at hf
      · injection hf with hf; subst hf; exact nestF_lookup hkw hz
      · split at hf
        · cases hf
        · exact hh _ _ _ (nestF_lookup hkw hz) hf
  simpa [nest] using this

theorem nest_setAll {E : Env} {conv : PStr → Val → Res Val} {c : FDictId}
    (hc : ∀ k x y, nest x = 0 → conv k x = .ok y → nest y = 0) :
    ∀ {pairs : List (Val × Val)} {items items' : Attrs}, nestD pairs = 0 → nestF items = 0 →
    fdSetAll E conv c items pairs = .ok items' → nestF items' = 0
  | [], items, items', _, hi, h => by
    unfold fdSetAll at h; injection h with h; subst h; exact hi
  | (k, v) :: rest, items, items', hp, hi, h => by
    unfold fdSetAll at h
    simp only [nestD, Nat.max_eq_zero_iff] at hp
    split at h
    · cases h
    rename_i i' hi'
    obtain ⟨k1, v1, h1, h2, h3, _, rfl⟩ := fdSetV_ok hi'
    exact nest_setAll hc hp.2 (nestF_set (hc _ _ _ hp.1.2 h2) hi) h

theorem nest_defaults {E : Env} {conv : PStr → Val → Res Val} {c : FDictId}
    (hc : ∀ k x y, nest x = 0 → conv k x = .ok y → nest y = 0) :
    ∀ {l items items' : Attrs}, nestF l = 0 → nestF items = 0 →
    fdDefaults E conv c items l = .ok items' → nestF items' = 0
  | [], items, items', _, hi, h => by
    unfold fdDefaults at h; injection h with h; subst h; exact hi
  | (k, v) :: rest, items, items', hp, hi, h => by
    unfold fdDefaults at h
    simp only [nestF, Nat.max_eq_zero_iff] at hp
    split at h
    · exact nest_defaults hc hp.2 hi h
    split at h
    · cases h
    rename_i i' hi'
    obtain ⟨k1, v1, h1, h2, h3, _, rfl⟩ := fdSetV_ok hi'
    exact nest_defaults hc hp.2 (nestF_set (hc _ _ _ hp.1 h2) hi) h

theorem nest_fdBuild {E : Env} {conv : PStr → Val → Res Val} {c : FDictId}
    {pairs : List (Val × Val)} {w : Val}
    (hc : ∀ k x y, nest x = 0 → conv k x = .ok y → nest y = 0) (hp : nestD pairs = 0)
    (h : fdBuild E conv c pairs = .ok w) : nest w = 0 := by
  unfold fdBuild at h
  split at h
  · cases h
  rename_i i1 h1
  split at h
  · cases h
  rename_i i2 h2
  injection h with h
  subst h
  have : nestF c.items = 0 := by cases c <;> rfl
  simpa [nest] using nest_defaults hc this (nest_setAll hc hp rfl h1) h2

theorem nest_noConv (k : PStr) (x y : Val) (hx : nest x = 0) (h : noConv k x = .ok y) :
    nest y = 0 := by unfold noConv at h; injection h with h; subst h; exact hx

theorem nest_fdCall {E : Env} {c : FDictId} {v w : Val} (hv : nest v = 0)
    (h : fdCall E c v = .ok w) : nest w = 0 := by
  unfold fdCall at h
  split at h
  · cases h
  rename_i kw hkw
  refine nest_fdBuild nest_noConv ?_ h
  unfold kwargsOf at hkw
  split at hkw
  · cases hkw
  rename_i d hd
  split at hkw
  · cases hkw
  rename_i kw' hkw'
  split at hkw
  · cases hkw
  injection hkw with hkw
  subst hkw
  rw [← textKeys_ok hkw']
  exact nest_asDict hv hd

theorem nest_leafHook {E : Env} {c : ContId} (k : PStr) (x y : Val) (hx : nest x = 0)
    (h : leafHook E c k x = .ok y) : nest y = 0 := by
  unfold leafHook at h
  split at h
  · split at h
    · split at h
      · exact nest_fdCall hx h
      · injection h with h; subst h; rfl
    · split at h
      · split at h
        · exact nest_fdCall hx h
        · injection h with h; subst h; rfl
      · injection h with h; subst h; exact hx
  · injection h with h; subst h; exact hx

theorem nest_leafCall {E : Env} {c : ContId} {v w : Val} (hv : nest v = 0)
    (h : leafCall E c v = .ok w) : nest w = 0 := nest_contCall nest_leafHook hv h

theorem nest_contHook {E : Env} {c : ContId} (k : PStr) (x y : Val) (hx : nest x = 0)
    (h : contHook E c k x = .ok y) : nest y = 0 := by
  unfold contHook at h
  split at h
  · split at h
    · split at h
      · injection h with h; subst h; exact hx
      · exact nest_leafCall hx h
    split at h
    · split at h
      · injection h with h; subst h; rfl
      · injection h with h; subst h; exact hx
    split at h
    · split at h
      · rename_i hm; injection h with h; subst h; exact nest_enum hm
      · cases h
    · injection h with h; subst h; exact hx
  · split at h
    · split at h
      · exact nest_leafCall hx h
      · injection h with h; subst h; rfl
    · injection h with h; subst h; exact hx
  · exact nest_leafHook _ _ _ hx h

theorem nest_mkCont {E : Env} {c : ContId} {v w : Val} (hv : nest v = 0)
    (h : mkCont E c v = .ok w) : nest w = 0 := nest_contCall nest_contHook hv h

theorem nest_pairsOf : ∀ {l : List Val} {ps : List (Val × Val)}, (∀ x ∈ l, nest x = 0) →
    pairsOf l = .ok ps → nestD ps = 0
  | [], ps, _, h => by unfold pairsOf at h; injection h with h; subst h; rfl
  | x :: xs, ps, hl, h => by
    unfold pairsOf at h
    split at h
    · rename_i k v hi
      split at h
      · rename_i r hr
        injection h with h
        subst h
        have := nest_iter (hl x (by simp)) hi
        simp [nestD, this k (by simp), this v (by simp),
          nest_pairsOf (fun y hy => hl y (by simp [hy])) hr]
      · cases h
    · cases h
    · cases h

theorem nest_fdConv {E : Env} {c : FDictId} (k : PStr) (x y : Val) (hx : nest x = 0)
    (hy : fdConv E c k x = .ok y) : nest y = 0 := by
  unfold fdConv at hy
  split at hy
  · unfold peerConv at hy
    split at hy
    · exact nest_leafCall hx hy
    · injection hy with hy; subst hy; exact hx
  · exact nest_noConv _ _ _ hx hy

theorem nest_mkFDict {E : Env} {c : FDictId} {v w : Val} (hv : nest v = 0)
    (h : mkFDict E c v = .ok w) : nest w = 0 := by
  unfold mkFDict at h
  split at h
  · cases h
  rename_i pairs hp
  refine nest_fdBuild nest_fdConv ?_ h
  · unfold fdArg at hp
    split at hp
    · rename_i d hd; injection hp with hp; subst hp; exact nest_asDict hv hd
    · split at hp
      · cases hp
      · rename_i l hl; exact nest_pairsOf (nest_iter hv hl) hp

theorem nest_dictOfPairs : ∀ {ps acc d : List (Val × Val)}, nestD ps = 0 → nestD acc = 0 →
    dictOfPairs acc ps = some d → nestD d = 0
  | [], acc, d, _, ha, h => by unfold dictOfPairs at h; injection h with h; subst h; exact ha
  | (k, v) :: rest, acc, d, hp, ha, h => by
    simp only [nestD, Nat.max_eq_zero_iff] at hp
    unfold dictOfPairs at h
    split at h
    · exact nest_dictOfPairs hp.2 (nestD_set hp.1.1 hp.1.2 ha) h
    · cases h

theorem nest_dictOf {v : Val} (hv : nest v = 0) : nestD (dictOf v) = 0 := by
  unfold dictOf
  split
  · rename_i d hd; exact nest_asDict hv hd
  · split
    · rfl
    · rename_i l hl
      split
      · rfl
      · rename_i ps hps
        split
        · rename_i d hd; exact nest_dictOfPairs (nest_pairsOf (nest_iter hv hl) hps) rfl hd
        · rfl

/-! ### Slots -/

theorem nestL_mapRes {f : Val → Res Val} {l r : List Val} (hf : ∀ x ∈ l, ∀ y, f x = .ok y → nest y = 0)
    (h : mapRes f l = .ok r) : nestL r = 0 := by
  rw [nestL_zero]
  intro y hy
  obtain ⟨x, hx, e⟩ := mapRes_ok h y hy
  exact hf x hx y e

/-- What a slot value may contain: no messages, or messages of the declared class. -/
def NestOk (c : Cls) (n : Nat) : Prop := n = 0 ∨ ∃ c', Declares c c' ∧ DeclaredChain c' n

theorem nest_deserSingle {rec : Loader} {sd : SlotDef} {key : PStr} {v w : Val} {c : Cls}
    (hd : Declares c sd.cls)
    (hrec : ∀ ty ts enc sig slots x, nest ty = 0 → nest ts = 0 → nest enc = 0 → nest sig = 0 →
      nest slots = 0 → rec sd.cls ty ts enc sig slots = .ok x → DeclaredChain sd.cls (nest x))
    (hv : nest v = 0) (h : deserSingle rec sd key v = .ok w) : NestOk c (nest w) := by
  unfold deserSingle at h
  split at h
  · split at h
    · injection h with h; subst h; exact Or.inl rfl
    · cases h
  · split at h
    · rename_i a b s hi
      have h1 := nest_iter hv hi
      split at h
      · rename_i ty ts enc hj
        have h2 := nest_iter (h1 a (by simp)) hj
        split at h
        · rename_i m hm
          injection h with h; subst h
          exact Or.inr ⟨_, hd, hrec _ _ _ _ _ _ (h2 _ (by simp)) (h2 _ (by simp)) (h2 _ (by simp))
            (h1 _ (by simp)) (h1 _ (by simp)) hm⟩
        · cases h
        · cases h
      · cases h
    · cases h

theorem nestL_max {c : Cls} {l : List Val} (h : ∀ x ∈ l, NestOk c (nest x)) : NestOk c (nestL l) := by
  induction l with
  | nil => exact Or.inl rfl
  | cons x xs ih =>
    have h1 := h x (by simp)
    have h2 := ih (fun y hy => h y (by simp [hy]))
    unfold nestL
    rcases Nat.le_total (nest x) (nestL xs) with e | e
    · rw [Nat.max_eq_right e]; exact h2
    · rw [Nat.max_eq_left e]; exact h1

theorem nestF_max {c : Cls} {l : Attrs} (h : ∀ k x, (k, x) ∈ l → NestOk c (nest x)) :
    NestOk c (nestF l) := by
  induction l with
  | nil => exact Or.inl rfl
  | cons p xs ih =>
    obtain ⟨k, x⟩ := p
    have h1 := h k x (by simp)
    have h2 := ih (fun k' y hy => h k' y (by simp [hy]))
    unfold nestF
    rcases Nat.le_total (nest x) (nestF xs) with e | e
    · rw [Nat.max_eq_right e]; exact h2
    · rw [Nat.max_eq_left e]; exact h1

theorem nest_deserMessage {rec : Loader} {sd : SlotDef} {key : PStr} {v w : Val} {c : Cls}
    (hd : Declares c sd.cls)
    (hrec : ∀ ty ts enc sig slots x, nest ty = 0 → nest ts = 0 → nest enc = 0 → nest sig = 0 →
      nest slots = 0 → rec sd.cls ty ts enc sig slots = .ok x → DeclaredChain sd.cls (nest x))
    (hv : nest v = 0) (h : deserMessage rec sd key v = .ok w) : NestOk c (nest w) := by
  unfold deserMessage at h
  split at h
  · rename_i il value hi
    have h1 := nest_iter hv hi
    split at h
    · cases h
    split at h
    · split at h
      · rename_i l _ _
        split at h
        · cases h
        rename_i r hr
        injection h with h
        subst h
        simp only [nest]
        apply nestL_max
        intro y hy
        obtain ⟨x, hx, e⟩ := mapRes_ok hr y hy
        have hl := h1 (.list l) (by simp)
        exact nest_deserSingle hd hrec (nestL_zero.mp (by simpa [nest] using hl) x hx) e
      · cases h
    · exact nest_deserSingle hd hrec (h1 _ (by simp)) h
  · cases h

theorem nest_deserFileInfo {E : Env} {v w : Val} (hv : nest v = 0) (h : deserFileInfo E v = .ok w) :
    nest w = 0 := by
  unfold deserFileInfo at h
  split at h
  · rename_i d
    dsimp only at h
    split at h
    · rename_i m hm
      refine nest_mkFDict ?_ h
      simp only [nest] at hv ⊢
      exact nestD_set rfl (nest_enum hm) hv
    · exact nest_mkFDict hv h
  · split at h
    · rename_i hm
      split at h
      · cases h
      rename_i hs
      refine nest_mkFDict ?_ h
      obtain ⟨k1, v1, _, h2, _, _, rfl⟩ := fdSetV_ok hs
      simp only [nest] at hv ⊢
      exact nestF_set (nest_fdConv _ _ _ (nest_enum hm) h2) hv
    · exact nest_mkFDict hv h
  · cases h

theorem nest_deserSlot {E : Env} {rec : Loader} {c : Cls} {key : PStr} {v w : Val}
    (hrec : ∀ c' ty ts enc sig slots x, Declares c c' → nest ty = 0 → nest ts = 0 → nest enc = 0 →
      nest sig = 0 → nest slots = 0 → rec c' ty ts enc sig slots = .ok x → DeclaredChain c' (nest x))
    (hv : nest v = 0) (h : deserSlot E rec c key v = .ok w) : NestOk c (nest w) := by
  have zero : ∀ {n}, n = 0 → NestOk c n := fun e => Or.inl e
  unfold deserSlot at h
  split at h
  · split at h
    · split at h
      · cases h
      · exact zero (nest_mkCont hv h)
    · injection h with h; subst h; exact zero hv
  split at h
  · split at h
    · rename_i l
      split at h
      · cases h
      rename_i r hr
      injection h with h
      subst h
      refine zero ?_
      simp only [nest] at hv ⊢
      exact nestL_mapRes (fun x hx y e => nest_mkFDict (nestL_zero.mp hv x hx) e) hr
    · cases h
  split at h
  · split at h
    · rename_i l
      split at h
      · cases h
      rename_i r hr
      injection h with h
      subst h
      refine zero ?_
      simp only [nest] at hv ⊢
      refine nestL_mapRes (fun x hx y e => ?_) hr
      split at e
      · cases e
      · exact nest_mkCont (nestL_zero.mp hv x hx) e
    · cases h
  split at h
  · exact zero (nest_mkCont hv h)
  split at h
  · split at h
    · cases h
    · injection h with h; subst h; exact zero hv
  split at h
  · split at h
    · cases h
    · injection h with h; subst h; exact zero hv
  split at h
  · exact zero (nest_mkFDict hv h)
  split at h
  · split at h
    · cases h
    · injection h with h; subst h; exact zero hv
  split at h
  · exact zero (nest_mkCont hv h)
  split at h
  · split at h
    · cases h
    · rename_i l hl
      split at h
      · cases h
      rename_i r hr
      injection h with h
      subst h
      refine zero ?_
      simp only [nest]
      exact nestL_mapRes (fun x hx y e => nest_deserFileInfo (nest_iter hv hl x hx) e) hr
  · unfold deserBase at h
    split at h
    · split at h
      · rename_i hm; injection h with h; subst h; exact zero (nest_enum hm)
      · cases h
    · split at h
      · rename_i sd hsd
        have hd : Declares c sd.cls := ⟨key, sd, msgSlots_lookup.mpr hsd, rfl⟩
        exact nest_deserMessage hd (fun ty ts enc sig slots x a b c d e f =>
          hrec _ _ _ _ _ _ _ hd a b c d e f) hv h
      · injection h with h; subst h; exact zero hv

theorem nest_loadSlots {E : Env} {rec : Loader} {c : Cls} {d : List (Val × Val)}
    (hrec : ∀ c' ty ts enc sig slots x, Declares c c' → nest ty = 0 → nest ts = 0 → nest enc = 0 →
      nest sig = 0 → nest slots = 0 → rec c' ty ts enc sig slots = .ok x → DeclaredChain c' (nest x))
    (hd : nestD d = 0) : ∀ {names : List PStr} {as : Attrs}, loadSlots E rec c d names = .ok as →
    ∀ k x, (k, x) ∈ as → NestOk c (nest x)
  | [], as, h => by
    unfold loadSlots at h; injection h with h; subst h; intro k x hx; cases hx
  | n :: rest, as, h => by
    unfold loadSlots at h
    split at h
    · cases h
    rename_i v hv
    split at h
    · cases h
    rename_i r hr
    injection h with h
    subst h
    intro k x hm
    rcases List.mem_cons.mp hm with e | e
    · injection e with _ e
      subst e
      split at hv
      · injection hv with hv; subst hv; exact Or.inl rfl
      · split at hv
        · injection hv with hv; subst hv; exact Or.inl rfl
        · rename_i w hw
          exact nest_deserSlot hrec (nestD_get hd hw) hv
    · exact nest_loadSlots hrec hd hr k x e

theorem modifyName_mem {n k : PStr} {f : Val → Val} {x : Val} : ∀ {as : Attrs},
    (k, x) ∈ modifyName n f as → (k, x) ∈ as ∨ ∃ y, (k, y) ∈ as ∧ x = f y
  | [], h => by cases h
  | (k', v) :: rest, h => by
    unfold modifyName at h
    split at h
    · rcases List.mem_cons.mp h with e | e
      · injection e with e1 e2; subst e1 e2; exact Or.inr ⟨v, by simp, rfl⟩
      · exact Or.inl (by simp [e])
    · rcases List.mem_cons.mp h with e | e
      · exact Or.inl (by simp [e])
      · rcases modifyName_mem e with h | ⟨y, hy, e⟩
        · exact Or.inl (by simp [h])
        · exact Or.inr ⟨y, by simp [hy], e⟩

theorem nest_postInit {c : Cls} {as : Attrs} (h : ∀ k x, (k, x) ∈ as → NestOk c (nest x)) :
    ∀ k x, (k, x) ∈ postInit c as → NestOk c (nest x) := by
  have step : ∀ (as : Attrs) (n : PStr) (f : Val → Val),
      (∀ k x, (k, x) ∈ as → NestOk c (nest x)) → (∀ y, NestOk c (nest y) → NestOk c (nest (f y))) →
      ∀ k x, (k, x) ∈ modifyName n f as → NestOk c (nest x) := by
    intro as n f h hf k x hm
    rcases modifyName_mem hm with h' | ⟨y, hy, rfl⟩
    · exact h _ _ h'
    · exact hf _ (h _ _ hy)
  have e1 : ∀ y, NestOk c (nest y) → NestOk c (nest (orEmpty y)) := by
    intro y hy; unfold orEmpty; split
    · exact hy
    · exact Or.inl rfl
  have e2 : ∀ d, nest d = 0 → ∀ y, NestOk c (nest y) → NestOk c (nest (orDefault d y)) := by
    intro d hd y hy; unfold orDefault; split
    · exact Or.inl hd
    · exact hy
  have e3 : ∀ y, NestOk c (nest y) → NestOk c (nest (.bool y.truthy)) := fun _ _ => Or.inl rfl
  unfold postInit
  split
  · exact step _ _ _ h e1
  · exact step _ _ _ h e1
  · exact step _ _ _ h e1
  · exact step _ _ _ h e1
  · exact step _ _ _ (step _ _ _ h e3) (e2 _ rfl)
  · exact step _ _ _ h e3
  · exact step _ _ _ h (e2 _ rfl)
  · exact h

theorem nest_loadAttrs {E : Env} {rec : Loader} {c : Cls} {slots : Val} {as : Attrs}
    (hrec : ∀ c' ty ts enc sig slots x, Declares c c' → nest ty = 0 → nest ts = 0 → nest enc = 0 →
      nest sig = 0 → nest slots = 0 → rec c' ty ts enc sig slots = .ok x → DeclaredChain c' (nest x))
    (hs : nest slots = 0) (h : loadAttrs E rec c slots = .ok as) : NestOk c (nestF as) := by
  unfold loadAttrs at h
  split at h
  · cases h
  rename_i as' ha
  injection h with h
  subst h
  exact nestF_max (nest_postInit (nest_loadSlots hrec (nest_dictOf hs) (wrapLoad_ok ha)))

theorem nest_msg {c : Cls} {ty ts enc sig : Val} {as : Attrs} (h1 : nest ty = 0) (h2 : nest ts = 0)
    (h3 : nest enc = 0) (h4 : nest sig = 0) (h : NestOk c (nestF as)) :
    DeclaredChain c (nest (.msg c ty ts enc sig as)) := by
  have e : nest (.msg c ty ts enc sig as) = nestF as + 1 := by
    simp [nest, h1, h2, h3, h4, Nat.add_comm]
  rw [e]
  rcases h with h | ⟨c', hd, hc⟩
  · rw [h]; exact .one c
  · exact .more hd hc

theorem nest_loadMsg (E : Env) : ∀ (n : Nat) (c : Cls) (ty ts enc sig slots x : Val),
    nest ty = 0 → nest ts = 0 → nest enc = 0 → nest sig = 0 → nest slots = 0 →
    loadMsg E n c ty ts enc sig slots = .ok x → DeclaredChain c (nest x) := by
  intro n
  induction n with
  | zero => intro c ty ts enc sig slots x _ _ _ _ _ h; unfold loadMsg at h; cases h
  | succ n ih =>
    intro c ty ts enc sig slots x h1 h2 h3 h4 h5 h
    obtain ⟨n', as, e, ha, rfl⟩ := loadMsg_isMsg h
    injection e with e
    subst e
    exact nest_msg h1 h2 h3 h4
      (nest_loadAttrs (fun c' ty ts enc sig slots x _ => ih c' ty ts enc sig slots x) h5 ha)

/-! ### The class graph -/

theorem declares_rank {a b : Cls} (h : Declares a b) : b.rank < a.rank := by
  obtain ⟨n, sd, hm, rfl⟩ := h
  have : ∀ p ∈ a.msgSlots, p.2.cls.rank < a.rank := by cases a <;> decide
  exact this _ hm

theorem rank_le (c : Cls) : c.rank ≤ 5 := by cases c <;> decide

theorem chain_rank {c : Cls} {n : Nat} (h : DeclaredChain c n) : n ≤ c.rank + 1 := by
  induction h with
  | one c => omega
  | more hd _ ih => have := declares_rank hd; omega

/-! ### Independence of the recursion bound -/

theorem mapRes_congr {α β : Type _} {f g : α → Res β} {l : List α} (h : ∀ x ∈ l, f x = g x) :
    mapRes f l = mapRes g l := by
  induction l with
  | nil => rfl
  | cons x xs ih =>
    unfold mapRes
    rw [h x (by simp), ih (fun y hy => h y (by simp [hy]))]

theorem deserSingle_congr {r1 r2 : Loader} {sd : SlotDef} (h : r1 sd.cls = r2 sd.cls) (key : PStr)
    (v : Val) : deserSingle r1 sd key v = deserSingle r2 sd key v := by
  unfold deserSingle; rw [h]

theorem deserMessage_congr {r1 r2 : Loader} {sd : SlotDef} (h : r1 sd.cls = r2 sd.cls) (key : PStr)
    (v : Val) : deserMessage r1 sd key v = deserMessage r2 sd key v := by
  have : ∀ l, mapRes (deserSingle r1 sd key) l = mapRes (deserSingle r2 sd key) l :=
    fun l => mapRes_congr fun x _ => deserSingle_congr h key x
  unfold deserMessage
  simp only [this, deserSingle_congr h]

theorem deserSlot_congr {E : Env} {r1 r2 : Loader} {c : Cls}
    (h : ∀ c', Declares c c' → r1 c' = r2 c') (key : PStr) (v : Val) :
    deserSlot E r1 c key v = deserSlot E r2 c key v := by
  have hb : deserBase r1 c key v = deserBase r2 c key v := by
    unfold deserBase
    cases hl : lookupName key c.msgSlots with
    | none => rfl
    | some sd =>
      simp only
      rw [deserMessage_congr (h _ ⟨key, sd, msgSlots_lookup.mpr hl, rfl⟩)]
  unfold deserSlot
  rw [hb]

theorem loadSlots_rec_congr {E : Env} {r1 r2 : Loader} {c : Cls}
    (h : ∀ c', Declares c c' → r1 c' = r2 c') (d : List (Val × Val)) (names : List PStr) :
    loadSlots E r1 c d names = loadSlots E r2 c d names := by
  induction names with
  | nil => rfl
  | cons n rest ih =>
    unfold loadSlots
    simp only [deserSlot_congr h, ih]

theorem loadAttrs_congr {E : Env} {r1 r2 : Loader} {c : Cls}
    (h : ∀ c', Declares c c' → r1 c' = r2 c') (slots : Val) :
    loadAttrs E r1 c slots = loadAttrs E r2 c slots := by
  unfold loadAttrs; rw [loadSlots_rec_congr h]

/-- A bound larger than the rank of the class never matters. -/
theorem loadMsg_fuel (E : Env) : ∀ (c : Cls) (n m : Nat), c.rank < n → c.rank < m →
    loadMsg E n c = loadMsg E m c := by
  intro c
  induction hr : c.rank using Nat.strongRecOn generalizing c with
  | ind r ih =>
    intro n m hn hm
    subst hr
    cases n with
    | zero => omega
    | succ n =>
      cases m with
      | zero => omega
      | succ m =>
        funext ty ts enc sig slots
        unfold loadMsg
        rw [loadAttrs_congr]
        intro c' hd
        have := declares_rank hd
        exact ih c'.rank this c' rfl n m (by omega) (by omega)

end Verif
