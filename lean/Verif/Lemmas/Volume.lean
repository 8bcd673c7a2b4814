import Verif.Lemmas.Raw
import Verif.Lemmas.Depth
import Verif.Lemmas.Utf8
import Verif.Spec.Volume
/-! # Lemmas about how much a value holds -/

set_option linter.unusedSimpArgs false

namespace Verif

open Spec

theorem volume_pos (v : Val) : 1 ≤ volume v := by
  cases v <;> simp only [volume] <;> omega

/-! ### Decoded data -/

theorem log2_bytes {n k : Nat} (h : n ≤ 256 ^ k) : n.log2 / 8 ≤ k := by
  have : n.log2 ≤ 8 * k := by
    rcases Nat.eq_zero_or_pos n with rfl | hn
    · simp
    · have h1 : 2 ^ n.log2 ≤ n := Nat.log2_self_le (by omega)
      have h2 : n ≤ 2 ^ (8 * k) := by rw [Nat.pow_mul]; exact h
      exact (Nat.pow_le_pow_iff_right (by decide)).mp (Nat.le_trans h1 h2)
  omega

theorem volume_ofBE (b : Bytes) : (ofBE b).log2 / 8 ≤ b.length :=
  log2_bytes (Nat.le_of_lt (ofBE_lt b))

theorem volume_ofBE_succ (b : Bytes) : (ofBE b + 1).log2 / 8 ≤ b.length := log2_bytes (ofBE_lt b)

theorem volume_tagify {n : Nat} {v w : Val} (h : tagify n v = .ok w) : volume w ≤ 1 + n.log2 / 8 + volume v := by
  unfold tagify at h
  split at h
  · split at h <;> cases h
    rename_i b
    have := volume_ofBE b
    simp only [volume, Int.natAbs_natCast]
    omega
  · split at h
    · split at h <;> cases h
      rename_i b
      have := volume_ofBE_succ b
      simp only [volume, Int.natAbs_negSucc, Nat.succ_eq_add_one]
      omega
    · injection h with h; subst h; simp only [volume]; omega

theorem takeBytes_ok {n : Nat} {b x r : Bytes} (h : takeBytes n b = .ok (x, r)) :
    x.length + r.length = b.length ∧ x.length = n := by
  unfold takeBytes at h
  split at h
  · cases h
  · injection h with h; injection h with h1 h2; subst h1 h2
    simp only [List.length_take, List.length_drop]; omega

theorem volume_simple {n : Nat} {b r : Bytes} {w : Val} (h : cborSimple n b = .ok (w, r)) :
    volume w = 1 ∧ r.length ≤ b.length := by
  unfold cborSimple at h
  have hm : ∀ (k : Nat) (f : Bytes → Val),
      (∀ p, volume (f p) = 1) → (takeBytes k b).map (fun p => (f p.1, p.2)) = .ok (w, r) →
      volume w = 1 ∧ r.length ≤ b.length := by
    intro k f hf hx
    cases ht : takeBytes k b with
    | error e => rw [ht] at hx; cases hx
    | ok p =>
      obtain ⟨x, r'⟩ := p
      rw [ht] at hx
      injection hx with hx
      injection hx with h1 h2
      subst h1 h2
      have := takeBytes_ok ht
      exact ⟨hf _, by dsimp only; omega⟩
  repeat' split at h
  · cases h; exact ⟨rfl, Nat.le_refl _⟩
  · cases h; exact ⟨rfl, Nat.le_refl _⟩
  · cases h; exact ⟨rfl, Nat.le_refl _⟩
  · cases h; exact ⟨rfl, Nat.le_refl _⟩
  · exact hm _ (fun x => .float (widenFloat 5 10 (ofBE x))) (fun _ => rfl) h
  · exact hm _ (fun x => .float (widenFloat 8 23 (ofBE x))) (fun _ => rfl) h
  · exact hm _ (fun x => .float (UInt64.ofNat (ofBE x))) (fun _ => rfl) h
  · cases h

theorem volume_arg {i n : Nat} {b r : Bytes} (h : cborArg i b = .ok (n, r)) :
    n.log2 / 8 + r.length ≤ b.length ∧ (n + 1).log2 / 8 + r.length ≤ b.length := by
  unfold cborArg at h
  split at h
  · injection h with h; injection h with h1 h2; subst h1 h2
    have e : ∀ j < 26, j.log2 / 8 = 0 := by decide
    have e1 := e i (by omega)
    have e2 := e (i + 1) (by omega)
    omega
  · dsimp only at h
    split at h
    · generalize (if i = 24 then 1 else if i = 25 then 2 else if i = 26 then 4 else 8) = k at h
      cases ht : takeBytes k b with
      | error e => rw [ht] at h; cases h
      | ok p =>
        obtain ⟨x, r'⟩ := p
        rw [ht] at h
        injection h with h; injection h with h1 h2; subst h1 h2
        have := takeBytes_ok ht
        have := volume_ofBE x
        have := volume_ofBE_succ x
        dsimp only
        omega
    · cases h

theorem volume_text {b : Bytes} {v : Val} (h : cborText b = .ok v) : volume v ≤ 1 + b.length := by
  unfold cborText at h
  split at h
  · rename_i s hs
    injection h with h
    subst h
    rw [utf8Dec_iff] at hs
    subst hs
    rw [← utf8Enc_eq]
    simp only [volume]
    have : s.length ≤ (utf8Enc s).length := by
      induction s with
      | nil => simp
      | cons c cs ih =>
        have e : utf8Enc (c :: cs) = utf8EncChar c ++ utf8Enc cs := by simp [utf8Enc]
        have h1 : 1 ≤ (utf8EncChar c).length := by
          unfold utf8EncChar; dsimp only; repeat' split
          all_goals simp
        rw [e]
        simp only [List.length_append, List.length_cons]
        omega
    omega
  · cases h

theorem volume_joinBytes : ∀ {l : List Val} {b : Bytes}, joinBytes l = .ok b → b.length ≤ volumeL l
  | [], b, h => by unfold joinBytes at h; injection h with h; subst h; simp [volumeL]
  | x :: xs, b, h => by
    unfold joinBytes at h
    split at h
    · rename_i e; cases e
    · rename_i b0 rest e
      injection e with e1 e2
      subst e1 e2
      cases hr : joinBytes xs with
      | error e => rw [hr] at h; cases h
      | ok r =>
        rw [hr] at h
        injection h with h
        subst h
        have := volume_joinBytes hr
        simp only [volumeL, volume, List.length_append]
        omega
    · cases h

theorem volume_joinText : ∀ {l : List Val} {b : PStr}, joinText l = .ok b → b.length ≤ volumeL l
  | [], b, h => by unfold joinText at h; injection h with h; subst h; simp [volumeL]
  | x :: xs, b, h => by
    unfold joinText at h
    split at h
    · rename_i e; cases e
    · rename_i b0 rest e
      injection e with e1 e2
      subst e1 e2
      cases hr : joinText xs with
      | error e => rw [hr] at h; cases h
      | ok r =>
        rw [hr] at h
        injection h with h
        subst h
        have := volume_joinText hr
        simp only [volumeL, volume, List.length_append]
        omega
    · cases h

theorem volumeD_set (k v : Val) : ∀ (d : List (Val × Val)),
    volumeD (dictSet k v d) ≤ volumeD d + volume k + volume v
  | [] => by simp [dictSet, volumeD]
  | (k', w) :: rest => by
    unfold dictSet
    split
    · simp only [volumeD]; omega
    · have := volumeD_set k v rest
      simp only [volumeD]; omega

theorem volume_cbor (f : Nat) :
    (∀ b v r, cborDec f b = .ok (v, r) → volume v + r.length ≤ b.length) ∧
    (∀ n b v r, cborDecN f n b = .ok (v, r) → volumeL v + r.length ≤ b.length) ∧
    (∀ n acc b v r, cborDecMapN f n acc b = .ok (v, r) →
      volumeD v + r.length ≤ volumeD acc + b.length) ∧
    (∀ b v r, cborDecUntil f b = .ok (v, r) → volumeL v + r.length + 1 ≤ b.length) ∧
    (∀ acc b v r, cborDecMapUntil f acc b = .ok (v, r) →
      volumeD v + r.length + 1 ≤ volumeD acc + b.length) := by
  induction f with
  | zero =>
    refine ⟨?_, ?_, ?_, ?_, ?_⟩
    · intro b v r h; unfold cborDec at h; cases h
    · intro n b v r h; unfold cborDecN at h; cases h
    · intro n acc b v r h; unfold cborDecMapN at h; cases h
    · intro b v r h; unfold cborDecUntil at h; cases h
    · intro acc b v r h; unfold cborDecMapUntil at h; cases h
  | succ f ih =>
    obtain ⟨i1, i2, i3, i4, i5⟩ := ih
    refine ⟨?_, ?_, ?_, ?_, ?_⟩
    · intro b v r h
      have hmap : ∀ {α : Type} (x : Res α) (g : α → Val) (r' : Bytes) (n : Nat),
          (∀ a, x = .ok a → volume (g a) + r'.length ≤ n) →
          x.map (fun a => (g a, r')) = .ok (v, r) → volume v + r.length ≤ n := by
        intro α x g r' n hg hx
        cases x with
        | error e => cases hx
        | ok p => injection hx with hx; injection hx with h1 h2; subst h1 h2; exact hg _ rfl
      unfold cborDec at h
      dsimp only at h
      split at h
      · cases h
      simp only [List.length_cons]
      split at h
      · have := volume_simple h
        omega
      split at h
      · split at h
        · split at h
          · cases h
          · rename_i hx
            refine hmap _ _ _ _ (fun a ha => ?_) h
            have := i4 _ _ _ hx
            have := volume_joinBytes ha
            simp only [volume]; omega
        split at h
        · split at h
          · cases h
          · rename_i hx
            refine hmap _ _ _ _ (fun a ha => ?_) h
            have := i4 _ _ _ hx
            have := volume_joinText ha
            simp only [volume]; omega
        split at h
        · split at h
          · cases h
          · rename_i hx; injection h with h; injection h with h1 h2; subst h1 h2
            have := i4 _ _ _ hx
            simp only [volume]; omega
        split at h
        · split at h
          · cases h
          · rename_i hx; injection h with h; injection h with h1 h2; subst h1 h2
            have := i5 _ _ _ _ hx
            simp only [volume, volumeD] at this ⊢; omega
        · cases h
      · split at h
        · cases h
        rename_i ha
        have hv := volume_arg ha
        split at h
        · injection h with h; injection h with h1 h2; subst h1 h2
          simp only [volume, Int.ofNat_eq_natCast, Int.natAbs_natCast]; omega
        split at h
        · injection h with h; injection h with h1 h2; subst h1 h2
          simp only [volume, Int.natAbs_negSucc, Nat.succ_eq_add_one]; omega
        split at h
        · split at h
          · cases h
          · rename_i ht; injection h with h; injection h with h1 h2; subst h1 h2
            have := takeBytes_ok ht
            simp only [volume]; omega
        split at h
        · split at h
          · cases h
          · rename_i ht
            have := takeBytes_ok ht
            refine hmap _ id _ _ ?_ h
            intro a ha
            have := volume_text ha
            simp only [id]; omega
        split at h
        · split at h
          · cases h
          · rename_i hx; injection h with h; injection h with h1 h2; subst h1 h2
            have := i2 _ _ _ _ hx
            simp only [volume]; omega
        split at h
        · split at h
          · cases h
          · rename_i hx; injection h with h; injection h with h1 h2; subst h1 h2
            have := i3 _ _ _ _ _ hx
            simp only [volume, volumeD] at this ⊢; omega
        · split at h
          · cases h
          · rename_i hx
            have := i1 _ _ _ hx
            refine hmap _ id _ _ (fun a ha => ?_) h
            have := volume_tagify ha
            simp only [id]; omega
    · intro n b v r h
      unfold cborDecN at h
      split at h
      · injection h with h; injection h with h1 h2; subst h1 h2; simp [volumeL]
      · split at h
        · cases h
        rename_i hx
        split at h
        · cases h
        rename_i hy
        injection h with h; injection h with h1 h2; subst h1 h2
        have := i1 _ _ _ hx
        have := i2 _ _ _ _ hy
        simp only [volumeL]; omega
    · intro n acc b v r h
      unfold cborDecMapN at h
      split at h
      · injection h with h; injection h with h1 h2; subst h1 h2; omega
      · split at h
        · cases h
        rename_i k _ hx
        split at h
        · cases h
        rename_i w _ hy
        split at h
        · have := i1 _ _ _ hx
          have := i1 _ _ _ hy
          have := i3 _ _ _ _ _ h
          have := volumeD_set k w acc
          omega
        · cases h
    · intro b v r h
      unfold cborDecUntil at h
      split at h
      · cases h
      split at h
      · injection h with h; injection h with h1 h2; subst h1 h2; simp [volumeL]
      split at h
      · cases h
      rename_i hx
      split at h
      · cases h
      rename_i hy
      injection h with h; injection h with h1 h2; subst h1 h2
      have := i1 _ _ _ hx
      have := i4 _ _ _ hy
      simp only [volumeL]; omega
    · intro acc b v r h
      unfold cborDecMapUntil at h
      split at h
      · cases h
      split at h
      · injection h with h; injection h with h1 h2; subst h1 h2; simp; omega
      split at h
      · cases h
      rename_i k _ hx
      split at h
      · cases h
      rename_i w _ hy
      split at h
      · have := i1 _ _ _ hx
        have := i1 _ _ _ hy
        have := i5 _ _ _ _ h
        have := volumeD_set k w acc
        omega
      · cases h

theorem volume_loads {b : Bytes} {v : Val} (h : loads b = .ok v) : volume v ≤ b.length := by
  unfold loads at h
  split at h
  · rename_i hx; injection h with h; subst h; have := (volume_cbor _).1 _ _ _ hx; omega
  · cases h

/-! ### Looking up distinct names -/

/-- What the values of a dictionary hold. -/
def volV : List (Val × Val) → Nat
  | [] => 0
  | (_, x) :: rest => volume x + volV rest

theorem volV_le : ∀ (d : List (Val × Val)), volV d ≤ volumeD d
  | [] => Nat.le_refl _
  | (k, x) :: rest => by have := volV_le rest; simp only [volV, volumeD]; omega

theorem volV_text : ∀ (kw : Attrs), volV (kw.map fun p => (.str p.1, p.2)) = volumeF kw
  | [] => rfl
  | (k, x) :: rest => by simp only [List.map_cons, volV, volumeF, volV_text rest]

theorem volV_asDict {v : Val} {d : List (Val × Val)} (h : v.asDict = some d) :
    volV d + 1 ≤ volume v := by
  cases v <;> simp only [Val.asDict] at h <;> try cases h
  · have := volV_le d
    simp only [volume]; omega
  · rw [volV_text]; simp only [volume]; omega

theorem volV_set (k v : Val) : ∀ (d : List (Val × Val)), volV (dictSet k v d) ≤ volV d + volume v
  | [] => by simp [dictSet, volV]
  | (k', w) :: rest => by
    unfold dictSet
    split
    · simp only [volV]; omega
    · have := volV_set k v rest
      simp only [volV]; omega

theorem volV_replace {k v w : Val} : ∀ {d : List (Val × Val)}, dictGet k d = some w →
    volumeD (dictSet k v d) + volume w ≤ volumeD d + volume v
  | [], h => by cases h
  | (k', x) :: rest, h => by
    unfold dictGet at h
    unfold dictSet
    split at h
    · rename_i hk
      injection h with h; subst h
      rw [if_pos hk]
      simp only [volumeD]; omega
    · rename_i hk
      rw [if_neg hk]
      have := volV_replace (v := v) h
      simp only [volumeD]; omega

/-- What the entries of the given names hold together. -/
def picked (d : List (Val × Val)) : List PStr → Nat
  | [] => 0
  | n :: rest =>
    (match dictGet (.str n) d with
      | some v => volume v
      | none => 0) + picked d rest

theorem picked_nil : ∀ names, picked [] names = 0
  | [] => rfl
  | n :: rest => by simp [picked, dictGet, picked_nil rest]

theorem picked_cons_ne {k v : Val} {d : List (Val × Val)} : ∀ {names : List PStr},
    (∀ n ∈ names, k ≠ .str n) → picked ((k, v) :: d) names = picked d names
  | [], _ => rfl
  | n :: rest, h => by
    have hk : k.keyEq (.str n) = false := by
      cases e : k.keyEq (.str n)
      · rfl
      · exact absurd ((keyEq_str _ _).mp e) (h n (by simp))
    simp only [picked, dictGet, hk, Bool.false_eq_true, if_false,
      picked_cons_ne (names := rest) (fun n' hn => h n' (by simp [hn]))]

theorem picked_cons {k v : Val} {d : List (Val × Val)} : ∀ {names : List PStr}, names.Nodup →
    picked ((k, v) :: d) names ≤ volume v + picked d names
  | [], _ => by simp [picked]
  | n :: rest, h => by
    rw [List.nodup_cons] at h
    cases hk : k.keyEq (.str n)
    · have := picked_cons (k := k) (v := v) (d := d) h.2
      simp only [picked, dictGet, hk, Bool.false_eq_true, if_false]
      omega
    · have := picked_cons_ne (k := k) (v := v) (d := d) (names := rest) (by
        intro n' hn e
        have e' := (keyEq_str _ _).mp hk
        rw [e'] at e
        injection e with e
        exact h.1 (e ▸ hn))
      simp only [picked, dictGet, hk, if_true, this]
      omega

theorem picked_le {names : List PStr} (h : names.Nodup) : ∀ (d : List (Val × Val)),
    picked d names ≤ volV d
  | [] => by simp [picked_nil, volV]
  | (k, v) :: rest => by
    have h1 := picked_cons (k := k) (v := v) (d := rest) h
    have h2 := picked_le h rest
    simp only [volV]; omega

theorem dictGet_text (n : PStr) : ∀ (kw : Attrs),
    dictGet (.str n) (kw.map fun p => (.str p.1, p.2)) = lookupName n kw
  | [] => rfl
  | (k, x) :: rest => by
    by_cases e : k = n
    · subst e
      simp [dictGet, lookupName, Val.keyEq, Val.keyNorm]
    · have hk : (Val.str k).keyEq (.str n) = false := by
        cases h : (Val.str k).keyEq (.str n)
        · rfl
        · exact absurd (by have := (keyEq_str _ _).mp h; injection this) e
      simp only [List.map_cons, dictGet, hk, Bool.false_eq_true, if_false, dictGet_text n rest,
        lookupName, if_neg e]

/-! ### Containers and frozen dictionaries -/

theorem volume_enum {e : EnumId} {w v : Val} (h : e.lookup w = some v) : volume v = 1 := by
  obtain ⟨s, _, rfl⟩ := enum_lookup_ok h; rfl

theorem volume_contFields {E : Env} {hook : PStr → Val → Res Val} {c : ContId} {kw : Attrs}
    (hh : ∀ k x y, hook k x = .ok y → volume y ≤ 17 * volume x) :
    ∀ {sl : List (PStr × List Validator)} {fs : Attrs}, contFields E hook c kw sl = .ok fs →
    volumeF fs ≤ sl.length +
      17 * picked (kw.map fun p => (.str p.1, p.2)) (sl.map Prod.fst)
  | [], fs, h => by unfold contFields at h; injection h with h; subst h; simp [volumeF]
  | (k, vs) :: rest, fs, h => by
    unfold contFields at h
    split at h
    · cases h
    rename_i v hv
    split at h
    · cases h
    rename_i r hr
    injection h with h
    subst h
    have ih := volume_contFields hh hr
    simp only [List.map_cons, picked, dictGet_text, volumeF, List.length_cons]
    unfold contField at hv
    split at hv
    · rename_i e
      rw [e]
      split at hv
      · cases hv
      · injection hv with hv; subst hv
        have : volume (c.default k) = 1 := by
          unfold ContId.default
          split
          · split
            · rfl
            split
            · rfl
            split <;> rfl
          · rfl
        dsimp only
        omega
    · rename_i z hz
      rw [hz]
      dsimp only
      have : volume v ≤ 17 * volume z := by
        unfold contDeser at hv
        split at hv
        · injection hv with hv; subst hv; omega
        · split at hv
          · cases hv
          · exact hh _ _ _ hv
      omega

theorem volume_contCall {E : Env} {hook : PStr → Val → Res Val} {c : ContId} {v w : Val}
    (hh : ∀ k x y, hook k x = .ok y → volume y ≤ 17 * volume x)
    (h : contCall E hook c v = .ok w) : volume w ≤ 17 * volume v := by
  unfold contCall at h
  split at h
  · cases h
  rename_i kw hkw
  unfold kwargsOf at hkw
  split at hkw
  · cases hkw
  rename_i d hd
  split at hkw
  · cases hkw
  rename_i kw' hkw'
  split at hkw
  · cases hkw
  injection hkw with hkw
  subst hkw
  unfold contBuild at h
  have h := wrapLoad_ok h
  split at h
  · cases h
  rename_i fs hfs
  split at h
  · cases h
  injection h with h
  subst h
  have h1 := volume_contFields hh hfs
  rw [← textKeys_ok hkw'] at h1
  have h2 := picked_le (slots_nodup c) d
  have h3 := volV_asDict hd
  have h4 : c.slots.length ≤ 16 := by cases c <;> decide
  simp only [volume]
  omega

theorem volumeF_set (k : PStr) (v : Val) : ∀ (d : Attrs), volumeF (setName k v d) ≤ volumeF d + volume v
  | [] => by simp [setName, volumeF]
  | (k', w) :: rest => by
    unfold setName
    split
    · simp only [volumeF]; omega
    · have := volumeF_set k v rest
      simp only [volumeF]; omega

theorem volume_setAll {E : Env} {conv : PStr → Val → Res Val} {c : FDictId}
    (hc : ∀ k x y, conv k x = .ok y → volume y ≤ 17 * volume x) :
    ∀ {pairs : List (Val × Val)} {items items' : Attrs},
    fdSetAll E conv c items pairs = .ok items' → volumeF items' ≤ volumeF items + 17 * volV pairs
  | [], items, items', h => by
    unfold fdSetAll at h; injection h with h; subst h; simp [volV]
  | (k, v) :: rest, items, items', h => by
    unfold fdSetAll at h
    split at h
    · cases h
    rename_i i' hi'
    obtain ⟨k1, v1, h1, h2, h3, _, rfl⟩ := fdSetV_ok hi'
    have e1 := volume_setAll hc h
    have e2 := volumeF_set k1 v1 items
    have e3 := hc _ _ _ h2
    simp only [volV]
    omega

theorem volume_defaults {E : Env} {conv : PStr → Val → Res Val} {c : FDictId} :
    ∀ {l items items' : Attrs}, (∀ k v y, (k, v) ∈ l → conv k v = .ok y → volume y ≤ 1) →
    fdDefaults E conv c items l = .ok items' → volumeF items' ≤ volumeF items + l.length
  | [], items, items', _, h => by
    unfold fdDefaults at h; injection h with h; subst h; simp
  | (k, v) :: rest, items, items', hc, h => by
    unfold fdDefaults at h
    have hr : ∀ k v y, (k, v) ∈ rest → conv k v = .ok y → volume y ≤ 1 :=
      fun k v y hm => hc k v y (by simp [hm])
    split at h
    · have := volume_defaults hr h
      simp only [List.length_cons]; omega
    split at h
    · cases h
    rename_i i' hi'
    obtain ⟨k1, v1, h1, h2, h3, _, rfl⟩ := fdSetV_ok hi'
    have e1 := volume_defaults hr h
    have e2 := volumeF_set k1 v1 items
    injection h1 with h1
    subst h1
    have e3 := hc _ _ _ (by simp) h2
    simp only [List.length_cons]
    omega

theorem volume_fdBuild {E : Env} {conv : PStr → Val → Res Val} {c : FDictId}
    {pairs : List (Val × Val)} {w : Val}
    (hc : ∀ k x y, conv k x = .ok y → volume y ≤ 17 * volume x)
    (hd : ∀ k v y, (k, v) ∈ c.items → conv k v = .ok y → volume y ≤ 1)
    (h : fdBuild E conv c pairs = .ok w) : volume w ≤ 17 * (1 + volV pairs) := by
  unfold fdBuild at h
  split at h
  · cases h
  rename_i i1 h1
  split at h
  · cases h
  rename_i i2 h2
  injection h with h
  subst h
  have e1 := volume_setAll hc h1
  have e2 := volume_defaults hd h2
  have e3 : c.items.length ≤ 7 := by cases c <;> decide
  simp only [volume, volumeF] at e1 ⊢
  omega

theorem volume_items {c : FDictId} {k : PStr} {v : Val} (h : (k, v) ∈ c.items) : volume v = 1 := by
  have : ∀ p ∈ c.items, volume p.2 = 1 := by
    cases c <;> simp [FDictId.items, volume, volumeL, volumeD]
  exact this _ h

theorem volume_noConv (k : PStr) (x y : Val) (h : noConv k x = .ok y) : volume y ≤ 17 * volume x := by
  unfold noConv at h; injection h with h; subst h; omega

theorem volume_fdCall {E : Env} {c : FDictId} {v w : Val} (h : fdCall E c v = .ok w) :
    volume w ≤ 17 * volume v := by
  unfold fdCall at h
  split at h
  · cases h
  rename_i kw hkw
  have h1 := volume_fdBuild volume_noConv (by
    intro k v y hm hy
    unfold noConv at hy; injection hy with hy; subst hy
    rw [volume_items hm]; exact Nat.le_refl 1) h
  unfold kwargsOf at hkw
  split at hkw
  · cases hkw
  rename_i d hd
  split at hkw
  · cases hkw
  rename_i kw' hkw'
  split at hkw
  · cases hkw
  injection hkw with hkw
  subst hkw
  rw [← textKeys_ok hkw'] at h1
  have := volV_asDict hd
  omega

theorem volume_leafHook {E : Env} {c : ContId} (k : PStr) (x y : Val)
    (h : leafHook E c k x = .ok y) : volume y ≤ 17 * volume x := by
  have hp := volume_pos x
  unfold leafHook at h
  split at h
  · split at h
    · split at h
      · exact volume_fdCall h
      · injection h with h; subst h; simp only [volume]; omega
    · split at h
      · split at h
        · exact volume_fdCall h
        · injection h with h; subst h; simp only [volume]; omega
      · injection h with h; subst h; omega
  · injection h with h; subst h; omega

theorem volume_leafCall {E : Env} {c : ContId} {v w : Val} (h : leafCall E c v = .ok w) :
    volume w ≤ 17 * volume v := volume_contCall volume_leafHook h

theorem volume_contHook {E : Env} {c : ContId} (k : PStr) (x y : Val)
    (h : contHook E c k x = .ok y) : volume y ≤ 17 * volume x := by
  have hp := volume_pos x
  unfold contHook at h
  split at h
  · split at h
    · split at h
      · injection h with h; subst h; omega
      · exact volume_leafCall h
    split at h
    · split at h
      · injection h with h; subst h; simp only [volume]; omega
      · injection h with h; subst h; omega
    split at h
    · split at h
      · rename_i hm; injection h with h; subst h; rw [volume_enum hm]; omega
      · cases h
    · injection h with h; subst h; omega
  · split at h
    · split at h
      · exact volume_leafCall h
      · injection h with h; subst h; simp only [volume]; omega
    · injection h with h; subst h; omega
  · exact volume_leafHook _ _ _ h

theorem volume_mkCont {E : Env} {c : ContId} {v w : Val} (h : mkCont E c v = .ok w) :
    volume w ≤ 17 * volume v := volume_contCall volume_contHook h

/-! ### Iteration -/

theorem volumeL_keys : ∀ (d : List (Val × Val)), volumeL (d.map Prod.fst) ≤ volumeD d
  | [] => Nat.le_refl _
  | (k, x) :: rest => by
    have := volumeL_keys rest
    simp only [List.map_cons, volumeL, volumeD]; omega

theorem volumeL_mem {x : Val} : ∀ {l : List Val}, x ∈ l → volume x ≤ volumeL l
  | [], h => by cases h
  | y :: ys, h => by
    rcases List.mem_cons.mp h with e | e
    · subst e; simp only [volumeL]; omega
    · have := volumeL_mem e; simp only [volumeL]; omega

theorem volumeL_chars : ∀ (s : PStr), volumeL (s.map fun c => Val.str [c]) = 2 * s.length
  | [] => rfl
  | c :: cs => by
    simp only [List.map_cons, volumeL, volumeL_chars cs, volume, List.length_cons, List.length_nil]
    omega

theorem volumeL_octets : ∀ (b : Bytes), volumeL (b.map fun x => Val.int x.toNat) = b.length
  | [] => rfl
  | x :: xs => by
    have h : x.toNat.log2 / 8 = 0 := by
      have : ∀ j < 256, j.log2 / 8 = 0 := by decide +kernel
      exact this _ x.toNat_lt
    simp only [List.map_cons, volumeL, volumeL_octets xs, volume, List.length_cons,
      Int.natAbs_natCast, h]
    omega

/-- Iterating gives no more than there is, except for text, which gives at most twice as much. -/
theorem volume_iter {v : Val} {l : List Val} (h : alien v = 0) (hi : v.iter = some l) :
    (volumeL l + 1 ≤ volume v ∨ ∃ s, v = .str s) ∧ volumeL l ≤ 2 * volume v ∧
    ∀ x ∈ l, volume x ≤ volume v := by
  cases v <;> simp only [Val.iter] at hi <;> try cases hi
  · rename_i s
    refine ⟨Or.inr ⟨_, rfl⟩, ?_, ?_⟩
    · rw [volumeL_chars]; simp only [volume]; omega
    · intro x hx
      obtain ⟨c, hc, rfl⟩ := List.mem_map.mp hx
      have := List.length_pos_of_mem hc
      simp only [volume, List.length_cons, List.length_nil]; omega
  · rename_i b
    have e := volumeL_octets b
    refine ⟨Or.inl ?_, ?_, ?_⟩
    · rw [e]; simp only [volume]; omega
    · rw [e]; simp only [volume]; omega
    · intro x hx
      have := volumeL_mem hx
      rw [e] at this
      simp only [volume]; omega
  · refine ⟨Or.inl ?_, ?_, fun x hx => ?_⟩
    · simp only [volume]; omega
    · simp only [volume]; omega
    · have := volumeL_mem hx
      simp only [volume]; omega
  · simp [alien] at h
  · rename_i d
    have e := volumeL_keys d
    refine ⟨Or.inl ?_, ?_, fun x hx => ?_⟩
    · simp only [volume]; omega
    · simp only [volume]; omega
    · have := volumeL_mem hx
      simp only [volume]; omega
  · simp [alien] at h

theorem volV_pairsOf : ∀ {l : List Val} {ps : List (Val × Val)}, (∀ x ∈ l, alien x = 0) →
    pairsOf l = .ok ps → volV ps ≤ volumeL l
  | [], ps, _, h => by unfold pairsOf at h; injection h with h; subst h; simp [volV]
  | x :: xs, ps, hl, h => by
    unfold pairsOf at h
    split at h
    · rename_i k v hi
      split at h
      · rename_i r hr
        injection h with h
        subst h
        have h1 := (volume_iter (hl x (by simp)) hi).2.2 v (by simp)
        have h2 := volV_pairsOf (fun y hy => hl y (by simp [hy])) hr
        simp only [volV, volumeL]; omega
      · cases h
    · cases h
    · cases h

/-- A text is a sequence of pairs only if it is empty. -/
theorem volV_pairs {v : Val} {l : List Val} {ps : List (Val × Val)} (h : alien v = 0)
    (hi : v.iter = some l) (hp : pairsOf l = .ok ps) : volV ps + 1 ≤ volume v := by
  have h1 := volV_pairsOf (alien_iter h hi) hp
  rcases (volume_iter h hi).1 with h2 | ⟨s, rfl⟩
  · omega
  · simp only [Val.iter, Option.some.injEq] at hi
    subst hi
    cases s with
    | nil => simp only [volume]; simp [volumeL] at h1; simp [h1]
    | cons c cs =>
      unfold pairsOf at hp
      simp only [List.map_cons, Val.iter, List.map_nil] at hp
      cases hp

theorem volume_mkFDict {E : Env} {c : FDictId} {v w : Val} (ha : alien v = 0)
    (h : mkFDict E c v = .ok w) : volume w ≤ 17 * volume v := by
  unfold mkFDict at h
  split at h
  · cases h
  rename_i pairs hp
  have h1 := volume_fdBuild (by
    intro k x y hy
    unfold fdConv at hy
    split at hy
    · unfold peerConv at hy
      split at hy
      · exact volume_leafCall hy
      · injection hy with hy; subst hy; omega
    · exact volume_noConv _ _ _ hy) (by
    intro k x y hm hy
    unfold fdConv at hy
    split at hy
    · unfold peerConv at hy
      have hx : x = .none := by
        simp only [FDictId.items, List.mem_cons, List.not_mem_nil, or_false, Prod.mk.injEq] at hm
        rcases hm with h | h | h <;> exact h.2
      subst hx
      simp only [Val.asDict, Option.isSome_none, Bool.false_eq_true, and_false, if_false] at hy
      injection hy with hy; subst hy; simp only [volume]; omega
    · unfold noConv at hy; injection hy with hy; subst hy
      rw [volume_items hm]; exact Nat.le_refl 1) h
  have : volV pairs + 1 ≤ volume v := by
    unfold fdArg at hp
    split at hp
    · rename_i d hd; injection hp with hp; subst hp; exact volV_asDict hd
    · split at hp
      · cases hp
      · rename_i l hl; exact volV_pairs ha hl hp
  omega

theorem volV_dictOfPairs : ∀ {ps acc d : List (Val × Val)},
    dictOfPairs acc ps = some d → volV d ≤ volV acc + volV ps
  | [], acc, d, h => by unfold dictOfPairs at h; injection h with h; subst h; simp [volV]
  | (k, v) :: rest, acc, d, h => by
    unfold dictOfPairs at h
    split at h
    · have h1 := volV_dictOfPairs h
      have h2 := volV_set k v acc
      simp only [volV]; omega
    · cases h

theorem volV_dictOf {v : Val} (hv : alien v = 0) : volV (dictOf v) + 1 ≤ volume v := by
  have hp := volume_pos v
  unfold dictOf
  split
  · rename_i d hd; exact volV_asDict hd
  · split
    · exact hp
    · rename_i l hl
      split
      · exact hp
      · rename_i ps hps
        split
        · rename_i d hd
          have h1 := volV_dictOfPairs hd
          have h2 := volV_pairs hv hl hps
          simp only [volV] at h1
          omega
        · exact hp

/-! ### Slots -/

theorem volumeL_mapRes {f : Val → Res Val} : ∀ {l r : List Val},
    (∀ x ∈ l, ∀ y, f x = .ok y → volume y ≤ 17 * volume x) → mapRes f l = .ok r →
    volumeL r ≤ 17 * volumeL l
  | [], r, _, h => by unfold mapRes at h; injection h with h; subst h; simp [volumeL]
  | x :: xs, r, hf, h => by
    unfold mapRes at h
    split at h
    · cases h
    rename_i y hy
    split at h
    · cases h
    rename_i ys hys
    injection h with h
    subst h
    have h1 := hf x (by simp) y hy
    have h2 := volumeL_mapRes (fun z hz => hf z (by simp [hz])) hys
    simp only [volumeL]; omega

/-- How much a constructor may make of its arguments. -/
def Fits (rec : Loader) : Prop := ∀ c ty ts enc sig slots x, alien slots = 0 →
  rec c ty ts enc sig slots = .ok x →
  volume x ≤ 1 + volume ty + volume ts + volume enc + volume sig + 17 * volume slots

theorem volume_deserSingle {rec : Loader} {sd : SlotDef} {key : PStr} {v w : Val} (hrec : Fits rec)
    (hv : alien v = 0) (h : deserSingle rec sd key v = .ok w) : volume w ≤ 17 * volume v := by
  have hp := volume_pos v
  unfold deserSingle at h
  split at h
  · split at h
    · injection h with h; subst h; simp only [volume]; omega
    · cases h
  · split at h
    · rename_i a b s hi
      have h1 := alien_iter hv hi
      split at h
      · rename_i ty ts enc hj
        split at h
        · rename_i m hm
          injection h with h; subst h
          have h3 := hrec _ _ _ _ _ _ _ (h1 _ (by simp)) hm
          have h4 := (volume_iter (h1 a (by simp)) hj).2.1
          rcases (volume_iter hv hi).1 with h5 | ⟨t, rfl⟩
          · simp only [volumeL] at h4 h5
            omega
          · simp only [Val.iter, Option.some.injEq] at hi
            cases t with
            | nil => cases hi
            | cons c cs =>
              simp only [List.map_cons, List.cons.injEq] at hi
              rw [← hi.1] at hj
              cases hj
        · cases h
        · cases h
      · cases h
    · cases h

theorem volume_deserMessage {rec : Loader} {sd : SlotDef} {key : PStr} {v w : Val} (hrec : Fits rec)
    (hv : alien v = 0) (h : deserMessage rec sd key v = .ok w) : volume w ≤ 17 * volume v := by
  unfold deserMessage at h
  split at h
  · rename_i il value hi
    have h1 := alien_iter hv hi
    have h2 := (volume_iter hv hi).2.2 value (by simp)
    split at h
    · cases h
    split at h
    · split at h
      · rename_i l _ _
        split at h
        · cases h
        rename_i r hr
        injection h with h
        subst h
        have hl : ∀ x ∈ l, alien x = 0 :=
          alienL_zero.mp (by simpa [alien] using h1 (.list l) (by simp))
        have := volumeL_mapRes (fun x hx y e => volume_deserSingle hrec (hl x hx) e) hr
        simp only [volume] at h2 ⊢
        omega
      · cases h
    · have := volume_deserSingle hrec (h1 _ (by simp)) h
      omega
  · cases h

theorem volume_deserFileInfo {E : Env} {v w : Val} (hv : alien v = 0)
    (h : deserFileInfo E v = .ok w) : volume w ≤ 17 * volume v := by
  unfold deserFileInfo at h
  split at h
  · rename_i d
    dsimp only at h
    split at h
    · rename_i m hm
      have hm1 := volume_enum hm
      obtain ⟨s, _, hs⟩ := enum_lookup_ok hm
      split at hm
      · rename_i x hx
        have h1 := volV_replace (v := m) hx
        have h2 := volume_pos x
        unfold mkFDict at h
        simp only [fdArg, Val.asDict] at h
        have h3 := volume_fdBuild (by
          intro k x y hy
          exact volume_noConv k x y hy) (by
          intro k x y hm hy
          unfold fdConv noConv at hy; injection hy with hy; subst hy
          rw [volume_items hm]; exact Nat.le_refl 1) h
        have h4 := volV_le (dictSet (.str p!"category") m d)
        simp only [volume]
        omega
      · cases hm
    · exact volume_mkFDict hv h
  · simp [alien] at hv
  · cases h

theorem volume_deserSlot {E : Env} {rec : Loader} {c : Cls} {key : PStr} {v w : Val}
    (hrec : Fits rec) (hv : alien v = 0) (h : deserSlot E rec c key v = .ok w) :
    volume w ≤ 17 * volume v := by
  have hp := volume_pos v
  unfold deserSlot at h
  split at h
  · split at h
    · split at h
      · cases h
      · exact volume_mkCont h
    · injection h with h; subst h; omega
  split at h
  · split at h
    · rename_i l
      split at h
      · cases h
      rename_i r hr
      injection h with h
      subst h
      have hl : ∀ x ∈ l, alien x = 0 := alienL_zero.mp (by simpa [alien] using hv)
      have := volumeL_mapRes (fun x hx y e => volume_mkFDict (hl x hx) e) hr
      simp only [volume]; omega
    · cases h
  split at h
  · split at h
    · rename_i l
      split at h
      · cases h
      rename_i r hr
      injection h with h
      subst h
      have := volumeL_mapRes (fun x hx y e => by
        split at e
        · cases e
        · exact volume_mkCont e) hr
      simp only [volume]; omega
    · cases h
  split at h
  · exact volume_mkCont h
  split at h
  · split at h
    · cases h
    · injection h with h; subst h; omega
  split at h
  · split at h
    · cases h
    · injection h with h; subst h; omega
  split at h
  · exact volume_mkFDict hv h
  split at h
  · split at h
    · cases h
    · injection h with h; subst h; omega
  split at h
  · exact volume_mkCont h
  split at h
  · split at h
    · cases h
    · rename_i l hl
      split at h
      · cases h
      rename_i r hr
      injection h with h
      subst h
      have h1 := volumeL_mapRes
        (fun x hx y e => volume_deserFileInfo (alien_iter hv hl x hx) e) hr
      rcases (volume_iter hv hl).1 with h2 | ⟨t, rfl⟩
      · simp only [volume]; omega
      · simp only [Val.iter, Option.some.injEq] at hl
        subst hl
        cases t with
        | nil => simp only [List.map_nil, volumeL] at h1; simp only [volume]; omega
        | cons c cs =>
          unfold mapRes at hr
          simp only [List.map_cons, deserFileInfo] at hr
          cases hr
  · unfold deserBase at h
    split at h
    · split at h
      · rename_i hm; injection h with h; subst h; rw [volume_enum hm]; omega
      · cases h
    · split at h
      · exact volume_deserMessage hrec hv h
      · injection h with h; subst h; omega

theorem volume_loadSlots {E : Env} {rec : Loader} {c : Cls} {d : List (Val × Val)}
    (hrec : Fits rec) (hd : alienD d = 0) : ∀ {names : List PStr} {as : Attrs},
    loadSlots E rec c d names = .ok as → volumeF as ≤ names.length + 17 * picked d names
  | [], as, h => by
    unfold loadSlots at h; injection h with h; subst h; simp [volumeF]
  | n :: rest, as, h => by
    unfold loadSlots at h
    split at h
    · cases h
    rename_i v hv
    split at h
    · cases h
    rename_i r hr
    injection h with h
    subst h
    have ih := volume_loadSlots hrec hd hr
    have : volume v ≤ 1 + 17 * (match dictGet (.str n) d with
        | some v => volume v
        | none => 0) := by
      split at hv
      · injection hv with hv; subst hv; simp only [volume]; omega
      · split at hv
        · injection hv with hv; subst hv; simp only [volume]; omega
        · rename_i w hw
          rw [hw]
          have := volume_deserSlot hrec (alienD_get hd hw) hv
          dsimp only; omega
    simp only [volumeF, List.length_cons, picked]
    omega

theorem volumeF_modify {n : PStr} {f : Val → Val} (hf : ∀ y, volume (f y) ≤ volume y) :
    ∀ (as : Attrs), volumeF (modifyName n f as) ≤ volumeF as
  | [] => Nat.le_refl _
  | (k', v) :: rest => by
    unfold modifyName
    split
    · have := hf v; simp only [volumeF]; omega
    · have := volumeF_modify (n := n) hf rest
      simp only [volumeF]; omega

theorem volume_postInit (c : Cls) (as : Attrs) : volumeF (postInit c as) ≤ volumeF as := by
  have e1 : ∀ y, volume (orEmpty y) ≤ volume y := by
    intro y; have := volume_pos y; unfold orEmpty; split
    · omega
    · simp only [volume, volumeL]; omega
  have e2 : ∀ d, volume d = 1 → ∀ y, volume (orDefault d y) ≤ volume y := by
    intro d hd y; have := volume_pos y; unfold orDefault; split
    · omega
    · omega
  have e3 : ∀ y : Val, volume (.bool y.truthy) ≤ volume y := fun y => volume_pos y
  unfold postInit
  split
  · exact volumeF_modify e1 _
  · exact volumeF_modify e1 _
  · exact volumeF_modify e1 _
  · exact volumeF_modify e1 _
  · exact Nat.le_trans (volumeF_modify (e2 _ rfl) _) (volumeF_modify e3 _)
  · exact volumeF_modify e3 _
  · exact volumeF_modify (e2 _ rfl) _
  · exact Nat.le_refl _

theorem volume_loadAttrs {E : Env} {rec : Loader} {c : Cls} {slots : Val} {as : Attrs}
    (hrec : Fits rec) (hs : alien slots = 0) (h : loadAttrs E rec c slots = .ok as) :
    volumeF as ≤ 17 * volume slots := by
  unfold loadAttrs at h
  split at h
  · cases h
  rename_i as' ha
  injection h with h
  subst h
  have h1 := volume_loadSlots hrec (alien_dictOf hs) (wrapLoad_ok ha)
  have h2 := picked_le (payload_nodup c) (dictOf slots)
  have h3 := volV_dictOf hs
  have h4 := volume_postInit c as'
  have h5 : c.payload.length ≤ 14 := by cases c <;> decide
  omega

theorem volume_loadMsg (E : Env) : ∀ (n : Nat), Fits (loadMsg E n)
  | 0 => by intro c ty ts enc sig slots x _ h; unfold loadMsg at h; cases h
  | n + 1 => by
    intro c ty ts enc sig slots x hs h
    obtain ⟨n', as, e, ha, rfl⟩ := loadMsg_isMsg h
    injection e with e
    subst e
    have := volume_loadAttrs (volume_loadMsg E n) hs ha
    simp only [volume]
    omega

end Verif
