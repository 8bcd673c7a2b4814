import Verif.Model.Cbor
/-! # The decoder's recursion bound is never reached -/

set_option linter.unusedSimpArgs false

namespace Verif

/-- The result is not the recursion error, and the unread rest satisfies a bound. -/
private def Good {α : Type} (x : Res (α × Bytes)) (bound : Nat) : Prop :=
  x ≠ .error .recursionError ∧ ∀ v r, x = .ok (v, r) → r.length ≤ bound

private theorem good_err {α : Type} {e : Exc} {n : Nat} (h : e ≠ .recursionError) :
    Good (α := α) (.error e) n := by
  refine ⟨?_, ?_⟩
  · intro h'; injection h' with h'; exact h h'
  · intro v r h'; cases h'

private theorem good_ok {α : Type} {v : α} {r : Bytes} {n : Nat} (h : r.length ≤ n) :
    Good (.ok (v, r)) n := by
  refine ⟨by simp, ?_⟩
  intro v' r' h'
  injection h' with h'
  injection h' with h1 h2
  rw [← h2]; exact h

private theorem good_take {n m : Nat} {b : Bytes} (h : b.length ≤ m) : Good (takeBytes n b) m := by
  unfold takeBytes
  split
  · exact good_err (by simp)
  · exact good_ok (by simp; omega)

private theorem good_map {α β : Type} {x : Res (α × Bytes)} {n : Nat} (h : Good x n)
    (f : α × Bytes → β × Bytes) (hf : ∀ v r, (f (v, r)).2 = r) : Good (x.map f) n := by
  cases x with
  | error e =>
    refine ⟨?_, ?_⟩
    · intro h'
      simp only [Except.map] at h'
      injection h' with h'
      exact h.1 (by rw [h'])
    · intro v r h'; cases h'
  | ok p =>
    obtain ⟨v, r⟩ := p
    simp only [Except.map]
    have := h.2 v r rfl
    have hr := hf v r
    cases hv : f (v, r) with
    | mk a b =>
      rw [hv] at hr
      simp only at hr
      subst hr
      exact good_ok this

private theorem good_of_res {α β : Type} {x : Res α} {r : Bytes} {n : Nat} (g : α → β)
    (hx : x ≠ .error .recursionError) (hr : r.length ≤ n) :
    Good (x.map fun a => (g a, r)) n := by
  cases x with
  | error e =>
    refine ⟨?_, fun v r h' => by cases h'⟩
    intro h'
    simp only [Except.map] at h'
    injection h' with h'
    exact hx (by rw [h'])
  | ok a => exact good_ok hr

private theorem good_mono {α : Type} {x : Res (α × Bytes)} {n m : Nat} (h : Good x n) (hnm : n ≤ m) :
    Good x m := ⟨h.1, fun v r e => Nat.le_trans (h.2 v r e) hnm⟩

private theorem good_prop {α β : Type} {x : Res (α × Bytes)} {n m : Nat} {e : Exc} (h : Good x n)
    (hx : x = .error e) : Good (α := β) (.error e) m :=
  good_err fun he => h.1 (by rw [hx, he])

private theorem joinBytes_ne : ∀ l, joinBytes l ≠ .error .recursionError
  | [] => by simp [joinBytes]
  | x :: xs => by
    have ih := joinBytes_ne xs
    cases x <;> simp only [joinBytes] <;> try simp
    cases h : joinBytes xs with
    | error e => rw [h] at ih; simpa [Except.map] using ih
    | ok b => simp [Except.map]

private theorem joinText_ne : ∀ l, joinText l ≠ .error .recursionError
  | [] => by simp [joinText]
  | x :: xs => by
    have ih := joinText_ne xs
    cases x <;> simp only [joinText] <;> try simp
    cases h : joinText xs with
    | error e => rw [h] at ih; simpa [Except.map] using ih
    | ok b => simp [Except.map]

private theorem cborText_ne (b : Bytes) : cborText b ≠ .error .recursionError := by
  unfold cborText; split <;> simp

private theorem tagify_ne (n : Nat) (v : Val) : tagify n v ≠ .error .recursionError := by
  unfold tagify
  split
  · split <;> simp
  · split
    · split <;> simp
    · simp

private theorem good_arg {i m : Nat} {b : Bytes} (h : b.length ≤ m) : Good (cborArg i b) m := by
  unfold cborArg
  split
  · exact good_ok h
  · dsimp only
    by_cases h27 : i ≤ 27
    · simp only [if_pos h27]
      exact good_map (good_take h) _ (fun _ _ => rfl)
    · simp only [if_neg h27]
      exact good_err (by simp)

private theorem good_simple {i m : Nat} {b : Bytes} (h : b.length ≤ m) : Good (cborSimple i b) m := by
  unfold cborSimple
  repeat' split
  all_goals first
    | exact good_ok h
    | exact good_err (by simp)
    | exact good_map (good_take h) _ (fun _ _ => rfl)

private theorem decoder_good : ∀ f : Nat,
    (∀ b : Bytes, 2 * b.length + 1 ≤ f → Good (cborDec f b) (b.length - 1) ) ∧
    (∀ n (b : Bytes), 2 * b.length + 2 ≤ f → Good (cborDecN f n b) b.length) ∧
    (∀ n acc (b : Bytes), 2 * b.length + 2 ≤ f → Good (cborDecMapN f n acc b) b.length) ∧
    (∀ b : Bytes, 2 * b.length + 2 ≤ f → Good (cborDecUntil f b) b.length) ∧
    (∀ acc (b : Bytes), 2 * b.length + 2 ≤ f → Good (cborDecMapUntil f acc b) b.length) := by
  intro f
  induction f with
  | zero =>
    refine ⟨?_, ?_, ?_, ?_, ?_⟩ <;> intros <;> omega
  | succ f ih =>
    obtain ⟨i1, i2, i3, i4, i5⟩ := ih
    -- consumption in terms of a non-empty input
    have dec : ∀ b : Bytes, 2 * b.length + 1 ≤ f → Good (cborDec f b) (b.length - 1) := i1
    have declt : ∀ (b : Bytes) v r, 2 * b.length + 1 ≤ f → cborDec f b = .ok (v, r) →
        r.length + 1 ≤ b.length := by
      intro b v r hb e
      have := (dec b hb).2 v r e
      cases b with
      | nil =>
        cases f with
        | zero => simp [cborDec] at e
        | succ f => simp [cborDec] at e
      | cons x xs => simp only [List.length_cons] at *; omega
    refine ⟨?_, ?_, ?_, ?_, ?_⟩
    · intro b hb
      unfold cborDec
      dsimp only
      cases b with
      | nil => exact good_err (by simp)
      | cons b0 rest =>
        simp only [List.length_cons] at hb
        simp only [List.length_cons, Nat.add_sub_cancel]
        split
        · exact good_simple (Nat.le_refl _)
        split
        · have hu := i4 rest (by omega)
          split
          · split
            · rename_i hx; exact good_prop hu hx
            · rename_i hx; exact good_of_res _ (joinBytes_ne _) (hu.2 _ _ hx)
          split
          · split
            · rename_i hx; exact good_prop hu hx
            · rename_i hx; exact good_of_res _ (joinText_ne _) (hu.2 _ _ hx)
          split
          · split
            · rename_i hx; exact good_prop hu hx
            · rename_i hx; exact good_ok (hu.2 _ _ hx)
          split
          · have hm := i5 [] rest (by omega)
            split
            · rename_i hx; exact good_prop hm hx
            · rename_i hx; exact good_ok (hm.2 _ _ hx)
          · exact good_err (by simp)
        have ha := good_arg (i := b0.toNat % 32) (Nat.le_refl rest.length)
        split
        · rename_i hx; exact good_prop ha hx
        rename_i n r hx
        have hr := ha.2 _ _ hx
        split
        · exact good_ok hr
        split
        · exact good_ok hr
        split
        · have ht := good_take (n := n) hr
          split
          · rename_i hx; exact good_prop ht hx
          · rename_i hx; exact good_ok (ht.2 _ _ hx)
        split
        · have ht := good_take (n := n) hr
          split
          · rename_i hx; exact good_prop ht hx
          · rename_i hx; exact good_of_res _ (cborText_ne _) (ht.2 _ _ hx)
        split
        · have ht := i2 n r (by omega)
          split
          · rename_i hx; exact good_prop ht hx
          · rename_i hx; have := ht.2 _ _ hx; exact good_ok (by omega)
        split
        · have ht := i3 n [] r (by omega)
          split
          · rename_i hx; exact good_prop ht hx
          · rename_i hx; have := ht.2 _ _ hx; exact good_ok (by omega)
        · have ht := i1 r (by omega)
          split
          · rename_i hx; exact good_prop ht hx
          · rename_i hx; have := ht.2 _ _ hx; exact good_of_res _ (tagify_ne _ _) (by omega)
    · intro n b hb
      unfold cborDecN
      cases n with
      | zero => exact good_ok (Nat.le_refl _)
      | succ n =>
        simp only
        split
        · rename_i hx; exact good_prop (dec b (by omega)) hx
        · rename_i v r hx
          have hr := declt b v r (by omega) hx
          have ht := i2 n r (by omega)
          split
          · rename_i hx; exact good_prop ht hx
          · rename_i hx; have := ht.2 _ _ hx; exact good_ok (by omega)
    · intro n acc b hb
      unfold cborDecMapN
      cases n with
      | zero => exact good_ok (Nat.le_refl _)
      | succ n =>
        simp only
        split
        · rename_i hx; exact good_prop (dec b (by omega)) hx
        · rename_i k r hx
          have hr := declt b k r (by omega) hx
          split
          · rename_i hx; exact good_prop (dec r (by omega)) hx
          · rename_i v r2 hx
            have hr2 := declt r v r2 (by omega) hx
            split
            · exact good_mono (i3 n _ r2 (by omega)) (by omega)
            · exact good_err (by simp)
    · intro b hb
      unfold cborDecUntil
      cases b with
      | nil => exact good_err (by simp)
      | cons b0 rest =>
        simp only
        split
        · exact good_ok (by simp)
        · split
          · rename_i hx; exact good_prop (dec _ (by omega)) hx
          · rename_i v r hx
            have hr := declt _ v r (by omega) hx
            have ht := i4 r (by omega)
            split
            · rename_i hx; exact good_prop ht hx
            · rename_i hx; have := ht.2 _ _ hx; exact good_ok (by omega)
    · intro acc b hb
      unfold cborDecMapUntil
      cases b with
      | nil => exact good_err (by simp)
      | cons b0 rest =>
        simp only
        split
        · exact good_ok (by simp)
        · split
          · rename_i hx; exact good_prop (dec _ (by omega)) hx
          · rename_i k r hx
            have hr := declt _ k r (by omega) hx
            split
            · rename_i hx; exact good_prop (dec r (by omega)) hx
            · rename_i v r2 hx
              have hr2 := declt r v r2 (by omega) hx
              split
              · exact good_mono (i5 _ r2 (by omega)) (by omega)
              · exact good_err (by simp)

/-- The decoder never runs out of fuel on any input. -/
theorem cborDec_fuel (b : Bytes) : cborDec (2 * b.length + 2) b ≠ .error .recursionError :=
  ((decoder_good _).1 b (by omega)).1

end Verif
