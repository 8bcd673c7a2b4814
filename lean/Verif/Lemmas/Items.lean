import Verif.Lemmas.Cbor
/-!
# Encodings are prefix free

Whatever value was encoded: the encoding is a sequence of heads and strings from which its end
can be read.
-/

set_option linter.unusedSimpArgs false

namespace Verif

/-- Bytes of string following a head. -/
private def strLen (m n : Nat) : Nat := if m = 2 ∨ m = 3 then n else 0

/-- Items following a head. -/
private def children (m n : Nat) : Nat :=
  if m = 4 then n else if m = 5 then 2 * n else if m = 6 then 1 else 0

/-- Bytes following the first byte of a simple value. -/
private def simpleLen (x : UInt8) : Nat := if x = 0xfb then 8 else 0

/-- A concatenation of `k` data items. -/
private inductive Items : Nat → Bytes → Prop
  | done : Items 0 []
  | head {k : Nat} {r : Bytes} (m n : Nat) (s : Bytes) (hm : m < 7) (hn : n < 2 ^ 64)
    (hs : s.length = strLen m n) (h : Items (children m n + k) r) :
    Items (k + 1) (cborHead m n ++ (s ++ r))
  | simple {k : Nat} {r : Bytes} (x : UInt8) (s : Bytes) (hx : x.toNat / 32 = 7)
    (hs : s.length = simpleLen x) (h : Items k r) : Items (k + 1) (x :: (s ++ r))

private theorem head_inj {m n m' n' : Nat} {x y : Bytes} (hm : m < 7) (hm' : m' < 7)
    (hn : n < 2 ^ 64) (hn' : n' < 2 ^ 64) (e : cborHead m n ++ x = cborHead m' n' ++ y) :
    m = m' ∧ n = n' ∧ x = y := by
  obtain ⟨b, r, h1, h2, _, h3⟩ := cborHead_read m n (by omega) hn x
  obtain ⟨b', r', h1', h2', _, h3'⟩ := cborHead_read m' n' (by omega) hn' y
  rw [h1, h1'] at e
  injection e with e1 e2
  subst e1 e2
  rw [h3] at h3'
  injection h3' with h3'
  injection h3' with e3 e4
  exact ⟨h2.symm.trans h2', e3, e4⟩

private theorem head_major {m n : Nat} {x y : Bytes} {b : UInt8} (hm : m < 7) (hn : n < 2 ^ 64)
    (e : cborHead m n ++ x = b :: y) : b.toNat / 32 = m := by
  obtain ⟨b', r, h1, h2, _, _⟩ := cborHead_read m n (by omega) hn x
  rw [h1] at e
  injection e with e1 _
  rw [← e1, h2]

private theorem items_prefix {k : Nat} {a : Bytes} (ha : Items k a) :
    ∀ {b r s : Bytes}, Items k b → a ++ r = b ++ s → a = b := by
  induction ha with
  | done => intro b r s hb _; cases hb; rfl
  | @head k ra m n sa hm hn hs _ ih =>
    intro b r s hb e
    cases hb with
    | @head _ rb m' n' sb hm' hn' hs' h' =>
      simp only [List.append_assoc] at e
      obtain ⟨rfl, rfl, e'⟩ := head_inj hm hm' hn hn' e
      clear e
      have h1 : sa = sb := by
        have := congrArg (List.take (strLen m n)) e'
        rwa [List.take_left' hs, List.take_left' hs'] at this
      subst h1
      rw [ih h' (List.append_cancel_left e')]
    | @simple _ rb x sb hx =>
      simp only [List.append_assoc, List.cons_append] at e
      have := head_major hm hn e
      omega
  | @simple k ra x sa hx hs _ ih =>
    intro b r s hb e
    cases hb with
    | @head _ rb m' n' sb hm' hn' hs' h' =>
      simp only [List.append_assoc, List.cons_append] at e
      have := head_major hm' hn' e.symm
      omega
    | @simple _ rb x' sb hx' hs' h' =>
      simp only [List.append_assoc, List.cons_append] at e
      injection e with e1 e2
      subst e1
      have h1 : sa = sb := by
        have := congrArg (List.take (simpleLen x)) e2
        rwa [List.take_left' hs, List.take_left' hs'] at this
      subst h1
      rw [ih h' (List.append_cancel_left e2)]

private theorem items_str {m k : Nat} {s b r : Bytes} (hm : m = 2 ∨ m = 3)
    (e : cborStr m s = .ok b) (h : Items k r) : Items (k + 1) (b ++ r) := by
  obtain ⟨hl, rfl⟩ := cborStr_ok e
  rw [List.append_assoc]
  refine Items.head m s.length s (by omega) hl (by simp [strLen, hm]) ?_
  rcases hm with rfl | rfl <;> simpa [children] using h

private theorem items_num {m n k : Nat} {r : Bytes} (hm : m < 2) (hn : n < 2 ^ 64) (h : Items k r) :
    Items (k + 1) (cborHead m n ++ r) := by
  have := Items.head (k := k) (r := r) m n [] (by omega) hn
    (by simp [strLen]; omega) (by
      have : children m n = 0 := by unfold children; repeat rw [if_neg (by omega)]
      rw [this, Nat.zero_add]; exact h)
  simpa using this

private theorem items_int {i : Int} {k : Nat} {b r : Bytes} (e : cborInt i = .ok b) (h : Items k r) :
    Items (k + 1) (b ++ r) := by
  have tagged : ∀ {t : Nat} {s x : Bytes}, t < 2 ^ 64 → cborStr 2 s = .ok x →
      Items (k + 1) (cborHead 6 t ++ x ++ r) := by
    intro t s x ht hx
    have h1 := items_str (Or.inl rfl) hx h
    have := Items.head (k := k) (r := x ++ r) 6 t [] (by omega) ht (by simp [strLen])
      (by rw [show children 6 t + k = k + 1 from by simp [children]; omega]; exact h1)
    simpa using this
  unfold cborInt at e
  split at e
  all_goals
    split at e
    · injection e with e
      subst e
      exact items_num (by omega) (by omega) h
    · rename_i n _
      cases hx : cborStr 2 (bigBytes n) with
      | error x => rw [hx] at e; cases e
      | ok x =>
        rw [hx] at e
        simp only [Except.map, Except.ok.injEq] at e
        subst e
        exact tagged (by decide) hx

private theorem items_head {m n k : Nat} {b r : Bytes} {c : Res Bytes} (hm : 3 < m) (hm' : m < 7)
    (e : withHead (cborHeadR m n) c = .ok b)
    (h : ∀ q, c = .ok q → Items (children m n + k) (q ++ r)) : Items (k + 1) (b ++ r) := by
  obtain ⟨p, q, hp, hq, rfl⟩ := withHead_ok e
  obtain ⟨hn, rfl⟩ := cborHeadR_ok hp
  have := Items.head (k := k) (r := q ++ r) m n [] hm' hn
    (by unfold strLen; rw [if_neg (by omega)]; rfl) (h q hq)
  simpa using this

mutual
private theorem items_enc (v : Val) {k : Nat} {b r : Bytes} (e : cborEnc v = .ok b)
    (h : Items k r) : Items (k + 1) (b ++ r) := by
  match v with
  | .none =>
    simp only [cborEnc, Except.ok.injEq] at e; subst e
    exact Items.simple 0xf6 [] (by decide) rfl h
  | .bool x =>
    simp only [cborEnc, Except.ok.injEq] at e; subst e
    cases x
    · exact Items.simple 0xf4 [] (by decide) rfl h
    · exact Items.simple 0xf5 [] (by decide) rfl h
  | .int i => simp only [cborEnc] at e; exact items_int e h
  | .float x =>
    simp only [cborEnc, Except.ok.injEq] at e; subst e
    exact Items.simple 0xfb (toBE 8 x.toNat) (by decide) (by simp [simpleLen]) h
  | .str s => simp only [cborEnc] at e; exact items_str (Or.inr rfl) e h
  | .bytes s => simp only [cborEnc] at e; exact items_str (Or.inl rfl) e h
  | .list l =>
    simp only [cborEnc] at e
    exact items_head (by decide) (by decide) e fun q hq => by
      simpa [children] using items_encL l hq h
  | .tuple l =>
    simp only [cborEnc] at e
    exact items_head (by decide) (by decide) e fun q hq => by
      simpa [children] using items_encL l hq h
  | .dict d =>
    simp only [cborEnc] at e
    exact items_head (by decide) (by decide) e fun q hq => by
      simpa [children] using items_encD d hq h
  | .tag n v =>
    simp only [cborEnc] at e
    split at e
    · cases e
    exact items_head (by decide) (by decide) e fun q hq => by
      have := items_enc v hq h
      rwa [Nat.add_comm] at this
  | .enum c s =>
    simp only [cborEnc] at e
    split at e
    · exact items_str (Or.inr rfl) e h
    · cases e
  | .fdict _ f =>
    simp only [cborEnc] at e
    exact items_head (by decide) (by decide) e fun q hq => by
      simpa [children] using items_encF f hq h
  | .cont _ _ => simp only [cborEnc] at e; cases e
  | .mask _ => simp only [cborEnc] at e; cases e
  | .msg _ _ _ _ _ _ => simp only [cborEnc] at e; cases e
termination_by structural v
private theorem items_encL (l : List Val) {k : Nat} {b r : Bytes} (e : cborEncL l = .ok b)
    (h : Items k r) : Items (l.length + k) (b ++ r) := by
  match l with
  | [] => simp only [cborEncL, Except.ok.injEq] at e; subst e; simpa using h
  | x :: xs =>
    simp only [cborEncL] at e
    obtain ⟨p, q, hp, hq, rfl⟩ := withHead_ok e
    have := items_enc x hp (items_encL xs hq h)
    rw [List.length_cons, List.append_assoc, show xs.length + 1 + k = xs.length + k + 1 by omega]
    exact this
termination_by structural l
private theorem items_encD (d : List (Val × Val)) {k : Nat} {b r : Bytes} (e : cborEncD d = .ok b)
    (h : Items k r) : Items (2 * d.length + k) (b ++ r) := by
  match d with
  | [] => simp only [cborEncD, Except.ok.injEq] at e; subst e; simpa using h
  | (y, x) :: xs =>
    simp only [cborEncD] at e
    obtain ⟨p, q, hp, hq, rfl⟩ := withHead_ok e
    obtain ⟨p', q', hp', hq', rfl⟩ := withHead_ok hq
    have := items_enc y hp (items_enc x hp' (items_encD xs hq' h))
    rw [List.length_cons, List.append_assoc, List.append_assoc,
      show 2 * (xs.length + 1) + k = 2 * xs.length + k + 1 + 1 by omega]
    exact this
termination_by structural d
private theorem items_encF (f : List (PStr × Val)) {k : Nat} {b r : Bytes} (e : cborEncF f = .ok b)
    (h : Items k r) : Items (2 * f.length + k) (b ++ r) := by
  match f with
  | [] => simp only [cborEncF, Except.ok.injEq] at e; subst e; simpa using h
  | (y, x) :: xs =>
    simp only [cborEncF] at e
    obtain ⟨p, q, hp, hq, rfl⟩ := withHead_ok e
    obtain ⟨p', q', hp', hq', rfl⟩ := withHead_ok hq
    have := items_str (Or.inr rfl) hp (items_enc x hp' (items_encF xs hq' h))
    rw [List.length_cons, List.append_assoc, List.append_assoc,
      show 2 * (xs.length + 1) + k = 2 * xs.length + k + 1 + 1 by omega]
    exact this
termination_by structural f
end

theorem dumps_enc {v : Val} {b : Bytes} (e : dumps v = .ok b) : cborEnc v = .ok b := by
  unfold dumps at e
  split at e
  · rename_i c hc; rw [hc]; exact e
  · cases e

/-- No encoding is the proper beginning of another one, whatever the values. -/
theorem dumps_prefix_free {v w : Val} {a b r s : Bytes} (hv : dumps v = .ok a)
    (hw : dumps w = .ok b) (e : a ++ r = b ++ s) : a = b ∧ r = s := by
  have h1 := items_enc v (dumps_enc hv) Items.done
  have h2 := items_enc w (dumps_enc hw) Items.done
  rw [List.append_nil] at h1 h2
  have h := items_prefix h1 h2 e
  subst h
  exact ⟨rfl, List.append_cancel_left e⟩

/-- The encoding of a list never starts like that of a dictionary. -/
theorem dumps_list_ne_dict {l : List Val} {d : List (Val × Val)} {a b r : Bytes}
    (hl : dumps (.list l) = .ok a) (hd : dumps (.dict d) = .ok b) : a ++ r ≠ b := by
  have h1 := dumps_enc hl
  have h2 := dumps_enc hd
  simp only [cborEnc] at h1 h2
  obtain ⟨p, q, hp, _, rfl⟩ := withHead_ok h1
  obtain ⟨p', q', hp', _, rfl⟩ := withHead_ok h2
  obtain ⟨hn, rfl⟩ := cborHeadR_ok hp
  obtain ⟨hn', rfl⟩ := cborHeadR_ok hp'
  intro e
  rw [List.append_assoc] at e
  exact absurd (head_inj (by decide) (by decide) hn hn' e).1 (by decide)

end Verif
