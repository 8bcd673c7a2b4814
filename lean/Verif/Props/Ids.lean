import Verif.Model.Ids
import Verif.Props.Hex
/-!
# C63: generated ids are well-formed and distinct
-/

set_option linter.unusedSimpArgs false

namespace Verif.Props

open Verif Spec

private theorem uuid1_inj {ts cs n ts' cs' n' : Nat} (hn : n < 2 ^ 48) (hn' : n' < 2 ^ 48) :
    uuid1 ts cs n = uuid1 ts' cs' n' ↔
      ts % 2 ^ 60 = ts' % 2 ^ 60 ∧ cs % 2 ^ 14 = cs' % 2 ^ 14 ∧ n = n' := by
  unfold uuid1
  have e : ts % 2 ^ 60 = ts' % 2 ^ 60 ↔ ts % 2 ^ 32 = ts' % 2 ^ 32 ∧
      ts / 2 ^ 32 % 2 ^ 16 = ts' / 2 ^ 32 % 2 ^ 16 ∧
      ts / 2 ^ 48 % 2 ^ 12 = ts' / 2 ^ 48 % 2 ^ 12 := by omega
  rw [e]
  have h1 : ts % 2 ^ 32 < 2 ^ 32 := Nat.mod_lt _ (by decide)
  have h1' : ts' % 2 ^ 32 < 2 ^ 32 := Nat.mod_lt _ (by decide)
  have h2 : ts / 2 ^ 32 % 2 ^ 16 < 2 ^ 16 := Nat.mod_lt _ (by decide)
  have h2' : ts' / 2 ^ 32 % 2 ^ 16 < 2 ^ 16 := Nat.mod_lt _ (by decide)
  have h3 : ts / 2 ^ 48 % 2 ^ 12 < 2 ^ 12 := Nat.mod_lt _ (by decide)
  have h3' : ts' / 2 ^ 48 % 2 ^ 12 < 2 ^ 12 := Nat.mod_lt _ (by decide)
  have h4 : cs % 2 ^ 14 < 2 ^ 14 := Nat.mod_lt _ (by decide)
  have h4' : cs' % 2 ^ 14 < 2 ^ 14 := Nat.mod_lt _ (by decide)
  clear e
  generalize ts % 2 ^ 32 = a at h1 ⊢
  generalize ts' % 2 ^ 32 = a' at h1' ⊢
  generalize ts / 2 ^ 32 % 2 ^ 16 = b at h2 ⊢
  generalize ts' / 2 ^ 32 % 2 ^ 16 = b' at h2' ⊢
  generalize ts / 2 ^ 48 % 2 ^ 12 = c at h3 ⊢
  generalize ts' / 2 ^ 48 % 2 ^ 12 = c' at h3' ⊢
  generalize cs % 2 ^ 14 = d at h4 ⊢
  generalize cs' % 2 ^ 14 = d' at h4' ⊢
  omega

private theorem uuidText_inj {u v : Nat} (hu : u < 2 ^ 128) (hv : v < 2 ^ 128)
    (h : uuidText u = uuidText v) : u = v := by
  have h1 := parseUuid_text u hu
  have h2 := parseUuid_text v hv
  rw [h, h2] at h1
  exact (Option.some.inj h1).symm

/-- C63: two generated ids are the same exactly if the time stamps agree in their 60 bits, the
clock sequences in their 14 bits, and the seeds give the same 48-bit number. -/
theorem generated_ids_distinct (ts cs ts' cs' : Nat) (seed seed' : Bytes) :
    generateId ts cs seed = generateId ts' cs' seed' ↔
      ts % 2 ^ 60 = ts' % 2 ^ 60 ∧ cs % 2 ^ 14 = cs' % 2 ^ 14 ∧
        bigEndian (seed.take 6) = bigEndian (seed'.take 6) := by
  have hl := seedToNode_lt seed
  have hl' := seedToNode_lt seed'
  have hn : seedToNode seed = bigEndian (seed.take 6) := (bigEndian_eq _).symm
  have hn' : seedToNode seed' = bigEndian (seed'.take 6) := (bigEndian_eq _).symm
  rw [← hn, ← hn', ← uuid1_inj hl hl']
  unfold generateId
  constructor
  · exact uuidText_inj (uuid1_lt _ _ _ hl) (uuid1_lt _ _ _ hl')
  · intro h; rw [h]

/-- A text of the given layout: `x` stands for a lower-case hexadecimal digit, `y` for one of
`8`, `9`, `a`, `b`, any other character for itself. -/
inductive Matches : PStr → PStr → Prop
  | nil : Matches [] []
  | digit {c : Char} {l s : PStr} : c ∈ hexLower → Matches l s → Matches ('x' :: l) (c :: s)
  | variant {c : Char} {l s : PStr} : c ∈ p!"89ab" → Matches l s → Matches ('y' :: l) (c :: s)
  | same {c : Char} {l s : PStr} : c ≠ 'x' → c ≠ 'y' → Matches l s → Matches (c :: l) (c :: s)

private theorem uuidText_digits (u : Nat) : ∃ d : Nat → Char, (∀ i, d i ∈ hexLower) ∧
    d 12 = hexDigit (u / 16 ^ 19 % 16) ∧ d 16 = hexDigit (u / 16 ^ 15 % 16) ∧
    uuidText u = [d 0, d 1, d 2, d 3, d 4, d 5, d 6, d 7, '-', d 8, d 9, d 10, d 11, '-', d 12,
      d 13, d 14, d 15, '-', d 16, d 17, d 18, d 19, '-', d 20, d 21, d 22, d 23, d 24, d 25, d 26,
      d 27, d 28, d 29, d 30, d 31] := by
  refine ⟨fun i => hexDigit (u / 16 ^ (31 - i) % 16), fun i =>
    List.mem_of_getElem? (hexDigit_lower (Nat.mod_lt _ (by decide))), rfl, rfl, ?_⟩
  simp only [uuidText, hexN, List.nil_append, List.cons_append, List.take_succ_cons, List.take_zero,
    List.drop_succ_cons, List.drop_zero, List.append_nil, Nat.div_div_eq_div_mul, Nat.reduceMul, Nat.reducePow, Nat.reduceSub,
    Nat.div_one]

private theorem uuid1_marks (ts cs n : Nat) (hn : n < 2 ^ 48) :
    uuid1 ts cs n / 16 ^ 19 % 16 = 1 ∧
    uuid1 ts cs n / 16 ^ 15 % 16 = 8 + cs % 2 ^ 14 / 2 ^ 12 := by
  unfold uuid1
  have h3 : ts / 2 ^ 48 % 2 ^ 12 < 2 ^ 12 := Nat.mod_lt _ (by decide)
  have h4 : cs % 2 ^ 14 < 2 ^ 14 := Nat.mod_lt _ (by decide)
  generalize ts % 2 ^ 32 = a
  generalize ts / 2 ^ 32 % 2 ^ 16 = b
  generalize ts / 2 ^ 48 % 2 ^ 12 = c at h3 ⊢
  generalize cs % 2 ^ 14 = d at h4 ⊢
  omega

private theorem variant_digit {q : Nat} (h : q < 4) : hexDigit (8 + q) ∈ p!"89ab" := by
  have : q = 0 ∨ q = 1 ∨ q = 2 ∨ q = 3 := by omega
  rcases this with rfl | rfl | rfl | rfl <;> decide

private theorem uuid1_form (ts cs n : Nat) (hl : n < 2 ^ 48) :
    Matches p!"xxxxxxxx-xxxx-1xxx-yxxx-xxxxxxxxxxxx" (uuidText (uuid1 ts cs n)) := by
  have e12 := (uuid1_marks ts cs n hl).1
  have e16 := (uuid1_marks ts cs n hl).2
  generalize uuid1 ts cs n = u at e12 e16
  obtain ⟨d, hd, h12, h16, he⟩ := uuidText_digits u
  rw [he]
  clear he
  rw [e12] at h12
  rw [e16] at h16
  have hy : d 16 ∈ p!"89ab" := by
    rw [h16]
    exact variant_digit (by omega)
  have h12' : d 12 = '1' := h12
  clear h12 h16 e12 e16
  rw [h12']
  have D {i : Nat} {l s : PStr} (h : Matches l s) : Matches ('x' :: l) (d i :: s) := .digit (hd i) h
  have dash {l s : PStr} (h : Matches l s) : Matches ('-' :: l) ('-' :: s) :=
    .same (by decide) (by decide) h
  have one {l s : PStr} (h : Matches l s) : Matches ('1' :: l) ('1' :: s) :=
    .same (by decide) (by decide) h
  refine D (D (D (D (D (D (D (D (dash (D (D (D (D (dash (one (D (D (D (dash ?_))))))))))))))))))
  refine .variant hy ?_
  exact D (D (D (dash (D (D (D (D (D (D (D (D (D (D (D (D .nil)))))))))))))))

/-- Every generated id is the canonical text of a version 1 UUID. -/
theorem generated_id_form (ts cs : Nat) (seed : Bytes) :
    Matches p!"xxxxxxxx-xxxx-1xxx-yxxx-xxxxxxxxxxxx" (generateId ts cs seed) := by
  unfold generateId
  have hl := seedToNode_lt seed
  revert hl
  generalize seedToNode seed = n
  intro hl
  exact uuid1_form ts cs n hl

/-- The ids generated by one process are pairwise different, whatever the clock does (it may
stand still or go back), whatever the random clock sequences are, and whatever the seeds and
parents of the ids are; as long as the 60-bit time stamps are not exhausted (they last until
the year 5236). -/
theorem process_ids_distinct (calls : List (Nat × Nat × IdCall))
    (h : ∀ c ∈ calls, c.1 + calls.length < 2 ^ 60) : (idRun none calls).Nodup := by
  -- every id carries its time stamp, and time stamps increase
  have node_lt : ∀ s u, parseUuid s = some u → uuidNode u < 2 ^ 48 := fun s u _ =>
    Nat.mod_lt _ (by decide)
  have call_ok : ∀ last now cs c s last', idCall last now cs c = (.ok s, last') →
      last' = some (nextStamp last now) ∧
      ∃ n, n < 2 ^ 48 ∧ s = uuidText (uuid1 (nextStamp last now) cs n) := by
    intro last now cs c s last' hc
    unfold idCall at hc
    simp only at hc
    split at hc
    · rename_i s' hs'
      simp only [Prod.mk.injEq, Except.ok.injEq] at hc
      obtain ⟨rfl, rfl⟩ := hc
      refine ⟨rfl, ?_⟩
      cases c with
      | fromSeed seed =>
        simp only [Except.ok.injEq] at hs'
        exact ⟨_, seedToNode_lt seed, hs'.symm⟩
      | fromHex hx =>
        simp only [generateIdFromHex] at hs'
        split at hs'
        · rename_i seed _
          injection hs' with hs'
          exact ⟨_, seedToNode_lt seed, hs'.symm⟩
        · cases hs'
      | fromId id =>
        simp only [generateNewIdFromId] at hs'
        split at hs'
        · rename_i u hu
          injection hs' with hs'
          exact ⟨_, node_lt _ _ hu, hs'.symm⟩
        · cases hs'
    · simp at hc
  have call_err : ∀ last now cs c e last', idCall last now cs c = (.error e, last') →
      last' = last := by
    intro last now cs c e last' hc
    unfold idCall at hc
    simp only at hc
    split at hc
    · simp at hc
    · simp only [Prod.mk.injEq] at hc; exact hc.2.symm
  have main : ∀ (calls : List (Nat × Nat × IdCall)) (last : Option Nat),
      (∀ c ∈ calls, c.1 + calls.length < 2 ^ 60) →
      (∀ l, last = some l → l + calls.length < 2 ^ 60) →
      (idRun last calls).Nodup ∧ ∀ s ∈ idRun last calls, ∃ t cs n, n < 2 ^ 48 ∧ t < 2 ^ 60 ∧
        (∀ l, last = some l → l < t) ∧ s = uuidText (uuid1 t cs n) := by
    intro calls
    induction calls with
    | nil => intro last _ _; exact ⟨List.nodup_nil, by simp [idRun]⟩
    | cons a rest ih =>
      intro last hb hl
      obtain ⟨now, cs, c⟩ := a
      have hnow := hb (now, cs, c) (by simp)
      simp only [List.length_cons] at hnow hl hb
      have hb' : ∀ c ∈ rest, c.1 + rest.length < 2 ^ 60 := fun c hc => by
        have := hb c (List.mem_cons_of_mem _ hc); omega
      unfold idRun
      cases hc : idCall last now cs c with
      | mk r last' =>
        cases r with
        | error e =>
          simp only
          rw [call_err _ _ _ _ _ _ hc]
          exact ih last hb' (fun l hl' => by have := hl l hl'; omega)
        | ok s =>
          simp only
          obtain ⟨e, n, hn, hs⟩ := call_ok _ _ _ _ _ _ hc
          subst e
          have hts : nextStamp last now + rest.length < 2 ^ 60 := by
            unfold nextStamp
            cases last with
            | none => simp only; omega
            | some l =>
              have := hl l rfl
              simp only
              split <;> omega
          have hgt : ∀ l, last = some l → l < nextStamp last now := by
            rintro l rfl
            unfold nextStamp
            simp only
            split <;> omega
          obtain ⟨i1, i2⟩ := ih (some (nextStamp last now)) hb'
            (fun l hl' => by injection hl' with hl'; omega)
          refine ⟨List.nodup_cons.mpr ⟨fun hm => ?_, i1⟩, ?_⟩
          · obtain ⟨t, cs', n', hn', ht, hlt, hs'⟩ := i2 s hm
            have hlt := hlt _ rfl
            rw [hs] at hs'
            have := uuidText_inj (uuid1_lt _ _ _ hn) (uuid1_lt _ _ _ hn') hs'
            have := ((uuid1_inj hn hn').mp this).1
            omega
          · intro x hx
            rcases List.mem_cons.mp hx with rfl | hx
            · exact ⟨_, cs, n, hn, by omega, hgt, hs⟩
            · obtain ⟨t, cs', n', hn', ht, hlt, hs'⟩ := i2 x hx
              exact ⟨t, cs', n', hn', ht, fun l hl' => Nat.lt_trans (hgt l hl') (hlt _ rfl), hs'⟩
  exact (main calls none h (by simp)).1

/-- Non-vacuity: three calls at the same clock reading with the same clock sequence; the second
derives an id from another one, the third fails. -/
example : idRun none
    [(0x1ec12345678abcd, 5, .fromSeed [1, 2, 3, 4, 5, 6, 7]),
     (0x1ec12345678abcd, 5, .fromId p!"00000000-0000-1000-8000-010203040506"),
     (0x1ec12345678abcd, 5, .fromId p!"task"),
     (0x1ec12345678abcd, 5, .fromHex (.str p!"010203040506"))] =
    [p!"5678abcd-1234-11ec-8005-010203040506", p!"5678abce-1234-11ec-8005-010203040506",
     p!"5678abcf-1234-11ec-8005-010203040506"] := by
  decide +kernel

end Verif.Props
