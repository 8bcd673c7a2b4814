import Verif.Lemmas.Writable
import Verif.Lemmas.ArrivedItems
import Verif.Lemmas.Address
import Verif.Lemmas.Schema
import Verif.Lemmas.Made
import Verif.Spec.DrawRanges
/-!
# Parts of messages as factories make them: they are made, and small enough to be written
-/

set_option linter.unusedSimpArgs false

namespace Verif

open Spec

theorem small_writable {i : Int} (h : i.natAbs < 2 ^ 64) : Writable (.int i) := by
  simp only [Writable]; exact small_pow h

theorem clock_writable {t : Int} (h : Clock t) : Writable (.int t) :=
  small_writable (by unfold Clock at h; omega)

theorem str_writable {s : PStr} (h : s.length < 2 ^ 62) : Writable (.str s) := by
  simp only [Writable]; omega

theorem slot_names_short (c : ContId) : ∀ k ∈ c.slots.map Prod.fst, 4 * k.length < 2 ^ 64 := by
  have : ∀ k ∈ c.slots.map Prod.fst, k.length < 100 := by cases c <;> decide
  intro k hk
  have := this k hk
  omega

theorem item_names_short (c : FDictId) : ∀ k ∈ c.items.map Prod.fst, 4 * k.length < 2 ^ 64 := by
  have : ∀ k ∈ c.items.map Prod.fst, k.length < 100 := by cases c <;> decide
  intro k hk
  have := this k hk
  omega

theorem fitsD_val : ∀ {d : List (Val × Val)} {k x : Val}, WritableD d → (k, x) ∈ d → Writable x
  | (k', x') :: rest, k, x, h, hm => by
    simp only [WritableD] at h
    rcases List.mem_cons.mp hm with e | hm
    · injection e with e1 e2
      subst e2
      exact h.2.1
    · exact fitsD_val h.2.2 hm

theorem nodup_length_le : ∀ {l l' : List PStr}, l.Nodup → (∀ x ∈ l, x ∈ l') → l.length ≤ l'.length
  | [], l', _, _ => Nat.zero_le _
  | a :: l, l', hn, h => by
    have ha := h a (List.mem_cons_self ..)
    obtain ⟨h1, h2⟩ := List.nodup_cons.mp hn
    have := nodup_length_le (l' := l'.erase a) h2 fun x hx => by
      have hne : x ≠ a := by rintro rfl; exact h1 hx
      exact (List.mem_erase_of_ne hne).mpr (h x (List.mem_cons_of_mem _ hx))
    rw [List.length_erase_of_mem ha] at this
    have := List.length_pos_of_mem ha
    simp only [List.length_cons]
    omega

theorem cont_writable {E : Env} {hook : PStr → Val → Res Val} {c : ContId} {v w : Val} (hv : Writable v)
    (hh : ∀ k x y, Writable x → hook k x = .ok y → Writable y) (h : contCall E hook c v = .ok w) : Writable w := by
  obtain ⟨kw, fs, hd, _, rfl, hn, _, hf⟩ := contCall_ok h
  have hl : fs.length < 100 := by
    have : fs.length = c.slots.length := by rw [← List.length_map (f := Prod.fst), hn, List.length_map]
    rw [this]
    cases c <;> decide
  simp only [Writable]
  refine ⟨Nat.lt_trans hl (by decide), fitsA_mem.mpr fun k x hm => ?_⟩
  have hk : k ∈ c.slots.map Prod.fst := by rw [← hn]; exact List.mem_map.mpr ⟨_, hm, rfl⟩
  refine ⟨slot_names_short c k hk, ?_⟩
  obtain ⟨⟨k', vs⟩, hs, e⟩ := List.mem_map.mp hk
  dsimp only at e
  subst e
  obtain ⟨y, hy, hc⟩ := hf k' vs hs
  have : y = x := (getAttr_of_mem (by rw [hn]; exact slots_nodup c) hy).symm.trans
    (getAttr_of_mem (by rw [hn]; exact slots_nodup c) hm)
  subst this
  have hkw : ∀ k x, (k, x) ∈ kw → Writable x := by
    intro k x hm
    cases v <;> simp only [Val.asDict, reduceCtorEq, Option.some.injEq] at hd
    all_goals
      simp only [Writable] at hv
    · rename_i d
      subst hd
      exact fitsD_val hv.2 (List.mem_map.mpr ⟨(k, x), hm, rfl⟩)
    · rename_i c' items
      have e : items = kw := by
        have := congrArg (List.map fun p : Val × Val => match p.1 with | .str s => (s, p.2) | _ => ([], p.2)) hd
        simpa [List.map_map, Function.comp_def] using this
      subst e
      exact ((fitsA_mem.mp hv.2) k x hm).2
  unfold contField at hc
  split at hc
  · split at hc
    · cases hc
    · injection hc with hc
      subst hc
      unfold ContId.default
      repeat' split
      all_goals simp [Writable, WritableL, WritableD]
  · rename_i z hz
    unfold contDeser at hc
    split at hc
    · injection hc with hc
      subst hc
      exact hkw _ _ (mem_of_lookupName hz)
    · split at hc
      · cases hc
      · exact hh _ _ _ (hkw _ _ (mem_of_lookupName hz)) hc

theorem leaf_writable {E : Env} {v w : Val} (hv : Writable v) (h : leafCall E .node v = .ok w) : Writable w :=
  cont_writable hv (fun k x y hx e => by unfold leafHook at e; injection e with e; subst e; exact hx) h

theorem header_writable {E : Env} {v w : Val} (hv : Writable v) (h : mkCont E .taskHeader v = .ok w) : Writable w := by
  refine cont_writable hv (fun k x y hx e => ?_) h
  unfold contHook at e
  dsimp only at e
  split at e
  · split at e
    · injection e with e; subst e; exact hx
    · exact leaf_writable hx e
  split at e
  · split at e
    · injection e with e; subst e; simp only [Writable] at *; exact hx
    · injection e with e; subst e; exact hx
  split at e
  · split at e
    · rename_i m hm
      injection e with e
      subst e
      unfold EnumId.lookup at hm
      repeat' split at hm
      all_goals first
        | (injection hm with hm; subst hm; simp only [Writable] at *; exact hx)
        | cases hm
    · cases e
  · injection e with e; subst e; exact hx

/-- Pairs of names and values. -/
theorem args_writable {kw : Attrs} (h : WritableA kw) (hl : kw.length < 2 ^ 64) :
    Writable (.dict (kw.map fun kv => (.str kv.1, kv.2))) := by
  simp only [Writable, List.length_map]
  exact ⟨hl, fitsD_names h⟩

theorem fdict_writable {E : Env} {c : FDictId} {kw : Attrs} {w : Val} (hc : c ≠ .peer)
    (hk : ∀ k x, (k, x) ∈ kw → Writable x)
    (h : mkFDict E c (.dict (kw.map fun kv => (.str kv.1, kv.2))) = .ok w) : Writable w := by
  have hconv : ∀ k v v', fdConv E c k v = .ok v' → v' = v := by
    intro k v v' e
    unfold fdConv at e
    split at e
    · exact absurd rfl hc
    · unfold noConv at e; injection e with e; exact e.symm
  unfold mkFDict fdArg Val.asDict at h
  dsimp only at h
  obtain ⟨items, rfl, ⟨hnd, hkeys⟩, hi⟩ := fdBuild_every (P := fun _ x => Writable x) (fun k v v' hm e => by
      rw [hconv _ _ _ e]
      obtain ⟨⟨k', x⟩, hx, e⟩ := List.mem_map.mp hm
      injection e with e1 e2
      rw [← e2]
      exact hk _ _ hx)
    (fun k v v' hm e => by
      rw [hconv _ _ _ e]
      have : ∀ kv ∈ c.items, smallB kv.2 = true := by cases c <;> decide
      exact fits_small _ (this _ hm)) h
  simp only [Writable]
  constructor
  · have hs : items.length ≤ c.items.length := by
      have := nodup_length_le (l := items.map Prod.fst) (l' := c.items.map Prod.fst) hnd fun x hx => (hkeys x).mp hx
      simpa using this
    have : c.items.length < 100 := by cases c <;> decide
    omega
  · refine fitsA_mem.mpr fun k x hm => ⟨item_names_short c k ((hkeys k).mp (List.mem_map.mpr ⟨_, hm, rfl⟩)), (hi k x hm).2⟩

end Verif
