import Verif.Props.Gate
import Verif.Lemmas.Toy
/-! # C79: replayed frames -/

namespace Verif.Props

open Verif Spec

/-- C79: `load` keeps no record of frames. Whatever it made of a frame at one time within the window of
its timestamp - the same message, the same error - it makes of it at any other time in the window: ten
minutes back to five minutes ahead. -/
theorem replay_repeats (E : Env) (dec : Bytes → Bytes → Res Bytes) (data : Bytes)
    (priv pub : Option Bytes) (now now' : Int)
    (h1 : (frameTime data : Int) * 1000000 - 300 * 1000000 ≤ now)
    (h2 : now ≤ (frameTime data : Int) * 1000000 + 600 * 1000000)
    (h1' : (frameTime data : Int) * 1000000 - 300 * 1000000 ≤ now')
    (h2' : now' ≤ (frameTime data : Int) * 1000000 + 600 * 1000000) :
    load E dec (some data) priv pub true now' = load E dec (some data) priv pub true now := by
  by_cases hl : 76 < data.length
  · by_cases hb : newYear 40 < frameTime data ∧ frameTime data < newYear 1040 ∧
        Registered (frameType data)
    · obtain ⟨b1, b2, b3⟩ := hb
      rw [load_freshness E dec data hl b1 b2 b3, load_freshness E dec data hl b1 b2 b3,
        if_neg (by omega), if_neg (by omega), if_neg (by omega), if_neg (by omega)]
      exact load_ignores_clock ..
    · rw [load_header_gate E dec data hl hb, load_header_gate E dec data hl hb]
  · rw [load_short E dec (some data) (by rintro b ⟨rfl⟩; omega),
      load_short E dec (some data) (by rintro b ⟨rfl⟩; omega)]

/-- C79: a frame accepted twice with `check_time` is accepted as the same message, and no more than
fifteen minutes lie between. -/
theorem replay_window (E : Env) (dec : Bytes → Bytes → Res Bytes) (data : Bytes)
    (priv pub : Option Bytes) (now now' : Int) (m m' : Msg)
    (h : (load E dec (some data) priv pub true now).2 = .ok m)
    (h' : (load E dec (some data) priv pub true now').2 = .ok m') :
    m' = m ∧ now' - now ≤ 15 * 60 * 1000000 := by
  have window : ∀ now m, (load E dec (some data) priv pub true now).2 = .ok m →
      (frameTime data : Int) * 1000000 - 300 * 1000000 ≤ now ∧
      now ≤ (frameTime data : Int) * 1000000 + 600 * 1000000 := by
    intro now m h
    obtain ⟨hl, b1, b2, b3⟩ := load_worked_gate E dec data priv pub true now (.inr ⟨m, h⟩)
    rw [load_freshness E dec data hl b1 b2 b3] at h
    split at h
    · cases h
    · split at h
      · cases h
      · omega
  obtain ⟨w1, w2⟩ := window now m h
  obtain ⟨w1', w2'⟩ := window now' m' h'
  refine ⟨?_, by omega⟩
  rw [replay_repeats E dec data priv pub now now' w1 w2 w1' w2', h] at h'
  injection h' with h'
  exact h'.symm

/-- C79 (without `check_time` there is no window): a frame accepted once is accepted for ever. -/
theorem replay_unlimited (E : Env) (dec : Bytes → Bytes → Res Bytes) (data : Bytes)
    (priv pub : Option Bytes) (ct : Bool) (now : Int) (m : Msg)
    (h : (load E dec (some data) priv pub ct now).2 = .ok m) (now' : Int) :
    (load E dec (some data) priv pub false now').2 = .ok m := by
  cases ct with
  | false => rw [load_ignores_clock E dec (some data) priv pub now' now]; exact h
  | true =>
    obtain ⟨hl, b1, b2, b3⟩ := load_worked_gate E dec data priv pub true now (.inr ⟨m, h⟩)
    rw [load_freshness E dec data hl b1 b2 b3] at h
    split at h
    · cases h
    · split at h
      · cases h
      · rw [load_ignores_clock E dec (some data) priv pub now' now]; exact h

/-! The hypotheses can be met, at both ends of the window. -/

private def frame : Bytes :=
  ((packHeader Cls.RandVal.typeId (.int 1500000000) (.bool false)).toOption.getD [] ++
    List.replicate 65 0) ++ (dumps (.list [.list [.str p!"rand_val", .int 5]])).toOption.getD []

private def accepted (now : Int) : Bool :=
  (load toyEnv (fun _ d => .ok d) (some frame) none none true now).2.isOk

example : [accepted 1499999699999999, accepted 1499999700000000, accepted 1500000600000000,
    accepted 1500000600000001] = [false, true, true, false] := by decide +kernel

end Verif.Props
