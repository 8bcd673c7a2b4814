import Verif.Props.Gate
import Verif.Model.Misc
/-!
# C100: delayed messages are in time
-/

namespace Verif.Props

open Verif Spec

/-- C100: a message is made at time `made` (microseconds), the clock of the sender being off by `off`;
it is sent after the delay of its class and up to seven minutes more, and is under way for up to five
seconds; the clock of the receiver is off by `off'`.  If neither clock is off by more than ten seconds
the time check of `load` passes: the outcome is the one without it. -/
theorem delayed_in_time (E : Env) (dec : Bytes → Bytes → Res Bytes) (data : Bytes) (c : Cls)
    (hl : 76 < data.length) (h1 : newYear 40 < frameTime data) (h2 : frameTime data < newYear 1040)
    (h3 : frameType data = c.typeId) (priv pub : Option Bytes) (made idle transit off off' : Int)
    (ht : (frameTime data : Int) = (made + off) / 1000000)
    (hi : 0 ≤ idle ∧ idle ≤ 7 * 60 * 1000000) (htr : 0 ≤ transit ∧ transit ≤ 5 * 1000000)
    (ho : -(10 * 1000000) ≤ off ∧ off ≤ 10 * 1000000)
    (ho' : -(10 * 1000000) ≤ off' ∧ off' ≤ 10 * 1000000) :
    load E dec (some data) priv pub true (made + msgDelay c * 1000000 + idle + transit + off') =
      load E dec (some data) priv pub false 0 := by
  have hd : (msgDelay c : Int) ≤ 145 ∧ 0 ≤ (msgDelay c : Int) := by
    unfold msgDelay mmtt mat
    split <;> omega
  rw [load_freshness E dec data hl h1 h2 ⟨c, h3.symm⟩ priv pub, if_neg (by omega), if_neg (by omega)]
  exact load_ignores_clock E dec _ priv pub _ _

/-- C100: the report to the Concent is not sent before an answer of the requestor can be there: the
report is under way for up to five seconds, the requestor works for up to two minutes and a quarter,
the answer is under way for up to five seconds. -/
theorem answer_first (transit work transit' : Nat) (h : transit ≤ 5) (hw : work ≤ 2 * 60 + 15)
    (h' : transit' ≤ 5) : transit + work + transit' ≤ msgDelay .ForceReportComputedTask := by
  unfold msgDelay mmtt mat
  rw [if_pos rfl]
  omega

/-- Non-vacuity: the `Ping` of `Gate`, seven minutes idle, with both clocks off. -/
example (E : Env) (dec : Bytes → Bytes → Res Bytes) :
    load E dec (some pingFrame) none none true
      (1500000007654321 + msgDelay .Ping * 1000000 + 7 * 60 * 1000000 + 5 * 1000000 + 10 * 1000000) =
    load E dec (some pingFrame) none none false 0 :=
  delayed_in_time E dec pingFrame .Ping (by decide) (by rw [← min_is_2010]; decide)
    (by rw [← max_is_3010]; decide) (by decide) none none 1500000007654321 (7 * 60 * 1000000) (5 * 1000000)
    (-7654321) (10 * 1000000) (by decide) (by decide) (by decide) (by decide) (by decide)

end Verif.Props
