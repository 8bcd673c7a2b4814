import Verif.Model.Misc
/-!
# The time for verification (`helpers.py:7-19`), of any report

`Misc.lean` has `maximum_download_time` of non-negative integers; here are the values a report can
have: Python divides, rounds and makes dates of integers and floats alike.  Moments and spans of
time are in microseconds, as in `datetime`.
-/

namespace Verif

/-- A `timedelta` of that many microseconds; more than 999999999 days are an `OverflowError`. -/
def mkDelta (us : Int) : Res Int :=
  if -86399999913600000000 ≤ us ∧ us ≤ 86399999999999999999 then .ok us else .error .overflowError

/-- `math.floor` of `m * 2^k`. -/
def floorBin (x : Nat × Int) : Nat :=
  if 0 ≤ x.2 then x.1 * 2 ^ x.2.toNat else x.1 / 2 ^ (-x.2).toNat

/-- `math.ceil(size / bytes_per_sec)` (`helpers.py:35-37`) with the default rate of 48 KB/s
(`constants.py:39`), that is 49152 bytes.  Integers (and `bool`, which is a subclass) and floats are
divided with correct rounding; of infinity there is no ceiling (`OverflowError`), of NaN neither
(`ValueError`); other values cannot be divided (`TypeError`). -/
def sizeSeconds (size : Val) : Res Int :=
  match size with
  | .int i => quotient i 1
  | .bool b => quotient (if b then 1 else 0) 1
  | .float f =>
    match floatClass f with
    | .nan => .error .valueError
    | .inf _ => .error .overflowError
    | .fin v => quotient v (2 ^ 1074)
  | _ => .error .typeError
where
  /-- ceiling of the rounded quotient of `n / unit` and 49152 -/
  quotient (n : Int) (unit : Nat) : Res Int :=
    match trueDiv n.natAbs (unit * (defaultUploadRate <<< 10)) with
    | .error e => .error e
    | .ok q => .ok (if n < 0 then -(floorBin q : Int) else ceilBin q)

/-- `maximum_download_time(size)` (`helpers.py:22-40`). -/
def downloadTime (size : Val) : Res Int := do
  let s ← sizeSeconds size
  let d ← mkDelta (s * 1000000)
  mkDelta (60 * 1000000 + d)

/-- A number of (scaled) units `x` of `2^-1074` rounded to a whole number, ties to even. -/
def roundHalfEven (x unit : Int) : Int :=
  let q := x / unit
  let r := x % unit
  if 2 * r > unit ∨ (2 * r = unit ∧ q % 2 = 1) then q + 1 else q

/-- The last steps of `datetime.utcfromtimestamp`: the seconds must be a `time_t` (64 bits,
`OverflowError`), `gmtime` must know them (`OSError`; 32 bits of years), and the year must be in
1..9999 (`ValueError`). -/
def utcChecked (us : Int) : Res Int :=
  let s := us / 1000000
  if s < -(2 ^ 63) ∨ 2 ^ 63 ≤ s then .error .overflowError
  else if s < -67768040609740800 ∨ 67768036191676799 < s then .error .otherError
  else if s < -62135596800 ∨ 253402300799 < s then .error .valueError
  else .ok us

/-- `datetime.datetime.utcfromtimestamp(v)` in microseconds.  A float is cut into seconds and a
fraction, and the fraction times `1e6` (rounded to a float) is rounded to microseconds, ties to even. -/
def utcFromTimestamp (v : Val) : Res Int :=
  match v with
  | .int i => utcChecked (i * 1000000)
  | .bool b => utcChecked (if b then 1000000 else 0)
  | .float f =>
    match floatClass f with
    | .nan => .error .valueError
    | .inf _ => .error .overflowError
    | .fin x =>
      let whole := x.tdiv floatOne
      let frac := x - whole * floatOne
      utcChecked (whole * 1000000 + roundHalfEven (roundFloat (frac * 1000000)) floatOne)
  | _ => .error .typeError

/-- `d['deadline']` of a `ComputeTaskDef` or another dict; other values have no such items. -/
def itemOf (d : Val) (key : PStr) : Res Val :=
  match d.asDict with
  | some items =>
    match dictGet (.str key) items with
    | some v => .ok v
    | Option.none => .error .keyError
  | Option.none => .error .typeError

/-- `helpers.subtask_verification_time(report)` (`helpers.py:7-19`), in the order of its steps. -/
def subtaskVerificationTime (m : Msg) : Res Int := do
  let mdt ← downloadTime (getAttr m.attrs p!"size")
  match (getAttr m.attrs p!"task_to_compute").asMsg with
  | Option.none => .error .attributeError
  | some ttc =>
    let start ← utcFromTimestamp ttc.ts
    let deadline ← itemOf (getAttr ttc.attrs p!"compute_task_def") p!"deadline"
    let stop ← utcFromTimestamp deadline
    let three ← mkDelta (3 * mdt)
    let sum ← mkDelta (4 * cmt * 1000000 + three)
    mkDelta (sum + roundHalfEven (stop - start) 2)

end Verif
