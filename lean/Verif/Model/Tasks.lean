import Verif.Model.PyEq
import Verif.Model.Float
import Verif.Model.Hex
import Verif.Model.Time
import Verif.Model.Header
/-!
# Task messages: accessors, hashes, validity, ownership

`message/tasks.py:50-223, 300-446, 583-594, 648-688`, `message/concents.py:102-114`,
`message/base.py:193-210, 522-588`, `datastructures/tasks.py:108-132`.
-/

set_option linter.unusedSimpArgs false

namespace Verif

/-! ### Accessors (`message/tasks.py:62-106, 355-369`) -/

/-- `d.get(name)` on a dict, `none` (here: Python `None`) if absent. -/
def dictAttr (d : Val) (name : PStr) : Val :=
  match d.asDict with
  | some items =>
    match dictGet (.str name) items with
    | some v => v
    | Option.none => .none
  | Option.none => .none

/-- The first truthy value (`message/tasks.py:67-71`). -/
def firstTruthy : List Val → Val
  | [] => .none
  | v :: rest => if v.truthy then v else firstTruthy rest

mutual
/-- `getattr(v, a, None)` for the accessors `task_id`, `subtask_id`, `task_to_compute`,
`provider_id`, `requestor_id` of a message (`message/tasks.py:62-106, 269-271, 355-369`).
Simplification: an object that is not a message has no such attribute, and a
`compute_task_def` that is not a dict gives `None`. -/
def taskGet (a : PStr) (v : Val) : Val :=
  match v with
  | .msg c ty ts enc sig attrs =>
    if c = .TaskToCompute then
      if a = p!"task_to_compute" then .msg c ty ts enc sig attrs
      else if a = p!"task_id" ∨ a = p!"subtask_id" then
        dictAttr (getAttr attrs p!"compute_task_def") a
      else getAttr attrs a
    else if c = .WantToComputeTask ∧ a = p!"task_id" then
      match getAttr attrs p!"task_header" with
      | .cont .taskHeader fs => getAttr fs p!"task_id"
      | _ => .none
    else if c.payload.contains a then getAttr attrs a
    else if c.isTask then
      firstTruthy (c.taskIdProviders.map (getAttr (taskGetAll a attrs)))
    else .none
  | _ => .none
termination_by structural v
/-- The accessor applied to every attribute. -/
def taskGetAll (a : PStr) (as : List (PStr × Val)) : List (PStr × Val) :=
  match as with
  | [] => []
  | (k, v) :: rest => (k, taskGet a v) :: taskGetAll a rest
termination_by structural as
end

/-- `self.task_to_compute`. -/
def Msg.taskToCompute (m : Msg) : Val := taskGet p!"task_to_compute" m.val

/-- View an object as a message. -/
def Val.asMsg : Val → Option Msg
  | .msg c ty ts enc sig attrs => some ⟨c, ty, ts, enc, sig, attrs⟩
  | _ => Option.none

/-! ### Digest and signature -/

/-- `s.encode('ascii', 'replace')`. -/
def asciiReplace (s : PStr) : Bytes :=
  s.map fun c => if c.toNat < 128 then UInt8.ofNat c.toNat else 63

/-- What is hashed: `dumps([type_, timestamp]) + payload` (`message/base.py:193-210`). -/
def hashInput (ty ts : Val) (payload : Bytes) : Res Bytes :=
  match dumps (.list [ty, ts]) with
  | .error e => .error e
  | .ok h => .ok (h ++ payload)

/-- `get_short_hash(payload)` (`message/base.py:193-210`; `Hello` appends its version,
`message/base.py:687-689`). -/
def shortHashOf (E : Env) (m : Msg) (payload : Bytes) : Res Bytes :=
  match hashInput m.ty m.ts payload with
  | .error e => .error e
  | .ok h =>
    if m.cls = .Hello then
      match getAttr m.attrs p!"_version" with
      | .str v => .ok (E.sha1 h ++ asciiReplace v)
      | _ => .error .attributeError
    else .ok (E.sha1 h)

/-- `get_short_hash()` (`message/base.py:193-210`). -/
def shortHash (E : Env) (m : Msg) : Res Bytes :=
  match m.slots with
  | .error e => .error e
  | .ok s =>
    match dumps s with
    | .error e => .error e
    | .ok p => shortHashOf E m p

/-- `verify_signature(public_key)` / `_verify_signature(signature, public_key)`
(`message/base.py:522-557`). -/
def verifySigWith (E : Env) (m : Msg) (signature : Val) (pubkey : Bytes) : Res Unit :=
  match shortHash E m with
  | .error e => .error e
  | .ok h => E.ecdsaVerify pubkey signature h

/-- `m.verify_signature(public_key)`. -/
def Msg.verifySig (E : Env) (m : Msg) (pubkey : Bytes) : Res Unit := verifySigWith E m m.sig pubkey

/-- `m.sign_message(private_key)` (`message/base.py:559-588`). -/
def Msg.signMessage (E : Env) (m : Msg) (priv : Bytes) : Res Msg :=
  match shortHash E m with
  | .error e => .error e
  | .ok h =>
    match E.ecdsaSign priv h with
    | .error e => .error e
    | .ok s => .ok { m with sig := .bytes s }

/-! ### Task headers (`datastructures/tasks.py:108-132`) -/

/-- `TaskHeader.get_hash` (`datastructures/tasks.py:127-132`). -/
def headerHash (E : Env) (fs : Attrs) : Res Bytes :=
  match toDictF .taskHeader fs with
  | .error e => .error e
  | .ok d =>
    match dumps (.dict (d.filter fun kv => kv.1 ≠ .str p!"signature")) with
    | .error e => .error e
    | .ok b => .ok (E.sha1 b)

/-- `TaskHeader.verify` (`datastructures/tasks.py:114-125`) on an attribute list. -/
def headerVerifyF (E : Env) (fs : Attrs) (pubkey : Bytes) : Res Unit :=
  if getAttr fs p!"signature" = .none then .error .invalidSignature
  else
    match headerHash E fs with
    | .error e => .error e
    | .ok h => E.ecdsaVerify pubkey (getAttr fs p!"signature") h

/-- `TaskHeader.sign` (`datastructures/tasks.py:108-112`). -/
def headerSign (E : Env) (fs : Attrs) (priv : Bytes) : Res Attrs :=
  match headerHash E fs with
  | .error e => .error e
  | .ok h =>
    match E.ecdsaSign priv h with
    | .error e => .error e
    | .ok s => .ok (setName p!"signature" (.bytes s) fs)

/-! ### Validity -/

/-- `SubtaskResultsAccepted.is_valid` (`message/tasks.py:583-594`) for a payment
timestamp `p` and an integer header timestamp. -/
def paymentValid (p : Val) (ts : Int) : Res Unit :=
  match p.structInt with
  | some i =>
    if i > ts then .error .validationError
    else if intOverflowsFloat i then .error .overflowError
    else if intAdd900Lt i ts then .error .validationError
    else .ok ()
  | Option.none =>
    match p with
    | .float f =>
      if floatGt f ts then .error .validationError
      else if floatAdd900Lt f ts then .error .validationError
      else .ok ()
    | _ => .error .typeError

/-- `SubtaskResultsRejected.is_valid` (`message/tasks.py:648-668`). -/
def rejectedValid (m : Msg) : Res Unit :=
  let reason := getAttr m.attrs p!"reason"
  let fgtrf := getAttr m.attrs p!"force_get_task_result_failed"
  if !reason.truthy then .error .validationError
  else if fgtrf.truthy &&
      (!(pyEq (taskGet p!"task_id" m.val) (taskGet p!"task_id" fgtrf))
        || !(pyEq (taskGet p!"subtask_id" m.val) (taskGet p!"subtask_id" fgtrf))) then
    .error .validationError
  else if pyEq reason (.enum .subtaskResultsRejectedReason
        p!"Concent reported failure to retrieve the resources to verify") && !fgtrf.truthy then
    .error .validationError
  else .ok ()

/-- `REQUESTOR_REASONS_ALLOWED` (`message/tasks.py:637-646`). -/
def allowedReasons (concent : Bool) : List Val :=
  if concent then
    [.enum .subtaskResultsRejectedReason p!"Results verification negative",
     .enum .subtaskResultsRejectedReason
       p!"Concent reported failure to retrieve the resources to verify"]
  else
    [.enum .subtaskResultsRejectedReason p!"Results verification negative",
     .enum .subtaskResultsRejectedReason p!"Could not retrieve resources"]

/-- Attribute of an object used as a message: `AttributeError` if it is not one. -/
def attrOf (v : Val) (name : PStr) : Res Val :=
  match v with
  | .msg _ _ _ _ _ attrs => .ok (getAttr attrs name)
  | _ => .error .attributeError

/-- `SubtaskResultsRejected.is_valid_for_requestor` (`message/tasks.py:670-688`).  With a
reason that is not allowed and is not an enum member, `self.reason.value` in the error
message is an `AttributeError`. -/
def rejectedValidForRequestor (m : Msg) : Res Unit :=
  match attrOf (getAttr m.attrs p!"report_computed_task") p!"task_to_compute" with
  | .error e => .error e
  | .ok ttc =>
    match attrOf ttc p!"concent_enabled" with
    | .error e => .error e
    | .ok concent =>
      let reason := getAttr m.attrs p!"reason"
      if (allowedReasons concent.truthy).any (pyEq reason) then rejectedValid m
      else
        match reason with
        | .enum _ _ => .error .validationError
        | _ => .error .attributeError

/-- `==` used by `tuple.count` on the two `TaskToCompute` attributes. -/
def valEq (a b : Val) : Res Bool :=
  match a, b with
  | .msg c ty ts enc sig attrs, .msg c' ty' ts' enc' sig' attrs' =>
    Msg.eq ⟨c, ty, ts, enc, sig, attrs⟩ ⟨c', ty', ts', enc', sig', attrs'⟩
  | a, b => .ok (pyEq a b)

/-- `VerdictReportComputedTask.is_valid` (`message/concents.py:102-114`). -/
def verdictValid (m : Msg) : Res Unit :=
  match attrOf (getAttr m.attrs p!"ack_report_computed_task") p!"report_computed_task" with
  | .error e => .error e
  | .ok r1 =>
    match attrOf r1 p!"task_to_compute" with
    | .error e => .error e
    | .ok t1 =>
      match attrOf (getAttr m.attrs p!"force_report_computed_task") p!"report_computed_task" with
      | .error e => .error e
      | .ok r2 =>
        match attrOf r2 p!"task_to_compute" with
        | .error e => .error e
        | .ok t2 =>
          match valEq t2 t1 with
          | .error e => .error e
          | .ok true => .ok ()
          | .ok false => .error .validationError

/-- `is_valid` of the task message classes (`message/tasks.py:208-223` and overrides).
A header timestamp that is not an integer (impossible after `load`) is a `TypeError`. -/
def isValid (m : Msg) : Res Unit :=
  match m.cls with
  | .SubtaskResultsAccepted =>
    match m.ts with
    | .int t => paymentValid (getAttr m.attrs p!"payment_ts") t
    | _ => .error .typeError
  | .SubtaskResultsRejected => rejectedValid m
  | .VerdictReportComputedTask => verdictValid m
  | _ => .ok ()

/-! ### TaskToCompute checks at load (`message/tasks.py:371-440`) -/

/-- `verify_ethsig` (`message/tasks.py:411-428`). -/
def verifyEthsig (E : Env) (m : Msg) : Res Unit :=
  match (getAttr m.attrs p!"want_to_compute_task").asMsg with
  | Option.none => .error .attributeError
  | some w =>
    match decodeHex (getAttr m.attrs p!"requestor_ethereum_public_key") with
    | .error e => .error e
    | .ok pk => verifySigWith E w (getAttr m.attrs p!"ethsig") pk

/-- `generate_ethsig` (`message/tasks.py:386-409`) without explicit hash. -/
def generateEthsig (E : Env) (m : Msg) (priv : Bytes) : Res Msg :=
  if !(getAttr m.attrs p!"requestor_ethereum_public_key").truthy then
    .error (.fieldError p!"requestor_ethereum_public_key")
  else
    match (getAttr m.attrs p!"want_to_compute_task").asMsg with
    | Option.none => .error .attributeError
    | some w =>
      match shortHash E w with
      | .error e => .error e
      | .ok h =>
        match E.ecdsaSign priv h with
        | .error e => .error e
        | .ok s => .ok { m with attrs := setName p!"ethsig" (.bytes s) m.attrs }

/-- One key of `validate_taskid` (`message/tasks.py:431-440`).  `self.compute_task_def[key]`
on `None` is a `TypeError`. -/
def validateTaskIdKey (m : Msg) (key : PStr) : Res Unit :=
  match (getAttr m.attrs p!"compute_task_def").asDict with
  | Option.none => .error .typeError
  | some d =>
    match dictGet (.str key) d with
    | Option.none => .error .keyError
    | some v =>
      match checkIdHexSeed v (getAttr m.attrs p!"requestor_id") with
      | .error e => .error e
      | .ok true => .ok ()
      | .ok false => .error (.fieldError key)

/-- `validate_taskid` (`message/tasks.py:430-440`). -/
def validateTaskId (m : Msg) : Res Unit :=
  match validateTaskIdKey m p!"task_id" with
  | .error e => .error e
  | .ok _ => validateTaskIdKey m p!"subtask_id"

/-! ### Ownership (`message/tasks.py:108-198, 442-446`) -/

/-- `ttc.provider_public_key` (`message/tasks.py:336-338`). -/
def ttcProviderKey (ttc : Val) : Res Val :=
  match attrOf ttc p!"want_to_compute_task" with
  | .error e => .error e
  | .ok w => attrOf w p!"provider_public_key"

/-- The owner map of `validate_ownership` (`message/tasks.py:115-122`): decoded provider
and requestor key. -/
def ownerKeys (m : Msg) : Res (Bytes × Bytes) :=
  match ttcProviderKey m.taskToCompute with
  | .error e => .error e
  | .ok pk =>
    match decodeHex pk with
    | .error e => .error e
    | .ok p =>
      match attrOf m.taskToCompute p!"requestor_public_key" with
      | .error e => .error e
      | .ok rk =>
        match decodeHex rk with
        | .error e => .error e
        | .ok r => .ok (p, r)

/-- `owner_map.get(owner)`. -/
def ownerKey (keys : Bytes × Bytes) (concent : Option Bytes) : Owner → Option Bytes
  | .provider => some keys.1
  | .requestor => some keys.2
  | .concent => concent

/-- The loop over `EXPECTED_OWNERS` (`message/tasks.py:124-140`): the digest is computed
before the key is looked at (`_verify_signature` evaluates the hash first); a missing
concent key is `len(None)`, a `TypeError`. -/
def tryOwners (E : Env) (m : Msg) (keys : Bytes × Bytes) (concent : Option Bytes) :
    List Owner → Res Unit
  | [] => .error .invalidSignature
  | o :: rest =>
    match shortHash E m with
    | .error e => .error e
    | .ok h =>
      match ownerKey keys concent o with
      | Option.none => .error .typeError
      | some k =>
        match E.ecdsaVerify k m.sig h with
        | .ok _ => .ok ()
        | .error .invalidSignature => tryOwners E m keys concent rest
        | .error e => .error e

/-- `TaskMessage.validate_ownership` (`message/tasks.py:108-140`). -/
def baseOwnership (E : Env) (m : Msg) (concent : Option Bytes) : Res Unit :=
  match ownerKeys m with
  | .error e => .error e
  | .ok keys => tryOwners E m keys concent m.cls.expectedOwners

/-- `validate_ownership`, with the `TaskToCompute` override (`message/tasks.py:442-446`):
the task header of the embedded offer must be signed by the requestor. -/
def validateOwnership (E : Env) (m : Msg) (concent : Option Bytes) : Res Unit :=
  if m.cls = .TaskToCompute then
    match attrOf (getAttr m.attrs p!"want_to_compute_task") p!"task_header" with
    | .error e => .error e
    | .ok th =>
      match th with
      | .cont .taskHeader fs =>
        match decodeHex (getAttr m.attrs p!"requestor_public_key") with
        | .error e => .error e
        | .ok rk =>
          match headerVerifyF E fs rk with
          | .error e => .error e
          | .ok _ => baseOwnership E m concent
      | _ => .error .attributeError
  else baseOwnership E m concent

mutual
/-- `validate_ownership_chain` (`message/tasks.py:142-157`) on an object that is a task
message. -/
def chainV (E : Env) (concent : Option Bytes) (v : Val) : Res Unit :=
  match v with
  | .msg c ty ts enc sig attrs =>
    if c.isTask then
      match validateOwnership E ⟨c, ty, ts, enc, sig, attrs⟩ concent with
      | .error e => .error e
      | .ok _ => chainA E concent attrs
    else .ok ()
  | _ => .ok ()
termination_by structural v
/-- The loop over the slots (`message/tasks.py:152-155`): only attributes that are task
messages themselves are visited (not lists of messages). -/
def chainA (E : Env) (concent : Option Bytes) (as : List (PStr × Val)) : Res Unit :=
  match as with
  | [] => .ok ()
  | (_, v) :: rest =>
    match chainV E concent v with
    | .error e => .error e
    | .ok _ => chainA E concent rest
termination_by structural as
end

/-- One role check of `verify_owners` (`message/tasks.py:179-195`); a missing or empty
expected key skips the check. -/
def checkRole (expected : Option Bytes) (actual : Res Val) : Res Unit :=
  match expected with
  | Option.none => .ok ()
  | some [] => .ok ()
  | some k =>
    match actual with
    | .error e => .error e
    | .ok v =>
      match decodeHex v with
      | .error e => .error e
      | .ok b => if k = b then .ok () else .error .ownershipMismatch

/-- `verify_owners` (`message/tasks.py:159-198`). -/
def verifyOwners (E : Env) (m : Msg) (provider requestor concent : Option Bytes) : Res Unit :=
  match checkRole provider (ttcProviderKey m.taskToCompute) with
  | .error e => .error e
  | .ok _ =>
    match checkRole requestor (attrOf m.taskToCompute p!"requestor_public_key") with
    | .error e => .error e
    | .ok _ => chainV E concent m.val

end Verif
