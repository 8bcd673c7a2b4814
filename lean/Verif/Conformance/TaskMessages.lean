import Verif.Conformance.Messages
import Verif.Model.Misc
/-!
# The project's tests of task messages, run on the model

Each example repeats a unit test of `/repo/tests/message/tasks`, with toy signatures, or real ones for
promissory notes, and fixed draws.  These are tests of the model's fidelity, not claims.
-/

namespace Verif.Conformance

open Verif

/-- An attribute or a property of a message made. -/
def made (m : Res Msg) (name : PStr) : Res Val := do return taskGet name (← m).val

/-- The argument with which the tests of rejections turn the Concent on. -/
def concentOn : PStr × Val := (p!"report_computed_task__task_to_compute__concent_enabled", .bool true)

/-! ### `test_task_to_compute.py` -/

/-- `TaskToComputeTest.test_serialization`, the tests of `concent_enabled` and of ids. -/
example :
    let concent (m : Res Msg) : Res Bool := do return (getAttr (← m).attrs p!"concent_enabled").truthy
    survives (toyMake .TaskToCompute []) = .ok true ∧
    concent (toyMake .TaskToCompute [(p!"concent_enabled", .bool true)]) = .ok true ∧
    concent (newMsg .TaskToCompute []) = .ok false ∧
    concent (newMsg .TaskToCompute [(p!"concent_enabled", .bool false)]) = .ok false ∧
    concent (newMsg .TaskToCompute [(p!"concent_enabled", .none)]) = .ok false ∧
    (do let m ← toyMake .TaskToCompute []
        return taskGet p!"task_id" m.val == dictAttr (getAttr m.attrs p!"compute_task_def") p!"task_id"
          && taskGet p!"subtask_id" m.val == dictAttr (getAttr m.attrs p!"compute_task_def") p!"subtask_id")
      = .ok true ∧
    (do let m ← toyMake .TaskToCompute [(p!"task_id", .str p!"tid"), (p!"subtask_id", .str p!"sid")]
        let d := getAttr m.attrs p!"compute_task_def"
        return [taskGet p!"task_id" m.val, dictAttr d p!"task_id", taskGet p!"subtask_id" m.val,
          dictAttr d p!"subtask_id"])
      = .ok [.str p!"tid", .str p!"tid", .str p!"sid", .str p!"sid"] ∧
    made (toyMake .TaskToCompute [(p!"compute_task_def", .none)]) p!"task_id" = .ok .none ∧
    made (toyMake .TaskToCompute [(p!"compute_task_def", .none)]) p!"subtask_id" = .ok .none := by
  decide +kernel

/-- `test_spoofed_task_id`, `test_spoofed_subtask_id`. -/
example :
    let spoofed (key : PStr) : Res Unit := do
      let m ← toyMake .TaskToCompute []
      let m ← setDef toyEnv m key (.str p!"44444444-4444-4444-8444-444444444444")
      let m := m.set p!"requestor_ethereum_public_key" (.str (hexlify (toyVk 7)))
      let m ← generateEthsig toyEnv m (toySk 7)
      let b ← (serialize toyEnv m none none).1
      let _ ← (deserialize toyEnv (some b) .ok true (testNow * 1000000) none).2
      return ()
    spoofed p!"task_id" = .error (.fieldError p!"task_id") ∧
    spoofed p!"subtask_id" = .error (.fieldError p!"subtask_id") := by decide +kernel

/-- `test_validate_ownership_chain`, `test_validate_ownership_chain_raises_when_invalid`. -/
example :
    let outcome (headerKey : Bytes) : Res Unit := do
      let header ← headerFactory toyEnv toyTaskDraws.offer.header [(p!"sign__privkey", .bytes headerKey)]
      let wtct ← toyMake .WantToComputeTask [(p!"task_header", header)]
      let m ← toyMake .TaskToCompute [(p!"requestor_public_key", .str (hexlify (toyVk 7))),
        (p!"want_to_compute_task", wtct.val)]
      chainV toyEnv none (← m.signMessage toyEnv (toySk 7)).val
    outcome (toySk 7) = .ok () ∧ outcome (toySk 8) = .error .invalidSignature := by
  decide +kernel

/-- `test_past_deadline`, `test_size`, `test_size_notint`, `PriceTaskToComputeTestCase`. -/
example :
    (do let m ← pastDeadlineTask toyEnv G0 (fun b => (b ++ List.replicate 32 0).take 32) toyTaskDraws testNow []
        match dictAttr (getAttr m.attrs p!"compute_task_def") p!"deadline" with
          | .int t => return decide (t < testNow)
          | _ => return false) = .ok true ∧
    loadedAttr (toyMake .TaskToCompute [(p!"size", .int 1234567)]) p!"size" = .ok (.int 1234567) ∧
    loadedAttr (toyMake .TaskToCompute [(p!"size", .none)]) p!"size" = .error (.fieldError p!"size") ∧
    loadedAttr (toyMake .TaskToCompute [(p!"price", .int 1994)]) p!"price" = .ok (.int 1994) ∧
    loadedAttr (toyMake .TaskToCompute [(p!"price", .str p!"1994")]) p!"price"
      = .error (.fieldError p!"price") := by decide +kernel

/-- `test_factory_with_signed_nested_messages`. -/
example :
    (do let m ← signedTask toyEnv G0 (fun b => (b ++ List.replicate 32 0).take 32) toyTaskDraws
          (some (toySk 7, toyVk 7)) (some (toySk 8, toyVk 8)) []
        m.verifySig toyEnv (toyVk 7)
        let wtct ← (Msg.ofVal (getAttr m.attrs p!"want_to_compute_task")).elim (.error .attributeError) .ok
        wtct.verifySig toyEnv (toyVk 8)
        match getAttr wtct.attrs p!"task_header" with
        | .cont .taskHeader fs =>
          headerVerifyF toyEnv fs (toyVk 7)
          match getAttr fs p!"task_owner" with
          | .cont .node node =>
            return getAttr node p!"key" == getAttr m.attrs p!"requestor_id"
              && getAttr fs p!"task_id" == taskGet p!"task_id" m.val
          | _ => .error .attributeError
        | _ => .error .attributeError) = .ok true := by decide +kernel

/-- `TaskToComputeEthsigTest` and `TaskToComputeEthsigFactory`, without the tests that also encrypt. -/
example :
    let task (kw : Attrs) := toyMake .TaskToCompute kw
    let pub : PStr × Val := (p!"requestor_ethereum_public_key", .str (hexlify (toyVk 7)))
    let priv : PStr × Val := (p!"ethsig__privkey", .bytes (toySk 7))
    let keys : PStr × Val := (p!"ethsig__keys", .tuple [.bytes (toySk 7), .bytes (toyVk 7)])
    let off : PStr × Val := (p!"ethsig__disable", .bool true)
    (do return (← loadedAttr (task []) p!"ethsig") == (← made (task []) p!"ethsig")) = .ok true ∧
    made (task [pub]) p!"ethsig" = .ok .none ∧
    (do dumpLoad (← task [pub])).map (fun _ => ()) = .error .invalidSignature ∧
    (do verifyEthsig toyEnv (← generateEthsig toyEnv (← task [pub]) (toySk 7))) = .ok () ∧
    (do generateEthsig toyEnv (← task [(p!"requestor_ethereum_public_key", .none), off]) (toySk 7)).map
      (fun _ => ()) = .error (.fieldError p!"requestor_ethereum_public_key") ∧
    (do verifyEthsig toyEnv (← task [])) = .ok () ∧
    (do verifyEthsig toyEnv (← task [keys])) = .ok () ∧
    made (task [keys]) p!"requestor_ethereum_public_key" = .ok (.str (hexlify (toyVk 7))) ∧
    (task [keys, priv]).map (fun _ => ()) = .error .otherError ∧
    (do verifyEthsig toyEnv (← task [pub, priv])) = .ok () ∧
    (do verifyEthsig toyEnv (← task [pub])) = .error .invalidSignature ∧
    (task [priv]).map (fun _ => ()) = .error (.fieldError p!"requestor_ethereum_public_key") ∧
    (task [priv, off]).map (fun _ => ()) = .error .otherError ∧
    (task [keys, off]).map (fun _ => ()) = .error .otherError := by decide +kernel

/-! ### `test_want_to_compute_task.py` -/

/-- `WantToComputeTaskTest`. -/
example :
    let offer (kw : Attrs) := newMsg .WantToComputeTask kw
    survives (toyMake .WantToComputeTask []) = .ok true ∧
    made (offer []) p!"concent_enabled" = .ok (.bool false) ∧
    made (offer [(p!"concent_enabled", .none)]) p!"concent_enabled" = .ok (.bool false) ∧
    made (offer [(p!"concent_enabled", .bool true)]) p!"concent_enabled" = .ok (.bool true) ∧
    loadedAttr (offer [(p!"extra_data", .dict [(.str p!"some", .str p!"content")])]) p!"extra_data"
      = .ok (.dict [(.str p!"some", .str p!"content")]) ∧
    (do match ← loadedAttr (toyMake .WantToComputeTask []) p!"provider_ethereum_address" with
        | .str a => return a.length
        | _ => return 0) = .ok 42 ∧
    (do let m ← toyMake .WantToComputeTask []
        match getAttr m.attrs p!"task_header" with
        | .cont _ fs => return taskGet p!"task_id" m.val == getAttr fs p!"task_id"
        | _ => return false) = .ok true ∧
    made (offer []) p!"num_subtasks" = .ok (.int 1) ∧
    made (offer [(p!"num_subtasks", .none)]) p!"num_subtasks" = .ok (.int 1) ∧
    loadedAttr (offer [(p!"num_subtasks", .int 17)]) p!"num_subtasks" = .ok (.int 17) ∧
    loadedAttr (offer [(p!"num_subtasks", .float 0x40091EB851EB851F)]) p!"num_subtasks"
      = .error (.fieldError p!"num_subtasks") ∧
    loadedAttr (offer [(p!"num_subtasks", .int 0)]) p!"num_subtasks"
      = .error (.fieldError p!"num_subtasks") ∧
    loadedAttr (offer [(p!"num_subtasks", .int (-7))]) p!"num_subtasks"
      = .error (.fieldError p!"num_subtasks") ∧
    loadedAttr (offer [(p!"cpu_usage", .int (-1))]) p!"cpu_usage" = .error (.fieldError p!"cpu_usage") := by
  decide +kernel

/-! ### `test_subtask_results_rejected.py`, `test_subtask_results_accepted.py` -/

/-- A reason of a rejection. -/
def srrReason (name : PStr) : PStr × Val := (p!"reason", .enum .subtaskResultsRejectedReason name)
def negative := srrReason p!"Results verification negative"
def noResources := srrReason p!"Could not retrieve resources"
def forced := srrReason p!"Concent reported failure to retrieve the resources to verify"
def concentResources := srrReason p!"Concent could not retrieve resources to verify"
def concentNegative := srrReason p!"Concent results verification negative"

/-- `srr_with_fgtrf`, with a change of the copied task. -/
def srrWithFgtrf (change : Msg → Res Msg) : Res Msg := do
  let m ← toyMake .SubtaskResultsRejected [concentOn, forced]
  let ttc ← (Msg.ofVal (← attrOf (getAttr m.attrs p!"report_computed_task") p!"task_to_compute")).elim
    (.error .attributeError) .ok
  let copy ← change (← dumpLoad ttc).2
  let fgtrf ← toyMake .ForceGetTaskResultFailed [(p!"task_to_compute", copy.val)]
  return m.set p!"force_get_task_result_failed" fgtrf.val

/-- `SubtaskResultsRejectedTest`, the slots. -/
example :
    (do let rct ← toyMake .ReportComputedTask []
        let m ← toyMake .SubtaskResultsRejected [(p!"report_computed_task", rct.val), negative]
        isValid m
        return (← m.slots) == slotList [(p!"report_computed_task", ← singleNested rct),
          (p!"force_get_task_result_failed", .tuple [.bool false, .none]),
          (p!"reason", .str p!"Results verification negative")]) = .ok true := by decide +kernel

/-- `SubtaskResultsRejectedTest`, the tests of validity. -/
example :
    (do isValid (← toyMake .SubtaskResultsRejected [(p!"reason", .none)])) = .error .validationError ∧
    (do isValid (← srrWithFgtrf .ok)) = .ok () ∧
    (do isValid (← srrWithFgtrf fun t => setDef toyEnv t p!"task_id" (.str p!"667"))) = .error .validationError ∧
    (do isValid (← srrWithFgtrf fun t => setDef toyEnv t p!"subtask_id" (.str p!"667")))
      = .error .validationError ∧
    (do isValid (← toyMake .SubtaskResultsRejected [forced])) = .error .validationError := by decide +kernel

/-- `SubtaskResultsRejectedTest`, the reasons of a requestor. -/
example :
    let outcome (kw : Attrs) : Res Unit := do rejectedValidForRequestor (← toyMake .SubtaskResultsRejected kw)
    (∀ r ∈ [negative, noResources], outcome [r] = .ok ()) ∧
    (∀ r ∈ [forced, concentResources, concentNegative], outcome [r] = .error .validationError) ∧
    outcome [negative, concentOn] = .ok () ∧
    (do rejectedValidForRequestor (← srrWithFgtrf .ok)) = .ok () ∧
    (∀ r ∈ [noResources, concentResources, concentNegative],
      outcome [r, concentOn] = .error .validationError) := by decide +kernel

/-- `SubtaskResultsAcceptedTest`. -/
example :
    let outcome (offset : Int) : Res Unit := do
      let m ← toyMake .SubtaskResultsAccepted [(p!"payment_ts", .int (testNow + offset))]
      let _ ← dumpLoad (overrideTimestamp m (.int testNow))
      return ()
    (fromSlots .SubtaskResultsAccepted [(p!"report_computed_task", .str p!"something else")] []).map
      (fun _ => ()) = .error (.fieldError p!"report_computed_task") ∧
    (do let rct ← toyMake .ReportComputedTask []
        let m ← fromSlots .SubtaskResultsAccepted [(p!"report_computed_task", ← singleNested rct)] []
        return (Msg.ofVal (getAttr m.attrs p!"report_computed_task")).map Msg.cls)
      = .ok (some .ReportComputedTask) ∧
    outcome 1 = .error .validationError ∧ outcome (-901) = .error .validationError ∧ outcome 0 = .ok () := by
  decide +kernel

/-! ### `test_verification.py` -/

/-- The provider has the keys 7, the requestor 8 and the other 9. -/
def getTtc (kw : Attrs) : Res Msg := do
  let header ← headerFactory toyEnv toyTaskDraws.offer.header []
  let header ← match header with
    | .cont c fs => (headerSign toyEnv fs (toySk 8)).map (Val.cont c)
    | _ => .error .attributeError
  let wtct ← toyMake .WantToComputeTask [(p!"provider_public_key", .str (hexlify (toyVk 7))),
    (p!"task_header", header)]
  toyMake .TaskToCompute ([(p!"requestor_public_key", .str (hexlify (toyVk 8))),
    (p!"want_to_compute_task", wtct.val)] ++ kw)
def signBy (x : UInt8) : Attrs := [(p!"sign__privkey", .bytes (toySk x))]
def getRct (ttcKw kw : Attrs) : Res Msg := do
  toyMake .ReportComputedTask ((p!"task_to_compute", (← getTtc ttcKw).val) :: kw)

/-- `TaskMessageVerificationTest`, the tests of `validate_ownership` and of the chain. -/
example :
    let chain (ttcKw kw : Attrs) : Res Unit := do chainV toyEnv none (← getRct ttcKw kw).val
    (do validateOwnership toyEnv (← getTtc (signBy 8)) none) = .ok () ∧
    (do validateOwnership toyEnv (← getTtc []) none) = .error .invalidSignature ∧
    (do validateOwnership toyEnv (← getTtc (signBy 7)) none) = .error .invalidSignature ∧
    chain (signBy 8) (signBy 7) = .ok () ∧
    chain (signBy 8) [] = .error .invalidSignature ∧
    chain [] (signBy 7) = .error .invalidSignature ∧
    chain (signBy 8) (signBy 8) = .error .invalidSignature ∧
    chain (signBy 7) (signBy 7) = .error .invalidSignature := by decide +kernel

/-- `TaskMessageVerificationTest`, the tests of `verify_owners`. -/
example :
    let outcome (provider requestor : Option Bytes) : Res Unit := do
      verifyOwners toyEnv (← getRct (signBy 8) (signBy 7)) provider requestor none
    outcome (some (toyVk 7)) (some (toyVk 8)) = .ok () ∧ outcome (some (toyVk 7)) none = .ok () ∧
    outcome none (some (toyVk 8)) = .ok () ∧
    outcome (some (toyVk 9)) (some (toyVk 8)) = .error .ownershipMismatch ∧
    outcome (some (toyVk 7)) (some (toyVk 9)) = .error .ownershipMismatch := by decide +kernel

/-! ### `test_ack_report_computed_task.py`, `test_reject_report_computed_task.py`,
`test_compute_task_def.py`, `test_report_computed_task.py`, `test_cannot_compute_task.py` -/

/-- `AckReportComputedTaskTestCase.test_validate_owner_requestor`, `test_validate_owner_concent`. -/
example :
    let outcome (kw : Attrs) (key : UInt8) (concent : Option Bytes) : Res Unit := do
      let m ← toyMake .AckReportComputedTask (kw ++ signBy key)
      validateOwnership toyEnv m concent
    outcome [(p!"report_computed_task__task_to_compute__requestor_public_key", .str (hexlify (toyVk 7)))] 7 none
      = .ok () ∧
    outcome [] 9 (some (toyVk 9)) = .ok () := by decide +kernel

/-- `RejectReportComputedTaskSlotValidationTest`. -/
example :
    let keccak (b : Bytes) := (b ++ List.replicate 32 0).take 32
    let outcome (kw : Attrs) : Res Unit := do
      let _ ← dumpLoad (← toyMake .RejectReportComputedTask kw)
      return ()
    (∀ v ∈ [Variant.withTaskToCompute, .withCannotComputeTask, .withTaskFailure],
      survives (makeVariant toyEnv G0 keccak toyDraws v []) = .ok true) ∧
    outcome [(p!"attached_task_to_compute", .str p!"blah")] = .error (.fieldError p!"attached_task_to_compute") ∧
    (do outcome [(p!"cannot_compute_task", (← toyMake .TaskToCompute []).val)])
      = .error (.fieldError p!"cannot_compute_task") ∧
    (do outcome [(p!"task_failure", (← toyMake .TaskToCompute []).val)])
      = .error (.fieldError p!"task_failure") := by decide +kernel

/-- `ComputeTaskDefTestCase.test_type`, `test_extra_data`. -/
example :
    (do let def_ ← mkFDict toyEnv .computeTaskDef (.dict [])
        let m ← toyMake .TaskToCompute [(p!"compute_task_def", def_)]
        let b ← (serialize toyEnv m none none).1
        let n ← (deserialize toyEnv (some b) .ok true (testNow * 1000000) none).2
        let loaded := getAttr n.attrs p!"compute_task_def"
        let isDef := match loaded with
          | .fdict .computeTaskDef _ => true
          | _ => false
        return isDef && pyEq (getAttr m.attrs p!"compute_task_def") loaded) = .ok true ∧
    (do let extra := dictAttr (← defFactory toyEnv toyTaskDraws.definition []) p!"extra_data"
        let names := [p!"start_task", p!"end_task", p!"total_tasks", p!"outfilebasename", p!"scene_file",
          p!"script_src", p!"frames", p!"output_format"]
        return dictAttr extra p!"path_root" == (.str [] : Val)
          && names.all fun n => (dictAttr extra n).truthy) = .ok true := by decide +kernel

end Verif.Conformance
