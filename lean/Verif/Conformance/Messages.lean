import Verif.Lemmas.ToyMake
import Verif.Model.PyEq
import Verif.Model.Helpers
import Verif.Model.Frame
/-!
# The project's tests of basic messages, run on the model

Each example repeats a unit test of `/repo/tests`, with toy signatures and fixed draws.  These are tests
of the model's fidelity, not claims.
-/

namespace Verif.Conformance

open Verif

/-- No property getter is needed. -/
def G0 : Getter := fun _ _ _ => .ok .none

/-- The second at which everything happens. -/
def testNow : Int := 1500000000

/-- `cls(**kwargs)` and `cls(slots=slots, **kwargs)`. -/
def newMsg (c : Cls) (kw : Attrs) : Res Msg := newMessage toyEnv G0 testNow c none .none (.list []) false kw
def fromSlots (c : Cls) (slots : List (PStr × Val)) (kw : Attrs) : Res Msg :=
  newMessage toyEnv G0 testNow c none .none (.list (slots.map fun kv => .tuple [.str kv.1, kv.2])) false kw

/-- Encryption that does nothing: the tests encrypt and decrypt with the same pair of keys. -/
def noCrypt : Bytes → Bytes → Res Bytes := fun _ d => .ok d

/-- `helpers.dump_and_load` (`tests/message/helpers.py`); also the message as `dump` leaves it. -/
def dumpLoad (m : Msg) : Res (Msg × Msg) := do
  let r := dump toyEnv noCrypt m none none
  let b ← r.1
  let n ← (load toyEnv noCrypt (some b) none none true (testNow * 1000000)).2
  return (r.2, n)

/-- `SerializationMixin.test_serialization` (`tests/message/mixins.py`). -/
def survives (m : Res Msg) : Res Bool := do
  let r ← dumpLoad (← m)
  r.1.eq r.2

/-- What an attribute is after dumping and loading. -/
def loadedAttr (m : Res Msg) (name : PStr) : Res Val := do
  return getAttr (← dumpLoad (← m)).2.attrs name

/-- The expected `slots()`. -/
def slotList (l : Attrs) : Val := .list (l.map fun kv => .list [.str kv.1, kv.2])
def slotsOf (m : Res Msg) : Res Val := do (← m).slots

/-- `helpers.nested`, `helpers.single_nested`, `helpers.list_nested`. -/
def nested (m : Msg) : Res Val := do
  return .tuple [.tuple [m.ty, m.ts, m.enc], m.sig, ← m.slots]
def singleNested (m : Msg) : Res Val := do return .tuple [.bool false, ← nested m]
def listNested (l : List Msg) : Res Val := do return .tuple [.bool true, .list (← l.mapM nested)]

/-! ### `tests/test_basic.py` -/

/-- `MessageEqualityTest`. -/
example :
    let compare (change : Msg → Msg) (clone : Msg → Res Msg) : Res Bool := do
      let m ← newMsg .RandVal [(p!"rand_val", .int 1)]
      m.eq (change (← clone m))
    let clone (m : Msg) := cloneMessage toyEnv G0 testNow m none none
    survives (newMsg .Ping []) = .ok true ∧
    (do let m ← newMsg .RandVal [(p!"rand_val", .int 1)]
        let m := (dump toyEnv noCrypt m (some (toySk 7)) none).2
        m.eq (← clone m)) = .ok true ∧
    compare (fun m => m.set p!"rand_val" (.int 2)) clone = .ok false ∧
    compare (fun m => { m with ts := .int (testNow + 1) }) clone = .ok false ∧
    compare (fun m => { m with ty := .int 2 }) clone = .ok false ∧
    (do let m ← newMsg .RandVal [(p!"rand_val", .int 1)]
        let n ← clone m
        ({ m with sig := .int 1 } : Msg).eq { n with sig := .int 2 }) = .ok false ∧
    compare id clone = .ok true := by decide +kernel

/-- `test_hello_version`; the text stands for the test's opaque object. -/
example :
    (newMsg .Hello []).map (fun m => lookupName p!"_version" m.attrs) = .ok (some (.str p!"1.2.3")) ∧
    (newMessage toyEnv G0 testNow .Hello (some (.int 0, .int testNow, .bool false)) .none (.list []) true
      []).map (fun m => lookupName p!"_version" m.attrs) = .ok none ∧
    (newMsg .Hello [(p!"_version", .str p!"object")]).map (fun m => lookupName p!"_version" m.attrs)
      = .ok (some (.str p!"object")) ∧
    (fromSlots .Hello [(p!"_version", .str p!"object")] []).map (fun m => lookupName p!"_version" m.attrs)
      = .ok (some (.str p!"1.2.3")) := by decide +kernel

/-- `test_hello_version_signature`. -/
example :
    let outcome (change : Msg → Msg) : Res Unit := do
      let b ← (dump toyEnv noCrypt (← newMsg .Hello []) (some (toySk 7)) (some (toyVk 7))).1
      let m ← (load toyEnv noCrypt (some b) (some (toySk 7)) (some (toyVk 7)) true (testNow * 1000000)).2
      (change m).verifySig toyEnv (toyVk 7)
    outcome id = .ok () ∧
    outcome (fun m => m.set p!"_version" (.str p!"haxior"))
      = .error .invalidSignature := by decide +kernel

/-- `test_signature_overwriting`. -/
example :
    (do let m ← newMsg .Ping []
        let r := serialize toyEnv m none none
        let b ← r.1
        let n ← (deserialize toyEnv (some b) .ok true (testNow * 1000000) none).2
        let _ ← (serialize toyEnv n none none).1
        return n.sig) = .ok (.bytes (List.replicate 65 0)) ∧
    (do let m ← newMsg .Ping []
        let m := (serialize toyEnv m none none).2
        let b ← (dump toyEnv noCrypt m (some (toySk 7)) (some (toyVk 7))).1
        return b) = .error .signatureAlreadyExists := by decide +kernel

/-- `MessageSignatureTest`. -/
example :
    let signed : Res Msg := do (← newMsg .Hello []).signMessage toyEnv (toySk 7)
    (do (← signed).verifySig toyEnv (toyVk 7)) = .ok () ∧
    (do (← newMsg .Hello []).verifySig toyEnv (toyVk 7)) = .error .invalidSignature ∧
    (do (← signed).verifySig toyEnv (toyVk 8)) = .error .invalidSignature ∧
    (do (← cloneMessage toyEnv G0 testNow (← signed) none none).verifySig toyEnv (toyVk 7)) = .ok () ∧
    (do (← cloneMessage toyEnv G0 testNow (← signed) none
          (some (.int 0, .int (testNow + 667), .bool false))).verifySig toyEnv (toyVk 7))
      = .error .invalidSignature := by decide +kernel

/-- `MessageFactoryTest`. -/
example :
    (toyMake .Hello []).map Msg.sig = .ok .none ∧
    (do (← toyMake .Hello [(p!"sign__privkey", .bytes (toySk 7))]).verifySig toyEnv (toyVk 7)) = .ok () ∧
    (do let m ← toyMake .ReportComputedTask [(p!"task_to_compute__sign__privkey", .bytes (toySk 8)),
          (p!"sign__privkey", .bytes (toySk 7))]
        m.verifySig toyEnv (toyVk 7)
        match Msg.ofVal (getAttr m.attrs p!"task_to_compute") with
          | some t => t.verifySig toyEnv (toyVk 8)
          | none => .error .attributeError) = .ok () := by decide +kernel

/-- `SlotSerializationTestCase`. -/
example :
    let reason (v : Val) := loadedAttr (newMsg .Disconnect [(p!"reason", v)]) p!"reason"
    reason (.enum .disconnectReason p!"duplicate_peers") = .ok (.enum .disconnectReason p!"duplicate_peers") ∧
    reason (.str p!"duplicate_peers") = .ok (.enum .disconnectReason p!"duplicate_peers") ∧
    reason (.str p!"Every man is the builder of a temple called his body. —HDT")
      = .error (.fieldError p!"reason") := by decide +kernel

/-- The registered classes with a slot `task_to_compute`. -/
def withTask : List Cls :=
  Cls.all.filter fun c => c.payload.contains p!"task_to_compute"

/-- `NestedMessageTestCase.test_valid_task_to_compute`. -/
example :
    let testSig : Val := .bytes ((asciiBytes
      p!"jak przystalo na bistro czesto sie zmieniai jest wypisywane na tablicy w lokalu").take 65)
    withTask.length = 6 ∧
    ∀ c ∈ withTask,
      (do let def_ ← mkFDict toyEnv .computeTaskDef (.dict [])
          let ttc ← toyMake .TaskToCompute [(p!"compute_task_def", def_)]
          let m ← newMsg c []
          let m := m.set p!"task_to_compute" ({ ttc with sig := testSig } : Msg).val
          let b ← (serialize toyEnv m none none).1
          let n ← (deserialize toyEnv (some b) .ok true (testNow * 1000000) none).2
          return (Msg.ofVal (getAttr n.attrs p!"task_to_compute")).map Msg.sig) = .ok (some testSig) := by
  decide +kernel

/-- `test_invalid_task_to_compute`. -/
example : ∀ c ∈ withTask,
    (do let m ← newMsg c []
        let m := m.set p!"task_to_compute"
          (.str p!"There’s so much to learn when you’re slingingpaint and pencil")
        (serialize toyEnv m none none).1) = .error (.fieldError p!"task_to_compute") := by decide +kernel

/-- `test_reject_report_computed_task_with_cannot_compute_task`. -/
example :
    (do let def_ ← mkFDict toyEnv .computeTaskDef (.dict [(.str p!"deadline",
          .str p!"You call it madness, but I call it Love -- Nat King Cole")])
        let ttc ← toyMake .TaskToCompute [(p!"compute_task_def", def_)]
        let cct ← newMsg .CannotComputeTask []
        let cct := (cct.set p!"reason" (.enum .cannotComputeReason p!"WrongCTD")).set p!"task_to_compute" ttc.val
        let m ← newMsg .RejectReportComputedTask [(p!"attached_task_to_compute", ttc.val)]
        let m := (m.set p!"reason" (.enum .rejectReportReason p!"GotMessageCannotComputeTask")).set
          p!"cannot_compute_task" cct.val
        let b ← (serialize toyEnv m none none).1
        let n ← (deserialize toyEnv (some b) .ok true (testNow * 1000000) none).2
        let c ← attrOf (getAttr n.attrs p!"cannot_compute_task") p!"task_to_compute"
        return dictAttr (← attrOf c p!"compute_task_def") p!"deadline")
      = .ok (.str p!"You call it madness, but I call it Love -- Nat King Cole") := by decide +kernel

/-! ### `tests/message/test_messages.py` -/

/-- `InitializationTestCase`. -/
example :
    let one : Val := .str p!"Tuż nad Bugiem, z lewej strony,"
    let other : Val := .str p!"Stoi wielki bór zielony."
    (newMsg .Hello []).map (fun m => (m.attrs.filter fun kv => kv.1.head? != some '_').all
      fun kv => kv.2 == .none) = .ok true ∧
    (newMsg .Hello [(p!"challenge", one)]).map (fun m => getAttr m.attrs p!"challenge") = .ok one ∧
    (fromSlots .Hello [(p!"challenge", one)] []).map (fun m => getAttr m.attrs p!"challenge") = .ok one ∧
    (fromSlots .Hello [(p!"challenge", other)] [(p!"challenge", one)]).map
      (fun m => getAttr m.attrs p!"challenge") = .ok other := by decide +kernel

/-- `test_message_randval`, `test_message_challenge_solution` (with a shorter text),
`test_no_payload_messages`. -/
example :
    slotsOf (newMsg .RandVal [(p!"rand_val", .float 0x3FE0000000000000)])
      = .ok (slotList [(p!"rand_val", .float 0x3FE0000000000000)]) ∧
    slotsOf (newMsg .ChallengeSolution [(p!"solution", .str p!"O gajach świętych")])
      = .ok (slotList [(p!"solution", .str p!"O gajach świętych")]) ∧
    ∀ c ∈ [Cls.Ping, .Pong, .GetPeers, .GetTasks, .GetResourcePeers, .StopGossip],
      slotsOf (newMsg c []) = .ok (.list []) := by decide +kernel

/-- `test_list_messages`. -/
example :
    let check (c : Cls) (key : PStr) (item : Res Val) : Res Bool := do
      let v : Val := .list [← item]
      let s ← serSlot c key v
      return (← slotsOf (newMsg c [])) == slotList [(key, .list [])]
        && (← slotsOf (newMsg c [(key, v)])) == slotList [(key, s)]
        && (← slotsOf (fromSlots c [(key, s)] [])) == slotList [(key, s)]
    check .Peers p!"peers" (peerFactory toyEnv p!"1.2.3.4" 40102 p!"Ada" []) = .ok true ∧
    check .Tasks p!"tasks" (headerFactory toyEnv toyTaskDraws.offer.header []) = .ok true ∧
    check .ResourcePeers p!"resource_peers" (.ok (.str p!"object")) = .ok true ∧
    check .Gossip p!"gossip" (.ok (.str p!"object")) = .ok true := by decide +kernel

/-- `test_int_messages`, `test_uuid_messages`, `test_message_loc_rank`, `test_message_push`,
`test_message_pull_answer`. -/
example :
    let keeps (c : Cls) (l : Attrs) : Bool := slotsOf (newMsg c l) == .ok (slotList l)
    let id : Val := .str p!"test-5b3e1e40-8a07-4b5b-9d2e-c0ffee123456"
    keeps .Disconnect [(p!"reason", .int (-1234567890))] ∧ keeps .Degree [(p!"degree", .int 9999999999)] ∧
    keeps .RemoveTask [(p!"task_id", id)] ∧ keeps .FindNode [(p!"node_key_id", id)] ∧
    keeps .StartSessionResponse [(p!"conn_id", id)] ∧ keeps .HasResource [(p!"resource", id)] ∧
    keeps .WantsResource [(p!"resource", id)] ∧ keeps .PullResource [(p!"resource", id)] ∧
    keeps .LocRank [(p!"node_id", id), (p!"loc_rank", .int 7)] ∧
    keeps .PushResource [(p!"copies", .int (-7)), (p!"resource", id)] ∧
    keeps .PullAnswer [(p!"resource", id), (p!"has_resource", .bool true)] ∧
    keeps .PullAnswer [(p!"resource", id), (p!"has_resource", .bool false)] := by decide +kernel

/-- `test_message_task_failure`, `test_message_cannot_compute_task`; the reason of the first is compared
by its value, which is what the tests' `==` of an enum member with a text amounts to. -/
example :
    let item (s : Val) (key : PStr) : Val := (dictGet (.str key) (dictOf s)).getD (.int 0)
    (do let ttc ← toyMake .TaskToCompute []
        let s ← slotsOf (newMsg .TaskFailure [(p!"task_to_compute", ttc.val), (p!"err", .str p!"Przesąd")])
        return [item s p!"task_to_compute" == (← singleNested ttc), item s p!"err" == (.str p!"Przesąd" : Val),
          item s p!"reason" == (.str p!"ComputationError" : Val), (dictOf s).length == 3])
      = .ok [true, true, true, true] ∧
    (do let ttc ← toyMake .TaskToCompute []
        let s ← slotsOf (newMsg .CannotComputeTask [(p!"task_to_compute", ttc.val), (p!"reason", .str p!"młot")])
        return [item s p!"task_to_compute" == (← singleNested ttc), item s p!"reason" == (.str p!"młot" : Val),
          (dictOf s).length == 2]) = .ok [true, true, true] := by decide +kernel

/-- `test_message_remove_task_container`. -/
example :
    (do let parts ← (List.range 10).mapM fun i => newMsg .RemoveTask [(p!"task_id", .str [Char.ofNat (97 + i)])]
        let m ← newMsg .RemoveTaskContainer [(p!"remove_tasks", .list (parts.map Msg.val))]
        let n := (← dumpLoad m).2
        return (← n.slots) == slotList [(p!"remove_tasks", ← listNested parts)]
          && getAttr n.attrs p!"remove_tasks" == (.list (parts.map Msg.val) : Val)) = .ok true := by decide +kernel

/-! ### `tests/message/test_base.py` -/

/-- `TestHelloNodeInfo`. -/
example :
    let outcome (v : Res Val) : Res Unit := do
      let m ← toyMake .Hello []
      let _ ← dumpLoad (m.set p!"node_info" (← v))
      return ()
    outcome (.ok .none) = .ok () ∧
    outcome (.ok (.dict [(.str p!"node_name", .str p!"Drukarka Linux")])) = .error (.fieldError p!"node_info") ∧
    outcome (nodeFactory toyEnv p!"Bob" []) = .ok () := by decide +kernel

/-- `test_decryptions_fails`; the exception thrown is any that is no `DecryptionError`. -/
example : (deserialize toyEnv (some (toBE 2 1 ++ toBE 8 1500000000 ++ [1] ++ List.replicate 100 42))
    (fun _ => .error .attributeError) false 0 none).2 = .error .decryptionError := by decide +kernel

end Verif.Conformance
