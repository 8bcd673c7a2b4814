import Verif.Conformance.Crypto
import Verif.Lemmas.ToyMake
import Verif.Model.Misc
import Verif.Model.Tasks
/-!
# The project's tests of data structures, run on the model

Each example repeats a unit test of `/repo/tests/datastructures`, with real hash functions and
signatures.  These are tests of the model's fidelity, not claims.
-/

namespace Verif.Conformance

open Verif

/-- The attributes of a container or frozen dictionary. -/
def partsOf : Val → Attrs
  | .cont _ fs => fs
  | .fdict _ items => items
  | _ => []

/-- The keys of a text dictionary. -/
def textDict (fs : Attrs) : Val := .dict (fs.map fun kv => (.str kv.1, kv.2))

/-! ### `tests/datastructures/test_tasks.py` -/

/-- The arguments of `TestTaskHeader.setUp` (lines 14-35), at some time. -/
def headerArgs : Attrs :=
  [(p!"mask", .none), (p!"task_id", .str (generateId 0x1e9a5d2f3b4c5d6 0x1234 (asciiBytes p!"key_id"))),
   (p!"task_owner", textDict [(p!"node_name", .str p!"Bob's node"),
     (p!"key", .str (hexlify (asciiBytes p!"key_id"))), (p!"pub_addr", .str p!"10.10.10.10"),
     (p!"pub_port", .int 10101)]),
   (p!"market_type", .enum .marketType p!"Brass"), (p!"environment", .str p!"DEFAULT"),
   (p!"deadline", .int 1700001201), (p!"subtask_timeout", .int 120), (p!"subtasks_count", .int 21),
   (p!"max_price", .int 10), (p!"subtask_budget", .int 10), (p!"min_version", .str p!"0.19.0"),
   (p!"estimated_memory", .int 0), (p!"timestamp", .int 1700000000)]

/-- `TaskHeader(**args)`: nothing, or the exception. -/
def headerOutcome (args : Attrs) : Res Unit := (mkCont realEnv .taskHeader (textDict args)).map fun _ => ()

def without (name : PStr) (args : Attrs) : Attrs := args.filter fun kv => kv.1 != name

/-- `TestTaskHeader` (lines 37-102), except for a deadline of class `datetime`, which the model has no
value for. -/
example :
    headerOutcome headerArgs = .ok () ∧
    headerOutcome (setName p!"subtask_timeout" (.str p!"abc") headerArgs)
      = .error (.fieldError p!"subtask_timeout") ∧
    headerOutcome (setName p!"subtask_timeout" (.int (-131)) headerArgs)
      = .error (.fieldError p!"subtask_timeout") ∧
    headerOutcome (without p!"task_id" headerArgs) = .error (.fieldError p!"task_id") ∧
    headerOutcome (without p!"task_owner" headerArgs) = .error (.fieldError p!"task_owner") ∧
    headerOutcome (without p!"subtasks_count" headerArgs) = .error (.fieldError p!"subtasks_count") ∧
    headerOutcome (setName p!"subtasks_count" .none headerArgs)
      = .error (.fieldError p!"subtasks_count") ∧
    headerOutcome (setName p!"subtasks_count" (.int (-1)) headerArgs)
      = .error (.fieldError p!"subtasks_count") := by decide +kernel

/-- A private key. -/
def someKey : Bytes := toBE 32 0x90eabd48e812207aa6ea62b5558143c2ca6fbfcc8956c8c9e849521af48d2159

/-- The header made by `TestTaskHeaderSignature.setUp` (lines 110-112), with fixed draws. -/
def madeHeader : Res Attrs := (headerFactory realEnv toyTaskDraws.offer.header []).map partsOf

/-- `test_signature` and `test_verify_ok` (lines 114-121). -/
example :
    madeHeader.map (fun h => getAttr h p!"signature") = .ok .none ∧
    (do let h ← headerSign realEnv (← madeHeader) someKey
        return match getAttr h p!"signature" with
          | .bytes b => b.length == 65
          | _ => false) = .ok true ∧
    (do let h ← headerSign realEnv (← madeHeader) someKey
        headerVerifyF realEnv h (publicKey someKey)) = .ok () := by decide +kernel

/-- `test_verify_fail` (lines 123-126). -/
example :
    (do let h ← madeHeader
        headerVerifyF realEnv (setName p!"signature" (.str p!"sp00f") h) (publicKey someKey))
      = .error .invalidSignature := by decide +kernel

/-! ### `tests/datastructures/test_p2p.py` -/

/-- `test_update_public_info_invalid` (lines 23-39) and `test_update_public_info` (lines 41-61). -/
example :
    let publicParts (fs : Attrs) := [getAttr fs p!"pub_addr", getAttr fs p!"pub_port",
      getAttr fs p!"p2p_pub_port", getAttr fs p!"hyperdrive_pub_port"]
    let bare := (nodeFactory realEnv p!"Node 1" [(p!"key", .str p!"key_1")]).map partsOf
    let full := (nodeFactory realEnv p!"Node 1" [(p!"key", .str p!"key_1"),
      (p!"prv_addr", .str p!"10.0.0.10"), (p!"prv_port", .int 40103), (p!"p2p_prv_port", .int 40102),
      (p!"hyperdrive_prv_port", .int 3282)]).map partsOf
    bare.map publicParts = .ok [.none, .none, .none, .none] ∧
    bare.map (fun n => publicParts (updatePublicInfo n)) = .ok [.none, .none, .none, .none] ∧
    full.map publicParts = .ok [.none, .none, .none, .none] ∧
    full.map (fun n => publicParts (updatePublicInfo n))
      = .ok [.str p!"10.0.0.10", .int 40103, .int 40102, .int 3282] := by decide +kernel

/-- The peer of `TestPeer.setUp` (lines 65-66) after an assignment. -/
def peerSet (key : PStr) (v : Val) : Res Attrs := do
  let peer ← peerFactory realEnv p!"192.168.5.7" 40102 p!"Ada" []
  let r := fdAssign realEnv .peer (partsOf peer) (.str key) v
  match r.1 with
  | .ok () => return r.2
  | .error e => .error e

/-- `TestPeer` (lines 68-94). -/
example :
    peerSet p!"port" (.int 0) = .error (.fieldError p!"port") ∧
    peerSet p!"port" (.int (2 ^ 16)) = .error (.fieldError p!"port") ∧
    peerSet p!"node" (.str p!"<Node>") = .error (.fieldError p!"node") ∧
    (do let node ← nodeFactory realEnv p!"Bob" []
        let peer ← peerSet p!"node" (← toDict node)
        return getAttr (partsOf (getAttr peer p!"node")) p!"node_name") = .ok (.str p!"Bob") ∧
    (peerSet p!"address" (.str p!"2001:db8:85a3:8d3:1319:8a2e:370:7348")).map
      (fun p => getAttr p p!"address") = .ok (.str p!"2001:db8:85a3:8d3:1319:8a2e:370:7348") ∧
    peerSet p!"address" .none = .error (.fieldError p!"address") := by decide +kernel

/-! ### `tests/datastructures/test_stats.py` -/

/-- The dictionary of lines 9-54. -/
def cpuArgs : Attrs :=
  [(p!"cpu_usage", textDict [(p!"total_usage", .int 210742887),
      (p!"percpu_usage", .list [.int 2294161, .int 4289803, .int 2629870, .int 13575808, .int 153013241,
        .int 4415022, .int 5868137, .int 5475479, .int 3252549, .int 3329389, .int 7260411, .int 5347658]),
      (p!"usage_in_kernelmode", .int 30000000), (p!"usage_in_usermode", .int 150000000)]),
   (p!"throttling_data", .dict [])]
def memoryArgs : Attrs :=
  [(p!"usage", textDict [(p!"usage", .int 4554752), (p!"max_usage", .int 7172096), (p!"failcnt", .int 0),
      (p!"limit", .int 9223372036854771712)]),
   (p!"swap_usage", .dict []),
   (p!"kernel_usage", textDict [(p!"usage", .int 2748416), (p!"max_usage", .int 2818048),
      (p!"failcnt", .int 0), (p!"limit", .int 9223372036854771712)]),
   (p!"kernel_tcp_usage", .dict []), (p!"stats", .dict [])]
def statsArgs : Attrs :=
  [(p!"cpu_stats", textDict cpuArgs), (p!"memory_stats", textDict memoryArgs), (p!"pids_stats", .dict []),
   (p!"blkio_stats", textDict [
      (p!"io_merged_recursive", textDict [(p!"major", .int 1500), (p!"minor", .int 0), (p!"op", .str p!"test"),
        (p!"value", .int 0)]),
      (p!"sectors_recursive", textDict [(p!"major", .int 666), (p!"minor", .int 0), (p!"op", .str p!"test"),
        (p!"value", .int 0)])])]

/-- `TestProviderStats` (lines 56-87), without the one about the text of `repr`. -/
example :
    let item (d : Val) (key : PStr) : Val := ((d.asDict).bind (dictGet (.str key))).getD (.int 0)
    let made (args : Attrs) : Res Val := do toDict (← mkCont realEnv .providerStats (textDict args))
    (made statsArgs).map (fun d => item d p!"pids_stats") = .ok .none ∧
    (made statsArgs).map (fun d => item (item d p!"cpu_stats") p!"throttling_data") = .ok .none ∧
    made (setName p!"cpu_stats" (.list []) statsArgs) = .error (.fieldError p!"cpu_stats") ∧
    made (setName p!"memory_stats"
        (textDict (setName p!"usage" (.str p!"I should be a dict") memoryArgs)) statsArgs)
      = .error (.fieldError p!"usage") := by decide +kernel

end Verif.Conformance
