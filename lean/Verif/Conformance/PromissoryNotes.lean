import Verif.Conformance.Crypto
import Verif.Lemmas.ToyMake
import Verif.Model.Misc
import Verif.Model.Frame
/-!
# The project's tests of promissory notes in messages, run on the model

The examples repeat `PromissoryNoteMixin` (`/repo/tests/message/mixins.py`),
`TaskToComputePromissoryNotesTest` (`tests/message/tasks/test_task_to_compute.py`) and the test of a note
in `SubtaskResultsVerifyTest` (`tests/message/test_concents.py`) with the real hash functions and
signatures, fixed keys and fixed draws.  These are tests of the model's fidelity, not claims.
-/

namespace Verif.Conformance

open Verif

/-- `FACTORY(**kw)`. -/
def realMake (c : Cls) (kw : Attrs) : Res Msg :=
  make realEnv (fun _ _ _ => .ok .none) keccak256 toyDraws c kw

/-- `helpers.dump_and_load`. -/
def realDumpLoad (m : Msg) : Res Msg := do
  let b ← (dump realEnv (fun _ d => .ok d) m none none).1
  (load realEnv (fun _ d => .ok d) (some b) none none true 1500000000000000).2

/-- `gntdeposit` and `requestor_keys`. -/
def gntdeposit : PStr := p!"0x89915ddA14eFd6b064da953431E8b7f902d89c83"
def payer : Bytes := toBE 32 0xa9851fa4f21721205085bbce34456bf8a54662bd2249ab999af369a887291852
def ethsigOf (priv : Bytes) : Attrs := [(p!"ethsig__keys", .tuple [.bytes priv, .bytes (publicKey priv)])]

/-- Both are sequences with the same items. -/
def sameItems : Val → Val → Bool
  | .tuple a, .tuple b => a == b
  | .tuple a, .list b => a == b
  | _, _ => false

/-- `test_promissory_note`. -/
example :
    (do let m ← signNote realEth.env (← realMake .TaskToCompute (ethsigOf payer)) gntdeposit payer
        let n ← realDumpLoad m
        let sig := p!"promissory_note_sig"
        return (sameItems (getAttr m.attrs sig) (getAttr n.attrs sig), ← verifyNote realEth.env n gntdeposit))
      = .ok (true, true) := by decide +kernel

/-- `test_promissory_note_empty`, `test_concent_promissory_note_empty`. -/
example :
    let m := realMake .TaskToCompute []
    (do verifyNote realEth.env (← m) gntdeposit) = .ok false ∧
    (do verifyConcentNote realEth.env (← m) gntdeposit) = .ok false ∧
    (do verifySrvNote realEth.env (← realMake .SubtaskResultsVerify []) gntdeposit) = .ok false := by
  decide +kernel

/-- `test_promissory_note_bad`, `test_concent_promissory_note_bad`. -/
example :
    let m := realMake .TaskToCompute []
    (do verifyNote realEth.env (← signNote realEth.env (← m) gntdeposit payer) gntdeposit) = .ok false ∧
    (do verifyConcentNote realEth.env (← signConcentNote realEth.env (← m) gntdeposit payer) gntdeposit)
      = .ok false ∧
    (do let srv ← realMake .SubtaskResultsVerify []
        verifySrvNote realEth.env (← signSrvNote realEth.env srv gntdeposit payer) gntdeposit)
      = .ok false := by
  decide +kernel

/-- `test_concent_promissory_note` of a `TaskToCompute`. -/
example :
    (do let ttc ← realMake .TaskToCompute [(p!"requestor_ethereum_public_key", .str (← encodeHex (.bytes (publicKey payer)))),
          (p!"ethsig__privkey", .bytes payer)]
        let m ← signConcentNote realEth.env ttc gntdeposit payer
        let n ← realDumpLoad m
        let sig := p!"concent_promissory_note_sig"
        return (sameItems (getAttr m.attrs sig) (getAttr n.attrs sig), ← verifyConcentNote realEth.env n gntdeposit))
      = .ok (true, true) := by decide +kernel

/-- `test_sign_all_promissory_notes`. -/
example :
    (do let m ← signAllNotes realEth.env (← realMake .TaskToCompute (ethsigOf payer)) gntdeposit payer
        verifyAllNotes realEth.env (← realDumpLoad m) gntdeposit) = .ok true := by decide +kernel

/-- `test_concent_promissory_note` of a `SubtaskResultsVerify`. -/
example :
    (do let address ← pubkeyToAddress keccak256 (.str (hexlify (publicKey payer)))
        let wtct ← realMake .WantToComputeTask [(p!"provider_ethereum_address", .str address)]
        let srv ← realMake .SubtaskResultsVerify [
          (p!"subtask_results_rejected__report_computed_task__task_to_compute__want_to_compute_task", wtct.val)]
        let srv ← signSrvNote realEth.env srv gntdeposit payer
        verifySrvNote realEth.env (← realDumpLoad srv) gntdeposit) = .ok true := by decide +kernel

end Verif.Conformance
