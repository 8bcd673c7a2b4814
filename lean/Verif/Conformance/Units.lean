import Verif.Conformance.Crypto
import Verif.Model.Helpers
import Verif.Model.Mask
import Verif.Model.Version
import Verif.Model.Register
import Verif.Model.Eccx
import Verif.Model.Frame
/-!
# The project's tests of small functions, run on the model

Each example repeats a unit test of `/repo/tests` with the values the test expects.  These are tests
of the model's fidelity, not claims: no claim rests on them.
-/

namespace Verif.Conformance

open Verif

/-! ### `tests/test_utils.py` -/

/-- `test_bytes_uuid`. -/
example :
    let u := ofBE (asciiBytes p!"0123456789012345")
    (uuidToBytes32 u).length = 32 ∧ bytes32ToUuid (uuidToBytes32 u) = .ok u := by decide +kernel

/-- The key of the first two tests of addresses. -/
def hexKey : PStr :=
  p!"d029f6c7fe83148774dec2f19cc095b375a362e7684a5cdab7ac4587fc146a726494f96ddc38635ceccdeba4ec14784d735511acccabc29effdf584a3589a86e"

/-- `test_hex_pubkey_to_address`, `test_0x_hex_pubkey_to_address`. -/
example :
    pubkeyToAddress keccak256 (.str hexKey) = .ok p!"0xA2B1b6644F953d3d8488C35132045CC235A568E4" ∧
    pubkeyToAddress keccak256 (.str (p!"0x" ++ hexKey)) = .ok p!"0xA2B1b6644F953d3d8488C35132045CC235A568E4" := by
  decide +kernel

/-- `test_bytes_pubkey_to_address`. -/
example : pubkeyToAddress keccak256 (.bytes (toBE 64
    0x31d11102ae4d84b02302cd28dd67c26590ac93832a3b2f16292ca2dbc2ad9947ac7e88748d77510cb1608dc78f2ee44d5054eac7ed62ac27f3e700f11df0e4fb))
      = .ok p!"0xF74a023B90AA8Af867E8ad56afeBfF66E2fDBd46" := by decide +kernel

/-- `test_int_pubkey_to_address`. -/
example : pubkeyToAddress keccak256 (.int
    2609110495624912638150583483236841806553203533339234906905365098343380175475295486001029538586874858100961903958556513559452241970505204661562102403622139)
      = .ok p!"0xF74a023B90AA8Af867E8ad56afeBfF66E2fDBd46" := by decide +kernel

/-! ### `tests/test_helpers.py` -/

/-- `test_maximum_download_time`, `test_maximum_download_time_w_rate`. -/
example :
    maximumDownloadTime (100 * (defaultUploadRate <<< 10)) defaultUploadRate = .ok (100 + 60) ∧
    downloadTime (.int (100 * (48 <<< 10))) = .ok (160 * 1000000) ∧
    maximumDownloadTime (10240 <<< 10) 1024 = .ok (10 + 60) := by decide +kernel

/-- `test_svt`.  The test replaces the download time by 10 seconds and expects 1090;
without that replacement the time is at least a minute, for an empty result exactly a minute. -/
example :
    let ttc : Val := .msg .TaskToCompute (.int 2002) (.int 0) (.bool false) .none
      [(p!"compute_task_def", .fdict .computeTaskDef [(p!"deadline", .int 200)])]
    subtaskVerificationTime ⟨.ReportComputedTask, .int 2004, .int 0, .bool false, .none,
      [(p!"task_to_compute", ttc), (p!"size", .int 0)]⟩
      = .ok ((1090 + 3 * (60 - 10)) * 1000000) := by decide +kernel

/-- The tests of the deposits. -/
example : requestorDeposit 10 = (20, 40) ∧ providerDeposit 1 = (1, 4) := by decide

/-! ### `tests/test_idgenerator.py` -/

/-- `SeedToNodeTest.PRIVKEY`. -/
def idKey : Bytes := toBE 32 0x90eabd48e812207aa6ea62b5558143c2ca6fbfcc8956c8c9e849521af48d2159

/-- `SeedToNodeTest.test_it`, from the private key. -/
example : seedToNode (publicKey idKey) = 77362412866330 := by decide +kernel

/-- `CheckIDSeedTest` and `test_generate_id`, `test_generate_new_id_from_id`, with this key at some time. -/
example :
    let id := generateId 0x1e9a5d2f3b4c5d6 0x1234 (publicKey idKey)
    checkIdSeed (.str p!"invalid") (publicKey idKey) = .ok false ∧
    checkIdSeed (.str (id.take 24 ++ List.replicate 12 '0')) (publicKey idKey) = .ok false ∧
    checkIdSeed (.str id) (publicKey idKey) = .ok true ∧
    (parseUuid id).map uuidNode = some 77362412866330 ∧
    (do let new ← generateNewIdFromId 0x1e9a5d2f3b4c5d7 0x0321 id
        return new.drop 24 == id.drop 24 && new != id) = .ok true := by decide +kernel

/-! ### `tests/test_register.py` -/

/-- `test_duplicate`. -/
example :
    let r := (Register.empty (C := Nat)).register 0 1
    r.1 = .ok () ∧ (r.2.register 0 2).1 = .error .runtimeError := by decide

/-! ### `tests/test_cryptography.py` -/

/-- The functions of `ECCx`. -/
def realEcc : EccPrims where
  point k := .ok (4 :: publicKey k)
  checkKey k x y := if publicKey k = x ++ y then 0 else -1

/-- `test_signature`. -/
example :
    let message := keccak256 (asciiBytes p!"Hello Alice")
    let other := keccak256 (asciiBytes p!"Hello Alicf")
    let outcome (signed : Bytes) : Res Unit := do
      let k ← mkPrivkey keccak256 (.str p!"secret2")
      let bob : Ecc := ⟨k, (publicKey k).take 32, (publicKey k).drop 32⟩
      let s ← bob.sign realEnv signed
      realEnv.ecdsaVerify bob.rawPubkey (.bytes s) message
    outcome message = .ok () ∧ outcome other = .error .invalidSignature := by decide +kernel

/-- `test_privtopub`. -/
example :
    (do let priv ← mkPrivkey keccak256 (.str p!"test")
        let pub ← privtopub realEcc priv
        let keys ← (eccx realEcc (some priv) (fun _ => ⟨[], [], []⟩) 1).getD (.error .runtimeError)
        return pub == keys.rawPubkey) = (.ok true : Res Bool) := by decide +kernel

/-! ### `tests/datastructures/test_promissory.py` -/

/-- The key pair of `setUp`: the public key belongs to the private one. -/
def noteKey : Bytes := toBE 32 0xa9851fa4f21721205085bbce34456bf8a54662bd2249ab999af369a887291852

example : publicKey noteKey = toBE 64
    0x77b35dc3a290518be161607cc60b4fb65348132c1768d35a8852ad4bd7a34be857dffeb1f4a102f7060c05a0bbbdbda5fc9e8a5f257b20bd12e50ddb28368e9f := by
  decide +kernel

/-- `promissory_note`. -/
def note : Note where
  addressFrom := p!"0x459bC6422378156c3dbf3d7Ad4ec3411BA488f40"
  addressTo := p!"0x8bbd87311EA35490B6BE9c7C81e2ae5BCD6f111D"
  amount := .int 667
  subtaskId := p!"84ef2787-9daa-abad-0a0b-77b35dc3a290"
  contract := p!"0x89915ddA14eFd6b064da953431E8b7f902d89c83"

/-- `address_from`. -/
example : pubkeyToAddress keccak256 (.str (hexlify (publicKey noteKey))) = .ok note.addressFrom := by
  decide +kernel

/-- `test_subtask_id_bytes`. -/
example : (parseUuid note.subtaskId).map uuidToBytes32
    = some (toBE 16 0x84ef27879daaabad0a0b77b35dc3a290 ++ List.replicate 16 0) := by decide +kernel

/-- `test_hexmsg`. -/
example : note.hexmsg = .ok
    p!"0x89915ddA14eFd6b064da953431E8b7f902d89c83459bC6422378156c3dbf3d7Ad4ec3411BA488f408bbd87311EA35490B6BE9c7C81e2ae5BCD6f111D000000000000000000000000000000000000000000000000000000000000029b84ef27879daaabad0a0b77b35dc3a29000000000000000000000000000000000" := by
  decide +kernel

/-- `test_hash`. -/
example : note.hash realEth.env
    = .ok (toBE 32 0xa937d5fb0f189d396d9fa95587ec3ae83d86574d6398e308dfeea905789860bd) := by decide +kernel

/-- `test_sign` and `test_sig_valid`. -/
example :
    (do note.sigValid realEth.env (← note.sign realEth.env noteKey)) = .ok true ∧
    (do match ← note.sign realEth.env noteKey with
        | .tuple [.int _, .bytes _, .bytes _] => return true
        | _ => return false) = (.ok true : Res Bool) := by decide +kernel

/-- `test_not_sig_valid_broken_content`, `test_not_sig_valid_wrong_signature_key`. -/
example :
    let broken : Note := { note with addressTo := note.addressFrom }
    (do note.sigValid realEth.env (← broken.sign realEth.env noteKey)) = .ok false ∧
    (do note.sigValid realEth.env (← note.sign realEth.env idKey)) = .ok false := by decide +kernel

/-- `test_not_sig_valid_empty`, `test_not_sig_valid_corrupted`. -/
example : note.sigValid realEth.env .none = .ok false ∧
    note.sigValid realEth.env (.tuple [.int 1, .int 2]) = .error .typeError := by decide +kernel

/-! ### `tests/datastructures/test_masking.py` -/

/-- The sampling function of the tests that replace `random.sample`, and one that takes the first
elements. -/
def fixedSample (l : List Nat) : Sampler := fun _ _ => l
def firstSample : Sampler := fun l k => l.take k

/-- `test_generate_negative_bits_num`, `test_generate_num_bits_above_limit`. -/
example : Mask.generate firstSample (-1) = .error .valueError ∧
    (Mask.generate firstSample 257).map Mask.numBits = .ok 256 := by decide +kernel

/-- `test_bits_num`, for some of its numbers. -/
example : ∀ i ∈ ([0, 1, 2, 77, 255] : List Nat), (Mask.generate firstSample i).map Mask.numBits = .ok i := by
  decide +kernel

/-- `test_to_bytes`, `test_to_int`; masks of 32 bytes instead of the test's 4. -/
example :
    Mask.generate (fixedSample (List.range 8)) 8 = .ok ⟨List.replicate 31 0 ++ [0xff]⟩ ∧
    Mask.generate (fixedSample [10]) 1 = .ok ⟨List.replicate 30 0 ++ [4, 0]⟩ ∧
    (Mask.generate (fixedSample (List.range 8)) 8).map Mask.toInt = .ok 255 ∧
    (Mask.generate (fixedSample [10]) 1).map Mask.toInt = .ok 1024 := by decide +kernel

/-- `test_increase_above_limit`, `test_increase_below_limit`. -/
example : (Mask.default.increase firstSample 257).map Mask.numBits = .ok 256 ∧
    Mask.default.increase firstSample (-1) = .error .valueError := by decide +kernel

/-- `test_decrease_above_limit`, `test_decrease_below_limit`. -/
example :
    let full : Mask := ⟨List.replicate 32 0xff⟩
    (full.decrease firstSample 257).map Mask.numBits = .ok 0 ∧
    full.decrease firstSample (-1) = .error .valueError := by decide +kernel

/-- The whole part of the logarithm of `m * 2 ^ k`. -/
def floorLog2 (x : Nat × Int) : Int := Nat.log2 x.1 + x.2

/-- `test_get_mask_for_task_zero_network_size`, `test_get_mask_for_task`. -/
example :
    (Mask.forTask firstSample floorLog2 10 0).map Mask.numBits = .ok 0 ∧
    (Mask.forTask firstSample floorLog2 1 200).map Mask.numBits = .ok 8 ∧
    (Mask.forTask firstSample floorLog2 16 200).map Mask.numBits = .ok 4 ∧
    (Mask.forTask firstSample floorLog2 80 200).map Mask.numBits = .ok 2 ∧
    (Mask.forTask firstSample floorLog2 5000 200).map Mask.numBits = .ok 0 := by decide +kernel

/-! ### `tests/test_basic.py` -/

/-- `test_deserialize_old_timestamp`: `struct.pack('!HQ?', 1, 1516272285269707, False)`. -/
example : deserializeHeader (toBE 2 1 ++ toBE 8 1516272285269707 ++ [0]) = .error .headerError := by
  decide +kernel

/-- `TimestampTestCase`, at some time. -/
example :
    let now : Int := 1700000000
    let check (ts : Int) := verifyTime (now * 1000000) ts
    check (now - 150 * 2 - 30 - 135 * 2) = .ok () ∧ check now = .ok () ∧ check (now + 150 * 2) = .ok () ∧
    check (now - 150 * 2 - 30 - 135 * 2 - 1) = .error .messageTooOld ∧
    check (now + 150 * 2 + 1) = .error .messageFromFuture := by decide +kernel

/-- `VerifyVersionTestCase`, with one version for all tests, without the one that gives no version. -/
example :
    verifyVersion p!"1.1.1" p!"1.2.0" = .error .versionMismatch ∧
    verifyVersion p!"1.1.1" p!"1.1.2" = .ok () ∧
    verifyVersion p!"1.1.1" p!"1.1.1" = .ok () ∧
    verifyVersion p!"1.1.1" p!"1.0.9" = .error .versionMismatch ∧
    verifyVersion p!"1.1.1" p!"Czy to bajka, czy nie bajka,Myślcie sobie, jak tam chcecie."
      = .error .versionMismatch := by decide +kernel

end Verif.Conformance
