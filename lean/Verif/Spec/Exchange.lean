import Verif.Spec.Ownership
import Verif.Spec.RoundTrip
import Verif.Spec.Hex
import Verif.Model.Frame
/-! # Specification: an exchange between honest parties -/

namespace Verif.Spec

open Verif

/-- A key pair of the signature scheme: what the private key signs recovers to the public key. -/
structure KeyPair (E : Env) (priv pub : Bytes) : Prop where
  law : ∀ x s, E.sign priv (E.sha3 x) = .ok s →
    s.length = 65 ∧ E.recover (.bytes s) (E.sha3 x) = some (4 :: pub)
  length : pub.length = 64
  given : priv ≠ []

/-- The key pairs (private, public) of everybody involved in a subtask; `eth` is the requestor's
second pair, for payments. -/
structure Parties where
  requestor : Bytes × Bytes
  provider : Bytes × Bytes
  concent : Bytes × Bytes
  eth : Bytes × Bytes

/-- The pair of an owner. -/
def Parties.pair (P : Parties) : Owner → Bytes × Bytes
  | .requestor => P.requestor
  | .provider => P.provider
  | .concent => P.concent

/-- All pairs belong to the signature scheme. -/
def Parties.Sound (E : Env) (P : Parties) : Prop :=
  (∀ o, KeyPair E (P.pair o).1 (P.pair o).2) ∧ KeyPair E P.eth.1 P.eth.2

/-- One transmission: the sender, encryption and the receiver's key pair if the message is
encrypted, and whether, and when, the receiver looks at the clock. -/
structure Delivery where
  sender : Bytes × Bytes
  encrypt : Bytes → Bytes → Res Bytes
  dec : Bytes → Bytes → Res Bytes
  rpub : Option Bytes
  rpriv : Option Bytes
  ct : Bool
  now : Int

/-- The message `m` is dumped for the delivery: it is new, not yet signed, holds what its class
declares and arrives in time; what is encrypted for the receiver they can decrypt.  The frame is
`b`, and afterwards the sender has the signed message `m'`. -/
structure Sends (E : Env) (T : Delivery) (m : Msg) (b : Bytes) (m' : Msg) : Prop where
  typed : WellTypedMsg E m
  unsigned : m.sig = .none
  type : m.ty = .int m.cls.typeId
  time : ∃ t : Nat, m.ts = .int t ∧ minTimestamp < t ∧ t < maxTimestamp ∧
    (T.ct = true → verifyTime T.now t = .ok ())
  readable : ∀ k p c, T.rpub = some k → T.encrypt k p = .ok c →
    c ≠ [] ∧ loadDecrypt T.dec T.rpriv c = .ok p
  dumped : dump E T.encrypt m (some T.sender.1) T.rpub = (.ok b, m')

/-- The value is text with the hex digits of these bytes. -/
def Spells (v : Val) (b : Bytes) : Prop := ∃ s, v = .str s ∧ HexText s b

/-- An exchange between honest parties, one frame after the other: `Exchange E P T b m` means that
`b` is sent in delivery `T` and that the sender has `m` then. -/
inductive Exchange (E : Env) (P : Parties) : Delivery → Bytes → Msg → Prop
  /-- The provider offers to compute a task, whose header the requestor signed. -/
  | offer {T : Delivery} {b : Bytes} {m m' : Msg} {fs0 fs : Attrs} :
      m.cls = .WantToComputeTask → Spells (getAttr m.attrs p!"provider_public_key") P.provider.2 →
      headerSign E fs0 P.requestor.1 = .ok fs →
      getAttr m.attrs p!"task_header" = .cont .taskHeader fs →
      T.sender = P.provider → Sends E T m b m' → Exchange E P T b m'
  /-- The requestor, who has the offer `w`, assigns a subtask.  The ids are generated from the
  bytes of the requestor's id. -/
  | assign {T T0 : Delivery} {b b0 : Bytes} {w m0 m m' : Msg} {items : Attrs} {seed : Bytes}
      {i1 i2 j1 j2 : Nat} :
      Exchange E P T0 b0 w → w.cls = .WantToComputeTask →
      m.cls = .TaskToCompute → getAttr m.attrs p!"want_to_compute_task" = w.val →
      Spells (getAttr m.attrs p!"requestor_public_key") P.requestor.2 →
      Spells (getAttr m.attrs p!"requestor_ethereum_public_key") P.eth.2 →
      Spells (getAttr m.attrs p!"requestor_id") seed →
      getAttr m.attrs p!"compute_task_def" = .fdict .computeTaskDef items →
      getAttr items p!"task_id" = .str (generateId i1 j1 seed) →
      getAttr items p!"subtask_id" = .str (generateId i2 j2 seed) →
      generateEthsig E m0 P.eth.1 = .ok m →
      T.sender = P.requestor → Sends E T m b m' → Exchange E P T b m'
  /-- Any other task message, sent by one of the parties meant to send it, valid, and made with
  task messages of the exchange as its sender has them. -/
  | reply {T : Delivery} {b : Bytes} {m m' : Msg} {o : Owner} (way : Msg → Delivery) (frame : Msg → Bytes) :
      m.cls.isTask = true → m.cls ≠ .TaskToCompute → o ∈ m.cls.expectedOwners →
      (∀ name (x : Msg), (name, x.val) ∈ m.attrs → x.cls.isTask = true →
        Exchange E P (way x) (frame x) x) →
      m.taskToCompute ≠ .none → isValid m = .ok () →
      T.sender = P.pair o → Sends E T m b m' → Exchange E P T b m'

end Verif.Spec
