import Verif.Model.Exc
/-!
# Python data

`Val` is the universe of Python objects the library handles: the data that can be
in a message slot (user supplied or decoded by `cbor.loads`) plus the library's
own instances (enum members, Container / FrozenDict / Mask / Message instances).
-/

set_option linter.unusedSimpArgs false

namespace Verif

/-- The enumerations used by the library. -/
inductive EnumId where
  | disconnectReason          -- message/base.py:721-733
  | cannotAssignReason        -- message/tasks.py:513-518
  | subtaskResultsRejectedReason -- message/tasks.py:626-635
  | taskFailureReason         -- message/tasks.py:704-707
  | cannotComputeReason       -- message/tasks.py:742-757
  | rejectReportReason        -- message/tasks.py:840-844
  | serviceRefusedReason      -- message/concents.py:33-43
  | ftOperation               -- message/concents.py:123-126
  | ftCategory                -- message/concents.py:159-162
  | settledOrigin             -- message/concents.py:286-289
  | fgtrRejectedReason        -- message/concents.py:381-382
  | fsrRejectedReason         -- message/concents.py:504-506
  | forcePaymentActor         -- message/concents.py:558-560
  | forcePaymentRejectedReason -- message/concents.py:576-579
  | frctResponseReason        -- message/concents.py:598-608
  | marketType                -- datastructures/tasks.py:24-26
  deriving DecidableEq, Repr

/-- Container classes (`datastructures.Container` subclasses). -/
inductive ContId where
  | node | taskHeader | blockIoStats | cpuStats | memoryStats | pidStats | providerStats
  deriving DecidableEq, Repr

/-- FrozenDict classes used by messages. -/
inductive FDictId where
  | computeTaskDef | fileInfo | peer | cpuUsage | throttlingData | blockIoEntry | memoryData
  deriving DecidableEq, Repr

/-- Registered message classes. -/
inductive Cls where
  -- message/base.py
  | Hello | RandVal | Disconnect | ChallengeSolution
  -- message/p2p.py
  | Ping | Pong | GetPeers | Peers | GetTasks | Tasks | RemoveTask | GetResourcePeers
  | ResourcePeers | Degree | Gossip | StopGossip | LocRank | FindNode
  | WantToStartTaskSession | SetTaskSession | RemoveTaskContainer
  -- message/tasks.py
  | WantToComputeTask | TaskToCompute | CannotAssignTask | ReportComputedTask
  | SubtaskResultsAccepted | SubtaskResultsRejected | TaskFailure | StartSessionResponse
  | CannotComputeTask | SubtaskPayment | SubtaskPaymentRequest | AckReportComputedTask
  | RejectReportComputedTask
  -- message/resources.py
  | PushResource | HasResource | WantsResource | PullResource | PullAnswer
  | ResourceHandshakeStart | ResourceHandshakeNonce | ResourceHandshakeVerdict
  -- message/concents.py
  | ServiceRefused | ForceReportComputedTask | VerdictReportComputedTask | FileTransferToken
  | SubtaskResultsVerify | AckSubtaskResultsVerify | SubtaskResultsSettled
  | ForceGetTaskResult | AckForceGetTaskResult | ForceGetTaskResultFailed
  | ForceGetTaskResultRejected | ForceGetTaskResultUpload | ForceGetTaskResultDownload
  | ForceSubtaskResults | ForceSubtaskResultsResponse | ForceSubtaskResultsRejected
  | ForcePayment | ForcePaymentCommitted | ForcePaymentRejected
  | ForceReportComputedTaskResponse | ClientAuthorization
  deriving DecidableEq, Repr

/-- Python objects.

* `float` keeps the IEEE-754 bit pattern; arithmetic on it is in `Model/Float.lean`.
* `dict` keeps insertion order (Python >= 3.7).
* `enum e v` is the member of enumeration `e` whose `.value` is the text `v`
  (all enumerations of the library have text values).
* `cont c fs` is an instance of a `Container` subclass with its attributes.
* `fdict c items` is an instance of a `FrozenDict` subclass with its items.
* `mask b` is a `masking.Mask` with `byte_repr = b`.
* `msg c ty ts enc sig attrs` is an instance of message class `c` with header
  `(ty, ts, enc)`, signature and attributes. -/
inductive Val where
  | none
  | bool (b : Bool)
  | int (i : Int)
  | float (bits : UInt64)
  | str (s : PStr)
  | bytes (b : Bytes)
  | list (l : List Val)
  | tuple (l : List Val)
  | dict (d : List (Val × Val))
  | tag (n : Nat) (v : Val)
  | enum (e : EnumId) (v : PStr)
  | cont (c : ContId) (fs : List (PStr × Val))
  | fdict (c : FDictId) (items : List (PStr × Val))
  | mask (b : Bytes)
  | msg (c : Cls) (ty ts enc sig : Val) (attrs : List (PStr × Val))
  deriving Repr, Inhabited

/-! ### Decidable equality (structural; not Python equality) -/

mutual
def Val.beq (x y : Val) : Bool :=
  match x, y with
  | .none, .none => true
  | .bool a, .bool b => a == b
  | .int a, .int b => a == b
  | .float a, .float b => a == b
  | .str a, .str b => a == b
  | .bytes a, .bytes b => a == b
  | .list a, .list b => Val.beqL a b
  | .tuple a, .tuple b => Val.beqL a b
  | .dict a, .dict b => Val.beqD a b
  | .tag n a, .tag m b => n == m && Val.beq a b
  | .enum e a, .enum f b => e == f && a == b
  | .cont c a, .cont d b => c == d && Val.beqF a b
  | .fdict c a, .fdict d b => c == d && Val.beqF a b
  | .mask a, .mask b => a == b
  | .msg c a1 a2 a3 a4 a5, .msg d b1 b2 b3 b4 b5 =>
    c == d && Val.beq a1 b1 && Val.beq a2 b2 && Val.beq a3 b3 && Val.beq a4 b4 && Val.beqF a5 b5
  | _, _ => false
termination_by structural x
def Val.beqL (x y : List Val) : Bool :=
  match x, y with
  | [], [] => true
  | a :: as, b :: bs => Val.beq a b && Val.beqL as bs
  | _, _ => false
termination_by structural x
def Val.beqD (x y : List (Val × Val)) : Bool :=
  match x, y with
  | [], [] => true
  | (k, a) :: as, (l, b) :: bs => Val.beq k l && Val.beq a b && Val.beqD as bs
  | _, _ => false
termination_by structural x
def Val.beqF (x y : List (PStr × Val)) : Bool :=
  match x, y with
  | [], [] => true
  | (k, a) :: as, (l, b) :: bs => k == l && Val.beq a b && Val.beqF as bs
  | _, _ => false
termination_by structural x
end

mutual
theorem Val.beq_iff : ∀ a b : Val, Val.beq a b = true ↔ a = b
  | .none, b => by cases b <;> simp [Val.beq]
  | .bool _, b => by cases b <;> simp [Val.beq]
  | .int _, b => by cases b <;> simp [Val.beq]
  | .float _, b => by cases b <;> simp [Val.beq]
  | .str _, b => by cases b <;> simp [Val.beq]
  | .bytes _, b => by cases b <;> simp [Val.beq]
  | .list a, b => by cases b <;> simp [Val.beq, Val.beqL_iff a]
  | .tuple a, b => by cases b <;> simp [Val.beq, Val.beqL_iff a]
  | .dict a, b => by cases b <;> simp [Val.beq, Val.beqD_iff a]
  | .tag _ a, b => by cases b <;> simp [Val.beq, Val.beq_iff a]
  | .enum _ _, b => by cases b <;> simp [Val.beq]
  | .cont _ a, b => by cases b <;> simp [Val.beq, Val.beqF_iff a]
  | .fdict _ a, b => by cases b <;> simp [Val.beq, Val.beqF_iff a]
  | .mask _, b => by cases b <;> simp [Val.beq]
  | .msg _ a1 a2 a3 a4 a5, b => by
    cases b <;> simp [Val.beq, Val.beq_iff a1, Val.beq_iff a2, Val.beq_iff a3, Val.beq_iff a4,
      Val.beqF_iff a5, and_assoc]
theorem Val.beqL_iff : ∀ a b : List Val, Val.beqL a b = true ↔ a = b
  | [], b => by cases b <;> simp [Val.beqL]
  | x :: xs, b => by cases b <;> simp [Val.beqL, Val.beq_iff x, Val.beqL_iff xs]
theorem Val.beqD_iff : ∀ a b : List (Val × Val), Val.beqD a b = true ↔ a = b
  | [], b => by cases b <;> simp [Val.beqD]
  | (k, x) :: xs, [] => by simp [Val.beqD]
  | (k, x) :: xs, (l, y) :: ys => by
    simp [Val.beqD, Val.beq_iff k, Val.beq_iff x, Val.beqD_iff xs]
theorem Val.beqF_iff : ∀ a b : List (PStr × Val), Val.beqF a b = true ↔ a = b
  | [], b => by cases b <;> simp [Val.beqF]
  | (k, x) :: xs, [] => by simp [Val.beqF]
  | (k, x) :: xs, (l, y) :: ys => by
    simp [Val.beqF, Val.beq_iff x, Val.beqF_iff xs]
end

instance : DecidableEq Val := fun a b =>
  decidable_of_iff _ (Val.beq_iff a b)

/-! ### Attribute access -/

/-- Look a name up in an association list. -/
def lookupName {α : Type _} (name : PStr) : List (PStr × α) → Option α
  | [] => Option.none
  | (k, v) :: rest => if k = name then some v else lookupName name rest

/-- `setattr(self, name, v)`: replace in place or append. -/
def setName {α : Type _} (name : PStr) (v : α) : List (PStr × α) → List (PStr × α)
  | [] => [(name, v)]
  | (k, w) :: rest => if k = name then (k, v) :: rest else (k, w) :: setName name v rest

/-- The attribute list of an object. -/
abbrev Attrs := List (PStr × Val)

/-- `getattr(obj, name, None)` on an attribute list. -/
def getAttr (as : Attrs) (name : PStr) : Val :=
  match lookupName name as with
  | some v => v
  | Option.none => .none

/-! ### Python operations on data -/

/-- Float zero test on the bit pattern (`0.0` or `-0.0`). -/
def floatIsZero (bits : UInt64) : Bool :=
  bits == 0 || bits == 0x8000000000000000

/-- `bool(v)`.  Container, Mask, Message, Tag and enum instances are truthy (they
define neither `__bool__` nor `__len__`; enum texts are non-empty). -/
def Val.truthy : Val → Bool
  | .none => false
  | .bool b => b
  | .int i => i != 0
  | .float b => !floatIsZero b
  | .str s => !s.isEmpty
  | .bytes b => !b.isEmpty
  | .list l => !l.isEmpty
  | .tuple l => !l.isEmpty
  | .dict d => !d.isEmpty
  | .fdict _ items => !items.isEmpty
  | .tag _ _ => true
  | .enum _ _ => true
  | .cont _ _ => true
  | .mask _ => true
  | .msg .. => true

/-- `iter(v)` as a list, `none` if `v` is not iterable (`TypeError`). -/
def Val.iter : Val → Option (List Val)
  | .list l => some l
  | .tuple l => some l
  | .str s => some (s.map fun c => .str [c])
  | .bytes b => some (b.map fun x => .int x.toNat)
  | .dict d => some (d.map Prod.fst)
  | .fdict _ items => some (items.map fun kv => .str kv.1)
  | _ => Option.none

/-- `hash(v)` does not raise.  Simplification: masks and containers other than nodes, which are hashed
by identity, count as not hashable. -/
def Val.hashable : Val → Bool
  | .none | .bool _ | .int _ | .float _ | .str _ | .bytes _ | .enum _ _ => true
  | .tuple l => hashableL l
  | _ => false
where
  hashableL : List Val → Bool
    | [] => true
    | x :: xs => x.hashable && hashableL xs

/-- The integer value of a float given by its IEEE-754 bits, if it is integral. -/
def floatToInt? (bits : UInt64) : Option Int :=
  let b := bits.toNat
  let neg := b / 2 ^ 63 == 1
  let e := b / 2 ^ 52 % 2 ^ 11
  let f := b % 2 ^ 52
  if e = 2047 then Option.none  -- infinities and NaN
  else
    let m := if e = 0 then f else 2 ^ 52 + f
    let e' := if e = 0 then 1 else e
    let mag : Option Nat :=
      if e' ≥ 1075 then some (m * 2 ^ (e' - 1075))
      else if m % 2 ^ (1075 - e') = 0 then some (m / 2 ^ (1075 - e')) else Option.none
    mag.map fun n => if neg then -(Int.ofNat n) else Int.ofNat n

/-- Normal form of a dictionary key: `True == 1 == 1.0` and `False == 0 == -0.0` in Python.
Simplification: a NaN is equal to the NaN with the same bits (in Python, only the same object is
the same key), numbers inside tuples are compared as they are, string enum members are not
identified with their text (cbor produces neither as keys). -/
def Val.keyNorm : Val → Val
  | .bool b => .int (if b then 1 else 0)
  | .float f =>
    match floatToInt? f with
    | some i => .int i
    | Option.none => .float f
  | v => v

/-- Equality of dictionary keys. -/
def Val.keyEq (a b : Val) : Bool := a.keyNorm == b.keyNorm

/-- `d[k]` on an insertion-ordered dict. -/
def dictGet (k : Val) : List (Val × Val) → Option Val
  | [] => Option.none
  | (k', v) :: rest => if k'.keyEq k then some v else dictGet k rest

/-- `d[k] = v`: replaces the value of an equal key in place, else appends. -/
def dictSet (k v : Val) : List (Val × Val) → List (Val × Val)
  | [] => [(k, v)]
  | (k', w) :: rest => if k'.keyEq k then (k', v) :: rest else (k', w) :: dictSet k v rest

/-- `isinstance(v, dict)`: plain dicts and FrozenDict instances. -/
def Val.asDict : Val → Option (List (Val × Val))
  | .dict d => some d
  | .fdict _ items => some (items.map fun kv => (.str kv.1, kv.2))
  | _ => Option.none

end Verif
