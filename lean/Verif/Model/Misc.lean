import Verif.Model.Frame
import Verif.Model.Float
/-!
# Helpers, node operations, dictionary histories, tokens, `copy_and_sign`, promissory notes
-/

set_option linter.unusedSimpArgs false

namespace Verif

/-! ### `helpers.py`, `constants.py` -/

/-- `math.ceil` of `m * 2^k`. -/
def ceilBin (x : Nat × Int) : Nat :=
  if 0 ≤ x.2 then x.1 * 2 ^ x.2.toNat
  else (x.1 + 2 ^ (-x.2).toNat - 1) / 2 ^ (-x.2).toNat

/-- Largest number of whole seconds of a `timedelta`. -/
def maxDelta : Nat := 86399999999999

/-- `helpers.maximum_download_time(size, rate)` in seconds (`helpers.py:22-40`),
non-negative arguments: 60 s (`constants.py:36`) plus `ceil(size / (rate << 10))`. -/
def maximumDownloadTime (size rate : Nat) : Res Nat :=
  if rate = 0 then .error .zeroDivisionError
  else
    match trueDiv size (rate <<< 10) with
    | .error e => .error e
    | .ok q => if ceilBin q > maxDelta - 60 then .error .overflowError else .ok (60 + ceilBin q)

/-- `constants.DEFAULT_UPLOAD_RATE` (`constants.py:39`). -/
def defaultUploadRate : Nat := 48

/-- `constants.CMT` in seconds (`constants.py:23`). -/
def cmt : Nat := 240

/-- `helpers.requestor_deposit_amount` (`helpers.py:43-45`). -/
def requestorDeposit (price : Int) : Int × Int := (price * 2, price * 4)

/-- `helpers.provider_deposit_amount` (`helpers.py:48-50`). -/
def providerDeposit (price : Int) : Int × Int := (price, 4 * price)

/-- `constants.MMTT` and `constants.MAT` in seconds (`constants.py:9, 17`). -/
def mmtt : Nat := 5
def mat : Nat := 2 * 60 + 15

/-- `constants.MSG_DELAYS[c]` in seconds (`constants.py:41-46`), a `defaultdict` by class. -/
def msgDelay (c : Cls) : Nat := if c = .ForceReportComputedTask then 2 * mmtt + mat else 0

/-! ### Nodes (`datastructures/p2p.py:41-65`) -/

/-- `if self.<pub> is None: self.<pub> = self.<prv>`. -/
def fillFrom (pub prv : PStr) (fs : Attrs) : Attrs :=
  if getAttr fs pub = .none then setName pub (getAttr fs prv) fs else fs

/-- `Node.update_public_info` (`datastructures/p2p.py:41-50`). -/
def updatePublicInfo (fs : Attrs) : Attrs :=
  fillFrom p!"hyperdrive_pub_port" p!"hyperdrive_prv_port"
    (fillFrom p!"p2p_pub_port" p!"p2p_prv_port"
      (fillFrom p!"pub_port" p!"prv_port" (fillFrom p!"pub_addr" p!"prv_addr" fs)))

/-- `Node.is_super_node` (`datastructures/p2p.py:52-55`). -/
def isSuperNode (fs : Attrs) : Bool :=
  if getAttr fs p!"pub_addr" = .none ∨ getAttr fs p!"prv_addr" = .none then false
  else pyEq (getAttr fs p!"pub_addr") (getAttr fs p!"prv_addr")

/-- `Node.__eq__` (`datastructures/p2p.py:60-65`); Python also asks the right operand if the left one
cannot tell, so this is `==` as soon as one side is a node. -/
def nodeEq (fs : Attrs) (other : Val) : Res Bool :=
  match other with
  | .cont .node gs =>
    match toDictF .node fs with
    | .error e => .error e
    | .ok d =>
      match toDictF .node gs with
      | .error e => .error e
      | .ok d' => .ok (pyEq (.dict d) (.dict d'))
  | _ => .error .typeError

/-! ### Histories of item assignments (`datastructures/__init__.py:20-84`) -/

/-- `d[key] = value`: outcome and next state. -/
def fdAssign (E : Env) (c : FDictId) (items : Attrs) (key v : Val) : Res Unit × Attrs :=
  match fdSetV E (fdConv E c) c items key v with
  | .ok items' => (.ok (), items')
  | .error e => (.error e, items)

/-- A sequence of item assignments, failed ones included. -/
def fdHistory (E : Env) (c : FDictId) (items : Attrs) : List (Val × Val) → Attrs
  | [] => items
  | (k, v) :: rest => fdHistory E c (fdAssign E c items k v).2 rest

/-- `d.update({key: value})`: inherited from `dict`, so neither `__setitem__` is called
(`datastructures/__init__.py:20-84` define no `update`).  Text keys only. -/
def fdUpdate (items : Attrs) (key : PStr) (v : Val) : Attrs := setName key v items

/-! ### File transfer tokens (`message/concents.py:188-201`) -/

/-- `get_file_info(category)`. -/
def getFileInfo (files : List Val) (category : Val) : Option Val :=
  files.find? fun f => pyEq (dictAttr f p!"category") category

/-! ### `utils.copy_and_sign` (`utils.py:43-53`) -/

/-- Message objects by reference: the object with reference `r` is the `r`-th. -/
abbrev Heap := List Msg

/-- `heap[r].sign_message(private_key)` (`message/base.py:574-588`): sets `sig` of that object;
nothing is set if the hash or the signature cannot be computed. -/
def signAt (E : Env) (heap : Heap) (r : Nat) (priv : Bytes) : Heap × Res Unit :=
  match heap[r]? with
  | Option.none => (heap, .error .attributeError)
  | some m =>
    match m.signMessage E priv with
    | .error e => (heap, .error e)
    | .ok m' => (heap.set r m', .ok ())

/-- `copy_and_sign(msg, private_key)` where `msg` is the object `r`: the reference returned and
the objects afterwards.  `copy.copy` makes a new object with the same attributes; the attribute
values are shared, and signing only assigns `sig`. -/
def copyAndSign (E : Env) (heap : Heap) (r : Nat) (priv : Bytes) : Heap × Res Nat :=
  match heap[r]? with
  | Option.none => (heap, .error .attributeError)
  | some m =>
    if m.sig = .none then
      let heap1 := heap ++ [m]
      match signAt E heap1 heap.length priv with
      | (heap2, .error e) => (heap2, .error e)
      | (heap2, .ok _) => (heap2, .ok heap.length)
    else (heap, .ok r)

/-! ### Promissory notes (`datastructures/promissory.py:39-148`) -/

/-- Primitives of `eth_account` / `eth_utils`. -/
structure EthEnv where
  /-- `defunct_hash_message(hexstr=...)`; raises for text that is not hexadecimal -/
  defunctHash : PStr → Res Bytes
  /-- `Account.signHash(...)`: `(v, r, s)` -/
  signHash : Bytes → Bytes → Res (Int × Nat × Nat)
  /-- `Account.recoverHash(hash, vrs=sig)`: checksummed address; may raise -/
  recoverHash : Bytes → Val → Val → Val → Res PStr
  /-- `utils.pubkey_to_address` -/
  address : Val → Res PStr

/-- A promissory note (`promissory.py:39-52`). -/
structure Note where
  addressFrom : PStr
  addressTo : PStr
  amount : Val
  subtaskId : PStr
  contract : PStr
  deriving DecidableEq, Repr

/-- `amount.to_bytes(32, byteorder='big')` (`promissory.py:72`). -/
def amountBytes (v : Val) : Res Bytes :=
  match v.structInt with
  | none => .error .attributeError
  | some i => if i < 0 ∨ 2 ^ 256 ≤ i then .error .overflowError else .ok (toBE 32 i.toNat)

/-- `hexmsg` (`promissory.py:66-73`). -/
def Note.hexmsg (n : Note) : Res PStr :=
  match amountBytes n.amount with
  | .error e => .error e
  | .ok a =>
    match parseUuid n.subtaskId with
    | none => .error .valueError
    | some u =>
      .ok (p!"0x" ++ n.contract.drop 2 ++ n.addressFrom.drop 2 ++ n.addressTo.drop 2
        ++ hexlify a ++ hexlify (uuidToBytes32 u))

/-- `hash` (`promissory.py:75-77`). -/
def Note.hash (X : EthEnv) (n : Note) : Res Bytes :=
  match n.hexmsg with
  | .error e => .error e
  | .ok h => X.defunctHash h

/-- `sign(privkey)` (`promissory.py:79-87`). -/
def Note.sign (X : EthEnv) (n : Note) (priv : Bytes) : Res Val :=
  match n.hash X with
  | .error e => .error e
  | .ok h =>
    match X.signHash h priv with
    | .error e => .error e
    | .ok (v, r, s) =>
      if r ≥ 2 ^ 256 ∨ s ≥ 2 ^ 256 then .error .overflowError
      else .ok (.tuple [.int v, .bytes (toBE 32 r), .bytes (toBE 32 s)])

/-- `sig_valid(sig)` (`promissory.py:89-108`). -/
def Note.sigValid (X : EthEnv) (n : Note) (sig : Val) : Res Bool :=
  if !sig.truthy then .ok false
  else
    match sig.iter with
    | some [v, r, s] =>
      match n.hash X with
      | .error e => .error e
      | .ok h =>
        match X.recoverHash h v r s with
        | .error e => .error e
        | .ok a => .ok (n.addressFrom == a)
    | _ => .error .typeError

/-- The text of a value that is sliced and concatenated (`TypeError` otherwise).  Members of string
enums are text. -/
def textOf (v : Val) : Res PStr :=
  match v with
  | .str s => .ok s
  | .enum e s => if e.isStringEnum then .ok s else .error .typeError
  | _ => .error .typeError

/-- The text of a value given to `uuid.UUID`: `TypeError` for `None` and for bytes (whose `replace`
takes no text), `AttributeError` for what has no `replace`. -/
def idTextOf (v : Val) : Res PStr :=
  match v with
  | .str s => .ok s
  | .enum e s => if e.isStringEnum then .ok s else .error .attributeError
  | .none | .bytes _ => .error .typeError
  | _ => .error .attributeError

/-- A promissory note as it is built (`promissory.py:39-52`): nothing is checked before it is hashed. -/
structure RawNote where
  addressFrom : Val
  addressTo : Val
  amount : Val
  subtaskId : Val
  contract : PStr

/-- The texts of a note, in the order in which `hexmsg` uses them (`promissory.py:66-73`): the id is looked
at after the amount. -/
def RawNote.texts (n : RawNote) : Res Note :=
  match textOf n.addressFrom with
  | .error e => .error e
  | .ok frm =>
    match textOf n.addressTo with
    | .error e => .error e
    | .ok to =>
      match amountBytes n.amount with
      | .error e => .error e
      | .ok _ =>
        match idTextOf n.subtaskId with
        | .error e => .error e
        | .ok sid => .ok ⟨frm, to, n.amount, sid, n.contract⟩

/-- `sig_valid(sig)` (`promissory.py:89-108`) of a note with any values: without a signature the note
is not looked at. -/
def RawNote.sigValid (X : EthEnv) (n : RawNote) (sig : Val) : Res Bool :=
  if !sig.truthy then .ok false
  else
    match sig.iter with
    | some [_, _, _] =>
      match n.texts with
      | .error e => .error e
      | .ok t => t.sigValid X sig
    | _ => .error .typeError

/-- `_get_promissory_note` (`message/tasks.py:448-456`) of a `TaskToCompute`. -/
def ttcRaw (X : EthEnv) (m : Msg) (contract : PStr) : Res RawNote :=
  match X.address (getAttr m.attrs p!"requestor_ethereum_public_key") with
  | .error e => .error e
  | .ok frm =>
    match attrOf (getAttr m.attrs p!"want_to_compute_task") p!"provider_ethereum_address" with
    | .error e => .error e
    | .ok to => .ok ⟨.str frm, to, getAttr m.attrs p!"price", taskGet p!"subtask_id" m.val, contract⟩

/-- `_get_concent_promissory_note` (`message/tasks.py:458-466`) of a `TaskToCompute`. -/
def ttcConcentRaw (X : EthEnv) (m : Msg) (contract : PStr) : Res RawNote :=
  match X.address (getAttr m.attrs p!"requestor_ethereum_public_key") with
  | .error e => .error e
  | .ok frm =>
    .ok ⟨.str frm, .str contract, getAttr m.attrs p!"price", taskGet p!"subtask_id" m.val, contract⟩

/-- `_get_concent_promissory_note` (`message/concents.py:231-242`) of a
`SubtaskResultsVerify`. -/
def srvConcentRaw (m : Msg) (contract : PStr) : Res RawNote :=
  let ttc := taskGet p!"task_to_compute" (getAttr m.attrs p!"subtask_results_rejected")
  match attrOf ttc p!"want_to_compute_task" with
  | .error e => .error e
  | .ok w =>
    match attrOf w p!"provider_ethereum_address" with
    | .error e => .error e
    | .ok frm =>
      match attrOf ttc p!"price" with
      | .error e => .error e
      | .ok price => .ok ⟨frm, .str contract, price, taskGet p!"subtask_id" ttc, contract⟩

/-- The note once its values were found to be texts. -/
def noteTexts (n : Res RawNote) : Res Note :=
  match n with
  | .error e => .error e
  | .ok n => n.texts

/-- The note of a `TaskToCompute` for the provider, as it is hashed. -/
def ttcNote (X : EthEnv) (m : Msg) (contract : PStr) : Res Note := noteTexts (ttcRaw X m contract)

/-- The note of a `TaskToCompute` for the Concent, as it is hashed. -/
def ttcConcentNote (X : EthEnv) (m : Msg) (contract : PStr) : Res Note :=
  noteTexts (ttcConcentRaw X m contract)

/-- The note of a `SubtaskResultsVerify`, as it is hashed. -/
def srvConcentNote (m : Msg) (contract : PStr) : Res Note := noteTexts (srvConcentRaw m contract)

/-- `sign_concent_promissory_note` (`promissory.py:126-138`) of a `TaskToCompute`. -/
def signConcentNote (X : EthEnv) (m : Msg) (contract : PStr) (priv : Bytes) : Res Msg :=
  match ttcConcentNote X m contract with
  | .error e => .error e
  | .ok n =>
    match n.sign X priv with
    | .error e => .error e
    | .ok s => .ok { m with attrs := setName p!"concent_promissory_note_sig" s m.attrs }

/-- `sign_promissory_note` (`message/tasks.py:468-477`). -/
def signNote (X : EthEnv) (m : Msg) (contract : PStr) (priv : Bytes) : Res Msg :=
  match ttcNote X m contract with
  | .error e => .error e
  | .ok n =>
    match n.sign X priv with
    | .error e => .error e
    | .ok s => .ok { m with attrs := setName p!"promissory_note_sig" s m.attrs }

/-- `sign_all_promissory_notes` (`message/tasks.py:484-496`), with the message afterwards: if the second
note cannot be signed, the first one is. -/
def signAllNotesOn (X : EthEnv) (m : Msg) (contract : PStr) (priv : Bytes) : Res Unit × Msg :=
  match signConcentNote X m contract priv with
  | .error e => (.error e, m)
  | .ok m1 =>
    match signNote X m1 contract priv with
    | .error e => (.error e, m1)
    | .ok m2 => (.ok (), m2)

/-- The message after `sign_all_promissory_notes` succeeded. -/
def signAllNotes (X : EthEnv) (m : Msg) (contract : PStr) (priv : Bytes) : Res Msg :=
  match signAllNotesOn X m contract priv with
  | (.error e, _) => .error e
  | (.ok _, m') => .ok m'

/-- `verify_promissory_note` (`message/tasks.py:479-482`). -/
def verifyNote (X : EthEnv) (m : Msg) (contract : PStr) : Res Bool :=
  match ttcRaw X m contract with
  | .error e => .error e
  | .ok n => n.sigValid X (getAttr m.attrs p!"promissory_note_sig")

/-- `verify_concent_promissory_note` (`promissory.py:140-148`) of a `TaskToCompute`. -/
def verifyConcentNote (X : EthEnv) (m : Msg) (contract : PStr) : Res Bool :=
  match ttcConcentRaw X m contract with
  | .error e => .error e
  | .ok n => n.sigValid X (getAttr m.attrs p!"concent_promissory_note_sig")

/-- `verify_all_promissory_notes` (`message/tasks.py:498-504`). -/
def verifyAllNotes (X : EthEnv) (m : Msg) (contract : PStr) : Res Bool :=
  match verifyConcentNote X m contract with
  | .error e => .error e
  | .ok false => .ok false
  | .ok true => verifyNote X m contract

/-- `sign_concent_promissory_note` (`promissory.py:126-138`) of a `SubtaskResultsVerify`. -/
def signSrvNote (X : EthEnv) (m : Msg) (contract : PStr) (priv : Bytes) : Res Msg :=
  match srvConcentNote m contract with
  | .error e => .error e
  | .ok n =>
    match n.sign X priv with
    | .error e => .error e
    | .ok s => .ok { m with attrs := setName p!"concent_promissory_note_sig" s m.attrs }

/-- `verify_concent_promissory_note` (`promissory.py:140-148`) of a `SubtaskResultsVerify`. -/
def verifySrvNote (X : EthEnv) (m : Msg) (contract : PStr) : Res Bool :=
  match srvConcentRaw m contract with
  | .error e => .error e
  | .ok n => n.sigValid X (getAttr m.attrs p!"concent_promissory_note_sig")

end Verif
