import Verif.Model.Frame
import Verif.Model.Ecies
/-!
# A process that sends encrypted messages

`shortcuts.py:6-17` on top of the key manager with its cached keys (`cryptography.py:205-324`).
The two other caches (`ecdh`, lines 237-240, and `get_derived_keys`, lines 242-256) are left
out here; `Model/Caches.lean` has them, and C77 says that they change no result.
-/

namespace Verif

/-- An entry of the cache of `get_ephem_key` (`cryptography.py:258`): arguments and the cached
encryption key, MAC key and ephemeral public key. -/
structure LiveEntry where
  mgr : Nat
  pubkey : Bytes
  keys : Bytes × Bytes × Bytes
  deriving DecidableEq, Repr

/-- State of the key managers of a process: the cache they share (most recently used first), the
last clean-up time of each manager and the number of ephemeral keys drawn so far. -/
structure LiveKeys where
  cache : List LiveEntry
  lastCleanup : Nat → Int
  drawn : Nat

/-- The clean-up at the start of `get_ephem_key` (`cryptography.py:268-270`). -/
def LiveKeys.cleaned (timeout : Int) (s : LiveKeys) (mgr : Nat) (now : Int) : LiveKeys :=
  if s.lastCleanup mgr < now - timeout then
    { s with cache := [], lastCleanup := fun i => if i = mgr then now else s.lastCleanup i }
  else s

/-- `get_ephem_key(raw_pubkey)` of manager `mgr` (`cryptography.py:258-280`); `draw i` is the
`i`-th ephemeral private key of the process.  An exception is not cached. -/
def LiveKeys.ephemKey (X : EciesEnv) (draw : Nat → Bytes) (timeout : Int) (s : LiveKeys) (mgr : Nat)
    (rawPub : Bytes) (now : Int) : Res (Bytes × Bytes × Bytes) × LiveKeys :=
  match s.cache.find? fun e => e.mgr == mgr && e.pubkey == rawPub with
  | some e =>
    (.ok e.keys,
      { s with cache := e :: s.cache.filter fun x => !(x.mgr == mgr && x.pubkey == rawPub) })
  | none =>
    let s1 := s.cleaned timeout mgr now
    match ephemKeys X (draw s.drawn) rawPub with
    | .error e => (.error e, { s1 with drawn := s.drawn + 1 })
    | .ok keys =>
      (.ok keys,
        { s1 with cache := (⟨mgr, rawPub, keys⟩ :: s1.cache).take cacheSize, drawn := s.drawn + 1 })

/-- A schedule of calls `(manager, public key, time)` of `get_ephem_key`: outcomes and final
state. -/
def LiveKeys.run (X : EciesEnv) (draw : Nat → Bytes) (timeout : Int) (s : LiveKeys) :
    List (Nat × Bytes × Int) → List (Res (Bytes × Bytes × Bytes)) × LiveKeys
  | [] => ([], s)
  | (m, k, t) :: rest =>
    let (r, s1) := s.ephemKey X draw timeout m k t
    let (rs, s2) := s1.run X draw timeout rest
    (r :: rs, s2)

/-- `ECIES.encrypt(data, raw_pubkey)` (`cryptography.py:294-324`) with the manager's keys; `iv` is
the initialisation vector drawn. -/
def LiveKeys.encrypt (X : EciesEnv) (draw : Nat → Bytes) (timeout : Int) (s : LiveKeys) (mgr : Nat)
    (now : Int) (iv rawPub data : Bytes) : Res Bytes × LiveKeys :=
  match s.ephemKey X draw timeout mgr rawPub now with
  | (.error e, s') => (.error e, s')
  | (.ok keys, s') => (eciesSeal X keys iv data [], s')

/-- The payload that `serialize` (`message/base.py:212-245`) hands to the encryption function,
if it gets that far; `encrypts` tells whether there is such a function. -/
def encryptArg (E : Env) (m : Msg) (signAs : Option Bytes) (encrypts : Bool) : Option Bytes :=
  if (givenKey signAs).isSome && m.sig.truthy then none
  else
    let m1 := { m with enc := .bool (m.cls.encrypt && encrypts) }
    match m1.slots with
    | .error _ => none
    | .ok s =>
      match dumps s with
      | .error _ => none
      | .ok payload =>
        match signFor E m1 payload signAs with
        | .error _ => none
        | .ok m2 => if m2.enc.truthy then some payload else none

/-- What a call of `shortcuts.dump` depends on besides the state: the message, the sender's
private key, the recipient's public key, the time and the initialisation vector drawn. -/
structure Send where
  msg : Msg
  privkey : Option Bytes
  pubkey : Option Bytes
  now : Int
  iv : Bytes

/-- `shortcuts.dump(msg, privkey, pubkey)` (`shortcuts.py:9-17`) in a process: outcome, message
afterwards, key manager afterwards.  The module has one `ECIES` object (line 6), its manager is
number 0. -/
def sendStep (E : Env) (X : EciesEnv) (draw : Nat → Bytes) (timeout : Int) (s : LiveKeys)
    (a : Send) : (Res Bytes × Msg) × LiveKeys :=
  (dump E (fun k p => (s.encrypt X draw timeout 0 a.now a.iv k p).1) a.msg a.privkey a.pubkey,
    match givenKey a.pubkey, encryptArg E a.msg a.privkey (givenKey a.pubkey).isSome with
    | some k, some p => (s.encrypt X draw timeout 0 a.now a.iv k p).2
    | _, _ => s)

/-- The state after a sequence of calls. -/
def sendRun (E : Env) (X : EciesEnv) (draw : Nat → Bytes) (timeout : Int) (s : LiveKeys) :
    List Send → LiveKeys
  | [] => s
  | a :: rest => sendRun E X draw timeout (sendStep E X draw timeout s a).2 rest

/-- A fresh process; manager `i` was created at time `created i`. -/
def LiveKeys.fresh (created : Nat → Int) : LiveKeys := ⟨[], created, 0⟩

end Verif
