import Verif.Model.Session
/-!
# The caches of the key manager

`ECIESKeyManager` (`cryptography.py:205-280`) decorates three functions with
`functools.lru_cache(maxsize=1024)`: `ecdh` (lines 237-240), `get_derived_keys` (242-256) and
`get_ephem_key` (258-280).  `Session.lean` models the third one on its own; here all three are.
-/

namespace Verif

/-- One call of a function under `lru_cache(maxsize=1024)` with arguments `a`: the entries are
kept most recently used first; a hit moves the entry to the front; on a miss the function is
called, an exception is not cached, a result is, and the least recently used entry of a full cache
is dropped. -/
def lruCall {α β : Type} [DecidableEq α] (f : α → Res β) (cache : List (α × β)) (a : α) :
    Res β × List (α × β) :=
  match cache.find? fun e => e.1 = a with
  | some e => (.ok e.2, e :: cache.filter fun x => ¬ x.1 = a)
  | none =>
    match f a with
    | .error e => (.error e, cache)
    | .ok b => (.ok b, ((a, b) :: cache).take cacheSize)

/-- What a sequence of calls answers, and the cache afterwards. -/
def lruRun {α β : Type} [DecidableEq α] (f : α → Res β) (cache : List (α × β)) :
    List α → List (Res β) × List (α × β)
  | [] => ([], cache)
  | a :: rest =>
    let (r, c1) := lruCall f cache a
    let (rs, c2) := lruRun f c1 rest
    (r :: rs, c2)

/-- Private key objects (`cryptography.py:200-202`).  `PrivateKey(raw).secret` is what a key hashes
to and is compared by (coincurve); two raw keys may have the same secret. -/
structure KeyObjects where
  /-- `HashablePrivateKey(raw).secret`; may raise -/
  secret : Bytes → Res Bytes
  /-- `key.ecdh(public_key)` for the key object with the given secret; may raise -/
  dh : Bytes → Bytes → Res Bytes

/-- The state of a process: the cache of `get_ephem_key` with the rest of `LiveKeys`, the cache of
`ecdh` (a static method: one for all managers) and that of `get_derived_keys` (shared by the
managers, which are part of the arguments). -/
structure Process where
  live : LiveKeys
  shared : List ((Bytes × Bytes) × Bytes)
  derived : List ((Nat × Bytes) × (Bytes × Bytes))

/-- A fresh process; manager `i` was created at time `created i`. -/
def Process.fresh (created : Nat → Int) : Process := ⟨.fresh created, [], []⟩

/-- `self.ecdh(key, public_key)`, the length check, and `self.get_derived_keys(key_material)`, as
they follow each other in `get_ephem_key` (`cryptography.py:275-278`) and in `decrypt`
(`cryptography.py:343-347`), for the raw private key the key object is made of. -/
def Process.agree (X : EciesEnv) (O : KeyObjects) (s : Process) (mgr : Nat) (raw pub : Bytes) :
    Res (Bytes × Bytes) × Process :=
  match O.secret raw with
  | .error e => (.error e, s)
  | .ok sec =>
    match lruCall (fun a => O.dh a.1 a.2) s.shared (sec, pub) with
    | (.error e, c) => (.error e, { s with shared := c })
    | (.ok km, c) =>
      if km.length ≠ 32 then (.error .assertionError, { s with shared := c })
      else
        let (r, d) := lruCall (fun a => derivedKeys X a.2) s.derived (mgr, km)
        (r, { s with shared := c, derived := d })

/-- `get_ephem_key(raw_pubkey)` of manager `mgr` (`cryptography.py:258-280`). -/
def Process.ephemKey (X : EciesEnv) (O : KeyObjects) (draw : Nat → Bytes) (timeout : Int)
    (s : Process) (mgr : Nat) (rawPub : Bytes) (now : Int) : Res (Bytes × Bytes × Bytes) × Process :=
  match s.live.cache.find? fun e => e.mgr == mgr && e.pubkey == rawPub with
  | some e =>
    (.ok e.keys, { s with live := { s.live with
      cache := e :: s.live.cache.filter fun x => !(x.mgr == mgr && x.pubkey == rawPub) } })
  | none =>
    let s1 : Process := { s with live := { s.live.cleaned timeout mgr now with drawn := s.live.drawn + 1 } }
    match X.compress rawPub with
    | .error e => (.error e, s1)
    | .ok pk =>
      match s1.agree X O mgr (draw s.live.drawn) pk with
      | (.error e, s2) => (.error e, s2)
      | (.ok ks, s2) =>
        let keys := (ks.1, ks.2, X.pub (draw s.live.drawn))
        (.ok keys, { s2 with live := { s2.live with
          cache := (⟨mgr, rawPub, keys⟩ :: s2.live.cache).take cacheSize } })

/-- `ECIES.encrypt(data, raw_pubkey, shared_mac_data)` (`cryptography.py:294-324`) of an `ECIES` object
with manager `mgr`; `iv` is the initialisation vector drawn. -/
def Process.encrypt (X : EciesEnv) (O : KeyObjects) (draw : Nat → Bytes) (timeout : Int)
    (s : Process) (mgr : Nat) (now : Int) (iv rawPub data mac : Bytes) : Res Bytes × Process :=
  match s.ephemKey X O draw timeout mgr rawPub now with
  | (.error e, s') => (.error e, s')
  | (.ok keys, s') => (eciesSeal X keys iv data mac, s')

/-- The part of `ECIES.decrypt` after the keys are known (`cryptography.py:349-365`). -/
def eciesOpen (X : EciesEnv) (keys : Bytes × Bytes) (data mac : Bytes) : Res Bytes :=
  let tag := data.drop (data.length - 32)
  if tag.length ≠ 32 then .error .assertionError
  else if X.hmac keys.2 ((data.take (data.length - 32)).drop 65 ++ mac) ≠ tag then
    .error .decryptionError
  else
    let iv := (data.drop 65).take 16
    if iv.length ≠ 16 then .error .assertionError
    else
      let ct := (data.take (data.length - 32)).drop 81
      if (data.take 65).length + iv.length + ct.length + tag.length ≠ data.length then
        .error .assertionError
      else
        let msg := X.aesDec keys.1 iv ct
        if msg.length ≠ ct.length then .error .assertionError else .ok msg

/-- `ECIES.decrypt(data, raw_privkey, shared_mac_data)` (`cryptography.py:326-365`) of an `ECIES`
object with manager `mgr`. -/
def Process.decrypt (X : EciesEnv) (O : KeyObjects) (s : Process) (mgr : Nat)
    (data priv mac : Bytes) : Res Bytes × Process :=
  if data.take 1 ≠ [4] then (.error .decryptionError, s)
  else
    match s.agree X O mgr priv (data.take 65) with
    | (.error e, s') => (.error e, s')
    | (.ok keys, s') => (eciesOpen X keys data mac, s')

/-- A call made in a process. -/
inductive CryptoCall where
  /-- `encrypt` by manager `mgr` at time `now`, drawing the initialisation vector `iv` -/
  | encrypt (mgr : Nat) (now : Int) (iv rawPub data mac : Bytes)
  /-- `decrypt` by manager `mgr` -/
  | decrypt (mgr : Nat) (data priv mac : Bytes)

/-- One call. -/
def Process.step (X : EciesEnv) (O : KeyObjects) (draw : Nat → Bytes) (timeout : Int)
    (s : Process) : CryptoCall → Res Bytes × Process
  | .encrypt mgr now iv rawPub data mac => s.encrypt X O draw timeout mgr now iv rawPub data mac
  | .decrypt mgr data priv mac => s.decrypt X O mgr data priv mac

/-- What a sequence of calls answers, and the state afterwards. -/
def Process.run (X : EciesEnv) (O : KeyObjects) (draw : Nat → Bytes) (timeout : Int)
    (s : Process) : List CryptoCall → List (Res Bytes) × Process
  | [] => ([], s)
  | c :: rest =>
    let (r, s1) := s.step X O draw timeout c
    let (rs, s2) := s1.run X O draw timeout rest
    (r :: rs, s2)

end Verif
