import Verif.Model.Exc
import Verif.Model.Bytes
/-!
# ECIES and its key manager (`cryptography.py:205-365`)
-/

namespace Verif

/-- Primitives used by ECIES. -/
structure EciesEnv where
  /-- `PrivateKey(k).public_key.format(compressed=False)` (65 bytes) -/
  pub : Bytes → Bytes
  /-- `HashablePrivateKey(priv).ecdh(pub)` with a 65-byte or compressed public key; may raise -/
  ecdh : Bytes → Bytes → Res Bytes
  /-- `PublicKey(b'\x04' + raw).format()` (compressed); may raise -/
  compress : Bytes → Res Bytes
  /-- `hashlib.sha256(x).digest()` -/
  sha256 : Bytes → Bytes
  /-- `pyelliptic.hmac_sha256(key, data)` -/
  hmac : Bytes → Bytes → Bytes
  /-- `pyelliptic.Cipher(key, iv, 1, 'aes-128-ctr').ciphering(data)` -/
  aesEnc : Bytes → Bytes → Bytes → Bytes
  /-- `pyelliptic.Cipher(key, iv, 0, 'aes-128-ctr').ciphering(data)` -/
  aesDec : Bytes → Bytes → Bytes → Bytes

/-- Number of rounds of the loop in `_ckdf` (`cryptography.py:226-228`):
`counter = 0, 1, ...` while `counter <= (key_len + 7) * 8 / 512`. -/
def ckdfRounds (keyLen : Nat) : Nat := (keyLen + 7) / 64 + 1

/-- The blocks `sha256(counter || key_material || s1)`, counters `i+1 .. i+n`
(`cryptography.py:228-234`). -/
def ckdfBlocks (X : EciesEnv) (km s1 : Bytes) (i : Nat) : Nat → Bytes
  | 0 => []
  | n + 1 => X.sha256 (toBE 4 (i + 1) ++ km ++ s1) ++ ckdfBlocks X km s1 (i + 1) n

/-- `_ckdf(key_material, key_len, s1)` (`cryptography.py:216-235`). -/
def ckdf (X : EciesEnv) (km : Bytes) (keyLen : Nat) (s1 : Bytes) : Bytes :=
  (ckdfBlocks X km s1 0 (ckdfRounds keyLen)).take keyLen

/-- `get_derived_keys` (`cryptography.py:242-256`): encryption and MAC key. -/
def derivedKeys (X : EciesEnv) (km : Bytes) : Res (Bytes × Bytes) :=
  let key := ckdf X km 32 []
  if key.length ≠ 32 then .error .assertionError
  else
    let mac := X.sha256 (key.drop 16)
    if mac.length ≠ 32 then .error .assertionError
    else .ok (key.take 16, mac)

/-- `get_ephem_key` on a cache miss (`cryptography.py:272-280`), for the ephemeral
private key drawn: encryption key, MAC key, ephemeral public key. -/
def ephemKeys (X : EciesEnv) (ephem rawPub : Bytes) : Res (Bytes × Bytes × Bytes) :=
  match X.compress rawPub with
  | .error e => .error e
  | .ok pk =>
    match X.ecdh ephem pk with
    | .error e => .error e
    | .ok km =>
      if km.length ≠ 32 then .error .assertionError
      else
        match derivedKeys X km with
        | .error e => .error e
        | .ok (ek, mk) => .ok (ek, mk, X.pub ephem)

/-- `encrypt` with the keys at hand (`cryptography.py:304-324`). -/
def eciesSeal (X : EciesEnv) (keys : Bytes × Bytes × Bytes) (iv data shared : Bytes) : Res Bytes :=
  if iv.length ≠ 16 then .error .assertionError
  else
    let ct := X.aesEnc keys.1 iv data
    if ct.length ≠ data.length then .error .assertionError
    else
      let msg := keys.2.2 ++ iv ++ ct
      let tag := X.hmac keys.2.1 (msg.drop 65 ++ shared)
      if tag.length ≠ 32 then .error .assertionError
      else
        if (msg ++ tag).length ≠ 113 + data.length then .error .assertionError
        else .ok (msg ++ tag)

/-- `ECIES.encrypt` (`cryptography.py:294-324`) with a fresh ephemeral key. -/
def eciesEncrypt (X : EciesEnv) (ephem iv data rawPub shared : Bytes) : Res Bytes :=
  match ephemKeys X ephem rawPub with
  | .error e => .error e
  | .ok keys => eciesSeal X keys iv data shared

/-- `ECIES.decrypt` (`cryptography.py:326-365`). -/
def eciesDecrypt (X : EciesEnv) (data priv shared : Bytes) : Res Bytes :=
  if data.take 1 ≠ [4] then .error .decryptionError
  else
    match X.ecdh priv (data.take 65) with
    | .error e => .error e
    | .ok km =>
      if km.length ≠ 32 then .error .assertionError
      else
        match derivedKeys X km with
        | .error e => .error e
        | .ok (ek, mk) =>
          let tag := data.drop (data.length - 32)
          if tag.length ≠ 32 then .error .assertionError
          else if X.hmac mk ((data.take (data.length - 32)).drop 65 ++ shared) ≠ tag then
            .error .decryptionError
          else
            let iv := (data.drop 65).take 16
            if iv.length ≠ 16 then .error .assertionError
            else
              let ct := (data.take (data.length - 32)).drop 81
              if (data.take 65).length + iv.length + ct.length + tag.length ≠ data.length then
                .error .assertionError
              else
                let msg := X.aesDec ek iv ct
                if msg.length ≠ ct.length then .error .assertionError else .ok msg

/-! ### The ephemeral key cache (`cryptography.py:258-280`) -/

/-- An entry of the `lru_cache` of `get_ephem_key`: arguments (manager, public key), the
cached key, and (ghost) the time it was created. -/
structure CacheEntry where
  mgr : Nat
  pubkey : Bytes
  key : Nat
  created : Int
  deriving DecidableEq, Repr

/-- State: the class-level cache (most recently used first), the last clean-up time of
each manager, and the number of ephemeral keys drawn so far (used as key names). -/
structure KeyState where
  cache : List CacheEntry
  lastCleanup : Nat → Int
  drawn : Nat

/-- `maxsize` of the cache (`cryptography.py:258`). -/
def cacheSize : Nat := 1024

/-- One call of `get_ephem_key` by manager `mgr` at time `now`
(`cryptography.py:258-280`): a hit moves the entry to the front; a miss first clears
the whole cache if the manager's timeout has passed since its last clean-up, then
draws a key and inserts it, dropping the least recently used entry of a full cache. -/
def KeyState.call (timeout : Int) (s : KeyState) (mgr : Nat) (pubkey : Bytes) (now : Int) :
    CacheEntry × KeyState :=
  match s.cache.find? fun e => e.mgr == mgr && e.pubkey == pubkey with
  | some e =>
    (e, { s with cache := e :: s.cache.filter fun x => !(x.mgr == mgr && x.pubkey == pubkey) })
  | none =>
    let e : CacheEntry := ⟨mgr, pubkey, s.drawn, now⟩
    if s.lastCleanup mgr < now - timeout then
      (e, { cache := [e]
            lastCleanup := fun i => if i = mgr then now else s.lastCleanup i
            drawn := s.drawn + 1 })
    else
      (e, { s with cache := (e :: s.cache).take cacheSize, drawn := s.drawn + 1 })

/-- A schedule of calls `(manager, public key, time)`: the entries used, in order, and
the final state. -/
def KeyState.run (timeout : Int) (s : KeyState) :
    List (Nat × Bytes × Int) → List (Int × CacheEntry) × KeyState
  | [] => ([], s)
  | (m, k, t) :: rest =>
    let (e, s1) := s.call timeout m k t
    let (es, s2) := s1.run timeout rest
    ((t, e) :: es, s2)

end Verif
