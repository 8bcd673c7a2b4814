import Verif.Model.Env
import Verif.Model.Enums
import Verif.Model.Bytes
/-!
# Key pairs: `ECCx` (`cryptography.py:81-86, 99-108, 131-202`)

A subclass of `pyelliptic.ECC`.  The constructor is a loop, so its model takes a number of
iterations and has no result if that is not enough.
-/

namespace Verif

/-- What `ECCx` uses of `coincurve` and `pyelliptic`. -/
structure EccPrims where
  /-- `PrivateKey(k).public_key.format(compressed=False)`; may raise -/
  point : Bytes → Res Bytes
  /-- `raw_check_key(priv, x, y)`: 0 for a matching pair, negative for keys that are none -/
  checkKey : Bytes → Bytes → Bytes → Int

/-- A key pair object: `privkey`, `pubkey_x`, `pubkey_y`. -/
structure Ecc where
  priv : Bytes
  x : Bytes
  y : Bytes
  deriving DecidableEq, Repr

/-- `privtopub` (`cryptography.py:81-86`). -/
def privtopub (P : EccPrims) (k : Bytes) : Res Bytes :=
  match P.point k with
  | .error e => .error e
  | .ok p => if (p.drop 1).length = 64 then .ok (p.drop 1) else .error .invalidKeys

/-- `raw_pubkey` (`cryptography.py:157-161`). -/
def Ecc.rawPubkey (e : Ecc) : Bytes := e.x ++ e.y

/-- `has_valid_keys` (`cryptography.py:176-192`) for a private key that passed the test of its length
(or is empty, then `get_privkey_format` raises). -/
def Ecc.hasValidKeys (P : EccPrims) (e : Ecc) : Bool :=
  e.priv.length == 32 && e.rawPubkey.length == 64 &&
    P.checkKey e.priv (e.rawPubkey.take 32) (e.rawPubkey.drop 32) == 0

/-- `pyelliptic.ECC.__init__` as called in line 147: with coordinates the keys are checked and kept,
without a pair is generated (`gen`). -/
def eccInit (P : EccPrims) (given : Option (Bytes × Bytes × Bytes)) (gen : Ecc) : Res Ecc :=
  match given with
  | none => .ok gen
  | some (k, x, y) => if P.checkKey k x y < 0 then .error .otherError else .ok ⟨k, x, y⟩

/-- The loop of lines 146-155; `gen i` is the pair generated in iteration `i`. -/
def eccxLoop (P : EccPrims) (given : Option (Bytes × Bytes × Bytes)) (gen : Nat → Ecc) :
    Nat → Nat → Option (Res Ecc)
  | 0, _ => none
  | fuel + 1, i =>
    match eccInit P given (gen i) with
    | .error e => some (.error e)
    | .ok e =>
      if e.priv ≠ [] ∧ e.priv.length ≠ 32 then eccxLoop P given gen fuel (i + 1)
      else if e.hasValidKeys P then some (.ok e)
      else some (.error .cryptoError)

/-- `ECCx(raw_privkey)` (`cryptography.py:139-155`) with at most `fuel` iterations of its loop. -/
def eccx (P : EccPrims) (raw : Option Bytes) (gen : Nat → Ecc) (fuel : Nat) : Option (Res Ecc) :=
  match raw with
  | none => eccxLoop P none gen fuel 0
  | some k =>
    match privtopub P k with
    | .error e => some (.error e)
    | .ok pub => eccxLoop P (some (k, pub.take 32, pub.drop 32)) gen fuel 0

/-- `rlp.utils.str_to_bytes(value)` (`rlp==0.6.0`): text (also a string enum member) as UTF-8, bytes as
they are. -/
def strToBytes (v : Val) : Res Bytes :=
  match v with
  | .bytes b => .ok b
  | .str s => .ok (utf8Enc s)
  | .enum e s => if e.isStringEnum then .ok (utf8Enc s) else .error .typeError
  | _ => .error .typeError

/-- `mk_privkey(seed)` (`cryptography.py:99-108`); `keccak` is Keccak-256. -/
def mkPrivkey (keccak : Bytes → Bytes) (seed : Val) : Res Bytes :=
  match strToBytes seed with
  | .error e => .error e
  | .ok b => .ok (keccak b)

/-- `sign` (`cryptography.py:194-197`). -/
def Ecc.sign (E : Env) (e : Ecc) (msg : Bytes) : Res Bytes :=
  match E.ecdsaSign e.priv msg with
  | .error x => .error x
  | .ok s => if s.length = 65 then .ok s else .error .assertionError

/-- `verify` (`cryptography.py:199-202`) of bytes. -/
def Ecc.verify (E : Env) (e : Ecc) (sig msg : Bytes) : Res Unit :=
  if sig.length ≠ 65 then .error .invalidSignature
  else E.ecdsaVerify e.rawPubkey (.bytes sig) msg

end Verif
