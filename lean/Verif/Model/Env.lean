import Verif.Model.Val
/-!
# The environment: primitives that are not modelled concretely

Cryptographic primitives and the IP address parser are
parameters of the model.  Laws needed about them are stated as explicit hypotheses
of the theorems that use them.
-/

namespace Verif

/-- External functions the library calls. -/
structure Env where
  /-- `hashlib.sha1(x).digest()` -/
  sha1 : Bytes → Bytes
  /-- `cryptography.sha3` (`cryptography.py:89-96`) -/
  sha3 : Bytes → Bytes
  /-- `PrivateKey(k).sign_recoverable(h, hasher=None)` (may raise) -/
  sign : Bytes → Bytes → Res Bytes
  /-- `PublicKey.from_signature_and_message(sig, h, hasher=None).format(compressed=False)`;
  `none` if it raises.  The signature is any Python value: a nested signature is
  whatever the payload contained. -/
  recover : Val → Bytes → Option Bytes
  /-- `ipaddress.ip_address(v)` does not raise `ValueError` -/
  ipOk : Val → Bool
  /-- `golem_messages.__version__` -/
  version : PStr

/-- `ecdsa_sign` (`cryptography.py:111-114`). -/
def Env.ecdsaSign (E : Env) (priv msghash : Bytes) : Res Bytes := E.sign priv (E.sha3 msghash)

/-- `ecdsa_verify` (`cryptography.py:117-128`, `verify_pubkey` in lines 76-78); `()`
stands for `True`. -/
def Env.ecdsaVerify (E : Env) (pubkey : Bytes) (signature : Val) (message : Bytes) : Res Unit :=
  if pubkey.length ≠ 64 then .error .invalidKeys
  else
    match E.recover signature (E.sha3 message) with
    | none => .error .invalidSignature
    | some pk => if pk = 4 :: pubkey then .ok () else .error .invalidSignature

end Verif
