import Verif.Spec.Ecies
/-! # Specification: what is wrong with a ciphertext -/

namespace Verif.Spec

open Verif

/-- What the tag of a ciphertext of any length must authenticate: what is between the first 65 and the
last 32 bytes. -/
def ctMiddle (data : Bytes) : Bytes := (data.drop 65).take (data.length - 97)

/-- What is wrong with a ciphertext for the holder of a private key, in the order it is found. -/
inductive CipherFault (X : EciesEnv) (data priv shared : Bytes) : Exc → Prop
  /-- it does not start with `04` -/
  | start (h : data.head? ≠ some 4) : CipherFault X data priv shared .decryptionError
  /-- there is no agreement with its first 65 bytes -/
  | point {e : Exc} (h : data.head? = some 4) (hk : X.ecdh priv (ctPoint data) = .error e) :
      CipherFault X data priv shared e
  /-- the secret agreed on does not have 32 bytes -/
  | secret {km : Bytes} (h : data.head? = some 4) (hk : X.ecdh priv (ctPoint data) = .ok km)
      (hl : km.length ≠ 32) : CipherFault X data priv shared .assertionError
  /-- there is no tag -/
  | noTag {km : Bytes} (h : data.head? = some 4) (hk : X.ecdh priv (ctPoint data) = .ok km)
      (hl : km.length = 32) (hs : data.length < 32) : CipherFault X data priv shared .assertionError
  /-- the tag is wrong -/
  | tag {km : Bytes} (h : data.head? = some 4) (hk : X.ecdh priv (ctPoint data) = .ok km)
      (hl : km.length = 32) (hs : 32 ≤ data.length)
      (ht : ctTag data ≠ X.hmac (macKey X km) (ctMiddle data ++ shared)) :
      CipherFault X data priv shared .decryptionError
  /-- the tag is right but there is no room for the rest -/
  | short {km : Bytes} (h : data.head? = some 4) (hk : X.ecdh priv (ctPoint data) = .ok km)
      (hl : km.length = 32) (hs : 32 ≤ data.length)
      (ht : ctTag data = X.hmac (macKey X km) (ctMiddle data ++ shared)) (hn : data.length < 113) :
      CipherFault X data priv shared .assertionError

/-- Why something cannot be encrypted to a raw public key, with an ephemeral private key and an
initialisation vector. -/
inductive SealFault (X : EciesEnv) (ephem iv raw : Bytes) : Exc → Prop
  /-- it is not a public key -/
  | key {e : Exc} (h : X.compress raw = .error e) : SealFault X ephem iv raw e
  /-- there is no agreement with it -/
  | point {e : Exc} {pk : Bytes} (h : X.compress raw = .ok pk) (hk : X.ecdh ephem pk = .error e) :
      SealFault X ephem iv raw e
  /-- a secret, a vector or an own key of a wrong length -/
  | length {pk km : Bytes} (h : X.compress raw = .ok pk) (hk : X.ecdh ephem pk = .ok km)
      (hl : km.length ≠ 32 ∨ iv.length ≠ 16 ∨ (X.pub ephem).length ≠ 65) :
      SealFault X ephem iv raw .assertionError

end Verif.Spec
