import Verif.Model.Ecies
/-! # Specification: laws of the primitives used by ECIES, layout of ciphertexts -/

namespace Verif.Spec

open Verif

/-- What is assumed about the primitives: lengths, and that the cipher is inverted by the
same key and initialisation vector. -/
structure EciesEnv.Laws (X : EciesEnv) : Prop where
  sha256_len : ∀ b, (X.sha256 b).length = 32
  hmac_len : ∀ k b, (X.hmac k b).length = 32
  enc_len : ∀ k iv b, (X.aesEnc k iv b).length = b.length
  dec_len : ∀ k iv b, (X.aesDec k iv b).length = b.length
  dec_enc : ∀ k iv b, X.aesDec k iv (X.aesEnc k iv b) = b

/-- What is assumed about two key pairs: `e` and `p` are private keys; public keys are
points `04 || x || y`; the agreed secret is the same from both sides and has 32 bytes. -/
structure EciesEnv.Agree (X : EciesEnv) (e p : Bytes) : Prop where
  pub_e : ∃ raw, X.pub e = 4 :: raw ∧ raw.length = 64
  secret : ∃ c km, X.compress ((X.pub p).drop 1) = .ok c ∧ X.ecdh e c = .ok km ∧
    X.ecdh p (X.pub e) = .ok km ∧ km.length = 32

/-- The MAC key belonging to a shared secret: sha256 of the second half of
`sha256(00000001 || secret)`. -/
def macKey (X : EciesEnv) (secret : Bytes) : Bytes :=
  X.sha256 ((X.sha256 ([0, 0, 0, 1] ++ secret)).drop 16)

/-- The cipher key belonging to a shared secret: the first half of the same digest. -/
def cipherKey (X : EciesEnv) (secret : Bytes) : Bytes :=
  (X.sha256 ([0, 0, 0, 1] ++ secret)).take 16

/-- Parts of a ciphertext of at least 113 bytes: point, IV, body, tag. -/
def ctPoint (data : Bytes) : Bytes := data.take 65
def ctIv (data : Bytes) : Bytes := (data.drop 65).take 16
def ctBody (data : Bytes) : Bytes := (data.drop 81).take (data.length - 113)
def ctTag (data : Bytes) : Bytes := data.drop (data.length - 32)

end Verif.Spec
