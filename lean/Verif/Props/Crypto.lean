import Verif.Model.Env
/-!
# C28: the signature primitive (`cryptography.py:76-128`)

The recovery of a key from a signature is the external function `E.recover`; it yields
the uncompressed point, `04 || key`.
-/

namespace Verif.Props

open Verif

/-- `ecdsa_verify` returns (`True`) exactly if the key has 64 bytes and the signature
recovers to that key over the sha3 of the message; a key of another length raises
`InvalidKeys`, whatever the signature, and everything else raises `InvalidSignature`. -/
theorem ecdsa_verify_decision (E : Env) (key msg : Bytes) (sig : Val) :
    (E.ecdsaVerify key sig msg = .ok () ↔
      key.length = 64 ∧ E.recover sig (E.sha3 msg) = some (4 :: key)) ∧
    (key.length ≠ 64 → E.ecdsaVerify key sig msg = .error .invalidKeys) ∧
    (key.length = 64 → E.recover sig (E.sha3 msg) ≠ some (4 :: key) →
      E.ecdsaVerify key sig msg = .error .invalidSignature) := by
  unfold Env.ecdsaVerify
  by_cases h : key.length = 64
  · rw [if_neg (by simp [h])]
    cases hr : E.recover sig (E.sha3 msg) with
    | none => simp [h]
    | some pk =>
      by_cases e : pk = 4 :: key
      · simp [h, e]
      · simp [h, e]
  · rw [if_pos h]; simp [h]

/-- A signature verifies for at most one key: two keys that both verify the same
signature over the same message are equal. -/
theorem ecdsa_key_unique (E : Env) (k1 k2 msg : Bytes) (sig : Val)
    (h1 : E.ecdsaVerify k1 sig msg = .ok ()) (h2 : E.ecdsaVerify k2 sig msg = .ok ()) : k1 = k2 := by
  have a := ((ecdsa_verify_decision E k1 msg sig).1.mp h1).2
  have b := ((ecdsa_verify_decision E k2 msg sig).1.mp h2).2
  rw [a] at b
  injection b with b
  injection b

/-- What signing produces verifies for the signer's public key: with the law of
recoverable signatures for a key pair `(priv, pub)`, whatever `ecdsa_sign` returns is
accepted by `ecdsa_verify` over the same message. -/
theorem ecdsa_sign_verifies (E : Env) (priv pub msg sig : Bytes) (hp : pub.length = 64)
    (law : ∀ h s, E.sign priv h = .ok s → E.recover (.bytes s) h = some (4 :: pub))
    (hs : E.ecdsaSign priv msg = .ok sig) : E.ecdsaVerify pub (.bytes sig) msg = .ok () :=
  (ecdsa_verify_decision E pub msg (.bytes sig)).1.mpr ⟨hp, law _ _ hs⟩

/-- A toy environment satisfying the law, to show that the hypotheses can be met. -/
private def toyEnv : Env where
  sha1 b := b.take 20
  sha3 b := b.take 32
  sign k h := .ok (k ++ h)
  recover v h :=
    match v with
    | .bytes s => if s.drop 32 = h then some (4 :: (s.take 32 ++ s.take 32)) else none
    | _ => none
  ipOk _ := true
  version := p!"1.0.0"

example : toyEnv.ecdsaVerify (List.replicate 64 7) (.bytes (List.replicate 32 7 ++ [1, 2])) [1, 2]
      = .ok () ∧
    toyEnv.ecdsaVerify (List.replicate 64 8) (.bytes (List.replicate 32 7 ++ [1, 2])) [1, 2]
      = .error .invalidSignature ∧
    toyEnv.ecdsaVerify (List.replicate 65 7) (.bytes (List.replicate 32 7 ++ [1, 2])) [1, 2]
      = .error .invalidKeys := by decide

example (msg sig : Bytes) (h : toyEnv.ecdsaSign (List.replicate 32 7) msg = .ok sig) :
    toyEnv.ecdsaVerify (List.replicate 64 7) (.bytes sig) msg = .ok () := by
  apply ecdsa_sign_verifies toyEnv (List.replicate 32 7) _ _ _ (by simp) _ h
  intro h s e
  simp only [toyEnv] at e
  injection e with e
  subst e
  simp [toyEnv]

end Verif.Props
