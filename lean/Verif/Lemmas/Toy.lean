import Verif.Model.Env
/-!
# A toy environment

Concrete stand-ins for the external functions, used only in examples: they show that the
hypotheses of theorems about signatures can be met.  The private key of a toy signer is 32
bytes, the public key the same bytes twice, and a signature is the key followed by the digest.
-/

namespace Verif

/-- The toy environment. -/
def toyEnv : Env where
  sha1 b := (b ++ List.replicate 20 0).take 20
  sha3 b := (b.reverse ++ List.replicate 32 0).take 32
  sign k h := .ok (k.take 32 ++ h ++ List.replicate (65 - (k.take 32).length - h.length) 0)
  recover v h :=
    match v with
    | .bytes s => if s = s.take 32 ++ h ++ List.replicate (65 - (s.take 32).length - h.length) 0
      then some (4 :: (s.take 32 ++ s.take 32)) else none
    | _ => none
  ipOk _ := true
  version := p!"1.2.3"

/-- Its signatures have 65 bytes and recover to the signer's key. -/
theorem toy_law (x s : Bytes)
    (hs : toyEnv.sign (List.replicate 32 7) (toyEnv.sha3 x) = .ok s) :
    s.length = 65 ∧ toyEnv.recover (.bytes s) (toyEnv.sha3 x) = some (4 :: List.replicate 64 7) := by
  have hl : (toyEnv.sha3 x).length = 32 := by simp [toyEnv]
  generalize toyEnv.sha3 x = h at *
  simp only [toyEnv] at hs ⊢
  injection hs with hs
  subst hs
  have e0 : List.take 32 (List.replicate 32 (7 : UInt8)) = List.replicate 32 7 := by decide
  rw [e0]
  have e : (List.replicate 32 (7 : UInt8) ++ h ++
      List.replicate (65 - (List.replicate 32 (7 : UInt8)).length - h.length) 0).take 32
      = List.replicate 32 7 := by
    rw [List.append_assoc, List.take_left' (by simp)]
  refine ⟨by simp [hl], ?_⟩
  rw [e, if_pos rfl]
  rfl

end Verif
