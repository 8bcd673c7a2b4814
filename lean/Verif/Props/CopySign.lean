import Verif.Lemmas.Toy
import Verif.Model.Misc
import Verif.Props.Crypto
/-!
# C53: `copy_and_sign`
-/

set_option linter.unusedSimpArgs false

namespace Verif.Props

open Verif

private theorem signMessage_ok {E : Env} {m m' : Msg} {priv : Bytes}
    (h : m.signMessage E priv = .ok m') : ∃ s hh, shortHash E m = .ok hh ∧
      E.ecdsaSign priv hh = .ok s ∧ m' = { m with sig := .bytes s } := by
  unfold Msg.signMessage at h
  split at h
  · cases h
  rename_i hh hhash
  split at h
  · cases h
  rename_i s hs
  injection h with h
  exact ⟨s, hh, hhash, hs, h.symm⟩

/-- C53: no existing message object is changed, whether or not the call succeeds. -/
theorem copy_and_sign_unchanged (E : Env) (heap : Heap) (r : Nat) (priv : Bytes) (i : Nat)
    (hi : i < heap.length) : (copyAndSign E heap r priv).1[i]? = heap[i]? := by
  unfold copyAndSign
  split
  · rfl
  split
  · dsimp only
    have h0 : (signAt E (heap ++ [‹Msg›]) heap.length priv).1[i]? = heap[i]? := by
      unfold signAt
      split
      · exact List.getElem?_append_left hi
      split
      · exact List.getElem?_append_left hi
      · simp only
        rw [List.getElem?_set_ne (by omega)]
        exact List.getElem?_append_left hi
    split <;> rename_i heq <;> rw [heq] at h0 <;> exact h0
  · rfl

/-- C53: a signed message is returned as it is: the same object, no new one. -/
theorem copy_and_sign_signed (E : Env) (heap : Heap) (r : Nat) (priv : Bytes) (m : Msg)
    (hm : heap[r]? = some m) (hs : m.sig ≠ .none) :
    copyAndSign E heap r priv = (heap, .ok r) := by
  unfold copyAndSign
  rw [hm]
  simp only
  rw [if_neg hs]

/-- C53: for an unsigned message the result is a new object, equal in everything but the
signature, which verifies for the signer; the hash that is verified is the hash of the original. -/
theorem copy_and_sign_unsigned (E : Env) (heap heap' : Heap) (r r' : Nat) (priv pub : Bytes) (m : Msg)
    (hm : heap[r]? = some m) (hs : m.sig = .none) (hp : pub.length = 64)
    (law : ∀ x s, E.sign priv (E.sha3 x) = .ok s → E.recover (.bytes s) (E.sha3 x) = some (4 :: pub))
    (h : copyAndSign E heap r priv = (heap', .ok r')) :
    r' ∉ List.range heap.length ∧ ∃ s, heap' = heap ++ [{ m with sig := .bytes s }] ∧
      heap'[r']? = some { m with sig := .bytes s } ∧
      ({ m with sig := .bytes s } : Msg).verifySig E pub = .ok () := by
  unfold copyAndSign at h
  rw [hm] at h
  simp only at h
  rw [if_pos hs] at h
  have hget : (heap ++ [m])[heap.length]? = some m := by simp
  unfold signAt at h
  rw [hget] at h
  simp only at h
  cases hsig : m.signMessage E priv with
  | error e => rw [hsig] at h; simp at h
  | ok m' =>
    rw [hsig] at h
    simp only [Prod.mk.injEq, Except.ok.injEq] at h
    obtain ⟨h1, h2⟩ := h
    obtain ⟨s, hh, hhash, hes, e⟩ := signMessage_ok hsig
    subst e h2
    have hset : (heap ++ [m]).set heap.length { m with sig := .bytes s }
        = heap ++ [{ m with sig := .bytes s }] := by
      rw [List.set_append_right _ _ (by omega)]
      simp
    rw [hset] at h1
    refine ⟨by simp, s, h1.symm, by rw [← h1]; simp, ?_⟩
    have : shortHash E { m with sig := .bytes s } = shortHash E m := rfl
    unfold Msg.verifySig verifySigWith
    rw [this, hhash]
    exact (ecdsa_verify_decision E pub hh (.bytes s)).1.mpr ⟨hp, law _ _ hes⟩

/-- C53: it fails only as signing fails. -/
theorem copy_and_sign_fails (E : Env) (heap : Heap) (r : Nat) (priv : Bytes) (m : Msg)
    (hm : heap[r]? = some m) (e : Exc) :
    (copyAndSign E heap r priv).2 = .error e ↔ m.sig = .none ∧ m.signMessage E priv = .error e := by
  unfold copyAndSign
  rw [hm]
  simp only
  by_cases hs : m.sig = .none
  · rw [if_pos hs]
    have hget : (heap ++ [m])[heap.length]? = some m := by simp
    unfold signAt
    rw [hget]
    simp only
    cases hsig : m.signMessage E priv with
    | error e' => simp [hs]
    | ok m' => simp [hs]
  · rw [if_neg hs]
    simp [hs]

/-- An unsigned message among others: a copy is made and signed. -/
example : copyAndSign toyEnv [⟨.Ping, .int 1001, .int 5, .bool false, .bytes [1], []⟩,
      ⟨.Ping, .int 1001, .int 6, .bool false, .none, []⟩] 1 (List.replicate 32 7) =
    ([⟨.Ping, .int 1001, .int 5, .bool false, .bytes [1], []⟩,
      ⟨.Ping, .int 1001, .int 6, .bool false, .none, []⟩,
      ⟨.Ping, .int 1001, .int 6, .bool false,
        .bytes (List.replicate 32 7 ++ (toyEnv.sha3 (toyEnv.sha1 [130, 25, 3, 233, 6, 128])) ++ [0]), []⟩],
     .ok 2) := by decide +kernel

end Verif.Props
