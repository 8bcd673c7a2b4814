import Verif.Model.Eccx
import Verif.Props.Crypto
/-!
# C73: key pairs
-/

namespace Verif.Props

open Verif

/-- The constructor ends. -/
def Ends (P : EccPrims) (raw : Option Bytes) (gen : Nat → Ecc) (r : Res Ecc) : Prop :=
  ∃ fuel, eccx P raw gen fuel = some r

private theorem loop_mono (P : EccPrims) (given : Option (Bytes × Bytes × Bytes)) (gen : Nat → Ecc)
    (r : Res Ecc) : ∀ fuel i, eccxLoop P given gen fuel i = some r →
      eccxLoop P given gen (fuel + 1) i = some r := by
  intro fuel
  induction fuel with
  | zero => intro i h; cases h
  | succ n ih =>
    intro i h
    rw [eccxLoop] at h ⊢
    split at h
    · exact h
    · split at h
      · rename_i hc
        rw [if_pos hc]
        exact ih _ h
      · rename_i hc
        rw [if_neg hc]
        exact h

private theorem loop_le (P : EccPrims) (given : Option (Bytes × Bytes × Bytes)) (gen : Nat → Ecc)
    (r : Res Ecc) {n m : Nat} (h : n ≤ m) (i : Nat) (hr : eccxLoop P given gen n i = some r) :
    eccxLoop P given gen m i = some r := by
  induction h with
  | refl => exact hr
  | step _ ih => exact loop_mono P given gen r _ i ih

/-- C73: the outcome does not depend on how long one waits. -/
theorem eccx_outcome_unique (P : EccPrims) (raw : Option Bytes) (gen : Nat → Ecc) (r r' : Res Ecc)
    (h : Ends P raw gen r) (h' : Ends P raw gen r') : r = r' := by
  obtain ⟨n, h⟩ := h
  obtain ⟨m, h'⟩ := h'
  have key : ∀ given, eccxLoop P given gen n 0 = some r → eccxLoop P given gen m 0 = some r' → r = r' := by
    intro given h h'
    have a := loop_le P given gen r (Nat.le_max_left n m) 0 h
    have b := loop_le P given gen r' (Nat.le_max_right n m) 0 h'
    rw [a] at b
    exact Option.some.inj b
  unfold eccx at h h'
  cases raw with
  | none => exact key _ h h'
  | some k =>
    simp only at h h'
    cases hp : privtopub P k with
    | error e =>
      rw [hp] at h h'
      simp only [Option.some.injEq] at h h'
      rw [← h, ← h']
    | ok pub =>
      rw [hp] at h h'
      exact key _ h h'

private theorem loop_valid (P : EccPrims) (given : Option (Bytes × Bytes × Bytes)) (gen : Nat → Ecc)
    (e : Ecc) : ∀ fuel i, eccxLoop P given gen fuel i = some (.ok e) → e.hasValidKeys P = true ∧
      ((∃ k x y, given = some (k, x, y) ∧ e = ⟨k, x, y⟩) ∨ given = none ∧ ∃ j, e = gen j) := by
  intro fuel
  induction fuel with
  | zero => intro i h; cases h
  | succ n ih =>
    intro i h
    rw [eccxLoop] at h
    split at h
    · simp at h
    rename_i e' he
    split at h
    · exact ih _ h
    split at h
    · rename_i hv
      simp only [Option.some.injEq, Except.ok.injEq] at h
      subst h
      refine ⟨hv, ?_⟩
      unfold eccInit at he
      split at he
      · injection he with he; exact Or.inr ⟨rfl, i, he.symm⟩
      · split at he
        · cases he
        · injection he with he; exact Or.inl ⟨_, _, _, rfl, he.symm⟩
    · simp at h

/-- C73: a key pair that was constructed has a private key of 32 bytes and a public key of 64 bytes
that belong together; with a given private key it is that key with its public key. -/
theorem eccx_valid (P : EccPrims) (raw : Option Bytes) (gen : Nat → Ecc) (e : Ecc)
    (h : Ends P raw gen (.ok e)) :
    e.priv.length = 32 ∧ e.rawPubkey.length = 64 ∧
    P.checkKey e.priv (e.rawPubkey.take 32) (e.rawPubkey.drop 32) = 0 ∧
    ∀ k, raw = some k → e.priv = k ∧ ∃ b, P.point k = .ok (b :: e.rawPubkey) := by
  obtain ⟨fuel, h⟩ := h
  have conv : e.hasValidKeys P = true → e.priv.length = 32 ∧ e.rawPubkey.length = 64 ∧
      P.checkKey e.priv (e.rawPubkey.take 32) (e.rawPubkey.drop 32) = 0 := by
    intro hv
    simp only [Ecc.hasValidKeys, Bool.and_eq_true, beq_iff_eq] at hv
    exact ⟨hv.1.1, hv.1.2, hv.2⟩
  unfold eccx at h
  cases raw with
  | none =>
    obtain ⟨a, b, c⟩ := conv (loop_valid P _ gen e _ _ h).1
    exact ⟨a, b, c, by simp⟩
  | some k =>
    simp only at h
    cases hp : privtopub P k with
    | error x => rw [hp] at h; simp at h
    | ok pub =>
      rw [hp] at h
      simp only at h
      obtain ⟨hv, hor⟩ := loop_valid P _ gen e _ _ h
      obtain ⟨a, b, c⟩ := conv hv
      refine ⟨a, b, c, ?_⟩
      intro k' hk
      injection hk with hk
      subst hk
      rcases hor with ⟨k', x, y, he, rfl⟩ | ⟨he, _⟩
      · simp only [Option.some.injEq, Prod.mk.injEq] at he
        obtain ⟨rfl, rfl, rfl⟩ := he
        refine ⟨rfl, ?_⟩
        unfold privtopub at hp
        split at hp
        · cases hp
        rename_i p hpt
        split at hp
        · rename_i hl
          injection hp with hp
          subst hp
          cases p with
          | nil => simp at hl
          | cons b0 rest =>
            refine ⟨b0, ?_⟩
            rw [hpt]
            simp [Ecc.rawPubkey]
        · cases hp
      · cases he

/-- C73: a given private key of 32 bytes with its public key gives the pair at once.  Partial: with a
private key of another length that `coincurve` accepts the constructor never returns, see
`eccx_hangs_refuted`. -/
theorem eccx_given_partial (P : EccPrims) (k pub : Bytes) (b : UInt8) (gen : Nat → Ecc)
    (hk : k.length = 32) (hp : P.point k = .ok (b :: pub)) (hl : pub.length = 64)
    (hc : P.checkKey k (pub.take 32) (pub.drop 32) = 0) :
    Ends P (some k) gen (.ok ⟨k, pub.take 32, pub.drop 32⟩) := by
  refine ⟨1, ?_⟩
  have h1 : privtopub P k = .ok pub := by
    unfold privtopub
    rw [hp]
    simp only [List.drop_succ_cons, List.drop_zero]
    rw [if_pos hl]
  unfold eccx
  simp only [h1, eccxLoop, eccInit]
  rw [if_neg (by omega)]
  simp only
  rw [if_neg (by simp [hk])]
  simp [Ecc.hasValidKeys, Ecc.rawPubkey, hk, hl, hc]

/-- C73: a given private key for which there is a public key is handed over to `pyelliptic`, and if that
does not refuse the pair, the constructor ends exactly if the key has 32 bytes. -/
theorem eccx_given_ends (P : EccPrims) (k pub : Bytes) (b : UInt8) (gen : Nat → Ecc)
    (hne : k ≠ []) (hp : P.point k = .ok (b :: pub)) (hl : pub.length = 64)
    (hc : 0 ≤ P.checkKey k (pub.take 32) (pub.drop 32)) :
    (∃ r, Ends P (some k) gen r) ↔ k.length = 32 := by
  have h1 : privtopub P k = .ok pub := by
    unfold privtopub
    rw [hp]
    simp only [List.drop_succ_cons, List.drop_zero]
    rw [if_pos hl]
  constructor
  · rintro ⟨r, fuel, h⟩
    apply Classical.byContradiction
    intro hk
    unfold eccx at h
    simp only [h1] at h
    have : ∀ n i, eccxLoop P (some (k, pub.take 32, pub.drop 32)) gen n i = none := by
      intro n
      induction n with
      | zero => intro i; rfl
      | succ n ih =>
        intro i
        simp only [eccxLoop, eccInit]
        rw [if_neg (by omega)]
        simp only
        rw [if_pos ⟨hne, hk⟩]
        exact ih _
    rw [this] at h
    cases h
  · intro hk
    unfold Ends eccx
    simp only [h1]
    refine ⟨if Ecc.hasValidKeys P ⟨k, pub.take 32, pub.drop 32⟩ then .ok ⟨k, pub.take 32, pub.drop 32⟩
      else .error .cryptoError, 1, ?_⟩
    simp only [eccxLoop, eccInit]
    rw [if_neg (by omega)]
    simp only
    rw [if_neg (by simp [hk])]
    split <;> rfl

/-- C73: without a given key the constructor ends exactly if some generated private key has 32 bytes
(or is empty); the first such pair decides, and pairs before it leave no trace. -/
theorem eccx_generated (P : EccPrims) (gen : Nat → Ecc) (r : Res Ecc) :
    Ends P none gen r ↔ ∃ j, ((gen j).priv = [] ∨ (gen j).priv.length = 32) ∧
      (∀ i, i < j → (gen i).priv ≠ [] ∧ (gen i).priv.length ≠ 32) ∧
      r = if (gen j).hasValidKeys P then .ok (gen j) else .error .cryptoError := by
  constructor
  · rintro ⟨fuel, h⟩
    have : ∀ n i, eccxLoop P none gen n i = some r → ∃ j, i ≤ j ∧
        ((gen j).priv = [] ∨ (gen j).priv.length = 32) ∧
        (∀ k, i ≤ k → k < j → (gen k).priv ≠ [] ∧ (gen k).priv.length ≠ 32) ∧
        r = if (gen j).hasValidKeys P then .ok (gen j) else .error .cryptoError := by
      intro n
      induction n with
      | zero => intro i h; cases h
      | succ n ih =>
        intro i h
        simp only [eccxLoop, eccInit] at h
        split at h
        · rename_i hc
          obtain ⟨j, h1, h2, h3, h4⟩ := ih _ h
          refine ⟨j, by omega, h2, ?_, h4⟩
          intro k hk1 hk2
          by_cases e : k = i
          · rw [e]; exact hc
          · exact h3 k (by omega) hk2
        · rename_i hc
          refine ⟨i, Nat.le_refl i, ?_, fun k h1 h2 => by omega, ?_⟩
          · by_cases e : (gen i).priv = []
            · exact Or.inl e
            · right
              apply Classical.byContradiction
              exact fun h => hc ⟨e, h⟩
          · split at h
            · rename_i hv
              rw [if_pos hv]
              exact (Option.some.inj h).symm
            · rename_i hv
              rw [if_neg hv]
              exact (Option.some.inj h).symm
    obtain ⟨j, _, h2, h3, h4⟩ := this fuel 0 h
    exact ⟨j, h2, fun i hi => h3 i (by omega) hi, h4⟩
  · rintro ⟨j, hj, hbefore, rfl⟩
    have : ∀ d i, i + d = j → eccxLoop P none gen (d + 1) i =
        some (if (gen j).hasValidKeys P then .ok (gen j) else .error .cryptoError) := by
      intro d
      induction d with
      | zero =>
        intro i hi
        have : i = j := by omega
        subst this
        simp only [eccxLoop, eccInit]
        rw [if_neg]
        · split <;> rfl
        · rintro ⟨h1, h2⟩
          rcases hj with h | h
          · exact h1 h
          · exact h2 h
      | succ d ih =>
        intro i hi
        rw [eccxLoop]
        simp only [eccInit]
        rw [if_pos (hbefore i (by omega))]
        exact ih (i + 1) (by omega)
    exact ⟨j + 1, this j 0 (by omega)⟩

/-- C73: what a constructed pair signs it verifies; a signature that does not have 65 bytes is refused;
otherwise `verify` is `ecdsa_verify` with the pair's public key. -/
theorem eccx_sign_verify (P : EccPrims) (E : Env) (raw : Option Bytes) (gen : Nat → Ecc) (e : Ecc)
    (h : Ends P raw gen (.ok e))
    (law : ∀ hash s, E.sign e.priv hash = .ok s → E.recover (.bytes s) hash = some (4 :: e.rawPubkey)) :
    (∀ msg sig, e.sign E msg = .ok sig → sig.length = 65 ∧ e.verify E sig msg = .ok ()) ∧
    (∀ msg sig, sig.length ≠ 65 → e.verify E sig msg = .error .invalidSignature) ∧
    (∀ msg sig, e.verify E sig msg = .ok () → sig.length = 65 ∧
      E.recover (.bytes sig) (E.sha3 msg) = some (4 :: e.rawPubkey)) := by
  obtain ⟨_, hl, _⟩ := eccx_valid P raw gen e h
  refine ⟨?_, ?_, ?_⟩
  · intro msg sig hs
    unfold Ecc.sign at hs
    split at hs
    · cases hs
    rename_i s hsig
    split at hs
    · rename_i h65
      injection hs with hs
      subst hs
      refine ⟨h65, ?_⟩
      unfold Ecc.verify
      rw [if_neg (by simp [h65])]
      exact ecdsa_sign_verifies E e.priv e.rawPubkey msg s hl law hsig
    · cases hs
  · intro msg sig h65
    unfold Ecc.verify
    rw [if_pos h65]
  · intro msg sig hv
    unfold Ecc.verify at hv
    split at hv
    · cases hv
    rename_i h65
    exact ⟨by omega, ((ecdsa_verify_decision E _ msg _).1.mp hv).2⟩

/-! ### Witnesses -/

/-- Toy curve: the public key is the padded private key twice; as in `coincurve` a short private key is
padded, and as in `pyelliptic` the check does not care about leading zeros. -/
private def toyCurve : EccPrims where
  point k :=
    if k.length ≤ 32 ∧ k ≠ [] then
      let p := List.replicate (32 - k.length) 0 ++ k
      .ok (4 :: (p ++ p))
    else .error .valueError
  checkKey k x y :=
    let p := List.replicate (32 - k.length) 0 ++ k
    if x = p ∧ y = p then 0 else -1

private def pair (k : Bytes) : Ecc := ⟨k, k, k⟩

/-- C73 refuted: with a private key of 31 bytes, which `coincurve` pads and `pyelliptic` accepts, the
constructor runs for ever. -/
theorem eccx_hangs_refuted :
    ∃ (P : EccPrims) (k pub : Bytes), P.point k = .ok (4 :: pub) ∧ pub.length = 64 ∧
      P.checkKey k (pub.take 32) (pub.drop 32) = 0 ∧ ∀ gen fuel, eccx P (some k) gen fuel = none := by
  refine ⟨toyCurve, List.replicate 31 7, (0 :: List.replicate 31 7) ++ (0 :: List.replicate 31 7),
    by decide, by decide, by decide, ?_⟩
  intro gen fuel
  cases h : eccx toyCurve (some (List.replicate 31 7)) gen fuel with
  | none => rfl
  | some r =>
    have := (eccx_given_ends toyCurve (List.replicate 31 7)
      ((0 :: List.replicate 31 7) ++ (0 :: List.replicate 31 7)) 4 gen (by decide) (by decide) (by decide)
      (by decide)).mp ⟨r, fuel, h⟩
    simp at this

/-- C73 refuted for generated keys: only a short private key is tried again; a pair whose public key has
a coordinate with a leading zero (31 bytes) ends in a `CryptoError`, though the next pair would do. -/
theorem eccx_short_coordinate_refuted :
    ∃ (P : EccPrims) (gen : Nat → Ecc), (gen 0).priv.length = 32 ∧ (gen 0).x.length = 31 ∧
      Ends P none gen (.error .cryptoError) ∧ Ends P none (fun i => gen (i + 1)) (.ok (gen 1)) := by
  refine ⟨toyCurve, fun i => if i = 0 then ⟨List.replicate 32 9, List.replicate 31 9, List.replicate 32 9⟩
    else pair (List.replicate 32 7), by decide, by decide, ⟨1, by decide⟩, ⟨1, by decide⟩⟩

/-- A given key, and a generated one after two that are too short. -/
example (gen : Nat → Ecc) : Ends toyCurve (some (List.replicate 32 7)) gen (.ok (pair (List.replicate 32 7))) :=
  eccx_given_partial toyCurve _ (List.replicate 32 7 ++ List.replicate 32 7) 4 gen (by decide) (by decide)
    (by decide) (by decide)

example : Ends toyCurve none (fun i => if i < 2 then pair (List.replicate 31 7) else pair (List.replicate 32 7))
    (.ok (pair (List.replicate 32 7))) :=
  ⟨3, by decide⟩

end Verif.Props
