import Verif.Props.Consults
import Verif.Props.Owners
/-!
# C121: which signatures are looked at when owners are checked
-/

namespace Verif.Props

open Verif Spec

/-- Hashing fails for the same reason under all schemes. -/
private theorem hash_error {E E' : Env} {m : Msg} {e : Exc} (h : shortHash E m = .error e) :
    shortHash E' m = .error e := by
  unfold shortHash at h ⊢
  cases hs : m.slots with
  | error _ => simpa [hs] using h
  | ok s =>
    rw [hs] at h
    dsimp only at h ⊢
    cases hd : dumps s with
    | error _ => simpa [hd] using h
    | ok p =>
      rw [hd] at h
      dsimp only at h ⊢
      exact digest_error h

private theorem header_hash_error {E E' : Env} {fs : Attrs} {e : Exc} (h : headerHash E fs = .error e) :
    headerHash E' fs = .error e := by
  unfold headerHash at h ⊢
  split at h
  · simpa using h
  · split at h
    · simpa using h
    · cases h

private theorem owners_env {E E' : Env} {m : Msg} {keys : Bytes × Bytes} {concent : Option Bytes}
    (h : ∀ d d', HasDigest E m d → HasDigest E' m d' →
      E.recover m.sig (E.sha3 d) = E'.recover m.sig (E'.sha3 d')) :
    ∀ l, tryOwners E m keys concent l = tryOwners E' m keys concent l
  | [] => rfl
  | o :: rest => by
    unfold tryOwners
    cases hx : shortHash E m with
    | error e => rw [hash_error hx]
    | ok d =>
      cases hx' : shortHash E' m with
      | error e => rw [hash_error hx'] at hx; cases hx
      | ok d' =>
        dsimp only
        cases ownerKey keys concent o with
        | none => rfl
        | some k =>
          dsimp only
          rw [verify_alike (h d d' ((written_digest E m d).mp hx) ((written_digest E' m d').mp hx')),
            owners_env h rest]

private theorem header_env {E E' : Env} {fs : Attrs} {k : Bytes}
    (h : ∀ d d', HeaderDigest E fs d → HeaderDigest E' fs d' →
      E.recover (getAttr fs p!"signature") (E.sha3 d) = E'.recover (getAttr fs p!"signature") (E'.sha3 d')) :
    headerVerifyF E fs k = headerVerifyF E' fs k := by
  unfold headerVerifyF
  split
  · rfl
  · cases hx : headerHash E fs with
    | error e => rw [header_hash_error hx]
    | ok d =>
      cases hx' : headerHash E' fs with
      | error e => rw [header_hash_error hx'] at hx; cases hx
      | ok d' => exact verify_alike (h d d' ((header_digest E fs d).mp hx) ((header_digest E' fs d').mp hx'))

private theorem validate_env {E E' : Env} {m : Msg} {concent : Option Bytes}
    (hs : ∀ d d', HasDigest E m d → HasDigest E' m d' →
      E.recover m.sig (E.sha3 d) = E'.recover m.sig (E'.sha3 d'))
    (hh : m.cls = .TaskToCompute → ∀ fs d d', HeaderAt m fs → HeaderDigest E fs d → HeaderDigest E' fs d' →
      E.recover (getAttr fs p!"signature") (E.sha3 d) = E'.recover (getAttr fs p!"signature") (E'.sha3 d')) :
    validateOwnership E m concent = validateOwnership E' m concent := by
  have hb : baseOwnership E m concent = baseOwnership E' m concent := by
    unfold baseOwnership
    split
    · rfl
    · exact owners_env hs _
  unfold validateOwnership
  split
  · rename_i hc
    cases ht : attrOf (getAttr m.attrs p!"want_to_compute_task") p!"task_header" with
    | error e => rfl
    | ok th =>
      dsimp only
      split
      · rename_i fs
        have hat : HeaderAt m fs := by
          obtain ⟨w, hw, e⟩ := attrOf_ok ht
          exact ⟨w, hw, e⟩
        split
        · rfl
        · rw [header_env (hh hc fs · · hat), hb]
      · rfl
  · exact hb

mutual
private theorem chain_env {E E' : Env} {concent : Option Bytes} : ∀ (v : Val),
    (∀ w : Msg, Inside v w.val → validateOwnership E w concent = validateOwnership E' w concent) →
    chainV E concent v = chainV E' concent v
  | .msg c ty ts enc sig attrs, h => by
    unfold chainV
    by_cases hc : c.isTask = true
    · rw [if_pos hc, if_pos hc, h ⟨c, ty, ts, enc, sig, attrs⟩ (.refl _ _ _ _ _ hc),
        chains_env attrs fun kv hkv w hw => h w (.step hc hkv hw)]
    · rw [if_neg hc, if_neg hc]
  | .none, _ | .bool _, _ | .int _, _ | .float _, _ | .str _, _ | .bytes _, _ | .enum _ _, _ | .mask _, _
  | .list _, _ | .tuple _, _ | .dict _, _ | .fdict _ _, _ | .cont _ _, _ | .tag _ _, _ => by
    unfold chainV
    rfl
private theorem chains_env {E E' : Env} {concent : Option Bytes} : ∀ (l : List (PStr × Val)),
    (∀ kv ∈ l, ∀ w : Msg, Inside kv.2 w.val → validateOwnership E w concent = validateOwnership E' w concent) →
    chainA E concent l = chainA E' concent l
  | [], _ => by unfold chainA; rfl
  | (n, v) :: rest, h => by
    unfold chainA
    rw [chain_env v (h (n, v) (by simp)), chains_env rest fun kv hkv => h kv (by simp [hkv])]
end

/-- C121: what `verify_owners` says depends on hashes and signatures only through two kinds of recoveries: of
the own signatures of the task messages in the message, over their digests, and of the signatures of the task
headers of the offers in the `TaskToCompute`s among them.  So two signature schemes that agree there give the
same verdict, whatever they make of payment signatures, promissory notes, the own signatures of offers, and of
messages that are kept in lists or inside messages that are no task messages. -/
theorem owners_consult (E E' : Env) (m : Msg) (provider requestor concent : Option Bytes)
    (hs : ∀ w : Msg, Inside m.val w.val → ∀ d d', HasDigest E w d → HasDigest E' w d' →
      E.recover w.sig (E.sha3 d) = E'.recover w.sig (E'.sha3 d'))
    (hh : ∀ t : Msg, Inside m.val t.val → t.cls = .TaskToCompute → ∀ fs d d', HeaderAt t fs →
      HeaderDigest E fs d → HeaderDigest E' fs d' →
      E.recover (getAttr fs p!"signature") (E.sha3 d) = E'.recover (getAttr fs p!"signature") (E'.sha3 d')) :
    verifyOwners E m provider requestor concent = verifyOwners E' m provider requestor concent := by
  unfold verifyOwners
  split
  · rfl
  · split
    · rfl
    · exact chain_env _ fun w hw => validate_env (hs w hw) (hh w hw)

/-! ### Examples -/

/-- The task in the example chain. -/
private def task : Msg := exampleChain.taskToCompute.asMsg.getD exampleChain

/-- The signature of its header. -/
private def vouch : Val :=
  match attrOf (getAttr task.attrs p!"want_to_compute_task") p!"task_header" with
  | .ok (.cont _ fs) => getAttr fs p!"signature"
  | _ => .none

/-- A scheme that recovers nothing but these two signatures. -/
private def narrow (a b : Val) : Env :=
  { toyEnv with recover := fun s h => if s = a ∨ s = b then toyEnv.recover s h else none }

private theorem narrow_own (a b : Val) (h : Bytes) : toyEnv.recover a h = (narrow a b).recover a h :=
  (if_pos (.inl rfl)).symm

private theorem narrow_header (a b : Val) (h : Bytes) : toyEnv.recover b h = (narrow a b).recover b h :=
  (if_pos (.inr rfl)).symm

private theorem leaf {m w : Msg} (hl : m.attrs.all (fun p => match p.2 with | .msg c .. => !c.isTask | _ => true) = true)
    (h : Inside m.val w.val) : w = m := by
  generalize hw : w.val = u at h
  unfold Msg.val at h
  cases h with
  | refl => exact msg_val_inj hw
  | step _ hm hr =>
    have := List.all_eq_true.mp hl _ hm
    cases hr <;> simp_all

private theorem task_leaf {w : Msg} : Inside task.val w.val → w = task := leaf (by decide +kernel)

private theorem task_owned : verifyOwners toyEnv task (some (List.replicate 64 7)) (some (List.replicate 64 5)) none =
    .ok () := by decide +kernel

private theorem vouch_of {fs : Attrs} (h : HeaderAt task fs) : getAttr fs p!"signature" = vouch := by
  obtain ⟨w, hw, hf⟩ := h
  unfold MessageAt at hw
  unfold vouch
  rw [hw, attrOf_val, hf]

attribute [local irreducible] task vouch

/-- The hypotheses can be met by different schemes, for a task that passes under both; the second one accepts
no payment signature, no note and no offer. -/
example : verifyOwners (narrow task.sig vouch) task (some (List.replicate 64 7)) (some (List.replicate 64 5)) none =
    .ok () ∧
    toyEnv.recover (.bytes (List.replicate 65 0)) (List.replicate 32 0) ≠
      (narrow (.bytes [1]) (.bytes [2])).recover (.bytes (List.replicate 65 0)) (List.replicate 32 0) := by
  refine ⟨?_, by decide +kernel⟩
  rw [← task_owned]
  refine (owners_consult toyEnv (narrow task.sig vouch) task _ _ none ?_ ?_).symm
  · intro w hw d d' h1 h2
    rw [task_leaf hw] at h1 h2 ⊢
    have e1 := (written_digest toyEnv task d).mpr h1
    have e2 : shortHash toyEnv task = .ok d' := (written_digest (narrow task.sig vouch) task d').mpr h2
    rw [e1] at e2
    cases e2
    exact narrow_own task.sig vouch _
  · intro t ht _ fs d d' ha h1 h2
    rw [task_leaf ht] at ha
    have e1 := (header_digest toyEnv fs d).mpr h1
    have e2 : headerHash toyEnv fs = .ok d' := (header_digest (narrow task.sig vouch) fs d').mpr h2
    rw [e1] at e2
    cases e2
    rw [vouch_of ha]
    exact narrow_header task.sig vouch _

/-- A scheme that recovers neither refuses it. -/
example : verifyOwners (narrow .none .none) task none none none = .error .invalidSignature := by
  decide +kernel

end Verif.Props
