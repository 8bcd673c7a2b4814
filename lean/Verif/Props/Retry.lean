import Verif.Props.Unsent
/-!
# C113: sending again after a failure

A caller whose `dump` raised will mend what was wrong and call it again.  If the message had not been
signed yet this is as if the first attempt had not been made.  If it had, it is not.
-/

set_option linter.unusedSimpArgs false

namespace Verif.Props

open Verif Spec

/-- Signing does not look at the flag. -/
private theorem base_congr {E : Env} {m : Msg} {v : Val} {priv : Option Bytes} {f : Option (Bytes → Res Bytes)} :
    (serializeBase E { m with enc := v } priv f).1 = (serializeBase E m priv f).1 ∧
    (serializeBase E { m with enc := v } priv f).2.attrs = (serializeBase E m priv f).2.attrs := by
  unfold serializeBase
  dsimp only
  by_cases h : ((givenKey priv).isSome && m.sig.truthy) = true
  · rw [if_pos h, if_pos h]; exact ⟨rfl, rfl⟩
  · rw [if_neg h, if_neg h]; exact ⟨rfl, rfl⟩

private theorem dump_flag {E : Env} {encrypt : Bytes → Bytes → Res Bytes} {m : Msg} {v : Val} {priv pub : Option Bytes} :
    (dump E encrypt { m with enc := v } priv pub).1 = (dump E encrypt m priv pub).1 := by
  obtain ⟨h1, h2⟩ := base_congr (E := E) (m := m) (v := v) (priv := priv) (f := (givenKey pub).map encrypt)
  unfold dump serialize
  dsimp only
  by_cases hh : m.cls = .Hello
  · rw [if_pos hh, if_pos hh]
    revert h1 h2
    cases serializeBase E { m with enc := v } priv ((givenKey pub).map encrypt) with
    | mk r m1 =>
      cases serializeBase E m priv ((givenKey pub).map encrypt) with
      | mk r' m2 =>
        rintro h1 h2
        dsimp only at h1 h2
        subst h1
        cases r with
        | error x => rfl
        | ok b =>
          dsimp only
          rw [h2]
          split <;> rfl
  · rw [if_neg hh, if_neg hh]; exact h1

/-- C113: a message that still has no other signature than before can be dumped as if nothing had happened,
whatever has changed in the meantime: keys, what they do, the recipient. -/
theorem retry_unsigned (E E' : Env) (encrypt encrypt' : Bytes → Bytes → Res Bytes) (m m' : Msg)
    (priv pub priv' pub' : Option Bytes) (x : Exc) (h : dump E encrypt m priv pub = (.error x, m'))
    (hs : m'.sig = m.sig) : (dump E' encrypt' m' priv' pub').1 = (dump E' encrypt' m priv' pub').1 := by
  obtain ⟨h1, h2, h3, h4, _⟩ := failed_dump_keeps E encrypt m m' priv pub x h
  have : m' = { m with enc := m'.enc } := by
    cases m; cases m'; simp_all
  rw [this]
  exact dump_flag

/-- C113: that is so whenever a field could not be sent, the payload could not be written, or the key did
not sign. -/
theorem retry_unsigned_when (E : Env) (encrypt : Bytes → Bytes → Res Bytes) (m m' : Msg)
    (priv pub : Option Bytes) (x : Exc) (h : dump E encrypt m priv pub = (.error x, m'))
    (hf : (∀ payload, ¬ PayloadOf m payload) ∨ (∃ e ∈ catalogue, e.cls = m.cls ∧ ∃ key payload digest y,
      ToSign e m priv key ∧ PayloadOf m payload ∧ DigestOf E m payload digest ∧
      E.sign key (E.sha3 digest) = .error y)) : m'.sig = m.sig := by
  have key : ∀ {e payload sig}, e ∈ catalogue → e.cls = m.cls → PayloadOf m payload →
      HasSignature E e m priv payload sig → sig = m.sig := by
    intro e payload sig he hc hp hs
    rcases hf with hf | ⟨e', he', hc', k, payload', digest, y, ⟨t1, t2, t3, t4⟩, hp', hd, hy⟩
    · exact absurd hp (hf payload)
    · have := sent_entry_unique he he' (hc'.trans hc.symm)
      subst this
      cases hs with
      | kept => rfl
      | bytes hs =>
        cases hs with
        | kept h => exact h.symm
        | blank _ h =>
          rcases h with h | h | h
          · rw [t2] at h; cases h
          · rw [t3] at h; cases h
          · rw [t3] at h; injection h with h; exact absurd h t4
        | made _ _ b c d g =>
          rw [t3] at b
          injection b with b
          subst b
          obtain ⟨s, a1, a2⟩ := (written_payload m payload).mpr hp
          obtain ⟨s', b1, b2⟩ := (written_payload m payload').mpr hp'
          rw [a1] at b1
          injection b1 with b1
          subst b1
          rw [a2] at b2
          injection b2 with b2
          subst b2
          have e1 := digest_written.mpr d
          have e2 := digest_written.mpr hd
          rw [e1] at e2
          injection e2 with e2
          subst e2
          rw [hy] at g
          cases g
  cases (dump_raises _ _ _ _ _ _ _).mp h with
  | signed => rfl
  | fault _ he hc _ h =>
    cases h with
    | field | payload | head | unversioned | sign => rfl
    | cipher hp hs | time hp hs | signature hp hs => exact key he hc hp hs
    | version hp hs => exact key he hc hp (.bytes hs)

/-- C113: a message that has got a signature by a failed attempt cannot be dumped with a key any more. -/
theorem retry_refused (E E' : Env) (encrypt encrypt' : Bytes → Bytes → Res Bytes) (m m' : Msg)
    (priv pub pub' : Option Bytes) (x : Exc) (key : Bytes) (h : dump E encrypt m priv pub = (.error x, m'))
    (hs : m'.sig ≠ m.sig) (hn : m'.sig ≠ .bytes []) (hk : key ≠ []) :
    dump E' encrypt' m' (some key) pub' = (.error .signatureAlreadyExists, m') := by
  rw [dump_raises]
  refine .signed ?_ ?_
  · rintro (h | h)
    · cases h
    · injection h with h; exact hk h
  · have bytes : ∀ {e payload sig}, HasSignature E e m priv payload sig → sig ≠ m.sig → sig ≠ .bytes [] →
        holds sig = true := by
      intro e payload sig h h1 h2
      cases h with
      | kept => exact absurd rfl h1
      | bytes =>
        unfold holds
        rw [decide_eq_true_iff]
        rintro rfl
        exact h2 rfl
    cases (dump_raises _ _ _ _ _ _ _).mp h with
    | signed => exact absurd rfl hs
    | fault _ _ _ _ h =>
      cases h with
      | field | payload | head | unversioned | sign => exact absurd rfl hs
      | cipher _ hg | time _ hg | signature _ hg => exact bytes hg hs hn
      | version _ hg => exact bytes (.bytes hg) hs hn

/-- C113: it can be dumped without one, with the signature it has got, and becomes the frame (or fails with
the exception) that it would have become with the key, and is the same message afterwards. -/
theorem retry_keyless (E : Env) (encrypt encrypt' : Bytes → Bytes → Res Bytes) (m m' : Msg)
    (priv pub priv' pub' : Option Bytes) (x : Exc) (h : dump E encrypt m priv pub = (.error x, m'))
    (hs : m'.sig ≠ m.sig) (hk : NoKey priv') :
    dump E encrypt' m' priv' pub' = dump E encrypt' m priv pub' := by
  have main : ∀ {e : Entry} {payload sig} {flag : Bool}, e ∈ catalogue → e.cls = m.cls → PayloadOf m payload →
      HasSignature E e m priv payload sig → sig ≠ m.sig → ∀ f,
      serializeBase E { m with enc := .bool flag, sig := sig } priv' f = serializeBase E m priv f := by
    intro e payload sig flag he hc hp hg hne f
    have hnone : m.sig = .none ∧ ∃ s, sig = .bytes s := by
      cases hg with
      | kept => exact absurd rfl hne
      | bytes hg =>
        refine ⟨?_, _, rfl⟩
        cases hg with
        | made h => exact h
        | blank h => exact h
        | kept h => exact absurd h.symm hne
    obtain ⟨hnone, s, rfl⟩ := hnone
    have hfree : NoKey priv ∨ holds m.sig = false := .inr (by rw [hnone]; rfl)
    have t2 := (entry_tables m.cls e he hc).2.1
    rw [serialize_free (m := { m with enc := .bool flag, sig := .bytes s }) (flag := m.cls.encrypt && f.isSome)
      (.inl hk) rfl, serialize_free (flag := m.cls.encrypt && f.isSome) hfree rfl]
    obtain ⟨v, h1, h2⟩ := (written_payload m payload).mpr hp
    have h1' : Msg.slots { m with enc := .bool flag, sig := .bytes s } = .ok v := h1
    rw [h1, h1']
    dsimp only
    rw [h2]
    dsimp only
    rw [(sign_gives t2 hfree).mpr ⟨_, hg, rfl⟩]
    have : signFor E { m with enc := .bool (m.cls.encrypt && f.isSome), sig := .bytes s } payload priv' =
        .ok { m with enc := .bool (m.cls.encrypt && f.isSome), sig := .bytes s } := by
      unfold signFor
      rw [if_neg (by simp)]
    rw [this]
  have whole : ∀ {m1 : Msg}, m1.cls = m.cls →
      serializeBase E m1 priv' ((givenKey pub').map encrypt') = serializeBase E m priv ((givenKey pub').map encrypt') →
      dump E encrypt' m1 priv' pub' = dump E encrypt' m priv pub' := by
    intro m1 h1 h2
    unfold dump serialize
    rw [h1, h2]
  cases (dump_raises _ _ _ _ _ _ _).mp h with
  | signed => exact absurd rfl hs
  | fault _ he hc _ hf =>
    cases hf with
    | field | payload | head | unversioned | sign => exact absurd rfl hs
    | cipher hp hg | time hp hg | signature hp hg => exact whole rfl (main he hc hp hg hs _)
    | version hp hg => exact whole rfl (main he hc hp (.bytes hg) hs _)

/-! ### The violation -/

/-- A `RemoveTask` of 2017. -/
private def sample : Msg := ⟨.RemoveTask, .int 1007, .int 1500000000, .none, .none, [(p!"task_id", .int 7)]⟩

/-- The key of the recipient does not encipher. -/
private def broken (_ _ : Bytes) : Res Bytes := .error .invalidKeys

/-- C113: a message whose first `dump` failed, because the recipient's key was wrong, cannot be dumped to
another recipient, though it could have been at first. -/
theorem retry_refuted : ∃ (E : Env) (encrypt encrypt' : Bytes → Bytes → Res Bytes) (m m' : Msg)
    (priv pub : Option Bytes) (x : Exc) (data : Bytes),
    dump E encrypt m priv pub = (.error x, m') ∧ (dump E encrypt' m priv pub).1 = .ok data ∧
      (dump E encrypt' m' priv pub).1 = .error .signatureAlreadyExists :=
  ⟨toyEnv, broken, fun _ d => .ok d, sample, _, some (List.replicate 32 7), some (List.replicate 64 7), _, _,
    rfl, rfl, rfl⟩

/-- Without the key it can. -/
example : (dump toyEnv (fun _ d => .ok d) (dump toyEnv broken sample (some (List.replicate 32 7))
      (some (List.replicate 64 7))).2 none (some (List.replicate 64 7))) =
    dump toyEnv (fun _ d => .ok d) sample (some (List.replicate 32 7)) (some (List.replicate 64 7)) :=
  retry_keyless toyEnv broken _ sample _ _ (some (List.replicate 64 7)) _ _ .invalidKeys rfl (by decide +kernel) (.inl rfl)

/-- A field that cannot be sent leaves the message as it was but for the flag. -/
example : (dump toyEnv broken ⟨.Tasks, .int 1004, .int 1500000000, .none, .none, [(p!"tasks", .none)]⟩
    (some (List.replicate 32 7)) none).2.sig = .none := by decide +kernel

end Verif.Props
