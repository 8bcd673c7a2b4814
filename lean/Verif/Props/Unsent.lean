import Verif.Lemmas.UnsentSlots
import Verif.Props.Writes
/-!
# C112: why a message cannot be sent

`dump` either gives a frame (`dump_writes`) or raises.  Here is which of the faults of a message it reports,
with which exception, and what the message is like afterwards.
-/

set_option linter.unusedSimpArgs false

namespace Verif.Props

open Verif Spec

/-- C112: the first field that cannot be sent decides, down to fields of nested messages. -/
theorem unsent_fields (m : Msg) (x : Exc) : m.slots = .error x ↔ UnsentFields m.cls m.attrs x := slots_unsent

theorem unwritable_bytes {v : Val} {x : Exc} : dumps v = .error x ↔
    x = .serializationError ∧ ∀ b, ¬ Encoded v b := by
  constructor
  · intro h
    refine ⟨?_, fun b hb => ?_⟩
    · unfold dumps at h
      split at h
      · cases h
      · injection h with h; exact h.symm
    · rw [encoded_iff.mpr hb] at h; cases h
  · rintro ⟨rfl, h⟩
    cases hd : dumps v with
    | ok b => exact absurd (encoded_iff.mp hd) (h b)
    | error y =>
      unfold dumps at hd
      split at hd
      · cases hd
      · exact hd.symm

theorem digest_unwritten {E : Env} {m : Msg} {payload : Bytes} {x : Exc} :
    shortHashOf E m payload = .error x ↔
      (x = .serializationError ∧ ∀ b, ¬ Encoded (.list [m.ty, m.ts]) b) ∨
      (x = .attributeError ∧ (∃ b, Encoded (.list [m.ty, m.ts]) b) ∧ ¬ Versioned m) := by
  unfold shortHashOf hashInput
  cases hd : dumps (.list [m.ty, m.ts]) with
  | error y =>
    obtain ⟨rfl, hn⟩ := unwritable_bytes.mp hd
    dsimp only
    constructor
    · intro h; injection h with h; exact .inl ⟨h.symm, hn⟩
    · rintro (⟨rfl, _⟩ | ⟨_, ⟨b, hb⟩, _⟩)
      · rfl
      · exact absurd hb (hn b)
  | ok b =>
    have hb := encoded_iff.mp hd
    dsimp only
    by_cases hc : m.cls = .Hello
    · rw [if_pos hc]
      split
      · rename_i v hv
        refine ⟨fun h => (by cases h), ?_⟩
        rintro (⟨_, h⟩ | ⟨_, _, h⟩)
        · exact absurd hb (h b)
        · exact absurd ⟨_, .hello hc hv⟩ h
      · rename_i hn
        constructor
        · intro h
          injection h with h
          refine .inr ⟨h.symm, ⟨b, hb⟩, ?_⟩
          rintro ⟨_, h⟩
          cases h with
          | hello _ h => exact hn _ h
          | other h => exact h hc
        · rintro (⟨_, h⟩ | ⟨rfl, _⟩)
          · exact absurd hb (h b)
          · rfl
    · rw [if_neg hc]
      refine ⟨fun h => (by cases h), ?_⟩
      rintro (⟨_, h⟩ | ⟨_, _, h⟩)
      · exact absurd hb (h b)
      · exact absurd ⟨_, .other hc⟩ h

private theorem sign_error {E : Env} {e : Entry} {m : Msg} {flag : Bool} {payload : Bytes} {priv : Option Bytes} {x : Exc}
    (ht : m.cls.sign = e.signed) :
    signFor E { m with enc := .bool flag } payload priv = .error x ↔ ∃ key, ToSign e m priv key ∧
      (shortHashOf E m payload = .error x ∨
        ∃ d, DigestOf E m payload d ∧ E.sign key (E.sha3 d) = .error x) := by
  unfold signFor ToSign
  dsimp only
  rw [show shortHashOf E { m with enc := .bool flag } payload = shortHashOf E m payload from
    shortHashOf_congr E m { m with enc := .bool flag } payload rfl rfl rfl rfl]
  by_cases hs : m.sig = .none
  · rw [if_pos hs]
    cases hk : (if m.cls.sign then givenKey priv else none) with
    | none =>
      refine ⟨fun h => (by cases h), ?_⟩
      rintro ⟨key, ⟨_, a, b, c⟩, _⟩
      rw [ht, if_pos a, key_given.mpr ⟨b, c⟩] at hk
      cases hk
    | some k =>
      have hsg : m.cls.sign = true := by
        by_cases h : m.cls.sign = true
        · exact h
        · rw [if_neg h] at hk; cases hk
      rw [if_pos hsg] at hk
      obtain ⟨k1, k2⟩ := key_given.mp hk
      have ts : ∀ {key}, (m.sig = .none ∧ e.signed = true ∧ priv = some key ∧ key ≠ []) ↔ key = k := by
        intro key
        constructor
        · rintro ⟨_, _, h, _⟩
          rw [k1] at h
          injection h with h
          exact h.symm
        · rintro rfl; exact ⟨hs, ht ▸ hsg, k1, k2⟩
      dsimp only
      cases hh : shortHashOf E m payload with
      | error y =>
        dsimp only
        constructor
        · intro h; injection h with h; exact ⟨k, ts.mpr rfl, .inl (by rw [h])⟩
        · rintro ⟨_, _, h | ⟨d, h, _⟩⟩
          · injection h with h; rw [h]
          · rw [digest_written.mpr h] at hh; cases hh
      | ok d =>
        dsimp only
        have hd := digest_written.mp hh
        unfold Env.ecdsaSign
        constructor
        · intro h
          refine ⟨k, ts.mpr rfl, .inr ⟨d, hd, ?_⟩⟩
          cases hg : E.sign k (E.sha3 d) with
          | ok s => rw [hg] at h; cases h
          | error y => rw [hg] at h; injection h with h; rw [h]
        · rintro ⟨key, h1, h | ⟨d', h, h'⟩⟩
          · cases h
          · obtain rfl := ts.mp h1
            have := digest_written.mpr h
            rw [hh] at this
            injection this with this
            subst this
            rw [h']
  · rw [if_neg hs]
    refine ⟨fun h => (by cases h), ?_⟩
    rintro ⟨_, ⟨h, _⟩, _⟩
    exact absurd h hs

theorem sign_gives {E : Env} {e : Entry} {m m2 : Msg} {flag : Bool} {payload : Bytes} {priv : Option Bytes}
    (ht : m.cls.sign = e.signed) (hfree : NoKey priv ∨ holds m.sig = false) :
    signFor E { m with enc := .bool flag } payload priv = .ok m2 ↔ ∃ sig, HasSignature E e m priv payload sig ∧
      m2 = { m with enc := .bool flag, sig := sig } := by
  unfold signFor
  dsimp only
  rw [show shortHashOf E { m with enc := .bool flag } payload = shortHashOf E m payload from
    shortHashOf_congr E m { m with enc := .bool flag } payload rfl rfl rfl rfl]
  by_cases hs : m.sig = .none
  · rw [if_pos hs]
    cases hk : (if m.cls.sign then givenKey priv else none) with
    | none =>
      have hno : e.signed = false ∨ NoKey priv := by
        by_cases h : m.cls.sign = true
        · rw [if_pos h] at hk; exact .inr (key_absent.mp hk)
        · rw [ht] at h; exact .inl (by simpa using h)
      dsimp only
      constructor
      · intro h
        injection h with h
        exact ⟨_, .bytes (.blank hs hno), h.symm⟩
      · rintro ⟨sig, h, rfl⟩
        cases h with
        | kept h => exact absurd hs h
        | bytes h =>
          cases h with
          | blank => rfl
          | kept h => rw [hs] at h; cases h
          | made _ a b c =>
            rw [ht, if_pos a, key_given.mpr ⟨b, c⟩] at hk
            cases hk
    | some k =>
      have hsg : m.cls.sign = true := by
        by_cases h : m.cls.sign = true
        · exact h
        · rw [if_neg h] at hk; cases hk
      rw [if_pos hsg] at hk
      obtain ⟨k1, k2⟩ := key_given.mp hk
      dsimp only
      constructor
      · intro h
        cases hh : shortHashOf E m payload with
        | error y => rw [hh] at h; cases h
        | ok d =>
          rw [hh] at h
          dsimp only at h
          unfold Env.ecdsaSign at h
          cases hg : E.sign k (E.sha3 d) with
          | error y => rw [hg] at h; cases h
          | ok s =>
            rw [hg] at h
            injection h with h
            exact ⟨_, .bytes (.made hs (ht ▸ hsg) k1 k2 (digest_written.mp hh) hg), h.symm⟩
      · rintro ⟨sig, h, rfl⟩
        cases h with
        | kept h => exact absurd hs h
        | bytes h =>
          cases h with
          | blank _ h =>
            rcases h with h | h
            · rw [← ht, hsg] at h; cases h
            · rw [key_absent.mpr h] at hk; cases hk
          | kept h => rw [hs] at h; cases h
          | made _ _ b c d g =>
            rw [k1] at b
            injection b with b
            subst b
            rw [digest_written.mpr d]
            dsimp only
            unfold Env.ecdsaSign
            rw [g]
  · rw [if_neg hs]
    constructor
    · intro h
      injection h with h
      refine ⟨m.sig, ?_, h.symm⟩
      by_cases hb : ∃ s, m.sig = .bytes s
      · obtain ⟨s, hb⟩ := hb
        rw [hb]
        refine .bytes (.kept hb (hfree.imp id fun h => ?_))
        rw [hb] at h
        cases s with
        | nil => rfl
        | cons _ _ => cases h
      · exact .kept hs fun s h => hb ⟨s, h⟩
    · rintro ⟨sig, h, rfl⟩
      cases h with
      | kept => rfl
      | bytes h =>
        cases h with
        | blank h => exact absurd h hs
        | kept h => rw [← h]
        | made h => exact absurd h hs

private theorem header_error {n : Nat} {ts : Val} {b : Bool} {x : Exc} (hn : n < 2 ^ 16) :
    packHeader n ts (.bool b) = .error x ↔ x = .structError ∧ ∀ k < 2 ^ 64, ¬ TimeOf ts k := by
  unfold packHeader
  cases hs : ts.structInt with
  | none =>
    dsimp only
    constructor
    · intro h
      injection h with h
      refine ⟨h.symm, fun k _ ht => ?_⟩
      cases ht <;> cases hs
    · rintro ⟨rfl, _⟩; rfl
  | some t =>
    have ht : ∀ k, TimeOf ts k → t = k := by
      intro k h
      cases h with
      | int => simp only [Val.structInt, Option.some.injEq] at hs; exact hs.symm
      | bool b => cases b <;> simp_all [Val.structInt]
    dsimp only
    rw [if_neg (by omega)]
    by_cases hr : t < 0 ∨ 2 ^ 64 ≤ t
    · rw [if_pos hr]
      constructor
      · intro h
        injection h with h
        refine ⟨h.symm, fun k hk h => ?_⟩
        have := ht k h
        omega
      · rintro ⟨rfl, _⟩; rfl
    · rw [if_neg hr]
      refine ⟨fun h => (by cases h), ?_⟩
      rintro ⟨_, h⟩
      refine absurd ?_ (h t.toNat (by omega))
      cases ts with
      | int i =>
        simp only [Val.structInt, Option.some.injEq] at hs
        subst hs
        have : (Val.int i) = .int (i.toNat : Nat) := by congr 1; omega
        rw [this]
        exact .int _
      | bool b =>
        have : t.toNat = if b then 1 else 0 := by
          cases b <;> simp [Val.structInt] at hs <;> subst hs <;> rfl
        rw [this]
        exact .bool b
      | _ => cases hs

private theorem time_ok {n : Nat} {ts : Val} {b : Bool} (hn : n < 2 ^ 16) :
    (∃ hd, packHeader n ts (.bool b) = .ok hd) ↔ ∃ k < 2 ^ 64, TimeOf ts k := by
  constructor
  · rintro ⟨hd, h⟩
    refine Classical.byContradiction fun hx => ?_
    rw [(header_error hn).mpr ⟨rfl, fun k hk ht => hx ⟨k, hk, ht⟩⟩] at h
    cases h
  · rintro ⟨k, hk, ht⟩
    cases hp : packHeader n ts (.bool b) with
    | ok hd => exact ⟨hd, rfl⟩
    | error x => exact absurd ht (((header_error hn).mp hp).2 k hk)

private theorem join_error {m : Msg} {flag : Bool} {sig : Val} {c : Bytes} {x : Exc} :
    joinFrame { m with enc := .bool flag, sig := sig } c = .error x ↔
      (x = .structError ∧ ∀ k < 2 ^ 64, ¬ TimeOf m.ts k) ∨
      (x = .typeError ∧ (∃ k < 2 ^ 64, TimeOf m.ts k) ∧ ∀ s, sig ≠ .bytes s) := by
  have hlt := typeId_lt m.cls
  unfold joinFrame
  dsimp only
  cases hp : packHeader m.cls.typeId m.ts (.bool flag) with
  | error y =>
    obtain ⟨rfl, hn⟩ := (header_error hlt).mp hp
    dsimp only
    constructor
    · intro h; injection h with h; exact .inl ⟨h.symm, hn⟩
    · rintro (⟨rfl, _⟩ | ⟨_, ⟨k, hk, ht⟩, _⟩)
      · rfl
      · exact absurd ht (hn k hk)
  | ok hd =>
    have ht := (time_ok hlt).mp ⟨hd, hp⟩
    dsimp only
    split
    · refine ⟨fun h => (by cases h), ?_⟩
      rintro (⟨_, h⟩ | ⟨_, _, h⟩)
      · obtain ⟨k, hk, ht⟩ := ht
        exact absurd ht (h k hk)
      · exact absurd rfl (h _)
    · rename_i hn
      constructor
      · intro h; injection h with h; exact .inr ⟨h.symm, ht, fun s hs => hn s hs⟩
      · rintro (⟨_, h⟩ | ⟨rfl, _⟩)
        · obtain ⟨k, hk, ht⟩ := ht
          exact absurd ht (h k hk)
        · rfl

/-- What `serialize` does once it is clear that no signature is overwritten. -/
theorem serialize_free {E : Env} {m : Msg} {priv : Option Bytes} {f : Option (Bytes → Res Bytes)} {flag : Bool}
    (hfree : NoKey priv ∨ holds m.sig = false) (hf : (m.cls.encrypt && f.isSome) = flag) :
    serializeBase E m priv f =
      match m.slots with
      | .error e => (.error e, { m with enc := .bool flag })
      | .ok s =>
        match dumps s with
        | .error e => (.error e, { m with enc := .bool flag })
        | .ok payload =>
          match signFor E { m with enc := .bool flag } payload priv with
          | .error e => (.error e, { m with enc := .bool flag })
          | .ok m2 =>
            match (if m2.enc.truthy then f else none) with
            | none => (joinFrame m2 payload, m2)
            | some f =>
              match f payload with
              | .error e => (.error e, m2)
              | .ok c => (joinFrame m2 c, m2) := by
  subst hf
  unfold serializeBase
  rw [if_neg]
  · rfl
  · rw [Bool.and_eq_true]
    rintro ⟨a, b⟩
    rcases hfree with h | h
    · rw [key_absent.mpr h] at a; cases a
    · rw [holds_eq, b] at h; cases h

private theorem flag_for {e : Entry} {m : Msg} {encrypt : Bytes → Bytes → Res Bytes} {pub : Option Bytes} {flag : Bool}
    (ht : m.cls.encrypt = e.encrypted) :
    (m.cls.encrypt && ((givenKey pub).map encrypt).isSome) = flag ↔ FlagFor e pub flag := by
  rw [ht]
  constructor
  · rintro rfl
    cases he : e.encrypted with
    | false => exact .no (.inl he)
    | true =>
      cases hg : givenKey pub with
      | none => exact .no (.inr (key_absent.mp hg))
      | some k => exact .yes he fun h => by rw [key_absent.mpr h] at hg; cases hg
  · intro h
    cases h with
    | yes a b =>
      rw [a]
      cases hg : givenKey pub with
      | none => exact absurd (key_absent.mp hg) b
      | some k => rfl
    | no h =>
      rcases h with h | h
      · rw [h]; rfl
      · rw [key_absent.mpr h]; simp

/-- The part of `NoFrameOf` that does not depend on the version of a `Hello` at the end. -/
private theorem base_error {E : Env} {encrypt : Bytes → Bytes → Res Bytes} {e : Entry} {m m' : Msg}
    {priv pub : Option Bytes} {flag : Bool} {x : Exc} (he : e ∈ catalogue) (hc : e.cls = m.cls)
    (hfree : NoKey priv ∨ holds m.sig = false) (hf : FlagFor e pub flag)
    (h : serializeBase E m priv ((givenKey pub).map encrypt) = (.error x, m')) :
    NoFrameOf E encrypt e m priv pub flag x m' := by
  obtain ⟨_, t2, t3⟩ := entry_tables m.cls e he hc
  rw [serialize_free hfree ((flag_for t3).mpr hf)] at h
  cases hs : m.slots with
  | error y =>
    simp only [hs, Prod.mk.injEq, Except.error.injEq] at h
    obtain ⟨rfl, rfl⟩ := h
    exact .field (slots_unsent.mp hs)
  | ok s =>
    simp only [hs] at h
    obtain ⟨l, rfl, hl⟩ := slots_sent.mp hs
    cases hd : dumps (.list l) with
    | error y =>
      simp only [hd, Prod.mk.injEq, Except.error.injEq] at h
      obtain ⟨rfl, rfl⟩ := h
      obtain ⟨rfl, hn⟩ := unwritable_bytes.mp hd
      exact .payload hl hn
    | ok payload =>
      simp only [hd] at h
      have hp : PayloadOf m payload := ⟨l, hl, encoded_iff.mp hd⟩
      cases hg : signFor E { m with enc := .bool flag } payload priv with
      | error y =>
        simp only [hg, Prod.mk.injEq, Except.error.injEq] at h
        obtain ⟨rfl, rfl⟩ := h
        obtain ⟨key, hk, h | ⟨d, h1, h2⟩⟩ := (sign_error t2).mp hg
        · rcases digest_unwritten.mp h with ⟨rfl, hn⟩ | ⟨rfl, ⟨b, hb⟩, hn⟩
          · exact .head hp hk hn
          · exact .unversioned hp hk hb hn
        · exact .sign hp hk h1 h2
      | ok m2 =>
        obtain ⟨sig, hsig, rfl⟩ := (sign_gives t2 hfree).mp hg
        have fin : ∀ {c}, Enciphered e encrypt pub payload flag c →
            joinFrame { m with enc := .bool flag, sig := sig } c = .error x →
            m' = { m with enc := .bool flag, sig := sig } → NoFrameOf E encrypt e m priv pub flag x m' := by
          intro c hc hj hm
          subst hm
          rcases join_error.mp hj with ⟨rfl, hn⟩ | ⟨rfl, ⟨k, hk, ht⟩, hn⟩
          · exact .time hp hsig hc hn
          · exact .signature hp hsig hc hk ht hn
        cases hf with
        | no hno =>
          simp only [hg, Val.truthy, Bool.false_eq_true, if_false, Prod.mk.injEq] at h
          exact fin (.no hno) h.1 h.2.symm
        | yes h1 h2 =>
          cases hgk : givenKey pub with
          | none => exact absurd (key_absent.mp hgk) h2
          | some key =>
            obtain ⟨k1, k2⟩ := key_given.mp hgk
            simp only [hg, hgk, Val.truthy, if_true, Option.map_some] at h
            cases hen : encrypt key payload with
            | error y =>
              simp only [hen, Prod.mk.injEq, Except.error.injEq] at h
              obtain ⟨rfl, rfl⟩ := h
              exact .cipher hp hsig rfl k1 hen
            | ok c =>
              simp only [hen, Prod.mk.injEq] at h
              exact fin (.yes h1 k1 k2 hen) h.1 h.2.symm

/-- The converse: everything but a version that is missed at the very end. -/
private theorem base_fails {E : Env} {encrypt : Bytes → Bytes → Res Bytes} {e : Entry} {m m' : Msg}
    {priv pub : Option Bytes} {flag : Bool} {x : Exc} (he : e ∈ catalogue) (hc : e.cls = m.cls)
    (hfree : NoKey priv ∨ holds m.sig = false) (hf : FlagFor e pub flag)
    (h : NoFrameOf E encrypt e m priv pub flag x m') :
    serializeBase E m priv ((givenKey pub).map encrypt) = (.error x, m') ∨
    (x = .attributeError ∧ ¬ Versioned m ∧ m'.attrs = m.attrs ∧
      ∃ b, serializeBase E m priv ((givenKey pub).map encrypt) = (.ok b, m')) := by
  obtain ⟨_, t2, t3⟩ := entry_tables m.cls e he hc
  have slots : ∀ {payload}, PayloadOf m payload → ∃ s, m.slots = .ok s ∧ dumps s = .ok payload :=
    fun h => (written_payload m _).mpr h
  have rest : ∀ {payload sig body}, PayloadOf m payload → HasSignature E e m priv payload sig →
      Enciphered e encrypt pub payload flag body →
      serializeBase E m priv ((givenKey pub).map encrypt) =
        (joinFrame { m with enc := .bool flag, sig := sig } body, { m with enc := .bool flag, sig := sig }) := by
    intro payload sig body hp hsig hen
    rw [serialize_free hfree ((flag_for t3).mpr hf)]
    obtain ⟨s, h1, h2⟩ := slots hp
    rw [h1]
    dsimp only
    rw [h2]
    dsimp only
    rw [(sign_gives t2 hfree).mpr ⟨sig, hsig, rfl⟩]
    dsimp only
    cases hen with
    | yes a b c d =>
      simp only [key_given.mpr ⟨b, c⟩, Val.truthy, if_true, Option.map_some, d]
    | no h => simp only [Val.truthy, Bool.false_eq_true, if_false]
  cases h with
  | field h =>
    left
    rw [serialize_free hfree ((flag_for t3).mpr hf), slots_unsent.mpr h]
  | payload hl hn =>
    left
    rw [serialize_free hfree ((flag_for t3).mpr hf), slots_sent.mpr ⟨_, rfl, hl⟩]
    dsimp only
    rw [unwritable_bytes.mpr ⟨rfl, hn⟩]
  | head hp hk hn =>
    left
    obtain ⟨s, h1, h2⟩ := slots hp
    rw [serialize_free hfree ((flag_for t3).mpr hf), h1]
    dsimp only
    rw [h2]
    dsimp only
    rw [(sign_error t2).mpr ⟨_, hk, .inl (digest_unwritten.mpr (.inl ⟨rfl, hn⟩))⟩]
  | unversioned hp hk hb hn =>
    left
    obtain ⟨s, h1, h2⟩ := slots hp
    rw [serialize_free hfree ((flag_for t3).mpr hf), h1]
    dsimp only
    rw [h2]
    dsimp only
    rw [(sign_error t2).mpr ⟨_, hk, .inl (digest_unwritten.mpr (.inr ⟨rfl, ⟨_, hb⟩, hn⟩))⟩]
  | sign hp hk hd hs =>
    left
    obtain ⟨s, h1, h2⟩ := slots hp
    rw [serialize_free hfree ((flag_for t3).mpr hf), h1]
    dsimp only
    rw [h2]
    dsimp only
    rw [(sign_error t2).mpr ⟨_, hk, .inr ⟨_, hd, hs⟩⟩]
  | cipher hp hsig hfl hk hx =>
    left
    subst hfl
    obtain ⟨s, h1, h2⟩ := slots hp
    rw [serialize_free hfree ((flag_for t3).mpr hf), h1]
    dsimp only
    rw [h2]
    dsimp only
    rw [(sign_gives t2 hfree).mpr ⟨_, hsig, rfl⟩]
    have hkn : ¬ NoKey pub := by cases hf with | yes _ h => exact h
    have hke := fun h => hkn (.inr (hk.trans (congrArg some h)))
    simp only [key_given.mpr ⟨hk, hke⟩, Val.truthy, if_true, Option.map_some, hx]
  | time hp hsig hen ht =>
    left
    rw [rest hp hsig hen, join_error.mpr (.inl ⟨rfl, ht⟩)]
  | signature hp hsig hen hn ht hs =>
    left
    rw [rest hp hsig hen, join_error.mpr (.inr ⟨rfl, ⟨_, hn, ht⟩, hs⟩)]
  | version hp hsig hen hn ht hv =>
    right
    refine ⟨rfl, hv, rfl, ?_⟩
    rw [rest hp (.bytes hsig) hen]
    cases hj : joinFrame _ _ with
    | ok b => exact ⟨b, rfl⟩
    | error y =>
      rcases join_error.mp hj with ⟨_, h⟩ | ⟨_, _, h⟩
      · exact absurd ht (h _ hn)
      · exact absurd rfl (h _)

/-- C112: `dump` raises exactly if there is a fault, with the exception of the first one: a signature to be
overwritten, a field that cannot be sent (down to nested messages), a payload that cannot be written, a
digest that cannot be made, a key that does not sign, one that does not encipher, a time that does not fit, a
signature that is no byte string, a `Hello` without version.  The message has the new flag unless it was not
touched at all, and the new signature if the fault came up after signing; its fields are as before. -/
theorem dump_raises (E : Env) (encrypt : Bytes → Bytes → Res Bytes) (m m' : Msg) (priv pub : Option Bytes) (x : Exc) :
    dump E encrypt m priv pub = (.error x, m') ↔ NoFrame E encrypt m priv pub x m' := by
  obtain ⟨e, he, hc⟩ := listed_cls m.cls
  by_cases hfree : NoKey priv ∨ holds m.sig = false
  · have t3 := (entry_tables m.cls e he hc).2.2
    have hf := (flag_for (encrypt := encrypt) (pub := pub) t3).mp rfl
    generalize (m.cls.encrypt && ((givenKey pub).map encrypt).isSome) = flag at hf
    have hno : NoFrame E encrypt m priv pub x m' ↔ NoFrameOf E encrypt e m priv pub flag x m' := by
      constructor
      · intro h
        cases h with
        | signed a b =>
          rcases hfree with h | h
          · exact absurd h a
          · rw [b] at h; cases h
        | fault _ he' hc' hf' h =>
          have := sent_entry_unique he he' (hc'.trans hc.symm)
          subst this
          have h1 := (flag_for (encrypt := encrypt) t3).mpr hf
          have h2 := (flag_for (encrypt := encrypt) t3).mpr hf'
          rw [← h1, h2]
          exact h
      · exact fun h => .fault hfree he hc hf h
    rw [hno]
    unfold dump serialize
    by_cases hh : m.cls = .Hello
    · rw [if_pos hh]
      constructor
      · intro h
        cases hb : serializeBase E m priv ((givenKey pub).map encrypt) with
        | mk r m1 =>
          rw [hb] at h
          cases r with
          | error y =>
            simp only [Prod.mk.injEq, Except.error.injEq] at h
            obtain ⟨rfl, rfl⟩ := h
            exact base_error he hc hfree hf hb
          | ok b =>
            dsimp only at h
            split at h
            · simp at h
            · rename_i hn
              simp only [Prod.mk.injEq, Except.error.injEq] at h
              obtain ⟨rfl, rfl⟩ := h
              obtain ⟨number, time, flag', sig, payload, body, _, _, a3, a4, a5, a6, a7, _, rfl⟩ :=
                (base_writes he hc).mp hb
              have hfl : flag' = flag := by
                have h1 := (flag_for (encrypt := encrypt) t3).mpr hf
                rw [← h1]
                refine ((flag_for (encrypt := encrypt) t3).mpr ?_).symm
                cases a7 with
                | yes a b c _ =>
                  refine .yes a ?_
                  rintro (h | h)
                  · rw [h] at b; cases b
                  · rw [h] at b; injection b with b; exact c b.symm
                | no h => exact .no h
              subst hfl
              have hlt : bigEndian time < 2 ^ 64 := by
                have : bigEndian time < 256 ^ time.length := by rw [bigEndian_eq]; exact ofBE_lt time
                rw [a3] at this
                exact this
              refine .version a5 a6 a7 hlt a4 ?_
              rintro ⟨_, h⟩
              cases h with
              | hello _ h => exact hn _ h
              | other h => exact h hh
      · intro h
        rcases base_fails he hc hfree hf h with h | ⟨rfl, hv, ha, b, h⟩
        · rw [h]
        · rw [h]
          dsimp only
          rw [ha]
          split
          · rename_i v hv'
            exact absurd ⟨_, .hello hh hv'⟩ hv
          · rfl
    · rw [if_neg hh]
      refine ⟨base_error he hc hfree hf, fun h => ?_⟩
      rcases base_fails he hc hfree hf h with h | ⟨_, hv, _⟩
      · exact h
      · exact absurd ⟨_, .other hh⟩ hv
  · have h1 : ¬ NoKey priv := fun h => hfree (.inl h)
    have h2 : holds m.sig = true := by
      cases h : holds m.sig with
      | true => rfl
      | false => exact absurd (.inr h) hfree
    have hd : dump E encrypt m priv pub = (.error .signatureAlreadyExists, m) := by
      have hb : serializeBase E m priv ((givenKey pub).map encrypt) = (.error .signatureAlreadyExists, m) := by
        unfold serializeBase
        rw [if_pos]
        rw [Bool.and_eq_true]
        refine ⟨?_, by rw [← holds_eq]; exact h2⟩
        cases hg : givenKey priv with
        | none => exact absurd (key_absent.mp hg) h1
        | some k => rfl
      unfold dump serialize
      rw [hb]
      split <;> rfl
    rw [hd]
    constructor
    · intro h
      simp only [Prod.mk.injEq, Except.error.injEq] at h
      obtain ⟨rfl, rfl⟩ := h
      exact .signed h1 h2
    · intro h
      cases h with
      | signed => rfl
      | fault h => exact absurd h hfree

/-- C112: a frame or an exception, never both. -/
theorem frame_or_not (E : Env) (encrypt : Bytes → Bytes → Res Bytes) (m : Msg) (priv pub : Option Bytes) :
    (∃ data m', WritesFrame E encrypt m priv pub data m') ↔ ¬ ∃ x m', NoFrame E encrypt m priv pub x m' := by
  cases hd : dump E encrypt m priv pub with
  | mk r m' =>
    cases r with
    | ok data =>
      refine ⟨fun _ => ?_, fun _ => ⟨data, m', (dump_writes _ _ _ _ _ _ _).mp hd⟩⟩
      rintro ⟨x, m2, h⟩
      have := (dump_raises _ _ _ _ _ _ _).mpr h
      rw [hd] at this
      cases this
    | error x =>
      refine ⟨?_, fun h => absurd ⟨x, m', (dump_raises _ _ _ _ _ _ _).mp hd⟩ h⟩
      rintro ⟨data, m2, h⟩
      have := (dump_writes _ _ _ _ _ _ _).mpr h
      rw [hd] at this
      cases this

/-- C112: whatever goes wrong, class, type, time and fields of the message stay as they are, and its
signature is replaced only if it had none. -/
theorem failed_dump_keeps (E : Env) (encrypt : Bytes → Bytes → Res Bytes) (m m' : Msg) (priv pub : Option Bytes) (x : Exc)
    (h : dump E encrypt m priv pub = (.error x, m')) : m'.cls = m.cls ∧ m'.ty = m.ty ∧ m'.ts = m.ts ∧
      m'.attrs = m.attrs ∧ (m.sig = .none ∨ m'.sig = m.sig) := by
  have sig : ∀ {e payload sig}, HasSignature E e m priv payload sig → m.sig = .none ∨ sig = m.sig := by
    intro e payload sig h
    cases h with
    | kept => exact .inr rfl
    | bytes h =>
      cases h with
      | made h => exact .inl h
      | blank h => exact .inl h
      | kept h => exact .inr h.symm
  cases (dump_raises _ _ _ _ _ _ _).mp h with
  | signed => exact ⟨rfl, rfl, rfl, rfl, .inr rfl⟩
  | fault _ _ _ _ h =>
    cases h with
    | field | payload | head | unversioned | sign => exact ⟨rfl, rfl, rfl, rfl, .inr rfl⟩
    | cipher _ hs | time _ hs | signature _ hs => exact ⟨rfl, rfl, rfl, rfl, sig hs⟩
    | version _ hs => exact ⟨rfl, rfl, rfl, rfl, sig (.bytes hs)⟩

/-! ### Cases -/

/-- A `Peers` message with something that is not a peer after one that can be sent. -/
example : UnsentField .Peers p!"peers" .plain (.list [.fdict .peer [(p!"node", .cont .node [])], .int 1]) .attributeError :=
  .special (.peers (.elements (.list _)) ⟨[_], .int 1, [], rfl, fun y hy => by
    rw [List.mem_singleton.mp hy]
    exact ⟨_, .mk (before := []) (after := []) (by simp) (.mk [] (by simp))⟩, .stranger (by simp)⟩)

/-- A report without `task_to_compute` inside a `SubtaskResultsAccepted`: the exception names the inner
field. -/
example (ty ts enc sig : Val) : UnsentFields .SubtaskResultsAccepted
    [(p!"payment_ts", .none), (p!"report_computed_task", .msg .ReportComputedTask ty ts enc sig
      [(p!"task_to_compute", .none)])] (.fieldError p!"task_to_compute") :=
  (slots_unsent (m := ⟨.SubtaskResultsAccepted, .none, .none, .none, .none, _⟩)).mp rfl

/-- A time that does not fit: by then the message has a (blank) signature. -/
example : NoFrame toyEnv (fun _ _ => .error .decryptionError)
    ⟨.RemoveTask, .int 1007, .int (2 ^ 64), .none, .none, [(p!"task_id", .int 7)]⟩ none none .structError
    ⟨.RemoveTask, .int 1007, .int (2 ^ 64), .bool false, .bytes (List.replicate 65 0), [(p!"task_id", .int 7)]⟩ :=
  (dump_raises _ _ _ _ _ _ _).mp (by decide +kernel)

/-- A mask given as a number. -/
example : Indescribable (.cont .taskHeader [(p!"task_id", .str p!"a"), (p!"mask", .int 3)]) .typeError :=
  .mask (.here (by simp) (.inl ⟨3, rfl⟩))

end Verif.Props
