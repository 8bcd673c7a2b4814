import Verif.Spec.Notes
import Verif.Lemmas.Uuid
import Verif.Lemmas.NoteTexts
import Verif.Lemmas.Frame
/-! # C115: what signing and checking promissory notes says -/

namespace Verif.Props

open Verif Spec

/-! ### The text that is hashed -/

private theorem digit_eq : ∀ d, d < 16 → hexDigit d = p!"0123456789abcdef".getD d '0' := by decide

private theorem smallHex_eq : ∀ k n, hexlify (toBE k n) = smallHex (2 * k) n
  | 0, _ => rfl
  | k + 1, n => by
    have e : hexlify (toBE (k + 1) n) = hexlify (toBE k (n / 256)) ++
        [hexDigit (n % 256 / 16), hexDigit (n % 256 % 16)] := by
      show hexlify (toBE k (n / 256) ++ [UInt8.ofNat (n % 256)]) = _
      unfold hexlify
      rw [List.flatMap_append]
      simp only [List.flatMap_cons, List.flatMap_nil, List.append_nil]
      have : (UInt8.ofNat (n % 256)).toNat = n % 256 := by
        simp
      rw [this]
    rw [e, smallHex_eq k, show 2 * (k + 1) = 2 * k + 1 + 1 by omega]
    show _ = (smallHex (2 * k) (n / 16 / 16) ++ [_]) ++ [_]
    rw [digit_eq _ (by omega), digit_eq _ (by omega), Nat.div_div_eq_div_mul, List.append_assoc,
      show n % 256 / 16 = n / 16 % 16 by omega, show n % 256 % 16 = n % 16 by omega]
    rfl

private theorem whole_iff {v : Val} {i : Int} : v.structInt = some i ↔ Whole v i := by
  constructor
  · intro h
    cases v <;> simp only [Val.structInt, reduceCtorEq] at h
    · rename_i b
      injection h with h
      subst h
      cases b
      · exact .no
      · exact .yes
    · injection h with h
      subst h
      exact .int _
  · intro h
    cases h <;> rfl

private theorem whole_none {v : Val} (h : v.structInt = none) : ¬ ∃ i, Whole v i := by
  rintro ⟨i, hi⟩
  rw [whole_iff.mpr hi] at h
  cases h

private theorem amount_ok {v : Val} {a : Bytes} : amountBytes v = .ok a ↔
    ∃ n : Nat, Whole v n ∧ n < 2 ^ 256 ∧ a = toBE 32 n := by
  unfold amountBytes
  cases hs : v.structInt with
  | none =>
    constructor
    · intro h; cases h
    · rintro ⟨n, hn, _⟩
      exact absurd ⟨_, hn⟩ (whole_none hs)
  | some i =>
    dsimp only
    constructor
    · intro h
      split at h
      · cases h
      · rename_i hr
        injection h with h
        refine ⟨i.toNat, ?_, by omega, h.symm⟩
        rw [Int.toNat_of_nonneg (by omega)]
        exact whole_iff.mp hs
    · rintro ⟨n, hn, hlt, ha⟩
      rw [ha]
      rw [whole_iff.mpr hn] at hs
      injection hs with hs
      subst hs
      rw [if_neg (by omega), Int.toNat_natCast]

private theorem amount_error {v : Val} {e : Exc} : amountBytes v = .error e ↔
    ((¬ ∃ i, Whole v i) ∧ e = .attributeError) ∨
    (∃ i, Whole v i ∧ (i < 0 ∨ 2 ^ 256 ≤ i) ∧ e = .overflowError) := by
  unfold amountBytes
  cases hs : v.structInt with
  | none =>
    dsimp only
    constructor
    · intro h
      injection h with h
      exact .inl ⟨whole_none hs, h.symm⟩
    · rintro (⟨_, rfl⟩ | ⟨i, hi, _⟩)
      · rfl
      · exact absurd ⟨_, hi⟩ (whole_none hs)
  | some i =>
    dsimp only
    constructor
    · intro h
      split at h
      · rename_i hr
        injection h with h
        exact .inr ⟨i, whole_iff.mp hs, hr, h.symm⟩
      · cases h
    · rintro (⟨h, _⟩ | ⟨j, hj, hr, rfl⟩)
      · exact absurd ⟨_, whole_iff.mp hs⟩ h
      · rw [whole_iff.mpr hj] at hs
        injection hs with hs
        subst hs
        rw [if_pos hr]

private theorem text_error {v : Val} {e : Exc} : textOf v = .error e ↔
    (¬ ∃ s, TextValue v s) ∧ e = .typeError := by
  constructor
  · intro h
    refine ⟨?_, ?_⟩
    · rintro ⟨s, hs⟩
      rw [textOf_iff.mpr hs] at h
      cases h
    · unfold textOf at h
      split at h
      · cases h
      · split at h
        · cases h
        · injection h with h; exact h.symm
      · injection h with h; exact h.symm
  · rintro ⟨h, rfl⟩
    cases ht : textOf v with
    | ok s => exact absurd ⟨s, textOf_iff.mp ht⟩ h
    | error e =>
      unfold textOf at ht
      split at ht
      · cases ht
      · split at ht
        · cases ht
        · injection ht with ht; rw [ht]
      · injection ht with ht; rw [ht]

private theorem id_error {v : Val} {e : Exc} : idTextOf v = .error e ↔
    ((v = .none ∨ ∃ b, v = .bytes b) ∧ e = .typeError) ∨
    (v ≠ .none ∧ (∀ b, v ≠ .bytes b) ∧ (¬ ∃ s, TextValue v s) ∧ e = .attributeError) := by
  constructor
  · intro h
    have hn : ¬ ∃ s, TextValue v s := by
      rintro ⟨s, hs⟩
      rw [idTextOf_iff.mpr hs] at h
      cases h
    unfold idTextOf at h
    split at h
    · cases h
    · split at h
      · cases h
      · injection h with h
        exact .inr ⟨(by simp), (by simp), hn, h.symm⟩
    · injection h with h
      exact .inl ⟨.inl rfl, h.symm⟩
    · injection h with h
      exact .inl ⟨.inr ⟨_, rfl⟩, h.symm⟩
    · rename_i h1 h2 h3 h4
      injection h with h
      exact .inr ⟨h3, h4, hn, h.symm⟩
  · rintro (⟨h | ⟨b, h⟩, rfl⟩ | ⟨h1, h2, h3, rfl⟩)
    · subst h; rfl
    · subst h; rfl
    · unfold idTextOf
      split
      · exact absurd ⟨_, .plain _⟩ h3
      · split
        · rename_i he
          exact absurd ⟨_, .member he⟩ h3
        · rfl
      · exact absurd rfl h1
      · exact absurd rfl (h2 _)
      · rfl

/-- The note of some terms. -/
private def raw (t : Terms) : RawNote := ⟨t.payer, t.payee, t.amount, t.subtask, t.contract⟩

/-- The text of the note of some terms. -/
private def rawHex (n : RawNote) : Res PStr :=
  match n.texts with
  | .error e => .error e
  | .ok x => x.hexmsg

private theorem zeros : hexlify (List.replicate 16 0) = List.replicate 32 '0' := by decide

private theorem hexlify_append (a b : Bytes) : hexlify (a ++ b) = hexlify a ++ hexlify b :=
  List.flatMap_append

private theorem uuid_hex (u : Nat) : hexlify (uuidToBytes32 u) = smallHex 32 u ++ List.replicate 32 '0' := by
  unfold uuidToBytes32
  rw [hexlify_append, smallHex_eq, zeros]

private theorem text_unique {v : Val} {a b : PStr} (h : TextValue v a) (h' : TextValue v b) : a = b := by
  have := (textOf_iff.mpr h).symm.trans (textOf_iff.mpr h')
  injection this

private theorem rawHex_of {t : Terms} {frm to sid : PStr} {n u : Nat} (h1 : TextValue t.payer frm)
    (h2 : TextValue t.payee to) (h3 : Whole t.amount n) (h4 : n < 2 ^ 256) (h5 : TextValue t.subtask sid)
    (h6 : UuidText sid u) : rawHex (raw t) = .ok (p!"0x" ++ t.contract.drop 2 ++ frm.drop 2 ++ to.drop 2
      ++ smallHex 64 n ++ smallHex 32 u ++ List.replicate 32 '0') := by
  have ha := amount_ok.mpr ⟨n, h3, h4, rfl⟩
  unfold rawHex raw RawNote.texts
  dsimp only
  rw [textOf_iff.mpr h1]
  dsimp only
  rw [textOf_iff.mpr h2]
  dsimp only
  rw [ha]
  dsimp only
  rw [idTextOf_iff.mpr h5]
  dsimp only
  unfold Note.hexmsg
  dsimp only
  rw [ha]
  dsimp only
  rw [(parseUuid_iff sid u).mpr h6]
  dsimp only
  rw [uuid_hex, smallHex_eq 32 n]
  simp only [List.append_assoc]

private theorem rawHex_total (t : Terms) : (∃ w, rawHex (raw t) = .ok w ∧ Wording t w) ∨
    (∃ e, rawHex (raw t) = .error e ∧ Wordless t e) := by
  cases h1 : textOf t.payer with
  | error e =>
    refine .inr ⟨e, ?_, ?_⟩
    · unfold rawHex raw RawNote.texts
      dsimp only
      rw [h1]
    · obtain ⟨a, rfl⟩ := text_error.mp h1
      exact .payer a
  | ok frm =>
  cases h2 : textOf t.payee with
  | error e =>
    refine .inr ⟨e, ?_, ?_⟩
    · unfold rawHex raw RawNote.texts
      dsimp only
      rw [h1]
      dsimp only
      rw [h2]
    · obtain ⟨a, rfl⟩ := text_error.mp h2
      exact .payee (textOf_iff.mp h1) a
  | ok to =>
  cases h3 : amountBytes t.amount with
  | error e =>
    refine .inr ⟨e, ?_, ?_⟩
    · unfold rawHex raw RawNote.texts
      dsimp only
      rw [h1]
      dsimp only
      rw [h2]
      dsimp only
      rw [h3]
    · rcases amount_error.mp h3 with ⟨a, rfl⟩ | ⟨i, a, b, rfl⟩
      · exact .amount (textOf_iff.mp h1) (textOf_iff.mp h2) a
      · exact .range (textOf_iff.mp h1) (textOf_iff.mp h2) a b
  | ok am =>
  obtain ⟨n, hn, hlt, _⟩ := amount_ok.mp h3
  have l1 : (0 : Int) ≤ n := Int.natCast_nonneg n
  have l2 : (n : Int) < 2 ^ 256 := by omega
  cases h4 : idTextOf t.subtask with
  | error e =>
    refine .inr ⟨e, ?_, ?_⟩
    · unfold rawHex raw RawNote.texts
      dsimp only
      rw [h1]
      dsimp only
      rw [h2]
      dsimp only
      rw [h3]
      dsimp only
      rw [h4]
    · rcases id_error.mp h4 with ⟨a, rfl⟩ | ⟨a, b, c, rfl⟩
      · exact .noId (textOf_iff.mp h1) (textOf_iff.mp h2) hn l1 l2 a
      · exact .badId (textOf_iff.mp h1) (textOf_iff.mp h2) hn l1 l2 a b c
  | ok sid =>
  cases h5 : parseUuid sid with
  | none =>
    refine .inr ⟨.valueError, ?_, .noUuid (textOf_iff.mp h1) (textOf_iff.mp h2) hn l1 l2
      (idTextOf_iff.mp h4) ?_⟩
    · unfold rawHex raw RawNote.texts
      dsimp only
      rw [h1]
      dsimp only
      rw [h2]
      dsimp only
      rw [h3]
      dsimp only
      rw [h4]
      dsimp only
      unfold Note.hexmsg
      dsimp only
      rw [h3]
      dsimp only
      rw [h5]
    · rintro ⟨u, hu⟩
      rw [(parseUuid_iff sid u).mpr hu] at h5
      cases h5
  | some u =>
    have hu := (parseUuid_iff sid u).mp h5
    have a := textOf_iff.mp h1
    have b := textOf_iff.mp h2
    have c := idTextOf_iff.mp h4
    exact .inl ⟨_, rawHex_of a b hn hlt c hu, .mk a b hn hlt c hu⟩

private theorem whole_unique {v : Val} {i j : Int} (h : Whole v i) (h' : Whole v j) : i = j := by
  have := (whole_iff.mpr h).symm.trans (whole_iff.mpr h')
  injection this

private theorem rawHex_ok {t : Terms} {w : PStr} : rawHex (raw t) = .ok w ↔ Wording t w := by
  constructor
  · intro h
    rcases rawHex_total t with ⟨w', h', hw⟩ | ⟨e, h', _⟩
    · rw [h] at h'
      injection h' with h'
      subst h'
      exact hw
    · rw [h] at h'
      cases h'
  · intro h
    cases h with
    | mk a b c d f g => exact rawHex_of a b c d f g

private theorem rawHex_wordless {t : Terms} {e : Exc} (h : Wordless t e) : rawHex (raw t) = .error e := by
  unfold rawHex raw RawNote.texts
  dsimp only
  cases h with
  | payer x => rw [text_error.mpr ⟨x, rfl⟩]
  | payee a x =>
    rw [textOf_iff.mpr a]
    dsimp only
    rw [text_error.mpr ⟨x, rfl⟩]
  | amount a b x =>
    rw [textOf_iff.mpr a]
    dsimp only
    rw [textOf_iff.mpr b]
    dsimp only
    rw [amount_error.mpr (.inl ⟨x, rfl⟩)]
  | range a b x y =>
    rw [textOf_iff.mpr a]
    dsimp only
    rw [textOf_iff.mpr b]
    dsimp only
    rw [amount_error.mpr (.inr ⟨_, x, y, rfl⟩)]
  | @noId f g i a b c l1 l2 x =>
    obtain ⟨n, rfl⟩ := Int.eq_ofNat_of_zero_le l1
    rw [textOf_iff.mpr a]
    dsimp only
    rw [textOf_iff.mpr b]
    dsimp only
    rw [amount_ok.mpr ⟨n, c, by omega, rfl⟩]
    dsimp only
    rw [id_error.mpr (.inl ⟨x, rfl⟩)]
  | @badId f g i a b c l1 l2 x y z =>
    obtain ⟨n, rfl⟩ := Int.eq_ofNat_of_zero_le l1
    rw [textOf_iff.mpr a]
    dsimp only
    rw [textOf_iff.mpr b]
    dsimp only
    rw [amount_ok.mpr ⟨n, c, by omega, rfl⟩]
    dsimp only
    rw [id_error.mpr (.inr ⟨x, y, z, rfl⟩)]
  | @noUuid f g sid i a b c l1 l2 x y =>
    obtain ⟨n, rfl⟩ := Int.eq_ofNat_of_zero_le l1
    have ha := amount_ok.mpr ⟨n, c, by omega, rfl⟩
    rw [textOf_iff.mpr a]
    dsimp only
    rw [textOf_iff.mpr b]
    dsimp only
    rw [ha]
    dsimp only
    rw [idTextOf_iff.mpr x]
    dsimp only
    unfold Note.hexmsg
    dsimp only
    rw [ha]
    dsimp only
    cases hu : parseUuid sid with
    | none => rfl
    | some u => exact absurd ⟨u, (parseUuid_iff sid u).mp hu⟩ y

private theorem rawHex_error {t : Terms} {e : Exc} : rawHex (raw t) = .error e ↔ Wordless t e := by
  constructor
  · intro h
    rcases rawHex_total t with ⟨w', h', hw⟩ | ⟨e', h', hw⟩
    · rw [h] at h'
      cases h'
    · rw [h] at h'
      injection h' with h'
      subst h'
      exact hw
  · exact rawHex_wordless

/-! ### The hash, the check and the signature of one note -/

private def rawHash (X : EthEnv) (n : RawNote) : Res Bytes :=
  match rawHex n with
  | .error e => .error e
  | .ok w => X.defunctHash w

private theorem rawHash_ok {X : EthEnv} {t : Terms} {h : Bytes} : rawHash X (raw t) = .ok h ↔ NoteHash X t h := by
  unfold rawHash
  constructor
  · intro e
    cases hw : rawHex (raw t) with
    | error x => rw [hw] at e; cases e
    | ok w => rw [hw] at e; exact ⟨w, rawHex_ok.mp hw, e⟩
  · rintro ⟨w, hw, e⟩
    rw [rawHex_ok.mpr hw]
    exact e

private theorem rawHash_error {X : EthEnv} {t : Terms} {e : Exc} :
    rawHash X (raw t) = .error e ↔ NoteUnhashed X t e := by
  unfold rawHash
  constructor
  · intro h
    cases hw : rawHex (raw t) with
    | error x =>
      rw [hw] at h
      injection h with h
      subst h
      exact .inl (rawHex_error.mp hw)
    | ok w => rw [hw] at h; exact .inr ⟨w, rawHex_ok.mp hw, h⟩
  · rintro (h | ⟨w, hw, h⟩)
    · rw [rawHex_error.mpr h]
    · rw [rawHex_ok.mpr hw]
      exact h

private theorem three_iff {sig v r s : Val} : sig.iter = some [v, r, s] ↔ Three sig v r s := by
  constructor
  · intro h
    cases sig <;> simp only [Val.iter, reduceCtorEq, Option.some.injEq] at h
    · rename_i l
      rcases l with _ | ⟨a, _ | ⟨b, _ | ⟨c, _ | _⟩⟩⟩ <;> simp at h
      obtain ⟨rfl, rfl, rfl⟩ := h
      exact .text _ _ _
    · rename_i l
      rcases l with _ | ⟨a, _ | ⟨b, _ | ⟨c, _ | _⟩⟩⟩ <;> simp at h
      obtain ⟨rfl, rfl, rfl⟩ := h
      exact .bytes _ _ _
    · subst h; exact .list _ _ _
    · subst h; exact .tuple _ _ _
    · rename_i l
      rcases l with _ | ⟨⟨a, x⟩, _ | ⟨⟨b, y⟩, _ | ⟨⟨c, z⟩, _ | _⟩⟩⟩ <;> simp at h
      obtain ⟨rfl, rfl, rfl⟩ := h
      exact .dict _ _ _ _ _ _
    · rename_i c l
      rcases l with _ | ⟨⟨a, x⟩, _ | ⟨⟨b, y⟩, _ | ⟨⟨c, z⟩, _ | _⟩⟩⟩ <;> simp at h
      obtain ⟨rfl, rfl, rfl⟩ := h
      exact .record _ _ _ _ _ _ _
  · intro h
    cases h <;> rfl

private theorem three_truthy {sig v r s : Val} (h : Three sig v r s) : sig.truthy = true := by
  cases h <;> rfl

/-- The check with the hash computed in one step. -/
private theorem sigValid_eq (X : EthEnv) (n : RawNote) (sig : Val) : n.sigValid X sig =
    if !sig.truthy then .ok false
    else
      match sig.iter with
      | some [v, r, s] =>
        match rawHash X n with
        | .error e => .error e
        | .ok h =>
          match X.recoverHash h v r s with
          | .error e => .error e
          | .ok a => .ok (textOf n.addressFrom == .ok a)
      | _ => .error .typeError := by
  unfold RawNote.sigValid
  cases hs : sig.truthy with
  | false => rfl
  | true =>
    rw [if_neg (by simp), if_neg (by simp)]
    split
    · rename_i v r s hi
      rw [hi]
      dsimp only
      unfold rawHash rawHex
      cases ht : n.texts with
      | error e => rfl
      | ok t =>
        dsimp only
        unfold Note.sigValid Note.hash
        rw [if_neg (by simp [hs]), hi]
        dsimp only
        cases t.hexmsg with
        | error e => rfl
        | ok w =>
          dsimp only
          cases X.defunctHash w with
          | error e => rfl
          | ok h =>
            dsimp only
            cases X.recoverHash h v r s with
            | error e => rfl
            | ok a =>
              dsimp only
              rw [textOf_iff.mpr (raw_texts.mp ht).1]
              by_cases hab : t.addressFrom = a
              · subst hab; simp
              · have h1 : (t.addressFrom == a) = false := by simpa using hab
                have h2 : ((Except.ok t.addressFrom : Res PStr) == Except.ok a) = false := by
                  rw [beq_eq_false_iff_ne]
                  intro hx
                  injection hx with hx
                  exact hab hx
                rw [h1, h2]
    · rename_i hi
      split
      · rename_i v r s hj
        exact absurd hj (hi v r s)
      · rfl

private theorem checked_iff {X : EthEnv} {t : Terms} {sig : Val} {o : Res Bool} :
    (raw t).sigValid X sig = o ↔ NoteChecked X t sig o := by
  rw [sigValid_eq]
  constructor
  · intro h
    split at h
    · rename_i hs
      subst h
      exact .unsigned (by simpa using hs)
    rename_i hs
    have hs : sig.truthy = true := by simpa using hs
    split at h
    · rename_i v r s hi
      have hi := three_iff.mp hi
      split at h
      · rename_i e he
        subst h
        exact .unhashed hi (rawHash_error.mp he)
      · rename_i b hb
        have hb := rawHash_ok.mp hb
        split at h
        · rename_i e he
          subst h
          exact .unrecovered hi hb he
        · rename_i a ha
          subst h
          cases hp : (textOf t.payer == Except.ok a) with
          | true =>
            show NoteChecked X t sig (.ok (textOf t.payer == Except.ok a))
            rw [hp]
            have : textOf t.payer = .ok a := by simpa using hp
            exact .payer hi hb ha (textOf_iff.mp this)
          | false =>
            show NoteChecked X t sig (.ok (textOf t.payer == Except.ok a))
            rw [hp]
            refine .other hi hb ha fun x => ?_
            rw [textOf_iff.mpr x] at hp
            simp at hp
    · rename_i hi
      subst h
      exact .shape hs fun ⟨v, r, s, x⟩ => hi v r s (three_iff.mpr x)
  · intro h
    cases h with
    | unsigned h => rw [h]; rfl
    | shape hs h =>
      rw [if_neg (by simp [hs])]
      split
      · rename_i v r s hi
        exact absurd ⟨v, r, s, three_iff.mp hi⟩ h
      · rfl
    | unhashed hi he =>
      rw [if_neg (by simp [three_truthy hi]), three_iff.mpr hi]
      dsimp only
      rw [rawHash_error.mpr he]
    | unrecovered hi hb he =>
      rw [if_neg (by simp [three_truthy hi]), three_iff.mpr hi]
      dsimp only
      rw [rawHash_ok.mpr hb]
      dsimp only
      rw [he]
    | payer hi hb ha hp =>
      rw [if_neg (by simp [three_truthy hi]), three_iff.mpr hi]
      dsimp only
      rw [rawHash_ok.mpr hb]
      dsimp only
      rw [ha]
      dsimp only [raw]
      rw [textOf_iff.mpr hp]
      simp
    | @other v r s hh a hi hb ha hp =>
      rw [if_neg (by simp [three_truthy hi]), three_iff.mpr hi]
      dsimp only
      rw [rawHash_ok.mpr hb]
      dsimp only
      rw [ha]
      dsimp only [raw]
      have : (textOf t.payer == Except.ok a) = false := by
        cases hx : textOf t.payer with
        | error e => rfl
        | ok b =>
          by_cases hab : b = a
          · subst hab; exact absurd (textOf_iff.mp hx) hp
          · simpa using hab
      rw [this]

/-- Signing a note whose values may be anything. -/
private def rawSign (X : EthEnv) (n : RawNote) (priv : Bytes) : Res Val :=
  match n.texts with
  | .error e => .error e
  | .ok t => t.sign X priv

private theorem rawSign_eq (X : EthEnv) (n : RawNote) (priv : Bytes) : rawSign X n priv =
    match rawHash X n with
    | .error e => .error e
    | .ok h =>
      match X.signHash h priv with
      | .error e => .error e
      | .ok (v, r, s) =>
        if r ≥ 2 ^ 256 ∨ s ≥ 2 ^ 256 then .error .overflowError
        else .ok (.tuple [.int v, .bytes (toBE 32 r), .bytes (toBE 32 s)]) := by
  unfold rawSign rawHash rawHex
  cases ht : n.texts with
  | error e => rfl
  | ok t =>
    dsimp only
    unfold Note.sign Note.hash
    cases t.hexmsg with
    | error e => rfl
    | ok w => rfl

private theorem be32 {x : Bytes} {r : Nat} (hl : x.length = 32) (hb : bigEndian x = r) :
    r < 2 ^ 256 ∧ toBE 32 r = x := by
  rw [bigEndian_eq] at hb
  subst hb
  refine ⟨?_, ?_⟩
  · have := ofBE_lt x
    rw [hl] at this
    exact Nat.lt_of_lt_of_eq this (by decide)
  · rw [← hl]
    exact toBE_ofBE x

private theorem be32_toBE {r : Nat} (h : r < 2 ^ 256) : bigEndian (toBE 32 r) = r := by
  rw [bigEndian_eq]
  exact ofBE_toBE (Nat.lt_of_lt_of_eq h (by decide))

private theorem signed_iff {X : EthEnv} {t : Terms} {priv : Bytes} {o : Res Val} :
    rawSign X (raw t) priv = o ↔ NoteSigned X t priv o := by
  rw [rawSign_eq]
  constructor
  · intro h
    split at h
    · rename_i e he
      subst h
      exact .unhashed (rawHash_error.mp he)
    · rename_i b hb
      have hb := rawHash_ok.mp hb
      split at h
      · rename_i e he
        subst h
        exact .unsigned hb he
      · rename_i v r s hv
        split at h
        · rename_i hr
          subst h
          exact .big hb hv hr
        · rename_i hr
          subst h
          exact .signed hb hv (toBE_length _ _) (be32_toBE (by omega)) (toBE_length _ _) (be32_toBE (by omega))
  · intro h
    cases h with
    | unhashed he => rw [rawHash_error.mpr he]
    | unsigned hb he =>
      rw [rawHash_ok.mpr hb]
      dsimp only
      rw [he]
    | big hb hv hr =>
      rw [rawHash_ok.mpr hb]
      dsimp only
      rw [hv]
      dsimp only
      rw [if_pos hr]
    | signed hb hv l1 e1 l2 e2 =>
      rw [rawHash_ok.mpr hb]
      dsimp only
      rw [hv]
      dsimp only
      obtain ⟨a1, a2⟩ := be32 l1 e1
      obtain ⟨b1, b2⟩ := be32 l2 e2
      rw [if_neg (by omega), a2, b2]

/-! ### Notes of messages -/

private theorem described {d v : Val} (h : DescribedId d v) : dictAttr d p!"subtask_id" = v := by
  cases h with
  | entry => rfl
  | nothing h =>
    unfold dictAttr
    cases d <;> try rfl
    · rename_i l
      cases l with
      | nil => rfl
      | cons => cases h
    · rename_i c l
      cases l with
      | nil => rfl
      | cons => cases h

private theorem concentRaw_ok {X : EthEnv} {m : Msg} {c : PStr} (hc : m.cls = .TaskToCompute)
    (hd : ∃ v, DescribedId (getAttr m.attrs p!"compute_task_def") v) {n : RawNote} :
    ttcConcentRaw X m c = .ok n ↔ ∃ t, ConcentTerms X m c t ∧ n = raw t := by
  unfold ttcConcentRaw
  rw [ttc_subtask m hc]
  constructor
  · intro h
    split at h
    · cases h
    · rename_i a ha
      injection h with h
      obtain ⟨v, hv⟩ := hd
      rw [described hv] at h
      exact ⟨_, .mk ha hv, h.symm⟩
  · rintro ⟨t, ht, rfl⟩
    cases ht with
    | mk ha hv => rw [ha, described hv]; rfl

private theorem concentRaw_error {X : EthEnv} {m : Msg} {c : PStr} {e : Exc} :
    ttcConcentRaw X m c = .error e ↔ ConcentTermless X m e := by
  unfold ttcConcentRaw
  constructor
  · intro h
    split at h
    · rename_i x hx
      injection h with h
      subst h
      exact .payer hx
    · cases h
  · intro h
    cases h with
    | payer h => rw [h]

private theorem attrOf_ok {v w : Val} {k : PStr} (h : attrOf v k = .ok w) :
    ∃ m : Msg, v = m.val ∧ w = getAttr m.attrs k := by
  unfold attrOf at h
  split at h
  · injection h with h
    exact ⟨⟨_, _, _, _, _, _⟩, rfl, h.symm⟩
  · cases h

private theorem attrOf_error {v : Val} {k : PStr} {e : Exc} (h : attrOf v k = .error e) :
    (∀ m : Msg, v ≠ m.val) ∧ e = .attributeError := by
  refine ⟨fun m hm => ?_, ?_⟩
  · subst hm
    cases h
  · unfold attrOf at h
    split at h
    · cases h
    · injection h with h
      exact h.symm

private theorem attrOf_val (m : Msg) (k : PStr) : attrOf m.val k = .ok (getAttr m.attrs k) := rfl

private theorem attrOf_none {v : Val} (k : PStr) (h : ∀ m : Msg, v ≠ m.val) :
    attrOf v k = .error .attributeError := by
  cases hv : attrOf v k with
  | ok w =>
    obtain ⟨m, hm, _⟩ := attrOf_ok hv
    exact absurd hm (h m)
  | error e =>
    rw [(attrOf_error hv).2]

private theorem providerRaw_ok {X : EthEnv} {m : Msg} {c : PStr} (hc : m.cls = .TaskToCompute)
    (hd : ∃ v, DescribedId (getAttr m.attrs p!"compute_task_def") v) {n : RawNote} :
    ttcRaw X m c = .ok n ↔ ∃ t, ProviderTerms X m c t ∧ n = raw t := by
  unfold ttcRaw
  rw [ttc_subtask m hc]
  constructor
  · intro h
    split at h
    · cases h
    · rename_i a ha
      split at h
      · cases h
      · rename_i p hp
        injection h with h
        obtain ⟨v, hv⟩ := hd
        obtain ⟨w, hw, rfl⟩ := attrOf_ok hp
        rw [described hv] at h
        exact ⟨_, .mk ha hw hv, h.symm⟩
  · rintro ⟨t, ht, rfl⟩
    cases ht with
    | mk ha hw hv =>
      rw [ha]
      dsimp only
      rw [hw, attrOf_val, described hv]
      rfl

private theorem providerRaw_error {X : EthEnv} {m : Msg} {c : PStr} {e : Exc} :
    ttcRaw X m c = .error e ↔ ProviderTermless X m e := by
  unfold ttcRaw
  constructor
  · intro h
    split at h
    · rename_i x hx
      injection h with h
      subst h
      exact .payer hx
    · rename_i a ha
      split at h
      · rename_i x hx
        injection h with h
        subst h
        obtain ⟨h1, rfl⟩ := attrOf_error hx
        exact .offer ha h1
      · cases h
  · intro h
    cases h with
    | payer h => rw [h]
    | offer ha h =>
      rw [ha]
      dsimp only
      rw [attrOf_none _ h]

/-- C115: what checking a task's note for the Concent says. -/
theorem concent_note_verdict (X : EthEnv) (m : Msg) (contract : PStr) (o : Res Bool)
    (hc : m.cls = .TaskToCompute) (hd : ∃ v, DescribedId (getAttr m.attrs p!"compute_task_def") v) :
    verifyConcentNote X m contract = o ↔ ConcentVerdict X m contract o := by
  unfold verifyConcentNote
  constructor
  · intro h
    split at h
    · rename_i e he
      subst h
      exact .termless (concentRaw_error.mp he)
    · rename_i n hn
      obtain ⟨t, ht, rfl⟩ := (concentRaw_ok hc hd).mp hn
      exact .checked ht (checked_iff.mp h)
  · intro h
    cases h with
    | termless h => rw [concentRaw_error.mpr h]
    | checked ht h =>
      rw [(concentRaw_ok hc hd).mpr ⟨_, ht, rfl⟩]
      exact checked_iff.mpr h

/-- C115: what checking a task's note for the provider says. -/
theorem provider_note_verdict (X : EthEnv) (m : Msg) (contract : PStr) (o : Res Bool)
    (hc : m.cls = .TaskToCompute) (hd : ∃ v, DescribedId (getAttr m.attrs p!"compute_task_def") v) :
    verifyNote X m contract = o ↔ ProviderVerdict X m contract o := by
  unfold verifyNote
  constructor
  · intro h
    split at h
    · rename_i e he
      subst h
      exact .termless (providerRaw_error.mp he)
    · rename_i n hn
      obtain ⟨t, ht, rfl⟩ := (providerRaw_ok hc hd).mp hn
      exact .checked ht (checked_iff.mp h)
  · intro h
    cases h with
    | termless h => rw [providerRaw_error.mpr h]
    | checked ht h =>
      rw [(providerRaw_ok hc hd).mpr ⟨_, ht, rfl⟩]
      exact checked_iff.mpr h

/-- C115: what checking both notes of a task says: the provider's note is looked at only if the one for
the Concent is right. -/
theorem both_notes_verdict (X : EthEnv) (m : Msg) (contract : PStr) (o : Res Bool)
    (hc : m.cls = .TaskToCompute) (hd : ∃ v, DescribedId (getAttr m.attrs p!"compute_task_def") v) :
    verifyAllNotes X m contract = o ↔ BothVerdict X m contract o := by
  unfold verifyAllNotes
  constructor
  · intro h
    split at h
    · rename_i e he
      subst h
      exact .concent ((concent_note_verdict X m contract _ hc hd).mp he) (by simp)
    · rename_i he
      subst h
      exact .concent ((concent_note_verdict X m contract _ hc hd).mp he) (by simp)
    · rename_i he
      exact .provider ((concent_note_verdict X m contract _ hc hd).mp he)
        ((provider_note_verdict X m contract _ hc hd).mp h)
  · intro h
    cases h with
    | concent h hn =>
      rw [(concent_note_verdict X m contract _ hc hd).mpr h]
      cases o with
      | error e => rfl
      | ok b =>
        cases b with
        | false => rfl
        | true => exact absurd rfl hn
    | provider h1 h2 =>
      rw [(concent_note_verdict X m contract _ hc hd).mpr h1]
      exact (provider_note_verdict X m contract _ hc hd).mpr h2

private theorem signTexts (X : EthEnv) (n : Res RawNote) (priv : Bytes) (m : Msg) (k : PStr) :
    (match noteTexts n with
      | .error e => .error e
      | .ok n =>
        match n.sign X priv with
        | .error e => .error e
        | .ok s => .ok { m with attrs := setName k s m.attrs } : Res Msg) =
    match n with
    | .error e => .error e
    | .ok n =>
      match rawSign X n priv with
      | .error e => .error e
      | .ok s => .ok (With m k s) := by
  unfold noteTexts rawSign
  cases n with
  | error e => rfl
  | ok n =>
    dsimp only
    cases n.texts with
    | error e => rfl
    | ok t => rfl

/-- C115: signing a task's note for the Concent: the signature is the only thing set, or why there is
none. -/
theorem concent_note_signing (X : EthEnv) (m : Msg) (contract : PStr) (priv : Bytes)
    (hc : m.cls = .TaskToCompute) (hd : ∃ v, DescribedId (getAttr m.attrs p!"compute_task_def") v) :
    (∀ e, signConcentNote X m contract priv = .error e ↔ ConcentSignature X m contract priv (.error e)) ∧
    (∀ m', signConcentNote X m contract priv = .ok m' ↔
      ∃ s, ConcentSignature X m contract priv (.ok s) ∧ m' = With m p!"concent_promissory_note_sig" s) := by
  have he : signConcentNote X m contract priv = _ := signTexts X (ttcConcentRaw X m contract) priv m
    p!"concent_promissory_note_sig"
  rw [he]
  refine ⟨fun e => ⟨?_, ?_⟩, fun m' => ⟨?_, ?_⟩⟩
  · intro h
    split at h
    · rename_i x hx
      injection h with h
      subst h
      exact .termless (concentRaw_error.mp hx)
    · rename_i n hn
      obtain ⟨t, ht, rfl⟩ := (concentRaw_ok hc hd).mp hn
      split at h
      · rename_i x hx
        injection h with h
        subst h
        exact .signed ht (signed_iff.mp hx)
      · cases h
  · intro h
    cases h with
    | termless h => rw [concentRaw_error.mpr h]
    | signed ht h =>
      rw [(concentRaw_ok hc hd).mpr ⟨_, ht, rfl⟩]
      dsimp only
      rw [signed_iff.mpr h]
  · intro h
    split at h
    · cases h
    · rename_i n hn
      obtain ⟨t, ht, rfl⟩ := (concentRaw_ok hc hd).mp hn
      split at h
      · cases h
      · rename_i s hs
        injection h with h
        exact ⟨s, .signed ht (signed_iff.mp hs), h.symm⟩
  · rintro ⟨s, h, rfl⟩
    cases h with
    | signed ht h =>
      rw [(concentRaw_ok hc hd).mpr ⟨_, ht, rfl⟩]
      dsimp only
      rw [signed_iff.mpr h]

/-- C115: signing a task's note for the provider: the signature is the only thing set, or why there is
none. -/
theorem provider_note_signing (X : EthEnv) (m : Msg) (contract : PStr) (priv : Bytes)
    (hc : m.cls = .TaskToCompute) (hd : ∃ v, DescribedId (getAttr m.attrs p!"compute_task_def") v) :
    (∀ e, signNote X m contract priv = .error e ↔ ProviderSignature X m contract priv (.error e)) ∧
    (∀ m', signNote X m contract priv = .ok m' ↔
      ∃ s, ProviderSignature X m contract priv (.ok s) ∧ m' = With m p!"promissory_note_sig" s) := by
  have he : signNote X m contract priv = _ := signTexts X (ttcRaw X m contract) priv m
    p!"promissory_note_sig"
  rw [he]
  refine ⟨fun e => ⟨?_, ?_⟩, fun m' => ⟨?_, ?_⟩⟩
  · intro h
    split at h
    · rename_i x hx
      injection h with h
      subst h
      exact .termless (providerRaw_error.mp hx)
    · rename_i n hn
      obtain ⟨t, ht, rfl⟩ := (providerRaw_ok hc hd).mp hn
      split at h
      · rename_i x hx
        injection h with h
        subst h
        exact .signed ht (signed_iff.mp hx)
      · cases h
  · intro h
    cases h with
    | termless h => rw [providerRaw_error.mpr h]
    | signed ht h =>
      rw [(providerRaw_ok hc hd).mpr ⟨_, ht, rfl⟩]
      dsimp only
      rw [signed_iff.mpr h]
  · intro h
    split at h
    · cases h
    · rename_i n hn
      obtain ⟨t, ht, rfl⟩ := (providerRaw_ok hc hd).mp hn
      split at h
      · cases h
      · rename_i s hs
        injection h with h
        exact ⟨s, .signed ht (signed_iff.mp hs), h.symm⟩
  · rintro ⟨s, h, rfl⟩
    cases h with
    | signed ht h =>
      rw [(providerRaw_ok hc hd).mpr ⟨_, ht, rfl⟩]
      dsimp only
      rw [signed_iff.mpr h]

private theorem with_sig (X : EthEnv) (m : Msg) (contract : PStr) (priv : Bytes) (s : Val)
    (hc : m.cls = .TaskToCompute) :
    signNote X (With m p!"concent_promissory_note_sig" s) contract priv =
      match signNote X m contract priv with
      | .error e => .error e
      | .ok m' => .ok (With (With m p!"concent_promissory_note_sig" s) p!"promissory_note_sig"
          (getAttr m'.attrs p!"promissory_note_sig")) := by
  unfold signNote
  rw [show ttcNote X (With m p!"concent_promissory_note_sig" s) contract = ttcNote X m contract from
    note_once X m contract s hc]
  cases ttcNote X m contract with
  | error e => rfl
  | ok n =>
    dsimp only
    cases n.sign X priv with
    | error e => rfl
    | ok v =>
      dsimp only
      rw [getAttr_setName, if_pos rfl]
      rfl

/-- C115: signing both notes of a task, with the message afterwards: nothing is set if the note for the
Concent cannot be signed, and if only the provider's cannot, the other signature stays. -/
theorem both_notes_signing (X : EthEnv) (m m' : Msg) (contract : PStr) (priv : Bytes) (o : Res Unit)
    (hc : m.cls = .TaskToCompute) (hd : ∃ v, DescribedId (getAttr m.attrs p!"compute_task_def") v) :
    signAllNotesOn X m contract priv = (o, m') ↔ BothSigned X m contract priv o m' := by
  obtain ⟨ce, co⟩ := concent_note_signing X m contract priv hc hd
  obtain ⟨pe, po⟩ := provider_note_signing X m contract priv hc hd
  unfold signAllNotesOn
  constructor
  · intro h
    split at h
    · rename_i e he
      injection h with h1 h2
      subst h1 h2
      exact .none ((ce e).mp he)
    · rename_i m1 hm1
      obtain ⟨s, hs, rfl⟩ := (co m1).mp hm1
      rw [with_sig X m contract priv s hc] at h
      cases hp : signNote X m contract priv with
      | error e =>
        rw [hp] at h
        injection h with h1 h2
        subst h1 h2
        exact .half hs ((pe e).mp hp)
      | ok m2 =>
        rw [hp] at h
        injection h with h1 h2
        subst h1 h2
        obtain ⟨p, hp', rfl⟩ := (po m2).mp hp
        have : getAttr (With m p!"promissory_note_sig" p).attrs p!"promissory_note_sig" = p := by
          unfold With
          dsimp only
          rw [getAttr_setName, if_pos rfl]
        rw [this]
        exact .both hs hp'
  · intro h
    cases h with
    | none h => rw [(ce _).mpr h]
    | half h1 h2 =>
      rw [(co _).mpr ⟨_, h1, rfl⟩]
      dsimp only
      rw [with_sig X m contract priv _ hc, (pe _).mpr h2]
    | @both s p h1 h2 =>
      rw [(co _).mpr ⟨_, h1, rfl⟩]
      dsimp only
      rw [with_sig X m contract priv _ hc, (po _).mpr ⟨_, h2, rfl⟩]
      dsimp only
      have : getAttr (With m p!"promissory_note_sig" p).attrs p!"promissory_note_sig" = p := by
        unfold With
        dsimp only
        rw [getAttr_setName, if_pos rfl]
      rw [this]

/-! ### Notes of results -/

private theorem resultRaw {m rej rct t : Msg} {c : PStr}
    (h0 : getAttr m.attrs p!"subtask_results_rejected" = rej.val)
    (h1 : rej.cls = .SubtaskResultsRejected)
    (h2 : getAttr rej.attrs p!"report_computed_task" = rct.val) (h3 : rct.cls = .ReportComputedTask)
    (h4 : getAttr rct.attrs p!"task_to_compute" = t.val) (h5 : t.cls = .TaskToCompute) :
    srvConcentRaw m c =
      match attrOf (getAttr t.attrs p!"want_to_compute_task") p!"provider_ethereum_address" with
      | .error e => .error e
      | .ok frm => .ok ⟨frm, .str c, getAttr t.attrs p!"price",
          dictAttr (getAttr t.attrs p!"compute_task_def") p!"subtask_id", c⟩ := by
  unfold srvConcentRaw
  dsimp only
  rw [h0, rejected_ttc rej rct t h1 h2 h3 h4, ttc_subtask t h5, attrOf_val]
  rfl

/-- C115: what checking the note of a result says. -/
theorem result_note_verdict (X : EthEnv) (m rej rct t : Msg) (contract : PStr) (o : Res Bool)
    (h0 : getAttr m.attrs p!"subtask_results_rejected" = rej.val)
    (h1 : rej.cls = .SubtaskResultsRejected)
    (h2 : getAttr rej.attrs p!"report_computed_task" = rct.val) (h3 : rct.cls = .ReportComputedTask)
    (h4 : getAttr rct.attrs p!"task_to_compute" = t.val) (h5 : t.cls = .TaskToCompute)
    (hd : ∃ v, DescribedId (getAttr t.attrs p!"compute_task_def") v) :
    verifySrvNote X m contract = o ↔
      (∃ e, ResultTermless t e ∧ o = .error e) ∨
      ∃ terms, ResultTerms t contract terms ∧
        NoteChecked X terms (getAttr m.attrs p!"concent_promissory_note_sig") o := by
  unfold verifySrvNote
  rw [resultRaw h0 h1 h2 h3 h4 h5]
  obtain ⟨v, hv⟩ := hd
  rw [described hv]
  constructor
  · intro h
    cases hw : attrOf (getAttr t.attrs p!"want_to_compute_task") p!"provider_ethereum_address" with
    | error e =>
      rw [hw] at h
      dsimp only at h
      obtain ⟨a, rfl⟩ := attrOf_error hw
      exact .inl ⟨_, .offer a, h.symm⟩
    | ok x =>
      rw [hw] at h
      dsimp only at h
      obtain ⟨w, hw', rfl⟩ := attrOf_ok hw
      exact .inr ⟨_, .mk hw' hv, checked_iff.mp h⟩
  · rintro (⟨e, h, rfl⟩ | ⟨terms, ht, h⟩)
    · cases h with
      | offer h => rw [attrOf_none _ h]
    · cases ht with
      | mk hw hv' =>
        rw [hw, attrOf_val]
        have e1 := (described hv).symm.trans (described hv')
        rw [e1]
        exact checked_iff.mpr h

/-- C115: signing the note of a result. -/
theorem result_note_signing (X : EthEnv) (m rej rct t : Msg) (contract : PStr) (priv : Bytes)
    (h0 : getAttr m.attrs p!"subtask_results_rejected" = rej.val)
    (h1 : rej.cls = .SubtaskResultsRejected)
    (h2 : getAttr rej.attrs p!"report_computed_task" = rct.val) (h3 : rct.cls = .ReportComputedTask)
    (h4 : getAttr rct.attrs p!"task_to_compute" = t.val) (h5 : t.cls = .TaskToCompute)
    (hd : ∃ v, DescribedId (getAttr t.attrs p!"compute_task_def") v) :
    (∀ e, signSrvNote X m contract priv = .error e ↔ ResultTermless t e ∨
      ∃ terms, ResultTerms t contract terms ∧ NoteSigned X terms priv (.error e)) ∧
    (∀ m', signSrvNote X m contract priv = .ok m' ↔
      ∃ terms s, ResultTerms t contract terms ∧ NoteSigned X terms priv (.ok s) ∧
        m' = With m p!"concent_promissory_note_sig" s) := by
  have he : signSrvNote X m contract priv = _ := signTexts X (srvConcentRaw m contract) priv m
    p!"concent_promissory_note_sig"
  rw [he, resultRaw h0 h1 h2 h3 h4 h5]
  obtain ⟨v, hv⟩ := hd
  rw [described hv]
  cases hw : attrOf (getAttr t.attrs p!"want_to_compute_task") p!"provider_ethereum_address" with
  | error e =>
    obtain ⟨a, rfl⟩ := attrOf_error hw
    have hno : ∀ terms, ¬ ResultTerms t contract terms := by
      intro terms ht
      cases ht with
      | mk hw' _ => exact a _ hw'
    dsimp only
    refine ⟨fun e => ⟨?_, ?_⟩, fun m' => ⟨?_, ?_⟩⟩
    · intro h
      injection h with h
      subst h
      exact .inl (.offer a)
    · rintro (h | ⟨terms, ht, _⟩)
      · cases h; rfl
      · exact absurd ht (hno terms)
    · intro h; cases h
    · rintro ⟨terms, s, ht, _⟩
      exact absurd ht (hno terms)
  | ok x =>
    obtain ⟨w, hw', rfl⟩ := attrOf_ok hw
    have ht : ResultTerms t contract ⟨getAttr w.attrs p!"provider_ethereum_address", .str contract,
      getAttr t.attrs p!"price", v, contract⟩ := .mk hw' hv
    have hun : ∀ terms, ResultTerms t contract terms → terms =
        ⟨getAttr w.attrs p!"provider_ethereum_address", .str contract,
          getAttr t.attrs p!"price", v, contract⟩ := by
      intro terms h
      cases h with
      | @mk w2 sid hw2 hv2 =>
        have e1 : w2 = w := by
          have := hw2.symm.trans hw'
          obtain ⟨a1, a2, a3, a4, a5, a6⟩ := w2
          obtain ⟨b1, b2, b3, b4, b5, b6⟩ := w
          injection this
          subst_vars
          rfl
        have e2 := (described hv).symm.trans (described hv2)
        subst e1 e2
        rfl
    dsimp only
    refine ⟨fun e => ⟨?_, ?_⟩, fun m' => ⟨?_, ?_⟩⟩
    · intro h
      split at h
      · rename_i y hy
        injection h with h
        subst h
        exact .inr ⟨_, ht, signed_iff.mp hy⟩
      · cases h
    · rintro (h | ⟨terms, h1, h⟩)
      · cases h with
        | offer h => exact absurd hw' (h w)
      · cases hun terms h1
        have := signed_iff.mpr h
        unfold raw at this
        dsimp only at this
        rw [this]
    · intro h
      split at h
      · cases h
      · rename_i s hs
        injection h with h
        exact ⟨_, s, ht, signed_iff.mp hs, h.symm⟩
    · rintro ⟨terms, s, h1, h, rfl⟩
      cases hun terms h1
      have := signed_iff.mpr h
      unfold raw at this
      dsimp only at this
      rw [this]

/-! ### Cases -/

private def payerAddr : PStr := p!"0xaaaaaaaaaaaaaaaaaaaaaaaaaaaaaaaaaaaaaaaa"

/-- A toy scheme: the signature is `(27, length of the hash, 1)`, and `r = 0` cannot be recovered. -/
private def toyEth : EthEnv where
  defunctHash w := if w.length = 250 then .ok [1, 2] else .error .valueError
  signHash h priv := if priv = [] then .error .valueError else .ok (27, h.length, priv.length)
  recoverHash _ v r _ :=
    if r = .bytes (toBE 32 0) then .error .valueError
    else if v = .int 27 then .ok payerAddr else .ok p!"0xbb"
  address v := if v = .none then .error .typeError else .ok payerAddr

private def contractAddr : PStr := p!"0xdddddddddddddddddddddddddddddddddddddddd"

/-- A task with a price, an offer, a description and two signatures. -/
private def taskNote (key price offer sid cs s : Val) : Msg where
  cls := .TaskToCompute
  ty := .int 2002
  ts := .int 1
  enc := .bool false
  sig := .none
  attrs := [(p!"requestor_ethereum_public_key", key), (p!"price", price),
    (p!"compute_task_def", .dict [(.str p!"subtask_id", sid)]),
    (p!"want_to_compute_task", offer), (p!"concent_promissory_note_sig", cs), (p!"promissory_note_sig", s)]

private theorem taskNote_described (key price offer sid cs s : Val) :
    ∃ v, DescribedId (getAttr (taskNote key price offer sid cs s).attrs p!"compute_task_def") v :=
  ⟨_, .entry (items := [(.str p!"subtask_id", sid)]) rfl⟩

private def offerOf (addr : Val) : Val := .msg .WantToComputeTask (.int 2001) (.int 1) (.bool false) .none
  [(p!"provider_ethereum_address", addr)]

private def provAddr : Val := .str p!"0xcccccccccccccccccccccccccccccccccccccccc"
private def goodId : Val := .str p!"01020304-0506-0708-090a-0b0c0d0e0f10"
private def sigOf (v r s : Nat) : Val := .tuple [.int v, .bytes (toBE 32 r), .bytes (toBE 32 s)]

/-- Signing both sets both signatures, and both verify. -/
example : BothSigned toyEth (taskNote (.int 1) (.int 9) (offerOf provAddr) goodId .none .none) contractAddr [7]
      (.ok ()) (taskNote (.int 1) (.int 9) (offerOf provAddr) goodId (sigOf 27 2 1) (sigOf 27 2 1)) ∧
    BothVerdict toyEth (taskNote (.int 1) (.int 9) (offerOf provAddr) goodId (sigOf 27 2 1) (sigOf 27 2 1))
      contractAddr (.ok true) :=
  ⟨(both_notes_signing _ _ _ _ _ _ rfl (taskNote_described ..)).mp (by decide +kernel),
   (both_notes_verdict _ _ _ _ rfl (taskNote_described ..)).mp (by decide +kernel)⟩

/-- An offer without an address: the call fails, and the signature for the Concent stays. -/
example : BothSigned toyEth (taskNote (.int 1) (.int 9) (offerOf .none) goodId .none .none) contractAddr [7]
      (.error .typeError) (taskNote (.int 1) (.int 9) (offerOf .none) goodId (sigOf 27 2 1) .none) :=
  (both_notes_signing _ _ _ _ _ _ rfl (taskNote_described ..)).mp (by decide +kernel)

/-- Without the private key nothing is set. -/
example : BothSigned toyEth (taskNote (.int 1) (.int 9) (offerOf provAddr) goodId .none .none) contractAddr []
      (.error .valueError) (taskNote (.int 1) (.int 9) (offerOf provAddr) goodId .none .none) :=
  (both_notes_signing _ _ _ _ _ _ rfl (taskNote_described ..)).mp (by decide +kernel)

/-- C116: a call that fails leaves the message as it was if the note for the Concent cannot be signed.
Partial: it does not if only the provider's note cannot, see `sign_both_or_none_refuted`. -/
theorem sign_both_or_none_partial (X : EthEnv) (m m' : Msg) (contract : PStr) (priv : Bytes) (e : Exc)
    (hc : m.cls = .TaskToCompute) (hd : ∃ v, DescribedId (getAttr m.attrs p!"compute_task_def") v)
    (h : signAllNotesOn X m contract priv = (.error e, m')) :
    m' = m ∨ ∃ s, ConcentSignature X m contract priv (.ok s) ∧
      m' = With m p!"concent_promissory_note_sig" s ∧ ProviderSignature X m contract priv (.error e) := by
  cases (both_notes_signing X m m' contract priv _ hc hd).mp h with
  | none => exact .inl rfl
  | half h1 h2 => exact .inr ⟨_, h1, rfl, h2⟩

/-- C116 refuted: a task whose offer has no address for payments was not signed; the call raises
`TypeError`, and now its note for the Concent is signed and valid, so the deposit is promised. -/
theorem sign_both_or_none_refuted : ∃ (X : EthEnv) (m m' : Msg) (contract : PStr) (priv : Bytes) (e : Exc),
    m.cls = .TaskToCompute ∧ signAllNotesOn X m contract priv = (.error e, m') ∧
    verifyConcentNote X m contract = .ok false ∧ verifyConcentNote X m' contract = .ok true :=
  ⟨toyEth, taskNote (.int 1) (.int 9) (offerOf .none) goodId .none .none,
    taskNote (.int 1) (.int 9) (offerOf .none) goodId (sigOf 27 2 1) .none, contractAddr, [7], .typeError, rfl,
    by decide +kernel, by decide +kernel, by decide +kernel⟩

/-- Other verdicts: another signer; no price, but no signature either; no price; a price that is too
large; no id; an id that is no UUID; two elements; a signature that cannot be recovered; an unknown
payer. -/
example : ConcentVerdict toyEth (taskNote (.int 1) (.int 9) .none goodId (sigOf 28 2 1) .none) contractAddr
      (.ok false) ∧
    ConcentVerdict toyEth (taskNote (.int 1) .none .none goodId .none .none) contractAddr (.ok false) ∧
    ConcentVerdict toyEth (taskNote (.int 1) .none .none goodId (sigOf 27 2 1) .none) contractAddr
      (.error .attributeError) ∧
    ConcentVerdict toyEth (taskNote (.int 1) (.int (2 ^ 256)) .none goodId (sigOf 27 2 1) .none) contractAddr
      (.error .overflowError) ∧
    ConcentVerdict toyEth (taskNote (.int 1) (.int 9) .none .none (sigOf 27 2 1) .none) contractAddr
      (.error .typeError) ∧
    ConcentVerdict toyEth (taskNote (.int 1) (.int 9) .none (.str p!"x") (sigOf 27 2 1) .none) contractAddr
      (.error .valueError) ∧
    ConcentVerdict toyEth (taskNote (.int 1) (.int 9) .none goodId (.list [.int 1, .int 2]) .none) contractAddr
      (.error .typeError) ∧
    ConcentVerdict toyEth (taskNote (.int 1) (.int 9) .none goodId (sigOf 27 0 1) .none) contractAddr
      (.error .valueError) ∧
    ConcentVerdict toyEth (taskNote .none (.int 9) .none goodId .none .none) contractAddr
      (.error .typeError) := by
  refine ⟨?_, ?_, ?_, ?_, ?_, ?_, ?_, ?_, ?_⟩ <;>
    exact (concent_note_verdict _ _ _ _ rfl (taskNote_described ..)).mp (by decide +kernel)

/-- Without an offer there is no note for the provider, signed or not. -/
example : ProviderVerdict toyEth (taskNote (.int 1) (.int 9) .none goodId .none .none) contractAddr
      (.error .attributeError) ∧
    ProviderVerdict toyEth (taskNote (.int 1) (.int 9) (offerOf .none) goodId .none .none) contractAddr
      (.ok false) := by
  refine ⟨?_, ?_⟩ <;>
    exact (provider_note_verdict _ _ _ _ rfl (taskNote_described ..)).mp (by decide +kernel)

/-- A result about the task `t` with the signature `sig`. -/
private def resultNote (t : Msg) (sig : Val) : Msg where
  cls := .SubtaskResultsVerify
  ty := .int 4017
  ts := .int 1
  enc := .bool false
  sig := .none
  attrs := [(p!"subtask_results_rejected", .msg .SubtaskResultsRejected (.int 2012) (.int 1) (.bool false)
    .none [(p!"report_computed_task", .msg .ReportComputedTask (.int 2008) (.int 1) (.bool false) .none
      [(p!"task_to_compute", t.val)])]), (p!"concent_promissory_note_sig", sig)]

/-- A provider's note is signed and checked. -/
example : (∃ terms, ResultTerms (taskNote .none (.int 9) (offerOf (.str payerAddr)) goodId .none .none)
        contractAddr terms ∧ NoteSigned toyEth terms [7] (.ok (sigOf 27 2 1)) ∧
        NoteChecked toyEth terms (sigOf 27 2 1) (.ok true)) ∧
    verifySrvNote toyEth (resultNote (taskNote .none (.int 9) .none goodId .none .none) .none) contractAddr
      = .error .attributeError := by
  refine ⟨⟨⟨.str payerAddr, .str contractAddr, .int 9, goodId, contractAddr⟩, ?_, ?_, ?_⟩, ?_⟩
  · exact .mk (offer := ⟨.WantToComputeTask, .int 2001, .int 1, .bool false, .none,
      [(p!"provider_ethereum_address", .str payerAddr)]⟩) rfl (.entry (items := [(.str p!"subtask_id", goodId)]) rfl)
  · exact signed_iff.mp (by decide +kernel)
  · exact checked_iff.mp (by decide +kernel)
  · exact (result_note_verdict toyEth (resultNote (taskNote .none (.int 9) .none goodId .none .none) .none)
      ⟨.SubtaskResultsRejected, .int 2012, .int 1, .bool false, .none, _⟩
      ⟨.ReportComputedTask, .int 2008, .int 1, .bool false, .none, _⟩
      (taskNote .none (.int 9) .none goodId .none .none) contractAddr _ rfl rfl rfl rfl rfl rfl
      (taskNote_described ..)).mpr (.inl ⟨_, .offer (by rintro ⟨⟩ h; cases h), rfl⟩)

end Verif.Props
