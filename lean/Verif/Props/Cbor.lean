import Verif.Lemmas.Plain
import Verif.Lemmas.CborFuel
import Verif.Lemmas.Encodes
import Verif.Spec.Data
/-!
# C55: the payload codec (`serializer.py`)
-/

set_option linter.unusedSimpArgs false

namespace Verif.Props

open Verif Spec

/-! ### Encoding succeeds -/

mutual
private theorem enc_some (v : Val) (h : plain v = true) (hs : Sized v) : ∃ b, cborEnc v = .ok b := by
  match v, h, hs with
  | .none, _, _ => exact ⟨_, rfl⟩
  | .bool _, _, _ => exact ⟨_, rfl⟩
  | .int i, _, hs =>
    simp only [Sized] at hs; simp only [cborEnc]
    exact cborInt_some i (2 ^ 64 - 1) hs (Nat.sub_lt (Nat.two_pow_pos 64) Nat.one_pos)
  | .float _, _, _ => exact ⟨_, rfl⟩
  | .str s, _, hs =>
    simp only [Sized] at hs; simp only [cborEnc]
    exact cborStr_some _ _ (Nat.lt_of_le_of_lt (utf8Enc_length s) hs)
  | .bytes b, _, hs => simp only [Sized] at hs; simp only [cborEnc]; exact cborStr_some _ _ hs
  | .list l, h, hs =>
    simp only [plain] at h; simp only [Sized] at hs; simp only [cborEnc]
    exact withHead_some hs.1 (enc_someL l h hs.2)
  | .tuple l, h, hs =>
    simp only [plain] at h; simp only [Sized] at hs; simp only [cborEnc]
    exact withHead_some hs.1 (enc_someL l h hs.2)
  | .dict d, h, hs =>
    simp only [plain, Bool.and_eq_true] at h; simp only [Sized] at hs; simp only [cborEnc]
    exact withHead_some hs.1 (enc_someD d h.1.1 h.1.2 hs.2)
private theorem enc_someL (l : List Val) (h : plainL l = true) (hs : SizedL l) :
    ∃ b, cborEncL l = .ok b := by
  match l, h, hs with
  | [], _, _ => exact ⟨_, rfl⟩
  | x :: xs, h, hs =>
    simp only [plainL, Bool.and_eq_true] at h; simp only [SizedL] at hs; simp only [cborEncL]
    exact cat_some (enc_some x h.1 hs.1) (enc_someL xs h.2 hs.2)
private theorem enc_someD (d : List (Val × Val)) (h : plainD d = true)
    (hk : d.all (fun kv => scalar kv.1) = true) (hs : SizedD d) : ∃ b, cborEncD d = .ok b := by
  match d, h, hk, hs with
  | [], _, _, _ => exact ⟨_, rfl⟩
  | (k, x) :: xs, h, hk, hs =>
    simp only [plainD, Bool.and_eq_true] at h; simp only [SizedD] at hs; simp only [cborEncD]
    simp only [List.all_cons, Bool.and_eq_true] at hk
    refine cat_some ?_ (cat_some (enc_some x h.1 hs.2.1) (enc_someD xs h.2 hk.2 hs.2.2))
    have hs1 := hs.1
    match k, hk.1, hs1 with
    | .none, _, _ => exact ⟨_, rfl⟩
    | .bool _, _, _ => exact ⟨_, rfl⟩
    | .int i, _, hs =>
      simp only [Sized] at hs; simp only [cborEnc]
      exact cborInt_some i (2 ^ 64 - 1) hs (Nat.sub_lt (Nat.two_pow_pos 64) Nat.one_pos)
    | .float _, _, _ => exact ⟨_, rfl⟩
    | .str s, _, hs =>
      simp only [Sized] at hs; simp only [cborEnc]
      exact cborStr_some _ _ (Nat.lt_of_le_of_lt (utf8Enc_length s) hs)
    | .bytes b, _, hs => simp only [Sized] at hs; simp only [cborEnc]; exact cborStr_some _ _ hs
end

/-- Round trip: every plain value is encoded, and decoding the encoding followed by
anything gives the value back, tuples as lists. -/
theorem codec_round_trip (v : Val) (h : plain v = true) (hs : Sized v) :
    ∃ b, dumps v = .ok b ∧ ∀ rest, loads (b ++ rest) = .ok (toLists v) := by
  obtain ⟨b, hb⟩ := enc_some v h hs
  have hd : dumps v = .ok b := by unfold dumps; rw [hb]
  refine ⟨b, hd, fun rest => ?_⟩
  rw [loads_dumps v b rest (ok_plain v h) hd, norm_plain v h]

/-- Decoding consumes exactly the encoded bytes: what follows is returned unread. -/
theorem codec_consumes (v : Val) (b rest : Bytes) (h : plain v = true) (e : dumps v = .ok b)
    (f : Nat) (hf : 2 * b.length ≤ f) : cborDec f (b ++ rest) = .ok (toLists v, rest) := by
  unfold dumps at e
  split at e
  · rename_i b' hb
    injection e with e
    subst e
    rw [cborDec_enc v b' rest f (ok_plain v h) hb hf, norm_plain v h]
  · cases e

/-- Encodings are uniquely decodable: if two encodings, each followed by something, are
the same bytes, the values are the same (up to tuples) and so is what follows. -/
theorem codec_prefix_free (v w : Val) (b c r s : Bytes) (hv : plain v = true) (hw : plain w = true)
    (ev : dumps v = .ok b) (ew : dumps w = .ok c) (e : b ++ r = c ++ s) :
    toLists v = toLists w ∧ b = c ∧ r = s := by
  have h1 := codec_consumes v b r hv ev (2 * b.length + 2 * c.length) (by omega)
  have h2 := codec_consumes w c s hw ew (2 * b.length + 2 * c.length) (by omega)
  rw [e, h2] at h1
  injection h1 with h1
  injection h1 with h3 h4
  subst h4
  exact ⟨h3.symm, List.append_cancel_right e, rfl⟩

/-! ### Refusals -/

private theorem withHead_err {h r : Res Bytes} (hr : ∃ e, r = .error e) :
    ∃ e, withHead h r = .error e := by
  obtain ⟨e, rfl⟩ := hr
  cases h with
  | error e' => exact ⟨e', rfl⟩
  | ok h => exact ⟨e, rfl⟩

private theorem withHead_err' {h r : Res Bytes} (hh : ∃ e, h = .error e) :
    ∃ e, withHead h r = .error e := by
  obtain ⟨e, rfl⟩ := hh
  exact ⟨e, rfl⟩

mutual
private theorem enc_foreign (v : Val) (h : foreign v = true) : ∃ e, cborEnc v = .error e := by
  match v, h with
  | .cont _ _, _ => exact ⟨_, rfl⟩
  | .mask _, _ => exact ⟨_, rfl⟩
  | .msg .., _ => exact ⟨_, rfl⟩
  | .enum e s, h =>
    simp only [foreign, Bool.not_eq_true'] at h
    simp only [cborEnc, h]
    exact ⟨_, rfl⟩
  | .list l, h =>
    simp only [foreign] at h; simp only [cborEnc]; exact withHead_err (enc_foreignL l h)
  | .tuple l, h =>
    simp only [foreign] at h; simp only [cborEnc]; exact withHead_err (enc_foreignL l h)
  | .dict d, h =>
    simp only [foreign] at h; simp only [cborEnc]; exact withHead_err (enc_foreignD d h)
  | .fdict _ d, h =>
    simp only [foreign] at h; simp only [cborEnc]; exact withHead_err (enc_foreignF d h)
  | .tag n v, h =>
    simp only [foreign] at h; simp only [cborEnc]
    split
    · exact ⟨_, rfl⟩
    · exact withHead_err (enc_foreign v h)
private theorem enc_foreignL (l : List Val) (h : foreignL l = true) :
    ∃ e, cborEncL l = .error e := by
  match l, h with
  | x :: xs, h =>
    simp only [foreignL, Bool.or_eq_true] at h
    simp only [cborEncL, catRes]
    rcases h with h | h
    · exact withHead_err' (enc_foreign x h)
    · exact withHead_err (enc_foreignL xs h)
private theorem enc_foreignD (d : List (Val × Val)) (h : foreignD d = true) :
    ∃ e, cborEncD d = .error e := by
  match d, h with
  | (k, x) :: xs, h =>
    simp only [foreignD, Bool.or_eq_true] at h
    simp only [cborEncD, catRes]
    rcases h with (h | h) | h
    · exact withHead_err' (enc_foreign k h)
    · exact withHead_err (withHead_err' (enc_foreign x h))
    · exact withHead_err (withHead_err (enc_foreignD xs h))
private theorem enc_foreignF (d : List (PStr × Val)) (h : foreignF d = true) :
    ∃ e, cborEncF d = .error e := by
  match d, h with
  | (k, x) :: xs, h =>
    simp only [foreignF, Bool.or_eq_true] at h
    simp only [cborEncF, catRes]
    rcases h with h | h
    · exact withHead_err (withHead_err' (enc_foreign x h))
    · exact withHead_err (withHead_err (enc_foreignF xs h))
end

/-- Library objects that are not data are refused with `SerializationError`, at any depth. -/
theorem codec_refuses (v : Val) (h : foreign v = true) :
    dumps v = .error .serializationError := by
  obtain ⟨e, he⟩ := enc_foreign v h
  unfold dumps
  rw [he]

/-- Every input is decoded to a value or refused with `SerializationError`. -/
theorem codec_errors (b : Bytes) : (∃ v, loads b = .ok v) ∨ loads b = .error .serializationError := by
  unfold loads
  split
  · exact Or.inl ⟨_, rfl⟩
  · exact Or.inr rfl

/-- The decoder comes to an end on every input by itself: the step budget the model hands it
is never what stops it, so every refusal is about the bytes. -/
theorem codec_decoder_terminates (b : Bytes) :
    cborDec (2 * b.length + 2) b ≠ .error .recursionError :=
  cborDec_fuel b

/-- Dictionaries with other hashable keys do not survive: a tuple key is encoded as an
array, which is no valid key when decoding. -/
theorem codec_tuple_key_refuted :
    dumps (.dict [(.tuple [.int 1], .none)]) = .ok [0xa1, 0x81, 0x01, 0xf6] ∧
    loads [0xa1, 0x81, 0x01, 0xf6] = .error .serializationError := by decide +kernel

/-- Non-vacuity. -/
example : plain (.dict [(.str p!"a", .tuple [.int (-5), .float 7, .none]), (.int 1, .bytes [1]),
    (.bool false, .dict [])]) = true ∧
    toLists (.tuple [.tuple [], .int 3]) = .list [.list [], .int 3] ∧
    foreign (.list [.dict [(.int 1, .mask [])]]) = true := by decide +kernel

/-- Non-vacuity: numbers of the same value are the same key, `1` and `1.0`, `0` and `-0.0`; others
are not, as `1.5`. -/
example : plain (.dict [(.int 1, .none), (.float 0x3ff0000000000000, .none)]) = false ∧
    plain (.dict [(.int 0, .none), (.float 0x8000000000000000, .none)]) = false ∧
    plain (.dict [(.int 1, .none), (.float 0x3ff8000000000000, .none)]) = true ∧
    loads [0xa2, 0x01, 0x02, 0xf9, 0x3c, 0x00, 0x03] = .ok (.dict [(.int 1, .int 3)]) := by
  decide +kernel

end Verif.Props
