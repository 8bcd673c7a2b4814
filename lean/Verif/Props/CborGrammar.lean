import Verif.Lemmas.CborItem
import Verif.Lemmas.CborFuel
import Verif.Props.Cbor
/-!
# C81: payloads are read as RFC 7049 says

The grammar is `Spec.Item`: which bytes spell which value.
-/

namespace Verif.Props

open Verif Spec

/-- A payload is read as `v` exactly if it starts with an item that spells `v`; what follows is
ignored. -/
theorem payload_grammar (b : Bytes) (v : Val) :
    loads b = .ok v ↔ ∃ item rest, b = item ++ rest ∧ Item item v := by
  constructor
  · intro h
    unfold loads at h
    split at h
    · rename_i w r hd
      injection h with h
      subst h
      obtain ⟨a, h1, h2⟩ := read_item hd
      exact ⟨a, r, h1, h2⟩
    · cases h
  · rintro ⟨a, r, rfl, h⟩
    unfold loads
    rw [item_read h _ r (by rw [List.length_append]; omega)]

/-- Every other payload is a `SerializationError`. -/
theorem payload_refused (b : Bytes) :
    loads b = .error .serializationError ↔ ¬ ∃ item rest v, b = item ++ rest ∧ Item item v := by
  constructor
  · rintro h ⟨a, r, v, h1, h2⟩
    rw [(payload_grammar b v).2 ⟨a, r, h1, h2⟩] at h
    cases h
  · intro h
    cases hl : loads b with
    | ok v =>
      obtain ⟨a, r, h1, h2⟩ := (payload_grammar b v).1 hl
      exact absurd ⟨a, r, v, h1, h2⟩ h
    | error e =>
      unfold loads at hl
      split at hl
      · cases hl
      · injection hl with hl; rw [hl]

/-- The grammar is unambiguous: no bytes spell two values, and no item is the beginning of
another. -/
theorem payload_unambiguous {a b r s : Bytes} {v w : Val} (ha : Item a v) (hb : Item b w)
    (h : a ++ r = b ++ s) : a = b ∧ v = w ∧ r = s := by
  have h1 := item_read ha (2 * a.length + 2 * b.length) r (by omega)
  have h2 := item_read hb (2 * a.length + 2 * b.length) s (by omega)
  rw [h, h2] at h1
  injection h1 with h1
  injection h1 with h3 h4
  subst h4
  exact ⟨List.append_cancel_right h, h3.symm, rfl⟩

/-- What is written for plain data is an item that spells it (tuples as lists). -/
theorem payload_written (v : Val) (b : Bytes) (hv : plain v = true) (h : dumps v = .ok b) :
    Item b (toLists v) := by
  have h1 := codec_consumes v b [] hv h (2 * b.length) (Nat.le_refl _)
  obtain ⟨a, h2, h3⟩ := read_item h1
  rw [List.append_nil, List.append_nil] at h2
  rw [h2]; exact h3

/-- Text is read exactly if it is the UTF-8 of the text: no overlong forms, surrogates or
numbers beyond the last code point. -/
theorem utf8_exact (b : Bytes) (s : List Char) : utf8Dec b = some s ↔ b = utf8 s := utf8Dec_iff b s

/-- Numbers in half and single precision become the double with the same value. -/
theorem floats_exact (x : Nat) (d : UInt64) :
    (x < 2 ^ 16 → (Widened 5 10 x d ↔ d = widenFloat 5 10 x)) ∧
    (x < 2 ^ 32 → (Widened 8 23 x d ↔ d = widenFloat 8 23 x)) :=
  ⟨fun h => widen_half h d, fun h => widen_single h d⟩

/-! ### Non-vacuity -/

/-- `[_ 1, {"a": h'ff', "a": 1.5}, (_ "b", "cé")]` followed by a stray byte. -/
private def exBytes : Bytes :=
  [0x9f, 0x01, 0xa2, 0x61, 0x61, 0x41, 0xff, 0x61, 0x61, 0xf9, 0x3e, 0x00,
   0x7f, 0x61, 0x62, 0x63, 0x63, 0xc3, 0xa9, 0xff, 0xff, 0x07]

private def exVal : Val :=
  .list [.int 1, .dict [(.str p!"a", .float 0x3ff8000000000000)], .str p!"bcé"]

example : loads exBytes = .ok exVal := by decide +kernel

example : ∃ item rest, exBytes = item ++ rest ∧ Item item exVal :=
  (payload_grammar _ _).1 (by decide +kernel)

/-- An item built from the grammar alone. -/
example : Item [0xc2, 0x42, 0x01, 0x00] (.int 256) :=
  .posBig (h := [0xc2]) (b := [0x42, 0x01, 0x00]) (x := [1, 0]) (.short (n := 2) (by omega))
    (.bytes (h := [0x42]) (x := [1, 0]) (.short (n := 2) (by omega)))

/-- Overlong text, an unhashable key, a missing break and an unknown simple value are refused. -/
example : loads [0x62, 0xc0, 0x80] = .error .serializationError ∧
    loads [0xa1, 0x80, 0x00] = .error .serializationError ∧
    loads [0x9f, 0x00] = .error .serializationError ∧
    loads [0xe0] = .error .serializationError := by decide +kernel

/-- The smallest positive half is `2^-24`, the single `-1.5` keeps its sign. -/
example : Widened 5 10 1 0x3e70000000000000 ∧ Widened 8 23 0xbfc00000 0xbff8000000000000 :=
  ⟨(floats_exact _ _).1 (by omega) |>.2 (by decide +kernel),
    (floats_exact _ _).2 (by omega) |>.2 (by decide +kernel)⟩

end Verif.Props
