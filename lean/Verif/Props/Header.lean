import Verif.Model.Header
import Verif.Lemmas.Bytes
/-! # C01: wire header -/

set_option linter.unusedSimpArgs false

namespace Verif.Props

open Verif

/-- C01 (round trip): a header written for a 16-bit type, a 64-bit timestamp and a flag
takes 11 bytes and is read back unchanged. -/
theorem header_round_trip (ty ts : Nat) (enc : Bool) (hty : ty < 2 ^ 16) (hts : ts < 2 ^ 64) :
    ∃ b, packHeader ty (.int ts) (.bool enc) = .ok b ∧ b.length = 11 ∧
      unpackHeader b = .ok { type := ty, timestamp := ts, encrypted := enc } := by
  refine ⟨toBE 2 ty ++ toBE 8 ts ++ [if enc then 1 else 0], ?_, by simp, ?_⟩
  · have h1 : ¬ (2 ^ 16 ≤ ty) := by omega
    have h2 : ¬ ((ts : Int) < 0 ∨ (2 : Int) ^ 64 ≤ ts) := by omega
    simp only [packHeader, Val.structInt, if_neg h1, if_neg h2, Val.truthy, Int.toNat_natCast]
    cases enc <;> rfl
  · have l2 : (toBE 2 ty).length = 2 := toBE_length 2 ty
    have l8 : (toBE 8 ts).length = 8 := toBE_length 8 ts
    have e1 : (toBE 2 ty ++ toBE 8 ts ++ [if enc then (1 : UInt8) else 0]).take 2 = toBE 2 ty := by
      simp [List.take_append, l2]
    have e2 : ((toBE 2 ty ++ toBE 8 ts ++ [if enc then (1 : UInt8) else 0]).drop 2).take 8
        = toBE 8 ts := by
      simp [List.drop_append, List.take_append, l2, l8]
    have e3 : (toBE 2 ty ++ toBE 8 ts ++ [if enc then (1 : UInt8) else 0]).drop 10
        = [if enc then 1 else 0] := by
      simp [List.drop_append, l2, l8]
    unfold unpackHeader
    rw [e1, e2, e3, ofBE_toBE (by omega), ofBE_toBE (by omega)]
    cases enc <;> simp [hdrLen, l2, l8] <;> decide

/-- C01 (layout): the bytes of the written header, most significant first. -/
theorem header_layout (ty ts : Nat) (enc : Bool) (hty : ty < 2 ^ 16) (hts : ts < 2 ^ 64) :
    packHeader ty (.int ts) (.bool enc) = .ok
      ([ty / 2 ^ 8, ty, ts / 2 ^ 56, ts / 2 ^ 48, ts / 2 ^ 40, ts / 2 ^ 32, ts / 2 ^ 24,
        ts / 2 ^ 16, ts / 2 ^ 8, ts].map (fun n => UInt8.ofNat (n % 256))
        ++ [if enc then 1 else 0]) := by
  have h1 : ¬ (2 ^ 16 ≤ ty) := by omega
  have h2 : ¬ ((ts : Int) < 0 ∨ (2 : Int) ^ 64 ≤ ts) := by omega
  simp only [packHeader, Val.structInt, if_neg h1, if_neg h2, Val.truthy, Int.toNat_natCast, toBE]
  cases enc <;> simp [Nat.div_div_eq_div_mul]

/-- C01 (decision): decoding refuses exactly the byte strings that are not 11 bytes
long, always with `HeaderError`. -/
theorem header_decision (data : Bytes) :
    (data.length = 11 → ∃ h, unpackHeader data = .ok h) ∧
    (data.length ≠ 11 → unpackHeader data = .error .headerError) := by
  constructor
  · intro h; exact ⟨_, by simp [unpackHeader, hdrLen, h]; rfl⟩
  · intro h; simp [unpackHeader, hdrLen, h]

/-- C01 (decoding is faithful): what was read is what writing it again gives, up to the
non-zero value of the flag byte. -/
theorem header_decode_encode (data : Bytes) (h : Header) (e : unpackHeader data = .ok h) :
    packHeader h.type (.int h.timestamp) (.bool h.encrypted)
      = .ok (data.take 10 ++ [if data.drop 10 = [0] then 0 else 1]) := by
  by_cases hl : data.length = 11
  · simp only [unpackHeader, hdrLen, hl, ne_eq, not_true, if_false] at e
    injection e with e
    subst e
    have l2 : (data.take 2).length = 2 := by simp [hl]
    have l8 : ((data.drop 2).take 8).length = 8 := by simp [hl]
    have b1 := ofBE_lt (data.take 2)
    have b2 := ofBE_lt ((data.drop 2).take 8)
    rw [l2] at b1
    rw [l8] at b2
    have h1 : ¬ (2 ^ 16 ≤ ofBE (data.take 2)) := by omega
    have h2 : ¬ ((ofBE ((data.drop 2).take 8) : Int) < 0 ∨
        (2 : Int) ^ 64 ≤ ofBE ((data.drop 2).take 8)) := by omega
    have t1 := toBE_ofBE (data.take 2)
    have t2 := toBE_ofBE ((data.drop 2).take 8)
    rw [l2] at t1
    rw [l8] at t2
    simp only [packHeader, Val.structInt, if_neg h1, if_neg h2, Val.truthy, Int.toNat_natCast, t1,
      t2]
    have t3 : data.take 2 ++ (data.drop 2).take 8 = data.take 10 := by
      rw [← List.take_add]
    rw [t3]
    by_cases hz : data.drop 10 = [0] <;> simp [hz]
  · simp [unpackHeader, hdrLen, hl] at e

/-- Non-vacuity: the header of a `Hello` frame. -/
example : ∃ b, packHeader 0 (.int 1500000000) (.bool false) = .ok b ∧ b.length = 11 ∧
    unpackHeader b = .ok ⟨0, 1500000000, false⟩ :=
  header_round_trip 0 1500000000 false (by omega) (by omega)

end Verif.Props
