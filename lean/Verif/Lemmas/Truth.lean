import Verif.Spec.Truth
/-! # Values that count as true -/

namespace Verif

theorem floatIsZero_iff (b : UInt64) : floatIsZero b = true ↔ b.toNat % 2 ^ 63 = 0 := by
  have h := b.toNat_lt
  unfold floatIsZero
  rw [Bool.or_eq_true, beq_iff_eq, beq_iff_eq, ← UInt64.toNat_inj, ← UInt64.toNat_inj]
  have e0 : (0 : UInt64).toNat = 0 := rfl
  have e1 : (0x8000000000000000 : UInt64).toNat = 2 ^ 63 := rfl
  rw [e0, e1]
  omega

@[simp] theorem holds_eq (v : Val) : Spec.holds v = v.truthy := by
  cases v with
  | float b =>
    rw [Bool.eq_iff_iff]
    simp only [Spec.holds, Val.truthy, decide_eq_true_eq, Bool.not_eq_true', ne_eq,
      ← floatIsZero_iff, Bool.not_eq_true]
  | int i => simp [Spec.holds, Val.truthy, bne]; rfl
  | str s => cases s <;> rfl
  | bytes s => cases s <;> rfl
  | list s => cases s <;> simp [Spec.holds, Val.truthy]
  | tuple s => cases s <;> simp [Spec.holds, Val.truthy]
  | dict s => cases s <;> simp [Spec.holds, Val.truthy]
  | fdict _ s => cases s <;> simp [Spec.holds, Val.truthy]
  | _ => rfl

theorem holds_fun : Spec.holds = Val.truthy := funext holds_eq

end Verif
