import Verif.Model.Scalar
import Verif.Spec.Lattice
import Mathlib.Tactic.Linarith
import Mathlib.Tactic.Ring

set_option autoImplicit false

/-! # Lengths over the reals -/

namespace CrystSymm

open Spec

theorem mag_eq (v : Vec3 ℝ) : v.mag = Real.sqrt (lenSq v) := rfl

theorem lenSq_nonneg (v : Vec3 ℝ) : 0 ≤ lenSq v := by
  unfold lenSq
  nlinarith [mul_self_nonneg v.x, mul_self_nonneg v.y, mul_self_nonneg v.z]

theorem mag_nonneg (v : Vec3 ℝ) : 0 ≤ v.mag := Real.sqrt_nonneg _

theorem mag_mul_self (v : Vec3 ℝ) : v.mag * v.mag = lenSq v := by
  rw [mag_eq, Real.mul_self_sqrt (lenSq_nonneg v)]

theorem abs_dotp_le (u v : Vec3 ℝ) : |dotp u v| ≤ u.mag * v.mag := by
  apply abs_le_of_sq_le_sq _ (mul_nonneg (mag_nonneg u) (mag_nonneg v))
  have : (u.mag * v.mag) ^ 2 = lenSq u * lenSq v := by
    rw [← mag_mul_self u, ← mag_mul_self v]; ring
  rw [this]
  unfold dotp lenSq
  nlinarith [mul_self_nonneg (u.x * v.y - u.y * v.x), mul_self_nonneg (u.x * v.z - u.z * v.x),
    mul_self_nonneg (u.y * v.z - u.z * v.y)]

theorem mag_zero : (⟨0, 0, 0⟩ : Vec3 ℝ).mag = 0 := by
  rw [mag_eq]; simp [lenSq]

end CrystSymm
