import Verif.Model.Scalar
import Mathlib.Tactic.Linarith
import Mathlib.Tactic.Ring
import Mathlib.Tactic.NormNum

set_option autoImplicit false

/-! # Rounding half away from zero -/

namespace CrystSymm

theorem roundZ_neg (x : ℝ) : roundZ (-x) = -roundZ x := by
  unfold roundZ
  rcases lt_trichotomy x 0 with h | rfl | h
  · rw [if_pos (by linarith), if_neg (by linarith)]
    rw [show -x + 1 / 2 = -(x - 1 / 2) by ring, Int.floor_neg]
  · norm_num
  · rw [if_neg (by linarith), if_pos (by linarith)]
    rw [show -x - 1 / 2 = -(x + 1 / 2) by ring, Int.ceil_neg]

theorem roundZ_mono {x y : ℝ} (h : x ≤ y) : roundZ x ≤ roundZ y := by
  unfold roundZ
  by_cases hx : 0 ≤ x
  · rw [if_pos hx, if_pos (by linarith)]
    exact Int.floor_le_floor (by linarith)
  · rw [if_neg hx]
    by_cases hy : 0 ≤ y
    · rw [if_pos hy]
      have h1 : ⌈x - 1 / 2⌉ ≤ 0 := by rw [Int.ceil_le]; push_cast; linarith
      have h2 : 0 ≤ ⌊y + 1 / 2⌋ := by rw [Int.le_floor]; push_cast; linarith
      omega
    · rw [if_neg hy]
      exact Int.ceil_le_ceil (by linarith)

theorem roundZ_intCast (n : ℤ) : roundZ (n : ℝ) = n := by
  unfold roundZ
  split
  · rw [Int.floor_eq_iff]; constructor <;> linarith
  · rw [Int.ceil_eq_iff]; constructor <;> linarith

end CrystSymm
