import Mathlib.Algebra.Order.Archimedean.Real.Basic
import Mathlib.Data.Int.Log

set_option autoImplicit false

/-! # IEEE-754 binary64, round to nearest, ties to even

The rounding of a real number to a 53-bit significand, with gradual underflow.  There is no overflow: a real whose
rounding exceeds the largest finite number is rounded as if the exponent range were unbounded above. -/

namespace CrystSymm.Spec

/-- the nearest integer; of two equally near ones the even one. -/
noncomputable def nearestEven (y : ℝ) : ℤ :=
  if y - ⌊y⌋ < 1 / 2 then ⌊y⌋
  else if 1 / 2 < y - ⌊y⌋ then ⌊y⌋ + 1
  else if Even ⌊y⌋ then ⌊y⌋ else ⌊y⌋ + 1

/-- the binary exponent, at least that of the smallest normal number. -/
noncomputable def exponent64 (x : ℝ) : ℤ := max (Int.log 2 |x|) (-1022)

/-- the distance of neighbouring representable numbers near `x`. -/
noncomputable def ulp64 (x : ℝ) : ℝ := 2 ^ (exponent64 x - 52)

/-- the representable number nearest to `x`. -/
noncomputable def fl64 (x : ℝ) : ℝ := nearestEven (x / ulp64 x) * ulp64 x

end CrystSymm.Spec
