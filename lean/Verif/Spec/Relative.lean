import Verif.Spec.Rounding

set_option autoImplicit false

/-! # Relative accuracy of a rounding -/

namespace CrystSymm.Spec

/-- the rounding error is at most `ε`, times the magnitude of the number if that is larger than one. -/
def Relative (ρ : Rounding) (ε : ℝ) : Prop := ∀ x : ℝ, |ρ.fl x - x| ≤ ε * max 1 |x|

/-- the exact values of a vector of representable numbers. -/
def valV {ρ : Rounding} (v : Vec3 (RNum ρ)) : Vec3 ℝ := v.map RNum.val

/-- the exact values of a matrix of representable numbers. -/
def valM {ρ : Rounding} (m : Mat3 (RNum ρ)) : Mat3 ℝ := m.map RNum.val

end CrystSymm.Spec
