import Verif.Spec.Niggli

set_option autoImplicit false

/-! # Specification: cells whose angles follow their edges -/

namespace CrystSymm.Spec

/-- no angle of the cell is acute, and its body diagonal is as long as its last edge. -/
def EqualDiagonal (L : Mat3 ℝ) : Prop :=
  (dotp L.col1 L.col2 ≤ 0 ∧ dotp L.col0 L.col2 ≤ 0 ∧ dotp L.col0 L.col1 ≤ 0) ∧
    lenSq (L.col0 + L.col1 + L.col2) = lenSq L.col2

/-- two edges are equal only together with the opposite angles: `a = b` with `α = β` and `b = c` with `β = γ`, except that for `a = b`
the equality of the body diagonal and the last edge may take the place of these. -/
def AnglesFollow (L : Mat3 ℝ) : Prop :=
  (lenSq L.col0 = lenSq L.col1 → dotp L.col1 L.col2 = dotp L.col0 L.col2 ∨ EqualDiagonal L) ∧
  (lenSq L.col1 = lenSq L.col2 → dotp L.col0 L.col2 = dotp L.col0 L.col1 ∨ lenSq L.col0 = lenSq L.col1 ∧ EqualDiagonal L)

end CrystSymm.Spec
