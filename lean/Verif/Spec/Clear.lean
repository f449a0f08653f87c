import Verif.Spec.Niggli
import Verif.Spec.Centring

set_option autoImplicit false

/-! # Specification: lattices whose shape is clear-cut at a tolerance -/

namespace CrystSymm.Spec

/-- the differences of squared lengths and scalar products that vanish for some lattice character (International Tables A,
table 9.2.5.1). -/
noncomputable def shapeDifferences (a b c d e f : ℝ) : List ℝ :=
  [a - b, a - c, b - c, d, e, f, a / 2 - d, a / 2 - e, a / 2 - f, d - e, d - f, e - f, a / -3 - d, a / -3 - e,
    a / -3 - f, a / -2 - d, a / -2 - e, a / -2 - f, a / 4 - d, b / -2 - d, b / 2 - d, d * 2 - e, d * 2 - f, e * 2 - f,
    |d + e + f| * 2 - (a + b), |2 * d + f| - b]

/-- every cell of the lattice that satisfies the Niggli conditions up to `ε` satisfies them exactly, and the differences that decide
its lattice character are zero or larger than `ε`. -/
def ClearLattice (L : Mat3 ℝ) (ε : ℝ) : Prop :=
  0 < ε ∧ ε < 1 ∧ ∀ N : Mat3 ℝ, SameLattice L N → NiggliCell ε N → NiggliCell 0 N ∧
    ∀ x ∈ shapeDifferences (lenSq N.col0) (lenSq N.col1) (lenSq N.col2) (dotp N.col1 N.col2) (dotp N.col0 N.col2)
      (dotp N.col0 N.col1), |x| ≤ ε → x = 0

end CrystSymm.Spec
