import Verif.Spec.Lattice
import Mathlib.Algebra.Order.Group.Abs

set_option autoImplicit false

/-! # Specification of Niggli cells

The main and special conditions (International Tables A, section 9.2) for the six parameters
`A = a·a, B = b·b, C = c·c, ξ = 2 b·c, η = 2 a·c, ζ = 2 a·b`, each comparison relaxed by `ε`. -/

namespace CrystSymm.Spec

variable {K : Type} [Field K] [LinearOrder K] [IsStrictOrderedRing K]

/-- the Niggli conditions within `ε` for six parameters. -/
structure NiggliParams (ε A B C ξ η ζ : K) : Prop where
  ab : A ≤ B + ε
  bc : B ≤ C + ε
  ab_eq : |A - B| ≤ ε → |ξ| ≤ |η| + ε
  bc_eq : |B - C| ≤ ε → |η| ≤ |ζ| + ε
  xi : |ξ| ≤ B + ε
  eta : |η| ≤ A + ε
  zeta : |ζ| ≤ A + ε
  sum : -ε ≤ ξ + η + ζ + A + B
  /-- type I (all angles acute) or type II (none acute) -/
  signs : (0 < ξ ∧ 0 < η ∧ 0 < ζ) ∨ (ξ ≤ ε ∧ η ≤ ε ∧ ζ ≤ ε)
  xi_eq : |ξ - B| ≤ ε → ζ ≤ 2 * η + ε
  eta_eq : |η - A| ≤ ε → ζ ≤ 2 * ξ + ε
  zeta_eq : |ζ - A| ≤ ε → η ≤ 2 * ξ + ε
  xi_neg : |ξ + B| ≤ ε → |ζ| ≤ ε
  eta_neg : |η + A| ≤ ε → |ζ| ≤ ε
  zeta_neg : |ζ + A| ≤ ε → |η| ≤ ε
  sum_eq : |ξ + η + ζ + A + B| ≤ ε → 2 * (A + η) + ζ ≤ ε

/-- the conditions with type I including its boundary (`≥ ε` instead of `> 0`) and one-sided forms of the
conditions for `ξ = -B`, `η = -A`, `ζ = -A`. -/
structure NiggliWeak (ε A B C ξ η ζ : K) : Prop where
  ab : A ≤ B + ε
  bc : B ≤ C + ε
  ab_eq : |A - B| ≤ ε → |ξ| ≤ |η| + ε
  bc_eq : |B - C| ≤ ε → |η| ≤ |ζ| + ε
  xi : |ξ| ≤ B + ε
  eta : |η| ≤ A + ε
  zeta : |ζ| ≤ A + ε
  sum : -ε ≤ ξ + η + ζ + A + B
  signs : (ε ≤ ξ ∧ ε ≤ η ∧ ε ≤ ζ) ∨ (ξ ≤ ε ∧ η ≤ ε ∧ ζ ≤ ε)
  xi_eq : |ξ - B| ≤ ε → ζ ≤ 2 * η + ε
  eta_eq : |η - A| ≤ ε → ζ ≤ 2 * ξ + ε
  zeta_eq : |ζ - A| ≤ ε → η ≤ 2 * ξ + ε
  xi_neg : |ξ + B| ≤ ε → -ε ≤ ζ
  eta_neg : |η + A| ≤ ε → -ε ≤ ζ
  zeta_neg : |ζ + A| ≤ ε → -ε ≤ η
  sum_eq : |ξ + η + ζ + A + B| ≤ ε → 2 * (A + η) + ζ ≤ ε

/-- the cell with the columns of `L` is a Niggli cell within `ε`. -/
def NiggliCell (ε : K) (L : Mat3 K) : Prop :=
  NiggliParams ε (lenSq L.col0) (lenSq L.col1) (lenSq L.col2)
    (2 * dotp L.col1 L.col2) (2 * dotp L.col0 L.col2) (2 * dotp L.col0 L.col1)

/-- the same with `NiggliWeak`. -/
def NiggliCellWeak (ε : K) (L : Mat3 K) : Prop :=
  NiggliWeak ε (lenSq L.col0) (lenSq L.col1) (lenSq L.col2)
    (2 * dotp L.col1 L.col2) (2 * dotp L.col0 L.col2) (2 * dotp L.col0 L.col1)

end CrystSymm.Spec
