import Verif.Spec.Niggli
import Verif.Spec.Centring
import Mathlib.Data.Set.Card

set_option autoImplicit false

/-! # Specification: short cells of a lattice -/

namespace CrystSymm.Spec

/-- the sum of the squared edges of a cell. -/
def edgeSum (L : Mat3 ℝ) : ℝ := lenSq L.col0 + lenSq L.col1 + lenSq L.col2

/-- the sums of the squared edges of the bases of a lattice that are smaller than that of the cell. -/
def smallerSums (L : Mat3 ℝ) : Set ℝ :=
  {t | t < edgeSum L ∧ ∃ N : Mat3 ℤ, (N.det = 1 ∨ N.det = -1) ∧ t = edgeSum (L * overK ℝ N)}

/-- no basis of the lattice has a smaller sum of squared edges. -/
def LeastEdges (L : Mat3 ℝ) : Prop := ∀ N : Mat3 ℤ, N.det = 1 ∨ N.det = -1 → edgeSum L ≤ edgeSum (L * overK ℝ N)

/-- the conditions of Buerger (and of Minkowski): no sum or difference of two or three of the vectors is shorter than the
longest of them. -/
structure BuergerCell (L : Mat3 ℝ) : Prop where
  ab : lenSq L.col0 ≤ lenSq L.col1
  bc : lenSq L.col1 ≤ lenSq L.col2
  add_ab : lenSq L.col1 ≤ lenSq (L.col0 + L.col1)
  sub_ab : lenSq L.col1 ≤ lenSq (L.col0 - L.col1)
  add_ac : lenSq L.col2 ≤ lenSq (L.col0 + L.col2)
  sub_ac : lenSq L.col2 ≤ lenSq (L.col0 - L.col2)
  add_bc : lenSq L.col2 ≤ lenSq (L.col1 + L.col2)
  sub_bc : lenSq L.col2 ≤ lenSq (L.col1 - L.col2)
  three : lenSq L.col2 ≤ lenSq (L.col0 + L.col1 + L.col2)
  three_a : lenSq L.col2 ≤ lenSq (L.col1 + L.col2 - L.col0)
  three_b : lenSq L.col2 ≤ lenSq (L.col0 + L.col2 - L.col1)
  three_c : lenSq L.col2 ≤ lenSq (L.col0 + L.col1 - L.col2)

/-- the squared edges and twice the scalar products of the edges are integer multiples of `g`. -/
def Multiples (g : ℝ) (L : Mat3 ℝ) : Prop := ∃ a b c x y z : ℤ, lenSq L.col0 = a * g ∧ lenSq L.col1 = b * g ∧
  lenSq L.col2 = c * g ∧ 2 * dotp L.col1 L.col2 = x * g ∧ 2 * dotp L.col0 L.col2 = y * g ∧ 2 * dotp L.col0 L.col1 = z * g

/-- the differences that the Niggli conditions compare with zero. -/
noncomputable def edgeDifferences (A B C ξ η ζ : ℝ) : List ℝ :=
  [A - B, B - C, ξ - B, ξ + B, η - A, η + A, ζ - A, ζ + A, ξ + η + ζ + A + B, |η| - A, |ζ| - A, ξ, η, ζ, |ξ| - |η|,
    |η| - |ζ|, |ξ| - B]

/-- in every cell of the lattice with no larger sum of squared edges, the differences that decide the Niggli conditions are
zero or larger than `ε`. -/
def EdgesResolved (L : Mat3 ℝ) (ε : ℝ) : Prop := ∀ N : Mat3 ℤ, N.det = 1 ∨ N.det = -1 →
  edgeSum (L * overK ℝ N) ≤ edgeSum L →
  ∀ q ∈ edgeDifferences (lenSq (L * overK ℝ N).col0) (lenSq (L * overK ℝ N).col1) (lenSq (L * overK ℝ N).col2)
    (2 * dotp (L * overK ℝ N).col1 (L * overK ℝ N).col2) (2 * dotp (L * overK ℝ N).col0 (L * overK ℝ N).col2)
    (2 * dotp (L * overK ℝ N).col0 (L * overK ℝ N).col1), q = 0 ∨ ε < |q|

end CrystSymm.Spec
