import Verif.Spec.Isometry
import Verif.Model.Core

set_option autoImplicit false

/-! # Specification: the lattice system of a lattice -/

namespace CrystSymm.Spec

/-- the order of the holohedry of a lattice system (International Tables A, table 2.1.1.1). -/
def systemOrder : LatticeSystem → ℕ
  | .Triclinic => 2
  | .Monoclinic => 4
  | .Orthorhombic => 8
  | .Tetragonal => 16
  | .Rhombohedral => 12
  | .Hexagonal => 24
  | .Cubic => 48

/-- the lattice belongs to the lattice system: it has as many isometries as the holohedry of the system; the seven orders are
different. -/
def InSystem (L : Mat3 ℝ) (sys : LatticeSystem) : Prop :=
  ∃ l : List (Mat3 ℝ), l.Nodup ∧ (∀ Q, Q ∈ l ↔ Orthogonal Q ∧ MapsLattice Q L) ∧ l.length = systemOrder sys

end CrystSymm.Spec
