import Verif.Spec.Isometry

set_option autoImplicit false

/-! # Specification: crystals whose symmetries are clear-cut at a tolerance -/

namespace CrystSymm.Spec

/-- the motion `x ↦ Q x + t` preserves the lattice and brings every atom to within `δ` of an atom of the same species. -/
def NearSymmetry (s : Structure ℝ) (Q : Mat3 ℝ) (t : Vec3 ℝ) (δ : ℝ) : Prop :=
  Orthogonal Q ∧ MapsLattice Q s.lattice ∧
    ∀ e x, AtomAt s e x → ∃ y, AtomAt s e y ∧ lenSq (Q * x + t - y) ≤ δ ^ 2

/-- no pseudosymmetry at the tolerance `d`: what maps the crystal onto itself up to `2 * d` becomes a symmetry after a shift of at
most `3 * d`. -/
def Resolved (s : Structure ℝ) (d : ℝ) : Prop :=
  ∀ Q t, NearSymmetry s Q t (2 * d) → ∃ t', CrystalSymmetry s Q t' ∧ lenSq (t - t') ≤ (3 * d) ^ 2

/-- the origin is at one of the positions used in tables of space groups: the translation part of every symmetry is a twelfth of
a lattice vector. -/
def GridOrigin (s : Structure ℝ) : Prop :=
  ∀ Q t, CrystalSymmetry s Q t → ∃ n : Vec3 ℝ, IntVec n ∧ Vec3.scale 12 t = s.lattice * n

end CrystSymm.Spec
