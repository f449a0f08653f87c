import Verif.Spec.Crystal

set_option autoImplicit false

/-! # Specification of the symmetries of a lattice and of a crystal -/

namespace CrystSymm.Spec

/-- `Q` preserves lengths and angles: it is a rotation or a rotation followed by the inversion. -/
def Orthogonal (Q : Mat3 ℝ) : Prop := Q.transpose * Q = 1

/-- `Q` maps every vector of the lattice generated by the columns of `L` to a vector of the lattice. -/
def MapsLattice (Q L : Mat3 ℝ) : Prop :=
  ∀ n : Vec3 ℝ, IntVec n → ∃ k : Vec3 ℝ, IntVec k ∧ Q * (L * n) = L * k

/-- the crystal: an atom of species `e` sits at the point `x` of space. -/
def AtomAt (s : Structure ℝ) (e : String) (x : Vec3 ℝ) : Prop :=
  ∃ p, (e, p) ∈ sites s ∧ ∃ n : Vec3 ℝ, IntVec n ∧ x = s.lattice * (p + n)

/-- the motion `x ↦ Q x + t` of space maps the crystal onto itself, atoms to atoms of the same species. -/
def CrystalSymmetry (s : Structure ℝ) (Q : Mat3 ℝ) (t : Vec3 ℝ) : Prop :=
  Orthogonal Q ∧ ∀ e x, AtomAt s e x ↔ AtomAt s e (Q * x + t)

/-- the cell is primitive: the translations that map the crystal onto itself are the lattice vectors. -/
def PrimitiveCell (s : Structure ℝ) : Prop :=
  ∀ t : Vec3 ℝ, (∀ e x, AtomAt s e x → AtomAt s e (x + t)) → ∃ n : Vec3 ℝ, IntVec n ∧ t = s.lattice * n

/-- the two structures put the same species at the same points of space. -/
def SameAtoms (s s' : Structure ℝ) : Prop := ∀ e x, AtomAt s e x ↔ AtomAt s' e x

/-- two atoms of the crystal are one and the same, or the square of their distance exceeds `D`. -/
def AtomsApart (s : Structure ℝ) (D : ℝ) : Prop :=
  ∀ e e' x y, AtomAt s e x → AtomAt s e' y → (e = e' ∧ x = y) ∨ D < lenSq (x - y)

/-- no site is listed twice. -/
def DistinctSites (s : Structure ℝ) : Prop := (sites s).Pairwise fun p q => ¬ SamePoint p.2 q.2

end CrystSymm.Spec
