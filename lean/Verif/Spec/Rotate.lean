import Verif.Spec.Isometry

set_option autoImplicit false

/-! # Specification of a rigid rotation of a crystal -/

namespace CrystSymm.Spec

/-- `Q` is a rotation of space. -/
def Rotation (Q : Mat3 ℝ) : Prop := Orthogonal Q ∧ Q.det = 1

/-- the structure turned as a whole by `Q`: the lattice vectors and the Cartesian positions are turned, species and fractional
positions stay. -/
def turned (Q : Mat3 ℝ) (s : Structure ℝ) : Structure ℝ :=
  ⟨Q * s.lattice, s.species, s.coords.map (fun x : Vec3 ℝ => Q * x), s.fracCoords⟩

/-- the structure expressed in another unit of length: all lengths are multiplied by `q`. -/
def inUnit (q : ℝ) (s : Structure ℝ) : Structure ℝ :=
  ⟨s.lattice.scale q, s.species, s.coords.map (fun x : Vec3 ℝ => Vec3.scale q x), s.fracCoords⟩

end CrystSymm.Spec
