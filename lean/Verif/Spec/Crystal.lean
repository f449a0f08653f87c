import Verif.Spec.Lattice
import Verif.Model.Structure

set_option autoImplicit false

/-! # Specification of "the same crystal" -/

namespace CrystSymm.Spec

variable {K : Type}

/-- the sites of a structure: species with fractional position. -/
def sites (s : Structure K) : List (String × Vec3 K) := s.species.zip s.fracCoords

/-- the four parts of a structure fit together: equally many species, fractional and cartesian
positions, and cartesian = lattice * fractional. -/
def Consistent [Add K] [Mul K] (s : Structure K) : Prop :=
  s.species.length = s.fracCoords.length ∧ s.coords = s.fracCoords.map fun v : Vec3 K => s.lattice * v

/-- `l` lists the same sites as `m`: up to order, and each position up to integers. -/
def SameSites [Ring K] (l m : List (String × Vec3 K)) : Prop :=
  ∃ m', m'.Perm m ∧ List.Forall₂ (fun p q => p.1 = q.1 ∧ SamePoint p.2 q.2) l m'

end CrystSymm.Spec
