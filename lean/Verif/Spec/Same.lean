import Verif.Spec.Crystal

set_option autoImplicit false

/-! # Specification of "the same crystal in another cell" -/

namespace CrystSymm.Spec

variable {K : Type}

/-- `s'` describes the crystal `s` in the basis `L U`: the lattice is `L U`, and up to order the sites
correspond one to one with equal species, the new position `x'` being (in old coordinates `U x'`) the
old position up to an old lattice vector. -/
def SameCrystalVia [Ring K] (U : Mat3 K) (s s' : Structure K) : Prop :=
  s'.lattice = s.lattice * U ∧
  ∃ m, m.Perm (sites s) ∧
    List.Forall₂ (fun p q => p.1 = q.1 ∧ SamePoint (U * p.2) q.2) (sites s') m

/-- the same crystal: another basis of the same lattice. -/
def SameCrystal [Ring K] (s s' : Structure K) : Prop := ∃ U, IsUnimodular U ∧ SameCrystalVia U s s'

/-- the same crystal, with a basis of the same handedness. -/
def SameCrystalPos [Ring K] (s s' : Structure K) : Prop := ∃ U, IsUnimodularPos U ∧ SameCrystalVia U s s'

end CrystSymm.Spec
