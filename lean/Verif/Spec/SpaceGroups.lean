import Verif.Spec.Affine
import Verif.Spec.PointGroups

/-! # Specification of space groups modulo lattice translations -/

set_option autoImplicit false

namespace CrystSymm.Spec

/-- an operation: rotation part (in the basis of the cell) and translation. -/
abbrev Oper (K : Type) : Type := Mat3 ℤ × Vec3 K

/-- the operation applied to a position. -/
def act {K : Type} [CommRing K] (o : Oper K) (x : Vec3 K) : Vec3 K := affine o.1 o.2 x

/-- two operations have the same effect on the crystal: on every position, up to lattice vectors. -/
def SameOper {K : Type} [CommRing K] (a b : Oper K) : Prop := ∀ x, SamePoint (act a x) (act b x)

/-- a list of pairwise different operations that form a group modulo lattice translations. -/
structure IsOperGroup {K : Type} [CommRing K] (ops : List (Oper K)) : Prop where
  one : ∃ e ∈ ops, ∀ x, SamePoint (act e x) x
  mul : ∀ a ∈ ops, ∀ b ∈ ops, ∃ c ∈ ops, ∀ x, SamePoint (act c x) (act a (act b x))
  inv : ∀ a ∈ ops, ∃ b ∈ ops, ∀ x, SamePoint (act a (act b x)) x ∧ SamePoint (act b (act a x)) x
  distinct : ops.Pairwise fun a b => ¬ SameOper a b

/-- the crystal classes in the order of the space-group numbers: the last number of each class
(`International Tables`, table 2.1.2.1). -/
def classRanges : List (ℕ × String) := [
  (1, "1"), (2, "-1"), (5, "2"), (9, "m"), (15, "2/m"), (24, "222"), (46, "mm2"), (74, "mmm"),
  (80, "4"), (82, "-4"), (88, "4/m"), (98, "422"), (110, "4mm"), (122, "-42m"), (142, "4/mmm"),
  (146, "3"), (148, "-3"), (155, "32"), (161, "3m"), (167, "-3m"),
  (173, "6"), (174, "-6"), (176, "6/m"), (182, "622"), (186, "6mm"), (190, "-6m2"), (194, "6/mmm"),
  (199, "23"), (206, "m-3"), (214, "432"), (220, "-43m"), (230, "m-3m")]

/-- the crystal class of a space-group number. -/
def classOf (num : ℕ) : Option String := (classRanges.find? fun p => num ≤ p.1).map Prod.snd

/-- order and type counts of the crystal class of a space-group number. -/
def classData (num : ℕ) : Option (ℕ × List ℕ) :=
  (classOf num).bind fun sym => (pointGroupTable.find? fun p => p.1 = sym).map Prod.snd

end CrystSymm.Spec
