import Verif.Spec.PointGroups
import Verif.Model.Core

/-! # Specification of changes of basis and centred lattices -/

set_option autoImplicit false

namespace CrystSymm.Spec

/-- an integer matrix over `K`. -/
def overK (K : Type) [IntCast K] (m : Mat3 ℤ) : Mat3 K := m.map fun n : ℤ => (n : K)

/-- `s` is the operation `r` in the basis made of the columns of `t`. -/
def InBasis {K : Type} [Add K] [Mul K] [IntCast K] (t : Mat3 K) (r s : Mat3 ℤ) : Prop :=
  overK K r * t = t * overK K s

/-- every entry is representable in eight bits. -/
def FitsI8 (m : Mat3 ℤ) : Prop := ∀ e ∈ m.toListCM, -128 ≤ e ∧ e ≤ 127

/-- the centring vectors of the conventional cells (`International Tables`, table 2.1.1.2; rhombohedral
centring in the obverse setting), as numerators and the common denominator. -/
def centringVectors : Centering → ℤ × List (Vec3 ℤ)
  | .P => (1, [⟨0, 0, 0⟩])
  | .A => (2, [⟨0, 0, 0⟩, ⟨0, 1, 1⟩])
  | .B => (2, [⟨0, 0, 0⟩, ⟨1, 0, 1⟩])
  | .C => (2, [⟨0, 0, 0⟩, ⟨1, 1, 0⟩])
  | .I => (2, [⟨0, 0, 0⟩, ⟨1, 1, 1⟩])
  | .F => (2, [⟨0, 0, 0⟩, ⟨0, 1, 1⟩, ⟨1, 0, 1⟩, ⟨1, 1, 0⟩])
  | .R => (3, [⟨0, 0, 0⟩, ⟨2, 1, 1⟩, ⟨1, 2, 2⟩])

/-- `v` is a point of the centred lattice: a centring vector plus integers. -/
def CentredPoint {K : Type} [Field K] (c : Centering) (v : Vec3 K) : Prop :=
  ∃ w ∈ (centringVectors c).2, ∃ i j k : ℤ,
    v = ⟨w.x / ((centringVectors c).1 : K) + i, w.y / ((centringVectors c).1 : K) + j,
      w.z / ((centringVectors c).1 : K) + k⟩

/-- the columns of `p` generate exactly the centred lattice. -/
def PrimitiveBasisOf {K : Type} [Field K] (c : Centering) (p : Mat3 K) : Prop :=
  ∀ v : Vec3 K, CentredPoint c v ↔ ∃ n : Vec3 K, IntVec n ∧ v = p * n

/-- the columns of the two matrices generate the same lattice. -/
def SameLattice {K : Type} [Field K] (L L' : Mat3 K) : Prop :=
  ∀ v : Vec3 K, (∃ n : Vec3 K, IntVec n ∧ v = L * n) ↔ ∃ n : Vec3 K, IntVec n ∧ v = L' * n

/-- centring letter, lattice system letter and holohedry of the Bravais types. -/
def bravaisTable : List (BravaisType × Centering × String) := [
  (.aP, .P, "-1"), (.mP, .P, "2/m"), (.mC, .C, "2/m"), (.mI, .I, "2/m"),
  (.oP, .P, "mmm"), (.oC, .C, "mmm"), (.oI, .I, "mmm"), (.oF, .F, "mmm"),
  (.tP, .P, "4/mmm"), (.tI, .I, "4/mmm"), (.hR, .R, "-3m"), (.hP, .P, "6/mmm"),
  (.cP, .P, "m-3m"), (.cI, .I, "m-3m"), (.cF, .F, "m-3m")]

/-- the shape of the conventional cell of a Bravais type, in terms of the products
`a·a, b·b, c·c, b·c, a·c, a·b` of the cell vectors (monoclinic with unique axis `b`, rhombohedral in
hexagonal axes). -/
def ShapeOf {K : Type} [Ring K] (t : BravaisType) (A B C D E F : K) : Prop :=
  match t with
  | .aP => True
  | .mP | .mC | .mI => D = 0 ∧ F = 0
  | .oP | .oC | .oI | .oF => D = 0 ∧ E = 0 ∧ F = 0
  | .tP | .tI => A = B ∧ D = 0 ∧ E = 0 ∧ F = 0
  | .hR | .hP => A = B ∧ D = 0 ∧ E = 0 ∧ 2 * F = -A
  | .cP | .cI | .cF => A = B ∧ B = C ∧ D = 0 ∧ E = 0 ∧ F = 0

/-- the same shape up to `δ` in every product. -/
def ShapeWithin {K : Type} [Ring K] [LinearOrder K] (t : BravaisType) (δ A B C D E F : K) : Prop :=
  match t with
  | .aP => True
  | .mP | .mC | .mI => |D| ≤ δ ∧ |F| ≤ δ
  | .oP | .oC | .oI | .oF => |D| ≤ δ ∧ |E| ≤ δ ∧ |F| ≤ δ
  | .tP | .tI => |A - B| ≤ δ ∧ |D| ≤ δ ∧ |E| ≤ δ ∧ |F| ≤ δ
  | .hR | .hP => |A - B| ≤ δ ∧ |D| ≤ δ ∧ |E| ≤ δ ∧ |2 * F + A| ≤ δ
  | .cP | .cI | .cF => |A - B| ≤ δ ∧ |B - C| ≤ δ ∧ |D| ≤ δ ∧ |E| ≤ δ ∧ |F| ≤ δ

/-- the metric tensor with the given products. -/
def metric {K : Type} (A B C D E F : K) : Mat3 K := ⟨A, F, E, F, B, D, E, D, C⟩

/-- the operation `r` (in the cell's own basis) is an isometry for the metric `g`. -/
def IsometryOf {K : Type} [Add K] [Mul K] [IntCast K] (r : Mat3 ℤ) (g : Mat3 K) : Prop :=
  (overK K r).transpose * g * overK K r = g

end CrystSymm.Spec
