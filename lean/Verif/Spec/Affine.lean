import Verif.Spec.Basic
import Mathlib.Tactic.Ring

set_option autoImplicit false

/-! # Specification of affine symmetry operations, independent of the model's `SymmOp` functions -/

namespace CrystSymm.Spec

variable {K : Type} [CommRing K]

/-- the affine map `x ↦ R x + t` with an integer rotation part, written out. -/
def affine (R : Mat3 ℤ) (t x : Vec3 K) : Vec3 K :=
  ⟨R.m11 * x.x + R.m12 * x.y + R.m13 * x.z + t.x,
   R.m21 * x.x + R.m22 * x.y + R.m23 * x.z + t.y,
   R.m31 * x.x + R.m32 * x.y + R.m33 * x.z + t.z⟩

/-- squared length of `v` in fractional coordinates, for the metric tensor `G`. -/
def quadForm (G : Mat3 K) (v : Vec3 K) : K :=
  G.m11 * v.x * v.x + G.m12 * v.x * v.y + G.m13 * v.x * v.z +
  G.m21 * v.y * v.x + G.m22 * v.y * v.y + G.m23 * v.y * v.z +
  G.m31 * v.z * v.x + G.m32 * v.z * v.y + G.m33 * v.z * v.z

/-- the rotation leaves the metric tensor invariant: `Rᵀ G R = G`. -/
def PreservesMetric (G : Mat3 K) (R : Mat3 K) : Prop := R.transpose * G * R = G

end CrystSymm.Spec
