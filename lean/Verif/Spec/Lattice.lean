import Verif.Spec.Basic
import Mathlib.Data.Real.Basic

set_option autoImplicit false

/-! # Specification of lattices and cells -/

namespace CrystSymm.Spec

/-- squared Euclidean length, written out. -/
def lenSq {K : Type} [Add K] [Mul K] (v : Vec3 K) : K := v.x * v.x + v.y * v.y + v.z * v.z

/-- scalar product, written out. -/
def dotp {K : Type} [Add K] [Mul K] (u v : Vec3 K) : K := u.x * v.x + u.y * v.y + u.z * v.z

/-- all singular values of the lattice exceed the cut-off `1e-6` of the crate: the image of every
non-zero vector is more than `1e-6` times as long as the vector. -/
def SvAbove (L : Mat3 ℝ) : Prop :=
  ∀ v : Vec3 ℝ, v ≠ ⟨0, 0, 0⟩ → (1 / 1000000) ^ 2 * lenSq v < lenSq (L * v)

/-- an integer matrix. -/
def IsIntMat {K : Type} [IntCast K] (m : Mat3 K) : Prop :=
  ∃ n : Mat3 ℤ, m = n.map fun k : ℤ => (k : K)

/-- an integer matrix with determinant `±1`: a change of lattice basis. -/
def IsUnimodular {K : Type} [IntCast K] (m : Mat3 K) : Prop :=
  ∃ n : Mat3 ℤ, (n.det = 1 ∨ n.det = -1) ∧ m = n.map fun k : ℤ => (k : K)

/-- an integer matrix with determinant `1`: a change of lattice basis keeping the handedness. -/
def IsUnimodularPos {K : Type} [IntCast K] (m : Mat3 K) : Prop :=
  ∃ n : Mat3 ℤ, n.det = 1 ∧ m = n.map fun k : ℤ => (k : K)

end CrystSymm.Spec
