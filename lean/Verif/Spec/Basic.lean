import Mathlib.Algebra.Order.Floor.Ring
import Mathlib.Algebra.Order.Field.Basic
import Verif.Model.Linalg

set_option autoImplicit false

/-! # Elementary specifications

None of these mentions a definition of the model other than the containers `Vec3`/`Mat3`. -/

namespace CrystSymm.Spec

/-- `x` and `y` differ by an integer. -/
def SameMod1 {K : Type} [Ring K] (x y : K) : Prop := ∃ n : ℤ, x - y = n

/-- vector with integer components. -/
def IntVec {K : Type} [IntCast K] (v : Vec3 K) : Prop :=
  ∃ i j k : ℤ, v = ⟨(i : K), (j : K), (k : K)⟩

/-- two fractional positions are the same point of the crystal: they differ by integers. -/
def SamePoint {K : Type} [Ring K] (u v : Vec3 K) : Prop :=
  SameMod1 u.x v.x ∧ SameMod1 u.y v.y ∧ SameMod1 u.z v.z

/-- value of a digit string (most significant digit first) in base `b`. -/
def ofDigits (b : ℕ) (l : List ℕ) : ℕ := l.foldl (fun acc d => acc * b + d) 0

/-- the distance of `x` to the integers is less than `t`. -/
def NearInt {K : Type} [Ring K] [LinearOrder K] (x t : K) : Prop := ∃ n : ℤ, |x - n| < t

end CrystSymm.Spec
