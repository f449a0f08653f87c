import Verif.Model.Utils

set_option autoImplicit false

/-! # Model of src/symmop.rs -/

namespace CrystSymm

/-- `SymmOp` (src/symmop.rs:8-11).  `Matrix3<i8>` entries are Lean `Int8` (wrapping arithmetic, i.e.
the release profile; a debug build panics where this wraps). -/
@[ext] structure SymmOp (K : Type) where
  rotation : Mat3 Int8
  translation : Vec3 K
deriving DecidableEq, Repr

/-- `m.cast::<f64>()` for an `i8` matrix. -/
def castRot {K : Type} [IntCast K] (m : Mat3 Int8) : Mat3 K := m.map fun e => ((e.toInt : Int) : K)

namespace SymmOp

section
variable {K : Type} [Add K] [Sub K] [Mul K] [Neg K] [Zero K] [One K] [IntCast K]
  [LT K] [DecidableLT K] [FRound K]

/-- the test `diff.iter().enumerate().all(|(i, val)| val.abs() < frac_tols[i])`
(src/symmop.rs:24-27, src/spacegroup.rs:104-107). -/
def allWithin (diff tols : Vec3 K) : Bool :=
  decide (FRound.abs diff.x < tols.x) && decide (FRound.abs diff.y < tols.y)
    && decide (FRound.abs diff.z < tols.z)

/-- `SymmOp::is_approx_eq` (src/symmop.rs:20-30). -/
def isApproxEq (self op : SymmOp K) (tols : Vec3 K) : Bool :=
  let diff := normFracVec tols (self.translation - op.translation)
  let translationEq := allWithin diff tols
  decide (self.rotation = op.rotation) && translationEq

/-- `SymmOp::normalize` (src/symmop.rs:37-42). -/
def normalize (self : SymmOp K) (tols : Vec3 K) : SymmOp K :=
  { self with translation := normFracVec tols self.translation }

/-- `impl Mul for SymmOp` (src/symmop.rs:45-61). -/
def mul (self rhs : SymmOp K) : SymmOp K :=
  let newRotation := self.rotation * rhs.rotation
  let floatRotation : Mat3 K := castRot rhs.rotation
  let newTranslation := (floatRotation * self.translation) + rhs.translation
  ⟨newRotation, newTranslation⟩

instance : Mul (SymmOp K) := ⟨mul⟩

/-- `impl Mul<Vector3<f64>> for SymmOp` (src/symmop.rs:63-72). -/
def apply (self : SymmOp K) (rhs : Vec3 K) : Vec3 K :=
  let floatRotation : Mat3 K := castRot self.rotation
  (floatRotation * rhs) + self.translation

end

end SymmOp

end CrystSymm
