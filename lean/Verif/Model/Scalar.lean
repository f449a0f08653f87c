import Mathlib.Algebra.Order.Floor.Ring
import Mathlib.Algebra.Order.Field.Basic
import Mathlib.Data.Rat.Floor
import Mathlib.Analysis.Real.Sqrt
import Mathlib.Analysis.SpecialFunctions.Pow.Real
import Mathlib.Analysis.SpecialFunctions.Trigonometric.Inverse
import Mathlib.Analysis.Matrix.HermitianFunctionalCalculus
import Verif.Model.Linalg

set_option autoImplicit false

/-!
# The scalar type standing for `f64`

The crate computes with `f64`.  The model is generic over the scalar type `K`; the operations
beyond `+ - * / < ≤` are collected in two classes without laws.

Instances:
* `Float`  – Lean's IEEE-754 doubles; used to *run* the model against the unit tests of /repo
  (Verif/Tests), never in a proof;
* any ordered floor field (`ℚ`, `ℝ`) – exact arithmetic: `FRound`;
* `ℝ` – exact arithmetic with square roots etc.: `FTrans`.
-/

namespace CrystSymm

/-- Rounding-type `f64` primitives. -/
class FRound (K : Type) where
  /-- `x.abs()` -/
  abs : K → K
  /-- `x.signum()` (1 for `+0.0`) -/
  signum : K → K
  /-- `x % 1.0` (IEEE `fmod`, sign of the dividend) -/
  fmod1 : K → K
  /-- `x.round()` (half away from zero) -/
  round : K → K
  /-- `x as i8` (truncating, saturating) -/
  toI8 : K → Int8
  /-- `x as i64` (truncating, saturating) -/
  toI64 : K → Int

/-- Transcendental `f64` primitives and the SVD pseudo-inverse. -/
class FTrans (K : Type) where
  /-- `x.sqrt()` -/
  sqrt : K → K
  /-- `x.powf(1.0 / 3.0)`; `none` stands for the NaN that `powf` returns on a negative base. -/
  powThird : K → Option K
  /-- `x.acos()` -/
  acos : K → K
  /-- `std::f64::consts::PI` -/
  pi : K
  /-- `m.pseudo_inverse(ZERO_TOL).unwrap()` (src/structure.rs:284, 386): nalgebra computes an SVD
  and inverts exactly the singular values larger than `ZERO_TOL = 1e-6`; it errs only for a
  negative tolerance, so the `expect` in the crate never fires. -/
  pinv : Mat3 K → Mat3 K

section Exact

variable {K : Type} [Field K] [LinearOrder K] [FloorRing K]

/-- truncation towards zero. -/
def truncZ (x : K) : ℤ := if 0 ≤ x then ⌊x⌋ else ⌈x⌉

/-- round half away from zero. -/
def roundZ (x : K) : ℤ := if 0 ≤ x then ⌊x + 1 / 2⌋ else ⌈x - 1 / 2⌉

/-- saturation to `[lo, hi]`. -/
def satZ (lo hi x : ℤ) : ℤ := max lo (min hi x)

/-- Exact arithmetic over an ordered floor field. -/
instance instFRoundExact : FRound K where
  abs x := |x|
  signum x := if x < 0 then -1 else 1
  fmod1 x := x - (truncZ x : K)
  round x := (roundZ x : K)
  toI8 x := Int8.ofInt (satZ (-128) 127 (truncZ x))
  toI64 x := satZ (-9223372036854775808) 9223372036854775807 (truncZ x)

end Exact

section RealInst

/-- a model matrix as a Mathlib matrix. -/
def Mat3.toMatrix {K : Type} (m : Mat3 K) : Matrix (Fin 3) (Fin 3) K :=
  !![m.m11, m.m12, m.m13; m.m21, m.m22, m.m23; m.m31, m.m32, m.m33]

/-- a Mathlib matrix as a model matrix. -/
def Mat3.ofMatrix {K : Type} (m : Matrix (Fin 3) (Fin 3) K) : Mat3 K :=
  ⟨m 0 0, m 0 1, m 0 2, m 1 0, m 1 1, m 1 2, m 2 0, m 2 1, m 2 2⟩

/-- The pseudo-inverse with singular values `≤ tol` dropped: `g(LᵀL) Lᵀ` where `g(s) = 1/s` for
eigenvalues `s > tol²` of `LᵀL` (i.e. singular values `> tol`) and `0` otherwise. -/
noncomputable def pinvMatrix (tol : ℝ) (L : Matrix (Fin 3) (Fin 3) ℝ) :
    Matrix (Fin 3) (Fin 3) ℝ :=
  (Matrix.isHermitian_conjTranspose_mul_self L).cfc
      (fun s => if tol ^ 2 < s then s⁻¹ else 0) * L.conjTranspose

noncomputable instance instFTransReal : FTrans ℝ where
  sqrt := Real.sqrt
  powThird x := if x < 0 then none else some (x ^ ((1 : ℝ) / 3))
  acos := Real.arccos
  pi := Real.pi
  pinv m := Mat3.ofMatrix (pinvMatrix (1 / 1000000) m.toMatrix)

end RealInst

section FloatInst

instance : Zero Float := ⟨0.0⟩
instance : One Float := ⟨1.0⟩
instance : IntCast Float := ⟨Float.ofInt⟩

instance : FRound Float where
  abs := Float.abs
  signum x := if x < 0 then -1 else 1
  fmod1 x := if x < 0 then x - x.ceil else x - x.floor
  round := Float.round
  toI8 := Float.toInt8
  toI64 x := x.toInt64.toInt

instance : FTrans Float where
  sqrt := Float.sqrt
  powThird x := if x < 0 then none else some (x.pow (1.0 / 3.0))
  acos := Float.acos
  pi := 3.14159265358979323846
  pinv m := m.adjDiv m.det

end FloatInst

variable {K : Type}

/-- `v.magnitude()`. -/
def Vec3.mag [Add K] [Mul K] [FTrans K] (v : Vec3 K) : K := FTrans.sqrt v.normSq

/-- an integer literal of the source, `n as f64`. -/
abbrev lit [IntCast K] (n : Int) : K := (n : K)

/-- `ZERO_TOL` (src/data/core.rs:8). -/
def zeroTol [IntCast K] [Div K] : K := lit 1 / lit 1000000

/-- `INT_CONVERSION_MULT` (src/data/core.rs:9). -/
def intConversionMult [IntCast K] : K := lit 1000000000

/-- How a call can end: a value, a Rust panic, or still looping after the given fuel. -/
inductive Outcome (α : Type) where
  | ret (a : α)
  | panic (msg : String)
  | running
deriving Repr, DecidableEq

namespace Outcome

/-- sequencing: panics and non-termination propagate. -/
def bind {α β : Type} (o : Outcome α) (f : α → Outcome β) : Outcome β :=
  match o with
  | ret a => f a
  | panic m => panic m
  | running => running

instance : Monad Outcome where
  pure := ret
  bind := bind

/-- `opt.expect(msg)` / `opt.unwrap()`. -/
def ofOption {α : Type} (msg : String) : Option α → Outcome α
  | some a => ret a
  | none => panic msg

end Outcome

end CrystSymm
