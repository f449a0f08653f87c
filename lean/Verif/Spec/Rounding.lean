import Mathlib.Algebra.Order.Archimedean.Real.Basic
import Verif.Model.Scalar

set_option autoImplicit false

/-! # Rounded arithmetic

An abstract rounding of the real line, and the scalar type of representable numbers whose `+`, `-`, `*`
round their exact result.  IEEE-754 round-to-nearest (away from overflow) satisfies the laws: it is
monotone, fixes representable numbers, is odd, represents 1, and `fmod` is exact. -/

namespace CrystSymm.Spec

/-- A rounding function. -/
structure Rounding where
  fl : ℝ → ℝ
  mono : ∀ x y, x ≤ y → fl x ≤ fl y
  idem : ∀ x, fl (fl x) = fl x
  odd : ∀ x, fl (-x) = -fl x
  one : fl 1 = 1
  /-- the remainder of a representable number by 1 is representable. -/
  fmod : ∀ x, fl x = x → fl (x - (truncZ x : ℝ)) = x - (truncZ x : ℝ)

/-- the numbers representable under `ρ`. -/
def RNum (ρ : Rounding) : Type := { x : ℝ // ρ.fl x = x }

namespace RNum

variable {ρ : Rounding}

/-- rounds a real to a representable number. -/
def round (x : ℝ) : RNum ρ := ⟨ρ.fl x, ρ.idem x⟩

/-- exact value of a representable number. -/
def val (x : RNum ρ) : ℝ := x.1

instance : Add (RNum ρ) := ⟨fun a b => round (a.val + b.val)⟩
instance : Sub (RNum ρ) := ⟨fun a b => round (a.val - b.val)⟩
instance : Mul (RNum ρ) := ⟨fun a b => round (a.val * b.val)⟩
instance : Neg (RNum ρ) := ⟨fun a => round (-a.val)⟩
instance : Zero (RNum ρ) := ⟨round 0⟩
instance : One (RNum ρ) := ⟨round 1⟩
instance : LT (RNum ρ) := ⟨fun a b => a.val < b.val⟩
instance : LE (RNum ρ) := ⟨fun a b => a.val ≤ b.val⟩
noncomputable instance : DecidableLT (RNum ρ) := fun a b => inferInstanceAs (Decidable (a.val < b.val))

noncomputable instance : FRound (RNum ρ) where
  abs x := round |x.val|
  signum x := round (FRound.signum x.val)
  fmod1 x := ⟨x.val - (truncZ x.val : ℝ), ρ.fmod _ x.2⟩
  round x := round (FRound.round x.val)
  toI8 x := FRound.toI8 x.val
  toI64 x := FRound.toI64 x.val

instance : IntCast (RNum ρ) := ⟨fun n => round (n : ℝ)⟩
/-- there are no infinities: a quotient by zero is zero. -/
noncomputable instance : Div (RNum ρ) := ⟨fun a b => round (a.val / b.val)⟩
noncomputable instance : DecidableLE (RNum ρ) := fun a b => inferInstanceAs (Decidable (a.val ≤ b.val))
noncomputable instance : BEq (RNum ρ) := ⟨fun a b => decide (a.val = b.val)⟩

/-- the exact result, rounded. -/
noncomputable instance : FTrans (RNum ρ) where
  sqrt x := round (FTrans.sqrt x.val)
  powThird x := (FTrans.powThird x.val).map round
  acos x := round (FTrans.acos x.val)
  pi := round FTrans.pi
  pinv m := (FTrans.pinv (m.map val)).map round

end RNum

/-- below 1024 in magnitude the rounding error is at most `δ`. -/
def Accurate (ρ : Rounding) (δ : ℝ) : Prop := ∀ x : ℝ, |x| ≤ 1024 → |ρ.fl x - x| ≤ δ

end CrystSymm.Spec
