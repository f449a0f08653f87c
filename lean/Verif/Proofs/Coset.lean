import Mathlib.LinearAlgebra.FreeModule.Finite.CardQuotient
import Mathlib.LinearAlgebra.Matrix.ToLin
import Mathlib.LinearAlgebra.Matrix.Nondegenerate
import Mathlib.LinearAlgebra.Matrix.NonsingularInverse

set_option autoImplicit false

/-! # The number of cosets of a sublattice -/

namespace CrystSymm

/-- the sublattice `T ℤ³`. -/
abbrev subLattice (T : Matrix (Fin 3) (Fin 3) ℤ) : Submodule ℤ (Fin 3 → ℤ) :=
  LinearMap.range (Matrix.toLin' T)

theorem card_cosets (T : Matrix (Fin 3) (Fin 3) ℤ) (h : T.det ≠ 0) :
    Nat.card ((Fin 3 → ℤ) ⧸ subLattice T) = T.det.natAbs := by
  have hinj : Function.Injective (Matrix.toLin' T) := by
    rw [← LinearMap.ker_eq_bot, LinearMap.ker_eq_bot']
    intro v hv
    rw [Matrix.toLin'_apply] at hv
    exact Matrix.eq_zero_of_mulVec_eq_zero h hv
  let e := LinearEquiv.ofInjective (Matrix.toLin' T) hinj
  rw [← Submodule.natAbs_det_equiv (subLattice T) e]
  congr 1
  rw [← LinearMap.det_toLin' T]
  congr 1

theorem mem_subLattice (T : Matrix (Fin 3) (Fin 3) ℤ) (v : Fin 3 → ℤ) :
    v ∈ subLattice T ↔ ∃ w, T.mulVec w = v := by
  simp [LinearMap.mem_range, Matrix.toLin'_apply]

/-- `det T` times anything lies in the sublattice. -/
theorem det_smul_mem (T : Matrix (Fin 3) (Fin 3) ℤ) (v : Fin 3 → ℤ) :
    T.det • v ∈ subLattice T := by
  rw [mem_subLattice]
  refine ⟨T.adjugate.mulVec v, ?_⟩
  rw [Matrix.mulVec_mulVec, Matrix.mul_adjugate, Matrix.smul_mulVec, Matrix.one_mulVec]

end CrystSymm
