import Verif.Props.Congruent
import Verif.Props.Diamond

set_option autoImplicit false
set_option linter.unusedSectionVars false

/-! # C80: silicon and its mirror image -/

namespace CrystSymm

open Spec Reducer SymmetryAnalyzer NiggliCert PointGroup

/-- the reflection that exchanges the first two axes. -/
def swapXY : Mat3 ℤ := .ofCols ⟨0, 1, 0⟩ ⟨1, 0, 0⟩ ⟨0, 0, 1⟩

theorem swapXY_ok : OrthoInt swapXY := by
  unfold OrthoInt
  decide

theorem si_carries {u : ℝ} {M M' : Mat3 ℤ} (h : SiBasis M) (h' : SiBasis M') : Carries (overK ℝ swapXY) 0 (siCell u M) (siCell u M') := by
  have h1 := si_symmetry_of (u := u) h swapXY_ok (m := 0) (.inl (by unfold EvenFour; decide)) (.inr (by unfold OddFour; decide))
  rw [cubicVec_zero] at h1
  intro e x
  rw [h1.2 e x]
  exact si_same h h' _ _

/-- the reflected silicon crystal has the number of the mirror image of group 227, which is 227. -/
example (h h' : HashOrders ℝ) (hv : h.Valid) (hv' : h'.Valid) (f' num' : ℕ) (sym' : String) (ops' : List (SymmOp ℝ))
    (hr' : (⟨1 / 20, 3⟩ : SymmetryAnalyzer ℝ).getSpaceGroupInfo h' f' (siCell (543 / 400) siBasis) = .ret (num', sym', ops')) :
    num' = 227 := by
  obtain ⟨ops, N, hr⟩ := C78_silicon (u := 543 / 400) (by norm_num) (by norm_num) h hv 5
  have := (C80_copy_number _ _ h h' hv hv' N f' _ _ _ _ (si_crystal (by norm_num) (by norm_num) siBasis_ok hv 5)
    (si_crystal (by norm_num) (by norm_num) siBasis_ok hv' 3) _ 0 (orthoInt_orthogonal swapXY_ok) (si_carries siBasis_ok siBasis_ok) 227
    num' _ sym' ops ops' (hr N le_rfl) hr').1
  rw [this]
  unfold copyNumber
  split
  · rfl
  · decide

example : mirrorNumber 76 = 78 ∧ mirrorNumber 145 = 144 ∧ mirrorNumber 227 = 227 ∧ mirrorNumber 19 = 19 := by decide

end CrystSymm
