import Verif.Proofs.SpaceGroupTables

/-! # Kernel evaluation of the checks of the space-group tables -/

set_option autoImplicit false
set_option maxRecDepth 100000

namespace CrystSymm

theorem sgTableTriclinic1_check : sgTableTriclinic1.all (entryCheck 1) = true := by decide +kernel

theorem sgTableTriclinic1_differs : tableDiffers sgTableTriclinic1 = true := by decide +kernel

theorem sgTableTriclinic2_check : sgTableTriclinic2.all (entryCheck 2) = true := by decide +kernel

theorem sgTableTriclinic2_differs : tableDiffers sgTableTriclinic2 = true := by decide +kernel

theorem sgTableMonoclinic2_check : sgTableMonoclinic2.all (entryCheck 2) = true := by decide +kernel

theorem sgTableMonoclinic2_differs : tableDiffers sgTableMonoclinic2 = true := by decide +kernel

theorem sgTableMonoclinic4_check : sgTableMonoclinic4.all (entryCheck 4) = true := by decide +kernel

theorem sgTableMonoclinic4_differs : tableDiffers sgTableMonoclinic4 = true := by decide +kernel

theorem sgTableOrthorhombic4_check : sgTableOrthorhombic4.all (entryCheck 4) = true := by decide +kernel

theorem sgTableOrthorhombic4_differs : tableDiffers sgTableOrthorhombic4 = true := by decide +kernel

theorem sgTableOrthorhombic8_check : sgTableOrthorhombic8.all (entryCheck 8) = true := by decide +kernel

theorem sgTableOrthorhombic8_differs : tableDiffers sgTableOrthorhombic8 = true := by decide +kernel

theorem sgTableRhombohedral3_check : sgTableRhombohedral3.all (entryCheck 3) = true := by decide +kernel

theorem sgTableRhombohedral3_differs : tableDiffers sgTableRhombohedral3 = true := by decide +kernel

theorem sgTableRhombohedral6_check : sgTableRhombohedral6.all (entryCheck 6) = true := by decide +kernel

theorem sgTableRhombohedral6_differs : tableDiffers sgTableRhombohedral6 = true := by decide +kernel

theorem sgTableRhombohedral12_check : sgTableRhombohedral12.all (entryCheck 12) = true := by decide +kernel

theorem sgTableRhombohedral12_differs : tableDiffers sgTableRhombohedral12 = true := by decide +kernel

end CrystSymm
