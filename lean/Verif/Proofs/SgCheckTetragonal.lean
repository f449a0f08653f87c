import Verif.Proofs.SpaceGroupTables

/-! # Kernel evaluation of the checks of the space-group tables -/

set_option autoImplicit false
set_option maxRecDepth 100000

namespace CrystSymm

theorem sgTableTetragonal4_check : sgTableTetragonal4.all (entryCheck 4) = true := by decide +kernel

theorem sgTableTetragonal4_differs : tableDiffers sgTableTetragonal4 = true := by decide +kernel

theorem sgTableTetragonal8_check : sgTableTetragonal8.all (entryCheck 8) = true := by decide +kernel

theorem sgTableTetragonal8_differs : tableDiffers sgTableTetragonal8 = true := by decide +kernel

theorem sgTableTetragonal16_check : sgTableTetragonal16.all (entryCheck 16) = true := by decide +kernel

theorem sgTableTetragonal16_differs : tableDiffers sgTableTetragonal16 = true := by decide +kernel

end CrystSymm
