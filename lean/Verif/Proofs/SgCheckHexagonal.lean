import Verif.Proofs.SpaceGroupTables

/-! # Kernel evaluation of the checks of the space-group tables -/

set_option autoImplicit false
set_option maxRecDepth 100000

namespace CrystSymm

theorem sgTableHexagonal3_check : sgTableHexagonal3.all (entryCheck 3) = true := by decide +kernel

theorem sgTableHexagonal3_differs : tableDiffers sgTableHexagonal3 = true := by decide +kernel

theorem sgTableHexagonal6_check : sgTableHexagonal6.all (entryCheck 6) = true := by decide +kernel

theorem sgTableHexagonal6_differs : tableDiffers sgTableHexagonal6 = true := by decide +kernel

theorem sgTableHexagonal12_check : sgTableHexagonal12.all (entryCheck 12) = true := by decide +kernel

theorem sgTableHexagonal12_differs : tableDiffers sgTableHexagonal12 = true := by decide +kernel

theorem sgTableHexagonal24_check : sgTableHexagonal24.all (entryCheck 24) = true := by decide +kernel

theorem sgTableHexagonal24_differs : tableDiffers sgTableHexagonal24 = true := by decide +kernel

end CrystSymm
