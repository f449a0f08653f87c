import Verif.Proofs.SpaceGroupTables

/-! # Kernel evaluation of the checks of the space-group tables -/

set_option autoImplicit false
set_option maxRecDepth 100000

namespace CrystSymm

theorem sgTableCubic12_check : sgTableCubic12.all (entryCheck 12) = true := by decide +kernel

theorem sgTableCubic12_differs : tableDiffers sgTableCubic12 = true := by decide +kernel

theorem sgTableCubic24_check : sgTableCubic24.all (entryCheck 24) = true := by decide +kernel

theorem sgTableCubic24_differs : tableDiffers sgTableCubic24 = true := by decide +kernel

theorem sgTableCubic48_check : sgTableCubic48.all (entryCheck 48) = true := by decide +kernel

theorem sgTableCubic48_differs : tableDiffers sgTableCubic48 = true := by decide +kernel

end CrystSymm
