import Verif.Model.Linalg

set_option autoImplicit false

/-! # Model of the enums of src/data/core.rs -/

namespace CrystSymm

/-- `Centering` (src/data/core.rs:12-20). -/
inductive Centering
  | P | A | B | C | I | F | R
deriving DecidableEq, Repr

/-- `impl Display for Centering` (src/data/core.rs:22-34). -/
def Centering.display : Centering → String
  | .P => "P" | .A => "A" | .B => "B" | .C => "C" | .I => "I" | .F => "F" | .R => "R"

/-- `impl FromStr for Centering` (src/data/core.rs:36-51). -/
def Centering.fromStr (input : String) : Option Centering :=
  if input = "P" then some .P
  else if input = "A" then some .A
  else if input = "B" then some .B
  else if input = "C" then some .C
  else if input = "I" then some .I
  else if input = "F" then some .F
  else if input = "R" then some .R
  else none

/-- `LatticeSystem` (src/data/core.rs:54-62). -/
inductive LatticeSystem
  | Triclinic | Monoclinic | Orthorhombic | Tetragonal | Rhombohedral | Hexagonal | Cubic
deriving DecidableEq, Repr

/-- `impl Display for LatticeSystem` (src/data/core.rs:64-76). -/
def LatticeSystem.display : LatticeSystem → String
  | .Triclinic => "Triclinic"
  | .Monoclinic => "Monoclinic"
  | .Orthorhombic => "Orthorhombic"
  | .Tetragonal => "Tetragonal"
  | .Rhombohedral => "Rhombohedral"
  | .Hexagonal => "Hexagonal"
  | .Cubic => "Cubic"

/-- `impl FromStr for LatticeSystem` (src/data/core.rs:78-100). -/
def LatticeSystem.fromStr (input : String) : Option LatticeSystem :=
  if input = "Triclinic" then some .Triclinic
  else if input = "Monoclinic" then some .Monoclinic
  else if input = "Orthorhombic" then some .Orthorhombic
  else if input = "Tetragonal" then some .Tetragonal
  else if input = "Rhombohedral" then some .Rhombohedral
  else if input = "Hexagonal" then some .Hexagonal
  else if input = "Cubic" then some .Cubic
  else if input = "a" then some .Triclinic
  else if input = "m" then some .Monoclinic
  else if input = "o" then some .Orthorhombic
  else if input = "t" then some .Tetragonal
  else if input = "r" then some .Rhombohedral
  else if input = "h" then some .Hexagonal
  else if input = "c" then some .Cubic
  else none

/-- `BravaisType` (src/data/core.rs:104-120). -/
inductive BravaisType
  | aP | mP | mC | mI | oP | oC | oI | oF | tP | tI | hR | hP | cP | cI | cF
deriving DecidableEq, Repr

/-- `impl Display for BravaisType` (src/data/core.rs:136-156). -/
def BravaisType.display : BravaisType → String
  | .aP => "aP" | .mP => "mP" | .mC => "mC" | .mI => "mI" | .oP => "oP"
  | .oC => "oC" | .oI => "oI" | .oF => "oF" | .tP => "tP" | .tI => "tI"
  | .hR => "hR" | .hP => "hP" | .cP => "cP" | .cI => "cI" | .cF => "cF"

/-- `BravaisType::centering` (src/data/core.rs:123-127): last character of the display string,
parsed; `none` is either of the two panics. -/
def BravaisType.centering? (b : BravaisType) : Option Centering :=
  b.display.toList.getLast?.bind fun ch => Centering.fromStr (String.singleton ch)

/-- `BravaisType::lattice_system` (src/data/core.rs:129-133): first character of the display
string, parsed; `none` is either of the two panics. -/
def BravaisType.latticeSystem? (b : BravaisType) : Option LatticeSystem :=
  b.display.toList.head?.bind fun ch => LatticeSystem.fromStr (String.singleton ch)

end CrystSymm
