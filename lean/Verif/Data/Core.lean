import Verif.Model.Core

set_option autoImplicit false

/-! # Tables of src/data/core.rs

GENERATED by gen_tables.py; literal copies, in source order. -/

namespace CrystSymm

/-- `LATTICE_CHAR_TO_BRAVAIS` (src/data/core.rs:160-211). -/
def latticeCharToBravais : List (Nat × BravaisType) := [
  (1, .cF),
  (2, .hR),
  (3, .cP),
  (5, .cI),
  (4, .hR),
  (6, .tI),
  (7, .tI),
  (8, .oI),
  (9, .hR),
  (10, .mC),
  (11, .tP),
  (12, .hP),
  (13, .oC),
  (15, .tI),
  (16, .oF),
  (14, .mC),
  (17, .mC),
  (18, .tI),
  (19, .oI),
  (20, .mC),
  (21, .tP),
  (22, .hP),
  (23, .oC),
  (24, .hR),
  (25, .mC),
  (26, .oF),
  (27, .mC),
  (28, .mC),
  (29, .mC),
  (30, .mC),
  (31, .aP),
  (32, .oP),
  (40, .oC),
  (35, .mP),
  (36, .oC),
  (33, .mP),
  (38, .oC),
  (34, .mP),
  (42, .oI),
  (41, .mC),
  (37, .mC),
  (39, .mC),
  (43, .mI),
  (44, .aP)]

/-- `LATTICE_CHAR_TO_CONV_TRANS` (src/data/core.rs:214-268); `Matrix3::new` takes its
arguments row by row. -/
def latticeCharToConvTrans : List (Nat × Mat3 Int8) := [
  (1, ⟨1, -1, 1, 1, 1, -1, -1, 1, 1⟩),
  (2, ⟨1, -1, 0, -1, 0, 1, -1, -1, -1⟩),
  (3, ⟨1, 0, 0, 0, 1, 0, 0, 0, 1⟩),
  (5, ⟨1, 0, 1, 1, 1, 0, 0, 1, 1⟩),
  (4, ⟨1, -1, 0, -1, 0, 1, -1, -1, -1⟩),
  (6, ⟨0, 1, 1, 1, 0, 1, 1, 1, 0⟩),
  (7, ⟨1, 0, 1, 1, 1, 0, 0, 1, 1⟩),
  (8, ⟨-1, -1, 0, -1, 0, -1, 0, -1, -1⟩),
  (9, ⟨1, 0, 0, -1, 1, 0, -1, -1, 3⟩),
  (10, ⟨1, 1, 0, 1, -1, 0, 0, 0, -1⟩),
  (11, ⟨1, 0, 0, 0, 1, 0, 0, 0, 1⟩),
  (12, ⟨1, 0, 0, 0, 1, 0, 0, 0, 1⟩),
  (13, ⟨1, 1, 0, -1, 1, 0, 0, 0, 1⟩),
  (15, ⟨1, 0, 0, 0, 1, 0, 1, 1, 2⟩),
  (16, ⟨-1, -1, 0, 1, -1, 0, 1, 1, 2⟩),
  (14, ⟨1, 1, 0, -1, 1, 0, 0, 0, 1⟩),
  (17, ⟨1, -1, 0, 1, 1, 0, -1, 0, -1⟩),
  (18, ⟨0, -1, 1, 1, -1, -1, 1, 0, 0⟩),
  (19, ⟨-1, 0, 0, 0, -1, 1, -1, 1, 1⟩),
  (20, ⟨0, 1, 1, 0, 1, -1, -1, 0, 0⟩),
  (21, ⟨0, 1, 0, 0, 0, 1, 1, 0, 0⟩),
  (22, ⟨0, 1, 0, 0, 0, 1, 1, 0, 0⟩),
  (23, ⟨0, 1, 1, 0, -1, 1, 1, 0, 0⟩),
  (24, ⟨1, 2, 1, 0, -1, 1, 1, 0, 0⟩),
  (25, ⟨0, 1, 1, 0, -1, 1, 1, 0, 0⟩),
  (26, ⟨1, 0, 0, -1, 2, 0, -1, 0, 2⟩),
  (27, ⟨-1, 2, 0, -1, 0, 0, 0, -1, 1⟩),
  (28, ⟨-1, 0, 0, -1, 0, 2, 0, 1, 0⟩),
  (29, ⟨1, 0, 0, 1, -2, 0, 0, 0, -1⟩),
  (30, ⟨0, 1, 0, 0, 1, -2, -1, 0, 0⟩),
  (31, ⟨1, 0, 0, 0, 1, 0, 0, 0, 1⟩),
  (32, ⟨1, 0, 0, 0, 1, 0, 0, 0, 1⟩),
  (40, ⟨0, -1, 0, 0, 1, 2, -1, 0, 0⟩),
  (35, ⟨0, -1, 0, -1, 0, 0, 0, 0, -1⟩),
  (36, ⟨1, 0, 0, -1, 0, -2, 0, 1, 0⟩),
  (33, ⟨1, 0, 0, 0, 1, 0, 0, 0, 1⟩),
  (38, ⟨-1, 0, 0, 1, 2, 0, 0, 0, -1⟩),
  (34, ⟨-1, 0, 0, 0, 0, -1, 0, -1, 0⟩),
  (42, ⟨-1, 0, 0, 0, -1, 0, 1, 1, 2⟩),
  (41, ⟨0, -1, -2, 0, -1, 0, -1, 0, 0⟩),
  (37, ⟨1, 0, 2, 1, 0, 0, 0, 1, 0⟩),
  (39, ⟨-1, -2, 0, -1, 0, 0, 0, 0, -1⟩),
  (43, ⟨-1, 0, 0, -1, -1, -2, 0, -1, 0⟩),
  (44, ⟨1, 0, 0, 0, 1, 0, 0, 0, 1⟩)]

/-- `CENTERING_TO_PRIM_TRANS` (src/data/core.rs:271-303): the upper-left 3×3 block of the
`Matrix4<isize>` and its `m44` entry; the remaining entries are 0 in the source and never read. -/
def centeringToPrimTrans : List (Centering × Mat3 Int × Int) := [
  (.P, ⟨1, 0, 0, 0, 1, 0, 0, 0, 1⟩, 1),
  (.A, ⟨2, 0, 0, 0, 1, -1, 0, 1, 1⟩, 2),
  (.B, ⟨1, 0, -1, 0, 2, 0, 1, 0, 1⟩, 2),
  (.C, ⟨1, 1, 0, -1, 1, 0, 0, 0, 2⟩, 2),
  (.I, ⟨-1, 1, 1, 1, -1, 1, 1, 1, -1⟩, 2),
  (.F, ⟨0, 1, 1, 1, 0, 1, 1, 1, 0⟩, 2),
  (.R, ⟨2, -1, -1, 1, 1, -2, 1, 1, 1⟩, 3)]

end CrystSymm
