import Verif.Model.Core

set_option autoImplicit false

/-! # Tables of src/data/pointgroup.rs

GENERATED by gen_tables.py; literal copies, in source order. -/

namespace CrystSymm

/-- `PG_NUM_TO_SYMBOL` (src/data/pointgroup.rs:7-42). -/
def pgNumToSymbol : List (Nat × String) := [
  (1, "1"),
  (2, "-1"),
  (3, "-3"),
  (4, "-3m"),
  (5, "-4"),
  (6, "-42m"),
  (7, "-43m"),
  (8, "-6"),
  (9, "-6m2"),
  (10, "2"),
  (11, "2/m"),
  (12, "222"),
  (13, "23"),
  (14, "3"),
  (15, "32"),
  (16, "3m"),
  (17, "4"),
  (18, "4/m"),
  (19, "4/mmm"),
  (20, "422"),
  (21, "432"),
  (22, "4mm"),
  (23, "6"),
  (24, "6/m"),
  (25, "6/mmm"),
  (26, "622"),
  (27, "6mm"),
  (28, "m"),
  (29, "m-3"),
  (30, "m-3m"),
  (31, "mm2"),
  (32, "mmm")]

/-- `BRAVAIS_TO_HOLOHEDRY_NUM` (src/data/pointgroup.rs:45-63). -/
def bravaisToHolohedryNum : List (BravaisType × Nat) := [
  (.aP, 2),
  (.mP, 11),
  (.mC, 11),
  (.mI, 11),
  (.oP, 32),
  (.oC, 32),
  (.oI, 32),
  (.oF, 32),
  (.tP, 19),
  (.tI, 19),
  (.hR, 4),
  (.hP, 25),
  (.cP, 30),
  (.cI, 30),
  (.cF, 30)]

/-- `PG_NUM_TO_GENERATOR_MATRICES` (src/data/pointgroup.rs:66-101). -/
def pgNumToGeneratorMatrices : List (Nat × List Nat) := [
  (1, [16484]),
  (2, [16484, 3198]),
  (3, [16484, 7817, 3198]),
  (4, [16484, 7817, 12270, 3198]),
  (5, [16484, 11784]),
  (6, [16484, 3360, 11784]),
  (7, [16484, 10816, 11784, 12272]),
  (8, [16484, 16482, 7817]),
  (9, [16484, 16482, 7412, 7817]),
  (10, [16484, 3360]),
  (11, [16484, 3360, 3198]),
  (12, [16484, 3200, 3360]),
  (13, [16484, 3360, 10816]),
  (14, [16484, 7817]),
  (15, [16484, 7817, 12270]),
  (16, [16484, 7817, 7412]),
  (17, [16484, 7898]),
  (18, [16484, 7898, 3198]),
  (19, [16484, 3360, 7898, 3198]),
  (20, [16484, 3360, 7898]),
  (21, [16484, 10816, 7898]),
  (22, [16484, 7898, 16322]),
  (23, [16484, 3200, 7817]),
  (24, [16484, 3200, 3198, 7817]),
  (25, [16484, 3200, 12270, 7817, 3198]),
  (26, [16484, 3200, 12270, 7817]),
  (27, [16484, 3200, 7412, 7817]),
  (28, [16484, 16322]),
  (29, [16484, 3360, 10816, 3198]),
  (30, [16484, 10816, 7898, 3198, 12272]),
  (31, [16484, 3200, 16322]),
  (32, [16484, 3200, 3360, 3198])]

end CrystSymm
