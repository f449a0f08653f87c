import Verif.Spec.Generated

set_option autoImplicit false

/-! # Specification of the 32 crystallographic point groups

Hermann–Mauguin symbol, order, and the number of operations of each type (`International Tables`,
table 10.1.2.4). -/

namespace CrystSymm.Spec

/-- the type of a crystallographic operation: determinant and trace of its matrix. -/
def opType (m : Mat3 ℤ) : ℤ × ℤ := (m.det, m.m11 + m.m22 + m.m33)

/-- the ten types `1, 2, 3, 4, 6, -1, m, -3, -4, -6`. -/
def opTypes : List (ℤ × ℤ) :=
  [(1, 3), (1, -1), (1, 0), (1, 1), (1, 2), (-1, -3), (-1, 1), (-1, 0), (-1, -1), (-1, -2)]

/-- how often each of the ten types occurs. -/
def typeCounts (ops : List (Mat3 ℤ)) : List ℕ := opTypes.map fun t => (ops.map opType).count t

/-- symbol, order and type counts of the point groups. -/
def pointGroupTable : List (String × ℕ × List ℕ) := [
  ("1",     1,  [1, 0, 0, 0, 0, 0, 0, 0, 0, 0]),
  ("-1",    2,  [1, 0, 0, 0, 0, 1, 0, 0, 0, 0]),
  ("2",     2,  [1, 1, 0, 0, 0, 0, 0, 0, 0, 0]),
  ("m",     2,  [1, 0, 0, 0, 0, 0, 1, 0, 0, 0]),
  ("2/m",   4,  [1, 1, 0, 0, 0, 1, 1, 0, 0, 0]),
  ("222",   4,  [1, 3, 0, 0, 0, 0, 0, 0, 0, 0]),
  ("mm2",   4,  [1, 1, 0, 0, 0, 0, 2, 0, 0, 0]),
  ("mmm",   8,  [1, 3, 0, 0, 0, 1, 3, 0, 0, 0]),
  ("4",     4,  [1, 1, 0, 2, 0, 0, 0, 0, 0, 0]),
  ("-4",    4,  [1, 1, 0, 0, 0, 0, 0, 0, 2, 0]),
  ("4/m",   8,  [1, 1, 0, 2, 0, 1, 1, 0, 2, 0]),
  ("422",   8,  [1, 5, 0, 2, 0, 0, 0, 0, 0, 0]),
  ("4mm",   8,  [1, 1, 0, 2, 0, 0, 4, 0, 0, 0]),
  ("-42m",  8,  [1, 3, 0, 0, 0, 0, 2, 0, 2, 0]),
  ("4/mmm", 16, [1, 5, 0, 2, 0, 1, 5, 0, 2, 0]),
  ("3",     3,  [1, 0, 2, 0, 0, 0, 0, 0, 0, 0]),
  ("-3",    6,  [1, 0, 2, 0, 0, 1, 0, 2, 0, 0]),
  ("32",    6,  [1, 3, 2, 0, 0, 0, 0, 0, 0, 0]),
  ("3m",    6,  [1, 0, 2, 0, 0, 0, 3, 0, 0, 0]),
  ("-3m",   12, [1, 3, 2, 0, 0, 1, 3, 2, 0, 0]),
  ("6",     6,  [1, 1, 2, 0, 2, 0, 0, 0, 0, 0]),
  ("-6",    6,  [1, 0, 2, 0, 0, 0, 1, 0, 0, 2]),
  ("6/m",   12, [1, 1, 2, 0, 2, 1, 1, 2, 0, 2]),
  ("622",   12, [1, 7, 2, 0, 2, 0, 0, 0, 0, 0]),
  ("6mm",   12, [1, 1, 2, 0, 2, 0, 6, 0, 0, 0]),
  ("-6m2",  12, [1, 3, 2, 0, 0, 0, 4, 0, 0, 2]),
  ("6/mmm", 24, [1, 7, 2, 0, 2, 1, 7, 2, 0, 2]),
  ("23",    12, [1, 3, 8, 0, 0, 0, 0, 0, 0, 0]),
  ("m-3",   24, [1, 3, 8, 0, 0, 1, 3, 8, 0, 0]),
  ("432",   24, [1, 9, 8, 6, 0, 0, 0, 0, 0, 0]),
  ("-43m",  24, [1, 3, 8, 0, 0, 0, 6, 0, 6, 0]),
  ("m-3m",  48, [1, 9, 8, 6, 0, 1, 9, 8, 6, 0])]

/-- entries `-1`, `0`, `1`. -/
def SmallEntries (m : Mat3 ℤ) : Prop := ∀ e ∈ m.toListCM, -1 ≤ e ∧ e ≤ 1

instance (m : Mat3 ℤ) : Decidable (SmallEntries m) := by unfold SmallEntries; infer_instance

end CrystSymm.Spec
