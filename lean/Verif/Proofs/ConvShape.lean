import Verif.Proofs.Niggli
import Verif.Proofs.ChangeBasis
import Verif.Model.Analyzer

/-! # Shape of the conventional cell for each lattice character

GENERATED (one lemma per character, from the conditions that select it). -/

set_option autoImplicit false
set_option linter.unusedSectionVars false

namespace CrystSymm

open Spec SymmetryAnalyzer

theorem ti_m2 : Int8.toInt (-2) = -2 := rfl
theorem ti_m1 : Int8.toInt (-1) = -1 := rfl
theorem ti_0 : Int8.toInt 0 = 0 := rfl
theorem ti_1 : Int8.toInt 1 = 1 := rfl
theorem ti_2 : Int8.toInt 2 = 2 := rfl
theorem ti_3 : Int8.toInt 3 = 3 := rfl

/-- the scalar product of two vectors given by integer combinations of cell vectors with the products
`A, B, C, D, E, F`. -/
def bil {K : Type} [Add K] [Mul K] (u v : Vec3 K) (A B C D E F : K) : K :=
  u.x * v.x * A + u.y * v.y * B + u.z * v.z * C + (u.y * v.z + u.z * v.y) * D + (u.x * v.z + u.z * v.x) * E +
    (u.x * v.y + u.y * v.x) * F

section
variable {K : Type} [Field K] [LinearOrder K] [IsStrictOrderedRing K]

/-- the conventional cell of character `ch`, computed with the tabulated matrix, has the tabulated shape. -/
def ConvShape (ch : ℕ) (δ A B C D E F : K) : Prop :=
  ∃ m b, amapGet? latticeCharToConvTrans ch = some m ∧ amapGet? latticeCharToBravais ch = some b ∧
    ShapeWithin b δ
      (bil (castRot m).transpose.col0 (castRot m).transpose.col0 A B C D E F)
      (bil (castRot m).transpose.col1 (castRot m).transpose.col1 A B C D E F)
      (bil (castRot m).transpose.col2 (castRot m).transpose.col2 A B C D E F)
      (bil (castRot m).transpose.col1 (castRot m).transpose.col2 A B C D E F)
      (bil (castRot m).transpose.col0 (castRot m).transpose.col2 A B C D E F)
      (bil (castRot m).transpose.col0 (castRot m).transpose.col1 A B C D E F)

theorem shape_1 {ε A B C D E F : K} (h : 0 ≤ ε)
    (h0 : |(1) * A + (-1) * B| ≤ ε)
    (h1 : |(1) * A + (-1) * C| ≤ ε)
    (h2 : |(1 / 2 : K) * A + (-1) * D| ≤ ε)
    (h3 : |(1 / 2 : K) * A + (-1) * E| ≤ ε)
    (h4 : |(1 / 2 : K) * A + (-1) * F| ≤ ε) :
    ConvShape 1 (100 * ε) A B C D E F := by
  refine ⟨_, _, rfl, rfl, ?_⟩
  rw [abs_le] at h0 h1 h2 h3 h4
  simp only [ShapeWithin, bil, castRot, Mat3.map, Mat3.transpose, Mat3.col0, Mat3.col1, Mat3.col2, ti_m2, ti_m1, ti_0,
    ti_1, ti_2, ti_3]
  push_cast
  refine ⟨?_, ?_, ?_, ?_, ?_⟩ <;> rw [abs_le] <;> constructor <;> linarith

theorem shape_2 {ε A B C D E F : K} (h : 0 ≤ ε)
    (h0 : |(1) * A + (-1) * B| ≤ ε)
    (h1 : |(1) * A + (-1) * C| ≤ ε)
    (h2 : |(1) * D + (-1) * E| ≤ ε)
    (h3 : |(1) * D + (-1) * F| ≤ ε) :
    ConvShape 2 (100 * ε) A B C D E F := by
  refine ⟨_, _, rfl, rfl, ?_⟩
  rw [abs_le] at h0 h1 h2 h3
  simp only [ShapeWithin, bil, castRot, Mat3.map, Mat3.transpose, Mat3.col0, Mat3.col1, Mat3.col2, ti_m2, ti_m1, ti_0,
    ti_1, ti_2, ti_3]
  push_cast
  refine ⟨?_, ?_, ?_, ?_⟩ <;> rw [abs_le] <;> constructor <;> linarith

theorem shape_3 {ε A B C D E F : K} (h : 0 ≤ ε)
    (h0 : |(1) * A + (-1) * B| ≤ ε)
    (h1 : |(1) * A + (-1) * C| ≤ ε)
    (h2 : |(-1) * D| ≤ ε)
    (h3 : |(-1) * E| ≤ ε)
    (h4 : |(-1) * F| ≤ ε) :
    ConvShape 3 (100 * ε) A B C D E F := by
  refine ⟨_, _, rfl, rfl, ?_⟩
  rw [abs_le] at h0 h1 h2 h3 h4
  simp only [ShapeWithin, bil, castRot, Mat3.map, Mat3.transpose, Mat3.col0, Mat3.col1, Mat3.col2, ti_m2, ti_m1, ti_0,
    ti_1, ti_2, ti_3]
  push_cast
  refine ⟨?_, ?_, ?_, ?_, ?_⟩ <;> rw [abs_le] <;> constructor <;> linarith

theorem shape_4 {ε A B C D E F : K} (h : 0 ≤ ε)
    (h0 : |(1) * A + (-1) * B| ≤ ε)
    (h1 : |(1) * A + (-1) * C| ≤ ε)
    (h2 : |(1) * D + (-1) * E| ≤ ε)
    (h3 : |(1) * D + (-1) * F| ≤ ε) :
    ConvShape 4 (100 * ε) A B C D E F := by
  refine ⟨_, _, rfl, rfl, ?_⟩
  rw [abs_le] at h0 h1 h2 h3
  simp only [ShapeWithin, bil, castRot, Mat3.map, Mat3.transpose, Mat3.col0, Mat3.col1, Mat3.col2, ti_m2, ti_m1, ti_0,
    ti_1, ti_2, ti_3]
  push_cast
  refine ⟨?_, ?_, ?_, ?_⟩ <;> rw [abs_le] <;> constructor <;> linarith

theorem shape_5 {ε A B C D E F : K} (h : 0 ≤ ε)
    (h0 : |(1) * A + (-1) * B| ≤ ε)
    (h1 : |(1) * A + (-1) * C| ≤ ε)
    (h2 : |(-1 / 3 : K) * A + (-1) * D| ≤ ε)
    (h3 : |(-1 / 3 : K) * A + (-1) * E| ≤ ε)
    (h4 : |(-1 / 3 : K) * A + (-1) * F| ≤ ε) :
    ConvShape 5 (100 * ε) A B C D E F := by
  refine ⟨_, _, rfl, rfl, ?_⟩
  rw [abs_le] at h0 h1 h2 h3 h4
  simp only [ShapeWithin, bil, castRot, Mat3.map, Mat3.transpose, Mat3.col0, Mat3.col1, Mat3.col2, ti_m2, ti_m1, ti_0,
    ti_1, ti_2, ti_3]
  push_cast
  refine ⟨?_, ?_, ?_, ?_, ?_⟩ <;> rw [abs_le] <;> constructor <;> linarith

theorem shape_6 {ε A B C D E F : K} (h : 0 ≤ ε)
    (h0 : |(1) * A + (-1) * B| ≤ ε)
    (h1 : |(1) * A + (-1) * C| ≤ ε)
    (h2 : |(1) * A + (1) * B + (2) * D + (2) * E + (2) * F| ≤ 13 * ε)
    (h3 : |(1) * D + (-1) * E| ≤ ε) :
    ConvShape 6 (100 * ε) A B C D E F := by
  refine ⟨_, _, rfl, rfl, ?_⟩
  rw [abs_le] at h0 h1 h2 h3
  simp only [ShapeWithin, bil, castRot, Mat3.map, Mat3.transpose, Mat3.col0, Mat3.col1, Mat3.col2, ti_m2, ti_m1, ti_0,
    ti_1, ti_2, ti_3]
  push_cast
  refine ⟨?_, ?_, ?_, ?_⟩ <;> rw [abs_le] <;> constructor <;> linarith

theorem shape_7 {ε A B C D E F : K} (h : 0 ≤ ε)
    (h0 : |(1) * A + (-1) * B| ≤ ε)
    (h1 : |(1) * A + (-1) * C| ≤ ε)
    (h2 : |(1) * A + (1) * B + (2) * D + (2) * E + (2) * F| ≤ 13 * ε)
    (h3 : |(1) * E + (-1) * F| ≤ ε) :
    ConvShape 7 (100 * ε) A B C D E F := by
  refine ⟨_, _, rfl, rfl, ?_⟩
  rw [abs_le] at h0 h1 h2 h3
  simp only [ShapeWithin, bil, castRot, Mat3.map, Mat3.transpose, Mat3.col0, Mat3.col1, Mat3.col2, ti_m2, ti_m1, ti_0,
    ti_1, ti_2, ti_3]
  push_cast
  refine ⟨?_, ?_, ?_, ?_⟩ <;> rw [abs_le] <;> constructor <;> linarith

theorem shape_8 {ε A B C D E F : K} (h : 0 ≤ ε)
    (h0 : |(1) * A + (-1) * B| ≤ ε)
    (h1 : |(1) * A + (-1) * C| ≤ ε)
    (h2 : |(1) * A + (1) * B + (2) * D + (2) * E + (2) * F| ≤ 13 * ε) :
    ConvShape 8 (100 * ε) A B C D E F := by
  refine ⟨_, _, rfl, rfl, ?_⟩
  rw [abs_le] at h0 h1 h2
  simp only [ShapeWithin, bil, castRot, Mat3.map, Mat3.transpose, Mat3.col0, Mat3.col1, Mat3.col2, ti_m2, ti_m1, ti_0,
    ti_1, ti_2, ti_3]
  push_cast
  refine ⟨?_, ?_, ?_⟩ <;> rw [abs_le] <;> constructor <;> linarith

theorem shape_9 {ε A B C D E F : K} (h : 0 ≤ ε)
    (h0 : |(1) * A + (-1) * B| ≤ ε)
    (h1 : |(1 / 2 : K) * A + (-1) * D| ≤ ε)
    (h2 : |(1 / 2 : K) * A + (-1) * E| ≤ ε)
    (h3 : |(1 / 2 : K) * A + (-1) * F| ≤ ε) :
    ConvShape 9 (100 * ε) A B C D E F := by
  refine ⟨_, _, rfl, rfl, ?_⟩
  rw [abs_le] at h0 h1 h2 h3
  simp only [ShapeWithin, bil, castRot, Mat3.map, Mat3.transpose, Mat3.col0, Mat3.col1, Mat3.col2, ti_m2, ti_m1, ti_0,
    ti_1, ti_2, ti_3]
  push_cast
  refine ⟨?_, ?_, ?_, ?_⟩ <;> rw [abs_le] <;> constructor <;> linarith

theorem shape_10 {ε A B C D E F : K} (h : 0 ≤ ε)
    (h0 : |(1) * A + (-1) * B| ≤ ε)
    (h1 : |(1) * D + (-1) * E| ≤ ε) :
    ConvShape 10 (100 * ε) A B C D E F := by
  refine ⟨_, _, rfl, rfl, ?_⟩
  rw [abs_le] at h0 h1
  simp only [ShapeWithin, bil, castRot, Mat3.map, Mat3.transpose, Mat3.col0, Mat3.col1, Mat3.col2, ti_m2, ti_m1, ti_0,
    ti_1, ti_2, ti_3]
  push_cast
  refine ⟨?_, ?_⟩ <;> rw [abs_le] <;> constructor <;> linarith

theorem shape_11 {ε A B C D E F : K} (h : 0 ≤ ε)
    (h0 : |(1) * A + (-1) * B| ≤ ε)
    (h1 : |(-1) * D| ≤ ε)
    (h2 : |(-1) * E| ≤ ε)
    (h3 : |(-1) * F| ≤ ε) :
    ConvShape 11 (100 * ε) A B C D E F := by
  refine ⟨_, _, rfl, rfl, ?_⟩
  rw [abs_le] at h0 h1 h2 h3
  simp only [ShapeWithin, bil, castRot, Mat3.map, Mat3.transpose, Mat3.col0, Mat3.col1, Mat3.col2, ti_m2, ti_m1, ti_0,
    ti_1, ti_2, ti_3]
  push_cast
  refine ⟨?_, ?_, ?_, ?_⟩ <;> rw [abs_le] <;> constructor <;> linarith

theorem shape_12 {ε A B C D E F : K} (h : 0 ≤ ε)
    (h0 : |(1) * A + (-1) * B| ≤ ε)
    (h1 : |(-1) * D| ≤ ε)
    (h2 : |(-1) * E| ≤ ε)
    (h3 : |(-1 / 2 : K) * A + (-1) * F| ≤ ε) :
    ConvShape 12 (100 * ε) A B C D E F := by
  refine ⟨_, _, rfl, rfl, ?_⟩
  rw [abs_le] at h0 h1 h2 h3
  simp only [ShapeWithin, bil, castRot, Mat3.map, Mat3.transpose, Mat3.col0, Mat3.col1, Mat3.col2, ti_m2, ti_m1, ti_0,
    ti_1, ti_2, ti_3]
  push_cast
  refine ⟨?_, ?_, ?_, ?_⟩ <;> rw [abs_le] <;> constructor <;> linarith

theorem shape_13 {ε A B C D E F : K} (h : 0 ≤ ε)
    (h0 : |(1) * A + (-1) * B| ≤ ε)
    (h1 : |(-1) * D| ≤ ε)
    (h2 : |(-1) * E| ≤ ε) :
    ConvShape 13 (100 * ε) A B C D E F := by
  refine ⟨_, _, rfl, rfl, ?_⟩
  rw [abs_le] at h0 h1 h2
  simp only [ShapeWithin, bil, castRot, Mat3.map, Mat3.transpose, Mat3.col0, Mat3.col1, Mat3.col2, ti_m2, ti_m1, ti_0,
    ti_1, ti_2, ti_3]
  push_cast
  refine ⟨?_, ?_, ?_⟩ <;> rw [abs_le] <;> constructor <;> linarith

theorem shape_14 {ε A B C D E F : K} (h : 0 ≤ ε)
    (h0 : |(1) * A + (-1) * B| ≤ ε)
    (h1 : |(1) * D + (-1) * E| ≤ ε) :
    ConvShape 14 (100 * ε) A B C D E F := by
  refine ⟨_, _, rfl, rfl, ?_⟩
  rw [abs_le] at h0 h1
  simp only [ShapeWithin, bil, castRot, Mat3.map, Mat3.transpose, Mat3.col0, Mat3.col1, Mat3.col2, ti_m2, ti_m1, ti_0,
    ti_1, ti_2, ti_3]
  push_cast
  refine ⟨?_, ?_⟩ <;> rw [abs_le] <;> constructor <;> linarith

theorem shape_15 {ε A B C D E F : K} (h : 0 ≤ ε)
    (h0 : |(1) * A + (-1) * B| ≤ ε)
    (h1 : |(-1 / 2 : K) * A + (-1) * D| ≤ ε)
    (h2 : |(-1 / 2 : K) * A + (-1) * E| ≤ ε)
    (h3 : |(-1) * F| ≤ ε) :
    ConvShape 15 (100 * ε) A B C D E F := by
  refine ⟨_, _, rfl, rfl, ?_⟩
  rw [abs_le] at h0 h1 h2 h3
  simp only [ShapeWithin, bil, castRot, Mat3.map, Mat3.transpose, Mat3.col0, Mat3.col1, Mat3.col2, ti_m2, ti_m1, ti_0,
    ti_1, ti_2, ti_3]
  push_cast
  refine ⟨?_, ?_, ?_, ?_⟩ <;> rw [abs_le] <;> constructor <;> linarith

theorem shape_16 {ε A B C D E F : K} (h : 0 ≤ ε)
    (h0 : |(1) * A + (-1) * B| ≤ ε)
    (h1 : |(1) * D + (-1) * E| ≤ ε)
    (h2 : |(1) * A + (1) * B + (2) * D + (2) * E + (2) * F| ≤ 13 * ε) :
    ConvShape 16 (100 * ε) A B C D E F := by
  refine ⟨_, _, rfl, rfl, ?_⟩
  rw [abs_le] at h0 h1 h2
  simp only [ShapeWithin, bil, castRot, Mat3.map, Mat3.transpose, Mat3.col0, Mat3.col1, Mat3.col2, ti_m2, ti_m1, ti_0,
    ti_1, ti_2, ti_3]
  push_cast
  refine ⟨?_, ?_, ?_⟩ <;> rw [abs_le] <;> constructor <;> linarith

theorem shape_17 {ε A B C D E F : K} (h : 0 ≤ ε)
    (h0 : |(1) * A + (-1) * B| ≤ ε)
    (h1 : |(1) * A + (1) * B + (2) * D + (2) * E + (2) * F| ≤ 13 * ε) :
    ConvShape 17 (100 * ε) A B C D E F := by
  refine ⟨_, _, rfl, rfl, ?_⟩
  rw [abs_le] at h0 h1
  simp only [ShapeWithin, bil, castRot, Mat3.map, Mat3.transpose, Mat3.col0, Mat3.col1, Mat3.col2, ti_m2, ti_m1, ti_0,
    ti_1, ti_2, ti_3]
  push_cast
  refine ⟨?_, ?_⟩ <;> rw [abs_le] <;> constructor <;> linarith

theorem shape_18 {ε A B C D E F : K} (h : 0 ≤ ε)
    (h0 : |(1) * B + (-1) * C| ≤ ε)
    (h1 : |(1 / 4 : K) * A + (-1) * D| ≤ ε)
    (h2 : |(1 / 2 : K) * A + (-1) * E| ≤ ε)
    (h3 : |(1 / 2 : K) * A + (-1) * F| ≤ ε) :
    ConvShape 18 (100 * ε) A B C D E F := by
  refine ⟨_, _, rfl, rfl, ?_⟩
  rw [abs_le] at h0 h1 h2 h3
  simp only [ShapeWithin, bil, castRot, Mat3.map, Mat3.transpose, Mat3.col0, Mat3.col1, Mat3.col2, ti_m2, ti_m1, ti_0,
    ti_1, ti_2, ti_3]
  push_cast
  refine ⟨?_, ?_, ?_, ?_⟩ <;> rw [abs_le] <;> constructor <;> linarith

theorem shape_19 {ε A B C D E F : K} (h : 0 ≤ ε)
    (h0 : |(1) * B + (-1) * C| ≤ ε)
    (h1 : |(1 / 2 : K) * A + (-1) * E| ≤ ε)
    (h2 : |(1 / 2 : K) * A + (-1) * F| ≤ ε) :
    ConvShape 19 (100 * ε) A B C D E F := by
  refine ⟨_, _, rfl, rfl, ?_⟩
  rw [abs_le] at h0 h1 h2
  simp only [ShapeWithin, bil, castRot, Mat3.map, Mat3.transpose, Mat3.col0, Mat3.col1, Mat3.col2, ti_m2, ti_m1, ti_0,
    ti_1, ti_2, ti_3]
  push_cast
  refine ⟨?_, ?_, ?_⟩ <;> rw [abs_le] <;> constructor <;> linarith

theorem shape_20 {ε A B C D E F : K} (h : 0 ≤ ε)
    (h0 : |(1) * B + (-1) * C| ≤ ε)
    (h1 : |(1) * E + (-1) * F| ≤ ε) :
    ConvShape 20 (100 * ε) A B C D E F := by
  refine ⟨_, _, rfl, rfl, ?_⟩
  rw [abs_le] at h0 h1
  simp only [ShapeWithin, bil, castRot, Mat3.map, Mat3.transpose, Mat3.col0, Mat3.col1, Mat3.col2, ti_m2, ti_m1, ti_0,
    ti_1, ti_2, ti_3]
  push_cast
  refine ⟨?_, ?_⟩ <;> rw [abs_le] <;> constructor <;> linarith

theorem shape_21 {ε A B C D E F : K} (h : 0 ≤ ε)
    (h0 : |(1) * B + (-1) * C| ≤ ε)
    (h1 : |(-1) * D| ≤ ε)
    (h2 : |(-1) * E| ≤ ε)
    (h3 : |(-1) * F| ≤ ε) :
    ConvShape 21 (100 * ε) A B C D E F := by
  refine ⟨_, _, rfl, rfl, ?_⟩
  rw [abs_le] at h0 h1 h2 h3
  simp only [ShapeWithin, bil, castRot, Mat3.map, Mat3.transpose, Mat3.col0, Mat3.col1, Mat3.col2, ti_m2, ti_m1, ti_0,
    ti_1, ti_2, ti_3]
  push_cast
  refine ⟨?_, ?_, ?_, ?_⟩ <;> rw [abs_le] <;> constructor <;> linarith

theorem shape_22 {ε A B C D E F : K} (h : 0 ≤ ε)
    (h0 : |(1) * B + (-1) * C| ≤ ε)
    (h1 : |(-1 / 2 : K) * B + (-1) * D| ≤ ε)
    (h2 : |(-1) * E| ≤ ε)
    (h3 : |(-1) * F| ≤ ε) :
    ConvShape 22 (100 * ε) A B C D E F := by
  refine ⟨_, _, rfl, rfl, ?_⟩
  rw [abs_le] at h0 h1 h2 h3
  simp only [ShapeWithin, bil, castRot, Mat3.map, Mat3.transpose, Mat3.col0, Mat3.col1, Mat3.col2, ti_m2, ti_m1, ti_0,
    ti_1, ti_2, ti_3]
  push_cast
  refine ⟨?_, ?_, ?_, ?_⟩ <;> rw [abs_le] <;> constructor <;> linarith

theorem shape_23 {ε A B C D E F : K} (h : 0 ≤ ε)
    (h0 : |(1) * B + (-1) * C| ≤ ε)
    (h1 : |(-1) * E| ≤ ε)
    (h2 : |(-1) * F| ≤ ε) :
    ConvShape 23 (100 * ε) A B C D E F := by
  refine ⟨_, _, rfl, rfl, ?_⟩
  rw [abs_le] at h0 h1 h2
  simp only [ShapeWithin, bil, castRot, Mat3.map, Mat3.transpose, Mat3.col0, Mat3.col1, Mat3.col2, ti_m2, ti_m1, ti_0,
    ti_1, ti_2, ti_3]
  push_cast
  refine ⟨?_, ?_, ?_⟩ <;> rw [abs_le] <;> constructor <;> linarith

theorem shape_24 {ε A B C D E F : K} (h : 0 ≤ ε)
    (h0 : |(1) * B + (-1) * C| ≤ ε)
    (h1 : |(1) * A + (1) * B + (2) * D + (2) * E + (2) * F| ≤ 13 * ε)
    (h2 : |(-1 / 3 : K) * A + (-1) * E| ≤ ε)
    (h3 : |(-1 / 3 : K) * A + (-1) * F| ≤ ε) :
    ConvShape 24 (100 * ε) A B C D E F := by
  refine ⟨_, _, rfl, rfl, ?_⟩
  rw [abs_le] at h0 h1 h2 h3
  simp only [ShapeWithin, bil, castRot, Mat3.map, Mat3.transpose, Mat3.col0, Mat3.col1, Mat3.col2, ti_m2, ti_m1, ti_0,
    ti_1, ti_2, ti_3]
  push_cast
  refine ⟨?_, ?_, ?_, ?_⟩ <;> rw [abs_le] <;> constructor <;> linarith

theorem shape_25 {ε A B C D E F : K} (h : 0 ≤ ε)
    (h0 : |(1) * B + (-1) * C| ≤ ε)
    (h1 : |(1) * E + (-1) * F| ≤ ε) :
    ConvShape 25 (100 * ε) A B C D E F := by
  refine ⟨_, _, rfl, rfl, ?_⟩
  rw [abs_le] at h0 h1
  simp only [ShapeWithin, bil, castRot, Mat3.map, Mat3.transpose, Mat3.col0, Mat3.col1, Mat3.col2, ti_m2, ti_m1, ti_0,
    ti_1, ti_2, ti_3]
  push_cast
  refine ⟨?_, ?_⟩ <;> rw [abs_le] <;> constructor <;> linarith

theorem shape_26 {ε A B C D E F : K} (h : 0 ≤ ε)
    (h0 : |(1 / 4 : K) * A + (-1) * D| ≤ ε)
    (h1 : |(1 / 2 : K) * A + (-1) * E| ≤ ε)
    (h2 : |(1 / 2 : K) * A + (-1) * F| ≤ ε) :
    ConvShape 26 (100 * ε) A B C D E F := by
  refine ⟨_, _, rfl, rfl, ?_⟩
  rw [abs_le] at h0 h1 h2
  simp only [ShapeWithin, bil, castRot, Mat3.map, Mat3.transpose, Mat3.col0, Mat3.col1, Mat3.col2, ti_m2, ti_m1, ti_0,
    ti_1, ti_2, ti_3]
  push_cast
  refine ⟨?_, ?_, ?_⟩ <;> rw [abs_le] <;> constructor <;> linarith

theorem shape_27 {ε A B C D E F : K} (h : 0 ≤ ε)
    (h0 : |(1 / 2 : K) * A + (-1) * E| ≤ ε)
    (h1 : |(1 / 2 : K) * A + (-1) * F| ≤ ε) :
    ConvShape 27 (100 * ε) A B C D E F := by
  refine ⟨_, _, rfl, rfl, ?_⟩
  rw [abs_le] at h0 h1
  simp only [ShapeWithin, bil, castRot, Mat3.map, Mat3.transpose, Mat3.col0, Mat3.col1, Mat3.col2, ti_m2, ti_m1, ti_0,
    ti_1, ti_2, ti_3]
  push_cast
  refine ⟨?_, ?_⟩ <;> rw [abs_le] <;> constructor <;> linarith

theorem shape_28 {ε A B C D E F : K} (h : 0 ≤ ε)
    (h0 : |(1 / 2 : K) * A + (-1) * E| ≤ ε)
    (h1 : |(2) * D + (-1) * F| ≤ ε) :
    ConvShape 28 (100 * ε) A B C D E F := by
  refine ⟨_, _, rfl, rfl, ?_⟩
  rw [abs_le] at h0 h1
  simp only [ShapeWithin, bil, castRot, Mat3.map, Mat3.transpose, Mat3.col0, Mat3.col1, Mat3.col2, ti_m2, ti_m1, ti_0,
    ti_1, ti_2, ti_3]
  push_cast
  refine ⟨?_, ?_⟩ <;> rw [abs_le] <;> constructor <;> linarith

theorem shape_29 {ε A B C D E F : K} (h : 0 ≤ ε)
    (h0 : |(2) * D + (-1) * E| ≤ ε)
    (h1 : |(1 / 2 : K) * A + (-1) * F| ≤ ε) :
    ConvShape 29 (100 * ε) A B C D E F := by
  refine ⟨_, _, rfl, rfl, ?_⟩
  rw [abs_le] at h0 h1
  simp only [ShapeWithin, bil, castRot, Mat3.map, Mat3.transpose, Mat3.col0, Mat3.col1, Mat3.col2, ti_m2, ti_m1, ti_0,
    ti_1, ti_2, ti_3]
  push_cast
  refine ⟨?_, ?_⟩ <;> rw [abs_le] <;> constructor <;> linarith

theorem shape_30 {ε A B C D E F : K} (h : 0 ≤ ε)
    (h0 : |(1 / 2 : K) * B + (-1) * D| ≤ ε)
    (h1 : |(2) * E + (-1) * F| ≤ ε) :
    ConvShape 30 (100 * ε) A B C D E F := by
  refine ⟨_, _, rfl, rfl, ?_⟩
  rw [abs_le] at h0 h1
  simp only [ShapeWithin, bil, castRot, Mat3.map, Mat3.transpose, Mat3.col0, Mat3.col1, Mat3.col2, ti_m2, ti_m1, ti_0,
    ti_1, ti_2, ti_3]
  push_cast
  refine ⟨?_, ?_⟩ <;> rw [abs_le] <;> constructor <;> linarith

theorem shape_31 {ε A B C D E F : K} (h : 0 ≤ ε) :
    ConvShape 31 (100 * ε) A B C D E F := by
  refine ⟨_, _, rfl, rfl, ?_⟩
  trivial

theorem shape_32 {ε A B C D E F : K} (h : 0 ≤ ε)
    (h0 : |(-1) * D| ≤ ε)
    (h1 : |(-1) * E| ≤ ε)
    (h2 : |(-1) * F| ≤ ε) :
    ConvShape 32 (100 * ε) A B C D E F := by
  refine ⟨_, _, rfl, rfl, ?_⟩
  rw [abs_le] at h0 h1 h2
  simp only [ShapeWithin, bil, castRot, Mat3.map, Mat3.transpose, Mat3.col0, Mat3.col1, Mat3.col2, ti_m2, ti_m1, ti_0,
    ti_1, ti_2, ti_3]
  push_cast
  refine ⟨?_, ?_, ?_⟩ <;> rw [abs_le] <;> constructor <;> linarith

theorem shape_33 {ε A B C D E F : K} (h : 0 ≤ ε)
    (h0 : |(-1) * D| ≤ ε)
    (h1 : |(-1) * F| ≤ ε) :
    ConvShape 33 (100 * ε) A B C D E F := by
  refine ⟨_, _, rfl, rfl, ?_⟩
  rw [abs_le] at h0 h1
  simp only [ShapeWithin, bil, castRot, Mat3.map, Mat3.transpose, Mat3.col0, Mat3.col1, Mat3.col2, ti_m2, ti_m1, ti_0,
    ti_1, ti_2, ti_3]
  push_cast
  refine ⟨?_, ?_⟩ <;> rw [abs_le] <;> constructor <;> linarith

theorem shape_34 {ε A B C D E F : K} (h : 0 ≤ ε)
    (h0 : |(-1) * D| ≤ ε)
    (h1 : |(-1) * E| ≤ ε) :
    ConvShape 34 (100 * ε) A B C D E F := by
  refine ⟨_, _, rfl, rfl, ?_⟩
  rw [abs_le] at h0 h1
  simp only [ShapeWithin, bil, castRot, Mat3.map, Mat3.transpose, Mat3.col0, Mat3.col1, Mat3.col2, ti_m2, ti_m1, ti_0,
    ti_1, ti_2, ti_3]
  push_cast
  refine ⟨?_, ?_⟩ <;> rw [abs_le] <;> constructor <;> linarith

theorem shape_35 {ε A B C D E F : K} (h : 0 ≤ ε)
    (h0 : |(-1) * E| ≤ ε)
    (h1 : |(-1) * F| ≤ ε) :
    ConvShape 35 (100 * ε) A B C D E F := by
  refine ⟨_, _, rfl, rfl, ?_⟩
  rw [abs_le] at h0 h1
  simp only [ShapeWithin, bil, castRot, Mat3.map, Mat3.transpose, Mat3.col0, Mat3.col1, Mat3.col2, ti_m2, ti_m1, ti_0,
    ti_1, ti_2, ti_3]
  push_cast
  refine ⟨?_, ?_⟩ <;> rw [abs_le] <;> constructor <;> linarith

theorem shape_36 {ε A B C D E F : K} (h : 0 ≤ ε)
    (h0 : |(-1) * D| ≤ ε)
    (h1 : |(-1 / 2 : K) * A + (-1) * E| ≤ ε)
    (h2 : |(-1) * F| ≤ ε) :
    ConvShape 36 (100 * ε) A B C D E F := by
  refine ⟨_, _, rfl, rfl, ?_⟩
  rw [abs_le] at h0 h1 h2
  simp only [ShapeWithin, bil, castRot, Mat3.map, Mat3.transpose, Mat3.col0, Mat3.col1, Mat3.col2, ti_m2, ti_m1, ti_0,
    ti_1, ti_2, ti_3]
  push_cast
  refine ⟨?_, ?_, ?_⟩ <;> rw [abs_le] <;> constructor <;> linarith

theorem shape_37 {ε A B C D E F : K} (h : 0 ≤ ε)
    (h0 : |(-1 / 2 : K) * A + (-1) * E| ≤ ε)
    (h1 : |(-1) * F| ≤ ε) :
    ConvShape 37 (100 * ε) A B C D E F := by
  refine ⟨_, _, rfl, rfl, ?_⟩
  rw [abs_le] at h0 h1
  simp only [ShapeWithin, bil, castRot, Mat3.map, Mat3.transpose, Mat3.col0, Mat3.col1, Mat3.col2, ti_m2, ti_m1, ti_0,
    ti_1, ti_2, ti_3]
  push_cast
  refine ⟨?_, ?_⟩ <;> rw [abs_le] <;> constructor <;> linarith

theorem shape_38 {ε A B C D E F : K} (h : 0 ≤ ε)
    (h0 : |(-1) * D| ≤ ε)
    (h1 : |(-1) * E| ≤ ε)
    (h2 : |(-1 / 2 : K) * A + (-1) * F| ≤ ε) :
    ConvShape 38 (100 * ε) A B C D E F := by
  refine ⟨_, _, rfl, rfl, ?_⟩
  rw [abs_le] at h0 h1 h2
  simp only [ShapeWithin, bil, castRot, Mat3.map, Mat3.transpose, Mat3.col0, Mat3.col1, Mat3.col2, ti_m2, ti_m1, ti_0,
    ti_1, ti_2, ti_3]
  push_cast
  refine ⟨?_, ?_, ?_⟩ <;> rw [abs_le] <;> constructor <;> linarith

theorem shape_39 {ε A B C D E F : K} (h : 0 ≤ ε)
    (h0 : |(-1) * E| ≤ ε)
    (h1 : |(-1 / 2 : K) * A + (-1) * F| ≤ ε) :
    ConvShape 39 (100 * ε) A B C D E F := by
  refine ⟨_, _, rfl, rfl, ?_⟩
  rw [abs_le] at h0 h1
  simp only [ShapeWithin, bil, castRot, Mat3.map, Mat3.transpose, Mat3.col0, Mat3.col1, Mat3.col2, ti_m2, ti_m1, ti_0,
    ti_1, ti_2, ti_3]
  push_cast
  refine ⟨?_, ?_⟩ <;> rw [abs_le] <;> constructor <;> linarith

theorem shape_40 {ε A B C D E F : K} (h : 0 ≤ ε)
    (h0 : |(-1 / 2 : K) * B + (-1) * D| ≤ ε)
    (h1 : |(-1) * E| ≤ ε)
    (h2 : |(-1) * F| ≤ ε) :
    ConvShape 40 (100 * ε) A B C D E F := by
  refine ⟨_, _, rfl, rfl, ?_⟩
  rw [abs_le] at h0 h1 h2
  simp only [ShapeWithin, bil, castRot, Mat3.map, Mat3.transpose, Mat3.col0, Mat3.col1, Mat3.col2, ti_m2, ti_m1, ti_0,
    ti_1, ti_2, ti_3]
  push_cast
  refine ⟨?_, ?_, ?_⟩ <;> rw [abs_le] <;> constructor <;> linarith

theorem shape_41 {ε A B C D E F : K} (h : 0 ≤ ε)
    (h0 : |(-1 / 2 : K) * B + (-1) * D| ≤ ε)
    (h1 : |(-1) * F| ≤ ε) :
    ConvShape 41 (100 * ε) A B C D E F := by
  refine ⟨_, _, rfl, rfl, ?_⟩
  rw [abs_le] at h0 h1
  simp only [ShapeWithin, bil, castRot, Mat3.map, Mat3.transpose, Mat3.col0, Mat3.col1, Mat3.col2, ti_m2, ti_m1, ti_0,
    ti_1, ti_2, ti_3]
  push_cast
  refine ⟨?_, ?_⟩ <;> rw [abs_le] <;> constructor <;> linarith

theorem shape_42 {ε A B C D E F : K} (h : 0 ≤ ε)
    (h0 : |(-1 / 2 : K) * B + (-1) * D| ≤ ε)
    (h1 : |(-1 / 2 : K) * A + (-1) * E| ≤ ε)
    (h2 : |(-1) * F| ≤ ε) :
    ConvShape 42 (100 * ε) A B C D E F := by
  refine ⟨_, _, rfl, rfl, ?_⟩
  rw [abs_le] at h0 h1 h2
  simp only [ShapeWithin, bil, castRot, Mat3.map, Mat3.transpose, Mat3.col0, Mat3.col1, Mat3.col2, ti_m2, ti_m1, ti_0,
    ti_1, ti_2, ti_3]
  push_cast
  refine ⟨?_, ?_, ?_⟩ <;> rw [abs_le] <;> constructor <;> linarith

theorem shape_43 {ε A B C D E F : K} (h : 0 ≤ ε)
    (h0 : |(1) * A + (1) * B + (2) * D + (2) * E + (2) * F| ≤ 13 * ε)
    (h1 : |(1) * B + (2) * D + (1) * F| ≤ 13 * ε) :
    ConvShape 43 (100 * ε) A B C D E F := by
  refine ⟨_, _, rfl, rfl, ?_⟩
  rw [abs_le] at h0 h1
  simp only [ShapeWithin, bil, castRot, Mat3.map, Mat3.transpose, Mat3.col0, Mat3.col1, Mat3.col2, ti_m2, ti_m1, ti_0,
    ti_1, ti_2, ti_3]
  push_cast
  refine ⟨?_, ?_⟩ <;> rw [abs_le] <;> constructor <;> linarith

theorem shape_44 {ε A B C D E F : K} (h : 0 ≤ ε) :
    ConvShape 44 (100 * ε) A B C D E F := by
  refine ⟨_, _, rfl, rfl, ?_⟩
  trivial

end

end CrystSymm
