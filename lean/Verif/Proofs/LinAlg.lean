import Verif.Model.SymmOp
import Verif.Spec.Basic
import Mathlib.Tactic.Linarith
import Mathlib.Tactic.Ring
import Mathlib.Tactic.FieldSimp
import Mathlib.Tactic.LinearCombination

set_option autoImplicit false

/-! # Algebra of `Vec3` and `Mat3` over a commutative ring / field -/

set_option linter.unusedSectionVars false

namespace CrystSymm

namespace Vec3

variable {K : Type}

@[simp] theorem add_x [Add K] (u v : Vec3 K) : (u + v).x = u.x + v.x := rfl
@[simp] theorem add_y [Add K] (u v : Vec3 K) : (u + v).y = u.y + v.y := rfl
@[simp] theorem add_z [Add K] (u v : Vec3 K) : (u + v).z = u.z + v.z := rfl
@[simp] theorem sub_x [Sub K] (u v : Vec3 K) : (u - v).x = u.x - v.x := rfl
@[simp] theorem sub_y [Sub K] (u v : Vec3 K) : (u - v).y = u.y - v.y := rfl
@[simp] theorem sub_z [Sub K] (u v : Vec3 K) : (u - v).z = u.z - v.z := rfl
@[simp] theorem neg_x [Neg K] (u : Vec3 K) : (-u).x = -u.x := rfl
@[simp] theorem neg_y [Neg K] (u : Vec3 K) : (-u).y = -u.y := rfl
@[simp] theorem neg_z [Neg K] (u : Vec3 K) : (-u).z = -u.z := rfl
@[simp] theorem zero_x [Zero K] : (0 : Vec3 K).x = 0 := rfl
@[simp] theorem zero_y [Zero K] : (0 : Vec3 K).y = 0 := rfl
@[simp] theorem zero_z [Zero K] : (0 : Vec3 K).z = 0 := rfl

instance [CommRing K] : AddCommGroup (Vec3 K) where
  add_assoc u v w := by ext <;> simp <;> ring
  zero_add u := by ext <;> simp
  add_zero u := by ext <;> simp
  add_comm u v := by ext <;> simp <;> ring
  neg_add_cancel u := by ext <;> simp
  sub_eq_add_neg u v := by ext <;> simp <;> ring
  nsmul := nsmulRec
  zsmul := zsmulRec

end Vec3

namespace Mat3

variable {K : Type}

@[simp] theorem mul_m11 [Add K] [Mul K] (a b : Mat3 K) :
    (a * b).m11 = a.m11 * b.m11 + a.m12 * b.m21 + a.m13 * b.m31 := rfl
@[simp] theorem mul_m12 [Add K] [Mul K] (a b : Mat3 K) :
    (a * b).m12 = a.m11 * b.m12 + a.m12 * b.m22 + a.m13 * b.m32 := rfl
@[simp] theorem mul_m13 [Add K] [Mul K] (a b : Mat3 K) :
    (a * b).m13 = a.m11 * b.m13 + a.m12 * b.m23 + a.m13 * b.m33 := rfl
@[simp] theorem mul_m21 [Add K] [Mul K] (a b : Mat3 K) :
    (a * b).m21 = a.m21 * b.m11 + a.m22 * b.m21 + a.m23 * b.m31 := rfl
@[simp] theorem mul_m22 [Add K] [Mul K] (a b : Mat3 K) :
    (a * b).m22 = a.m21 * b.m12 + a.m22 * b.m22 + a.m23 * b.m32 := rfl
@[simp] theorem mul_m23 [Add K] [Mul K] (a b : Mat3 K) :
    (a * b).m23 = a.m21 * b.m13 + a.m22 * b.m23 + a.m23 * b.m33 := rfl
@[simp] theorem mul_m31 [Add K] [Mul K] (a b : Mat3 K) :
    (a * b).m31 = a.m31 * b.m11 + a.m32 * b.m21 + a.m33 * b.m31 := rfl
@[simp] theorem mul_m32 [Add K] [Mul K] (a b : Mat3 K) :
    (a * b).m32 = a.m31 * b.m12 + a.m32 * b.m22 + a.m33 * b.m32 := rfl
@[simp] theorem mul_m33 [Add K] [Mul K] (a b : Mat3 K) :
    (a * b).m33 = a.m31 * b.m13 + a.m32 * b.m23 + a.m33 * b.m33 := rfl

@[simp] theorem mulVec_x [Add K] [Mul K] (a : Mat3 K) (v : Vec3 K) :
    (a * v).x = a.m11 * v.x + a.m12 * v.y + a.m13 * v.z := rfl
@[simp] theorem mulVec_y [Add K] [Mul K] (a : Mat3 K) (v : Vec3 K) :
    (a * v).y = a.m21 * v.x + a.m22 * v.y + a.m23 * v.z := rfl
@[simp] theorem mulVec_z [Add K] [Mul K] (a : Mat3 K) (v : Vec3 K) :
    (a * v).z = a.m31 * v.x + a.m32 * v.y + a.m33 * v.z := rfl

@[simp] theorem one_m11 [Zero K] [One K] : (1 : Mat3 K).m11 = 1 := rfl
@[simp] theorem one_m12 [Zero K] [One K] : (1 : Mat3 K).m12 = 0 := rfl
@[simp] theorem one_m13 [Zero K] [One K] : (1 : Mat3 K).m13 = 0 := rfl
@[simp] theorem one_m21 [Zero K] [One K] : (1 : Mat3 K).m21 = 0 := rfl
@[simp] theorem one_m22 [Zero K] [One K] : (1 : Mat3 K).m22 = 1 := rfl
@[simp] theorem one_m23 [Zero K] [One K] : (1 : Mat3 K).m23 = 0 := rfl
@[simp] theorem one_m31 [Zero K] [One K] : (1 : Mat3 K).m31 = 0 := rfl
@[simp] theorem one_m32 [Zero K] [One K] : (1 : Mat3 K).m32 = 0 := rfl
@[simp] theorem one_m33 [Zero K] [One K] : (1 : Mat3 K).m33 = 1 := rfl

section Ring
variable [CommRing K]

instance : Monoid (Mat3 K) where
  mul_assoc a b c := by ext <;> simp <;> ring
  one_mul a := by ext <;> simp
  mul_one a := by ext <;> simp

theorem mul_mulVec (a b : Mat3 K) (v : Vec3 K) : a * b * v = a * (b * v) := by
  ext <;> simp <;> ring

@[simp] theorem one_mulVec (v : Vec3 K) : (1 : Mat3 K) * v = v := by ext <;> simp

@[simp] theorem mulVec_zero (a : Mat3 K) : a * (0 : Vec3 K) = 0 := by ext <;> simp

theorem mulVec_add (a : Mat3 K) (u v : Vec3 K) : a * (u + v) = a * u + a * v := by
  ext <;> simp <;> ring

theorem mulVec_sub (a : Mat3 K) (u v : Vec3 K) : a * (u - v) = a * u - a * v := by
  ext <;> simp <;> ring

theorem mulVec_neg (a : Mat3 K) (u : Vec3 K) : a * (-u) = -(a * u) := by
  ext <;> simp <;> ring

theorem det_mul (a b : Mat3 K) : (a * b).det = a.det * b.det := by
  simp only [det, mul_m11, mul_m12, mul_m13, mul_m21, mul_m22, mul_m23, mul_m31, mul_m32, mul_m33]
  ring

@[simp] theorem det_one : (1 : Mat3 K).det = 1 := by simp [det]

@[simp] theorem det_transpose (a : Mat3 K) : a.transpose.det = a.det := by
  simp only [det, transpose]; ring

theorem transpose_mul (a b : Mat3 K) : (a * b).transpose = b.transpose * a.transpose := by
  ext <;> simp [transpose] <;> ring

@[simp] theorem transpose_transpose (a : Mat3 K) : a.transpose.transpose = a := rfl

theorem mul_ofCols (m : Mat3 K) (a b c : Vec3 K) :
    m * ofCols a b c = ofCols (m * a) (m * b) (m * c) := by
  ext <;> simp [ofCols]

theorem ofCols_cols (m : Mat3 K) : ofCols m.col0 m.col1 m.col2 = m := rfl

/-- the adjugate. -/
def adj (m : Mat3 K) : Mat3 K :=
  ⟨m.m22 * m.m33 - m.m32 * m.m23, m.m13 * m.m32 - m.m33 * m.m12, m.m12 * m.m23 - m.m22 * m.m13,
   m.m31 * m.m23 - m.m21 * m.m33, m.m11 * m.m33 - m.m31 * m.m13, m.m13 * m.m21 - m.m23 * m.m11,
   m.m21 * m.m32 - m.m31 * m.m22, m.m12 * m.m31 - m.m32 * m.m11, m.m11 * m.m22 - m.m21 * m.m12⟩

end Ring

section Field
variable [Field K]

theorem mul_adjDiv {m : Mat3 K} (h : m.det ≠ 0) : m * m.adjDiv m.det = 1 := by
  ext <;> simp [adjDiv] <;> field_simp <;> simp only [det] <;> ring

theorem adjDiv_mul {m : Mat3 K} (h : m.det ≠ 0) : m.adjDiv m.det * m = 1 := by
  ext <;> simp [adjDiv] <;> field_simp <;> simp only [det] <;> ring

theorem eq_adjDiv_of_mul_eq_one {m n : Mat3 K} (h : m * n = 1) : m.det ≠ 0 ∧ n = m.adjDiv m.det := by
  have hd : m.det ≠ 0 := by
    intro h0
    have := congrArg det h
    rw [det_mul, h0, zero_mul, det_one] at this
    exact zero_ne_one this
  refine ⟨hd, ?_⟩
  calc n = m.adjDiv m.det * m * n := by rw [adjDiv_mul hd, one_mul]
    _ = m.adjDiv m.det := by rw [mul_assoc, h, mul_one]

theorem mul_eq_one_comm' {m n : Mat3 K} (h : m * n = 1) : n * m = 1 := by
  obtain ⟨hd, rfl⟩ := eq_adjDiv_of_mul_eq_one h
  exact adjDiv_mul hd

theorem tryInverse_eq_some_iff [BEq K] [LawfulBEq K] {m i : Mat3 K} :
    m.tryInverse = some i ↔ m * i = 1 := by
  unfold tryInverse
  constructor
  · intro h
    split at h
    · exact absurd h (by simp)
    · rename_i h0
      simp only [Option.some.injEq] at h
      subst h
      exact mul_adjDiv (by simpa using h0)
  · intro h
    obtain ⟨hd, rfl⟩ := eq_adjDiv_of_mul_eq_one h
    simp [hd]

theorem tryInverse_eq_none_iff [BEq K] [LawfulBEq K] {m : Mat3 K} :
    m.tryInverse = none ↔ m.det = 0 := by
  unfold tryInverse
  split <;> simp_all

end Field

end Mat3

/-! ### `i8` matrices -/

/-- every entry of an `i8` matrix lies in `[-b, b]`. -/
def EntriesLe (b : ℤ) (m : Mat3 Int8) : Prop := ∀ e ∈ m.toListCM, -b ≤ e.toInt ∧ e.toInt ≤ b

instance (b : ℤ) (m : Mat3 Int8) : Decidable (EntriesLe b m) := by unfold EntriesLe; infer_instance

/-- exact integer matrix of an `i8` matrix. -/
abbrev intRot (m : Mat3 Int8) : Mat3 ℤ := castRot m

theorem castRot_eq_map_intRot {K : Type} [Ring K] (m : Mat3 Int8) :
    (castRot m : Mat3 K) = (intRot m).map fun n : ℤ => (n : K) := by
  simp [castRot, Mat3.map]

theorem intRot_injective {a b : Mat3 Int8} (h : intRot a = intRot b) : a = b := by
  simp only [intRot, castRot, Mat3.map, Int.cast_id, Mat3.mk.injEq, Int8.toInt_inj] at h
  ext <;> simp [h]

theorem toInt_sum3 {a b c d e f : Int8} (ha : -6 ≤ a.toInt ∧ a.toInt ≤ 6)
    (hb : -6 ≤ b.toInt ∧ b.toInt ≤ 6) (hc : -6 ≤ c.toInt ∧ c.toInt ≤ 6)
    (hd : -6 ≤ d.toInt ∧ d.toInt ≤ 6) (he : -6 ≤ e.toInt ∧ e.toInt ≤ 6)
    (hf : -6 ≤ f.toInt ∧ f.toInt ≤ 6) :
    (a * b + c * d + e * f).toInt = a.toInt * b.toInt + c.toInt * d.toInt + e.toInt * f.toInt := by
  have h1 : -36 ≤ a.toInt * b.toInt ∧ a.toInt * b.toInt ≤ 36 := by constructor <;> nlinarith
  have h2 : -36 ≤ c.toInt * d.toInt ∧ c.toInt * d.toInt ≤ 36 := by constructor <;> nlinarith
  have h3 : -36 ≤ e.toInt * f.toInt ∧ e.toInt * f.toInt ≤ 36 := by constructor <;> nlinarith
  simp only [Int8.toInt_add, Int8.toInt_mul]
  rw [Int.bmod_eq_of_le (n := a.toInt * b.toInt) (by omega) (by omega),
    Int.bmod_eq_of_le (n := c.toInt * d.toInt) (by omega) (by omega),
    Int.bmod_eq_of_le (n := e.toInt * f.toInt) (by omega) (by omega),
    Int.bmod_eq_of_le (n := a.toInt * b.toInt + c.toInt * d.toInt) (by omega) (by omega),
    Int.bmod_eq_of_le (by omega) (by omega)]

/-- no wrapping in the product of matrices with entries of size at most 6. -/
theorem intRot_mul {a b : Mat3 Int8} (ha : EntriesLe 6 a) (hb : EntriesLe 6 b) :
    intRot (a * b) = intRot a * intRot b := by
  simp only [EntriesLe, Mat3.toListCM, List.mem_cons, List.not_mem_nil, or_false, forall_eq_or_imp,
    forall_eq] at ha hb
  obtain ⟨a11, a21, a31, a12, a22, a32, a13, a23, a33⟩ := ha
  obtain ⟨b11, b21, b31, b12, b22, b32, b13, b23, b33⟩ := hb
  ext <;> simp only [intRot, castRot, Mat3.map, Int.cast_id, Mat3.mul_m11, Mat3.mul_m12, Mat3.mul_m13,
    Mat3.mul_m21, Mat3.mul_m22, Mat3.mul_m23, Mat3.mul_m31, Mat3.mul_m32, Mat3.mul_m33] <;>
    apply toInt_sum3 <;> assumption

theorem map_intCast_mul {K : Type} [CommRing K] (a b : Mat3 ℤ) :
    (a * b).map (fun n : ℤ => (n : K)) = a.map (fun n : ℤ => (n : K)) * b.map (fun n : ℤ => (n : K)) := by
  ext <;> simp [Mat3.map]

theorem castRot_mul {K : Type} [CommRing K] {a b : Mat3 Int8} (ha : EntriesLe 6 a)
    (hb : EntriesLe 6 b) : (castRot (a * b) : Mat3 K) = castRot a * castRot b := by
  rw [castRot_eq_map_intRot, intRot_mul ha hb, map_intCast_mul, ← castRot_eq_map_intRot,
    ← castRot_eq_map_intRot]

@[simp] theorem castRot_one {K : Type} [CommRing K] : (castRot 1 : Mat3 K) = 1 := by
  ext <;> simp [castRot, Mat3.map]

theorem castRot_injective {K : Type} [CommRing K] [CharZero K] {a b : Mat3 Int8}
    (h : (castRot a : Mat3 K) = castRot b) : a = b := by
  simp only [castRot, Mat3.map, Mat3.mk.injEq, Int.cast_inj, Int8.toInt_inj] at h
  ext <;> simp [h]

end CrystSymm
