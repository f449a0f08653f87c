import Verif.Proofs.LinAlg
import Verif.Proofs.Normalize
import Verif.Proofs.Outcome
import Verif.Spec.Centring
import Verif.Model.PointGroup

/-! # Changes of basis of point groups -/

set_option autoImplicit false
set_option linter.unusedSectionVars false

namespace CrystSymm

open Spec PointGroup

section
variable {K : Type} [Field K] [LinearOrder K] [IsStrictOrderedRing K] [FloorRing K]

theorem roundZ_int (n : ℤ) : roundZ (n : K) = n := by
  unfold roundZ
  split
  · rw [Int.floor_eq_iff]; constructor <;> linarith
  · rw [Int.ceil_eq_iff]; constructor <;> linarith

theorem truncZ_int (n : ℤ) : truncZ (n : K) = n := by
  unfold truncZ; split <;> simp

theorem toI8_int {n : ℤ} (h1 : -128 ≤ n) (h2 : n ≤ 127) :
    ((FRound.toI8 (FRound.round (n : K)) : Int8)).toInt = n := by
  show (Int8.ofInt (satZ (-128) 127 (truncZ ((roundZ (n : K) : ℤ) : K)))).toInt = n
  rw [roundZ_int, truncZ_int]
  unfold satZ
  rw [Int8.toInt_ofInt, min_eq_right h2, max_eq_right h1]
  exact Int.bmod_eq_of_le (by norm_num; omega) (by norm_num; omega)

theorem castRot_overK (r : Mat3 Int8) : (castRot r : Mat3 K) = overK K (intRot r) := castRot_eq_map_intRot r

theorem overK_mul (a b : Mat3 ℤ) : overK K (a * b) = overK K a * overK K b := map_intCast_mul a b

theorem overK_one : overK K 1 = 1 := by ext <;> simp [overK, Mat3.map]

theorem overK_injective {a b : Mat3 ℤ} (h : overK K a = overK K b) : a = b := by
  simp only [overK, Mat3.map, Mat3.mk.injEq, Int.cast_inj] at h
  ext <;> simp [h]

theorem intVec_overK {m : Mat3 ℤ} {v : Vec3 K} (h : IntVec v) : IntVec (overK K m * v) := by
  obtain ⟨i, j, k, rfl⟩ := h
  refine ⟨m.m11 * i + m.m12 * j + m.m13 * k, m.m21 * i + m.m22 * j + m.m23 * k,
    m.m31 * i + m.m32 * j + m.m33 * k, ?_⟩
  ext <;> simp [overK, Mat3.map]

/-- the integral inverse of a unimodular matrix. -/
theorem unimodular_inverse {n : Mat3 ℤ} (h : n.det = 1 ∨ n.det = -1) :
    ∃ n' : Mat3 ℤ, n * n' = 1 ∧ n' * n = 1 ∧ n'.det = n.det := by
  have hsq : n.det * n.det = 1 := by rcases h with h | h <;> rw [h] <;> norm_num
  have e1 : n * (n.adj.map fun e => n.det * e) = 1 := by
    have : n * (n.adj.map fun e => n.det * e) = (1 : Mat3 ℤ).map fun e => n.det * n.det * e := by
      ext <;> simp [Mat3.adj, Mat3.map, Mat3.det] <;> ring
    rw [this, hsq]
    ext <;> simp [Mat3.map]
  have e2 : (n.adj.map fun e => n.det * e) * n = 1 := by
    have : (n.adj.map fun e => n.det * e) * n = (1 : Mat3 ℤ).map fun e => n.det * n.det * e := by
      ext <;> simp [Mat3.adj, Mat3.map, Mat3.det] <;> ring
    rw [this, hsq]
    ext <;> simp [Mat3.map]
  refine ⟨_, e1, e2, ?_⟩
  have := congrArg Mat3.det e1
  rw [Mat3.det_mul, Mat3.det_one] at this
  rcases h with h | h <;> rw [h] at this ⊢ <;> linarith

theorem sameLattice_mul {L : Mat3 K} {n : Mat3 ℤ} (h : n.det = 1 ∨ n.det = -1) :
    SameLattice L (L * overK K n) := by
  obtain ⟨n', h1, h2, -⟩ := unimodular_inverse h
  intro v
  constructor
  · rintro ⟨w, hw, rfl⟩
    refine ⟨overK K n' * w, intVec_overK hw, ?_⟩
    rw [← Mat3.mul_mulVec, mul_assoc, ← overK_mul, h1, overK_one, mul_one]
  · rintro ⟨w, hw, rfl⟩
    exact ⟨overK K n * w, intVec_overK hw, by rw [Mat3.mul_mulVec]⟩

/-- rounding an integral conjugate loses nothing. -/
theorem intRot_conjRot {inv t : Mat3 K} (hi : t * inv = 1) {r : Mat3 Int8} {s : Mat3 ℤ}
    (h : InBasis t (intRot r) s) (hs : FitsI8 s) : intRot (conjRot inv t r) = s := by
  have e : inv * castRot r * t = overK K s := by
    rw [castRot_overK, mul_assoc, h, ← mul_assoc, Mat3.mul_eq_one_comm' hi, one_mul]
  unfold conjRot
  rw [e]
  simp only [FitsI8, Mat3.toListCM, List.mem_cons, List.not_mem_nil, or_false, forall_eq_or_imp,
    forall_eq] at hs
  obtain ⟨h1, h2, h3, h4, h5, h6, h7, h8, h9⟩ := hs
  ext <;> simp only [intRot, castRot, overK, Mat3.map, Int.cast_id]
  · exact toI8_int h1.1 h1.2
  · exact toI8_int h4.1 h4.2
  · exact toI8_int h7.1 h7.2
  · exact toI8_int h2.1 h2.2
  · exact toI8_int h5.1 h5.2
  · exact toI8_int h8.1 h8.2
  · exact toI8_int h3.1 h3.2
  · exact toI8_int h6.1 h6.2
  · exact toI8_int h9.1 h9.2

theorem inBasis_eq {inv t : Mat3 K} (hi : t * inv = 1) {r s : Mat3 ℤ} (h : InBasis t r s) :
    overK K s = inv * overK K r * t := by
  rw [mul_assoc, h, ← mul_assoc, Mat3.mul_eq_one_comm' hi, one_mul]

theorem inBasis_eq' {inv t : Mat3 K} (hi : t * inv = 1) {r s : Mat3 ℤ} (h : InBasis t r s) :
    overK K r = t * overK K s * inv := by
  rw [← h, mul_assoc, hi, mul_one]

theorem inBasis_unique {inv t : Mat3 K} (hi : t * inv = 1) {r s s' : Mat3 ℤ} (h : InBasis t r s)
    (h' : InBasis t r s') : s = s' :=
  overK_injective ((inBasis_eq hi h).trans (inBasis_eq hi h').symm)

theorem inBasis_unique' {inv t : Mat3 K} (hi : t * inv = 1) {r r' s : Mat3 ℤ} (h : InBasis t r s)
    (h' : InBasis t r' s) : r = r' :=
  overK_injective ((inBasis_eq' hi h).trans (inBasis_eq' hi h').symm)

theorem inBasis_mul {t : Mat3 K} {r s r' s' : Mat3 ℤ} (h : InBasis t r s) (h' : InBasis t r' s') :
    InBasis t (r * r') (s * s') := by
  unfold InBasis at *
  rw [overK_mul, mul_assoc, h', ← mul_assoc, h, mul_assoc, overK_mul]

theorem inBasis_one {t : Mat3 K} : InBasis t 1 1 := by
  unfold InBasis; rw [overK_one, one_mul, mul_one]

theorem inBasis_symm {inv t : Mat3 K} (hi : t * inv = 1) {r s : Mat3 ℤ} (h : InBasis t r s) :
    InBasis inv s r := by
  unfold InBasis
  rw [inBasis_eq hi h, mul_assoc, mul_assoc, hi, mul_one]

theorem det_overK (m : Mat3 ℤ) : (overK K m).det = (m.det : K) := by
  simp [overK, Mat3.map, Mat3.det]

theorem trace_mul_comm (a b : Mat3 K) :
    (a * b).m11 + (a * b).m22 + (a * b).m33 = (b * a).m11 + (b * a).m22 + (b * a).m33 := by
  simp; ring

theorem inBasis_opType {inv t : Mat3 K} (hi : t * inv = 1) {r s : Mat3 ℤ} (h : InBasis t r s) :
    opType s = opType r := by
  have e := inBasis_eq hi h
  have hd : t.det * inv.det = 1 := by rw [← Mat3.det_mul, hi, Mat3.det_one]
  unfold opType
  congr 1
  · have := congrArg Mat3.det e
    rw [Mat3.det_mul, Mat3.det_mul, det_overK, det_overK] at this
    have h2 : ((s.det : ℤ) : K) = (r.det : ℤ) := by
      rw [this]; linear_combination (r.det : K) * hd
    exact_mod_cast h2
  · have h2 := trace_mul_comm (inv * overK K r) t
    rw [← e, ← mul_assoc, hi, one_mul] at h2
    simp only [overK, Mat3.map] at h2
    exact_mod_cast h2

end

end CrystSymm
