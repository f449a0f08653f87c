import Verif.Proofs.LinAlg
import Verif.Spec.Lattice

set_option autoImplicit false

/-! # The pseudo-inverse is the inverse above the cut-off -/

namespace CrystSymm

open Spec Matrix

theorem toMatrix_mul (a b : Mat3 ℝ) : (a * b).toMatrix = a.toMatrix * b.toMatrix := by
  ext i j
  fin_cases i <;> fin_cases j <;> simp [Mat3.toMatrix, Matrix.mul_apply, Fin.sum_univ_three]

theorem ofMatrix_toMatrix (a : Mat3 ℝ) : Mat3.ofMatrix a.toMatrix = a := by
  ext <;> simp [Mat3.toMatrix, Mat3.ofMatrix]

theorem toMatrix_ofMatrix (m : Matrix (Fin 3) (Fin 3) ℝ) : (Mat3.ofMatrix m).toMatrix = m := by
  ext i j
  fin_cases i <;> fin_cases j <;> simp [Mat3.toMatrix, Mat3.ofMatrix]

theorem toMatrix_one : (1 : Mat3 ℝ).toMatrix = 1 := by
  ext i j
  fin_cases i <;> fin_cases j <;> simp [Mat3.toMatrix]

theorem toMatrix_injective {a b : Mat3 ℝ} (h : a.toMatrix = b.toMatrix) : a = b := by
  rw [← ofMatrix_toMatrix a, h, ofMatrix_toMatrix]

theorem eigenvalue_gt {L : Mat3 ℝ} (h : SvAbove L) (i : Fin 3) :
    (1 / 1000000 : ℝ) ^ 2 < (isHermitian_conjTranspose_mul_self L.toMatrix).eigenvalues i := by
  set hA := isHermitian_conjTranspose_mul_self L.toMatrix
  have hv := hA.mulVec_eigenvectorBasis i
  set w : Fin 3 → ℝ := (hA.eigenvectorBasis i).ofLp with hw
  set μ := hA.eigenvalues i
  have hne : w ≠ 0 := by
    intro h0
    have hn := hA.eigenvectorBasis.orthonormal.1 i
    have : hA.eigenvectorBasis i = 0 := by
      ext j
      have := congrFun h0 j
      simpa [hw] using this
    rw [this] at hn
    simp at hn
  let v : Vec3 ℝ := ⟨w 0, w 1, w 2⟩
  have hvne : v ≠ ⟨0, 0, 0⟩ := by
    intro h0
    apply hne
    simp only [v, Vec3.mk.injEq] at h0
    ext j
    fin_cases j
    exacts [h0.1, h0.2.1, h0.2.2]
  have hpos : 0 < lenSq v := by
    have : ¬(w 0 = 0 ∧ w 1 = 0 ∧ w 2 = 0) := by
      rintro ⟨a, b, c⟩; apply hvne; simp [v, a, b, c]
    simp only [lenSq, v]
    by_contra hc
    apply this
    refine ⟨?_, ?_, ?_⟩ <;> nlinarith [mul_self_nonneg (w 0), mul_self_nonneg (w 1), mul_self_nonneg (w 2)]
  have key : lenSq (L * v) = μ * lenSq v := by
    have e : w ⬝ᵥ ((L.toMatrixᴴ * L.toMatrix) *ᵥ w) = w ⬝ᵥ (μ • w) := by rw [hv]
    simp only [dotProduct, mulVec, Fin.sum_univ_three, Matrix.mul_apply, conjTranspose_apply,
      Mat3.toMatrix, Pi.smul_apply, smul_eq_mul] at e
    simp at e
    simp only [lenSq, v, Mat3.mulVec_x, Mat3.mulVec_y, Mat3.mulVec_z]
    linear_combination e
  have := h v hvne
  rw [key] at this
  by_contra hc
  nlinarith

theorem cfc_inv_mul {A : Matrix (Fin 3) (Fin 3) ℝ} (hA : A.IsHermitian) (f : ℝ → ℝ)
    (hpos : ∀ i, hA.eigenvalues i ≠ 0) (hf : ∀ i, f (hA.eigenvalues i) = (hA.eigenvalues i)⁻¹) :
    hA.cfc f * A = 1 := by
  have hs := hA.spectral_theorem
  have e : hA.cfc f * A = hA.cfc f * (Unitary.conjStarAlgAut ℝ _ hA.eigenvectorUnitary
      (diagonal (RCLike.ofReal ∘ hA.eigenvalues))) := by rw [← hs]
  rw [e]
  unfold IsHermitian.cfc
  rw [← map_mul, diagonal_mul_diagonal]
  have : (fun i => (RCLike.ofReal ∘ f ∘ hA.eigenvalues : Fin 3 → ℝ) i
      * (RCLike.ofReal ∘ hA.eigenvalues : Fin 3 → ℝ) i) = fun _ => 1 := by
    funext i
    simp [Function.comp, hf i, inv_mul_cancel₀ (hpos i)]
  rw [this, diagonal_one, map_one]

theorem pinvMatrix_mul {L : Mat3 ℝ} (h : SvAbove L) :
    pinvMatrix (1 / 1000000) L.toMatrix * L.toMatrix = 1 := by
  unfold pinvMatrix
  rw [Matrix.mul_assoc]
  apply cfc_inv_mul
  · intro i
    exact (lt_trans (by norm_num) (eigenvalue_gt h i)).ne'
  · intro i
    rw [if_pos (eigenvalue_gt h i)]

theorem pinv_mul {L : Mat3 ℝ} (h : SvAbove L) : (FTrans.pinv L : Mat3 ℝ) * L = 1 := by
  apply toMatrix_injective
  rw [toMatrix_mul, toMatrix_one]
  show (Mat3.ofMatrix (pinvMatrix (1 / 1000000) L.toMatrix)).toMatrix * L.toMatrix = 1
  rw [toMatrix_ofMatrix]
  exact pinvMatrix_mul h

theorem mul_pinv {L : Mat3 ℝ} (h : SvAbove L) : L * (FTrans.pinv L : Mat3 ℝ) = 1 :=
  Mat3.mul_eq_one_comm' (pinv_mul h)

theorem SvAbove.det_ne_zero {L : Mat3 ℝ} (h : SvAbove L) : L.det ≠ 0 :=
  (Mat3.eq_adjDiv_of_mul_eq_one (mul_pinv h)).1

/-- a practical sufficient condition: the inverse matrix is not huge. -/
theorem svAbove_of_inverse {L M : Mat3 ℝ} (hM : M * L = 1) (c : ℝ) (hc : c < 10 ^ 12)
    (hb : ∀ v, lenSq (M * v) ≤ c * lenSq v) : SvAbove L := by
  intro v hv
  have e : M * (L * v) = v := by rw [← Mat3.mul_mulVec, hM, Mat3.one_mulVec]
  have h1 := hb (L * v)
  rw [e] at h1
  have hpos : 0 < lenSq v := by
    simp only [lenSq]
    by_contra hn
    apply hv
    have hx : v.x = 0 := by
      nlinarith [mul_self_nonneg v.x, mul_self_nonneg v.y, mul_self_nonneg v.z]
    have hy : v.y = 0 := by
      nlinarith [mul_self_nonneg v.x, mul_self_nonneg v.y, mul_self_nonneg v.z]
    have hz : v.z = 0 := by
      nlinarith [mul_self_nonneg v.x, mul_self_nonneg v.y, mul_self_nonneg v.z]
    ext <;> assumption
  have hq : 0 ≤ lenSq (L * v) := by
    simp only [lenSq]
    nlinarith [mul_self_nonneg (L * v).x, mul_self_nonneg (L * v).y, mul_self_nonneg (L * v).z]
  have : 0 < lenSq (L * v) := by
    rcases hq.lt_or_eq with h | h
    · exact h
    · rw [← h, mul_zero] at h1; linarith
  nlinarith

/-- diagonal lattices with edges above the cut-off. -/
theorem svAbove_diag {a b c : ℝ} (ha : 1 / 1000000 < a) (hb : 1 / 1000000 < b)
    (hc : 1 / 1000000 < c) : SvAbove ⟨a, 0, 0, 0, b, 0, 0, 0, c⟩ := by
  intro v hv
  simp only [lenSq, Mat3.mulVec_x, Mat3.mulVec_y, Mat3.mulVec_z, zero_mul, add_zero, zero_add]
  have ha2 : (1 / 1000000) ^ 2 < a * a := by nlinarith
  have hb2 : (1 / 1000000) ^ 2 < b * b := by nlinarith
  have hc2 : (1 / 1000000) ^ 2 < c * c := by nlinarith
  have : ¬(v.x = 0 ∧ v.y = 0 ∧ v.z = 0) := by
    rintro ⟨x, y, z⟩; apply hv; ext <;> assumption
  have h1 : (1 / 1000000) ^ 2 * (v.x * v.x) ≤ a * a * (v.x * v.x) :=
    mul_le_mul_of_nonneg_right ha2.le (mul_self_nonneg _)
  have h2 : (1 / 1000000) ^ 2 * (v.y * v.y) ≤ b * b * (v.y * v.y) :=
    mul_le_mul_of_nonneg_right hb2.le (mul_self_nonneg _)
  have h3 : (1 / 1000000) ^ 2 * (v.z * v.z) ≤ c * c * (v.z * v.z) :=
    mul_le_mul_of_nonneg_right hc2.le (mul_self_nonneg _)
  by_cases hx : v.x = 0
  · by_cases hy : v.y = 0
    · have hz : v.z ≠ 0 := fun hz => this ⟨hx, hy, hz⟩
      have := mul_lt_mul_of_pos_right hc2 (mul_self_pos.2 hz)
      nlinarith
    · have := mul_lt_mul_of_pos_right hb2 (mul_self_pos.2 hy)
      nlinarith
  · have := mul_lt_mul_of_pos_right ha2 (mul_self_pos.2 hx)
    nlinarith

theorem cauchy3 (a b c x y z : ℝ) :
    (a * x + b * y + c * z) * (a * x + b * y + c * z)
      ≤ (a * a + b * b + c * c) * (x * x + y * y + z * z) := by
  nlinarith [sq_nonneg (a * y - b * x), sq_nonneg (a * z - c * x), sq_nonneg (b * z - c * y)]

/-- a sufficient condition in terms of edge lengths and volume. -/
theorem svAbove_of_size {L : Mat3 ℝ}
    (h : (lenSq L.col0 + lenSq L.col1 + lenSq L.col2) ^ 2 < 10 ^ 12 * L.det ^ 2) : SvAbove L := by
  have hd : L.det ≠ 0 := by
    intro h0
    rw [h0] at h
    have := sq_nonneg (lenSq L.col0 + lenSq L.col1 + lenSq L.col2)
    norm_num at h
    linarith
  have hd2 : 0 < L.det ^ 2 := by positivity
  refine svAbove_of_inverse (Mat3.adjDiv_mul hd)
    ((lenSq L.col0 + lenSq L.col1 + lenSq L.col2) ^ 2 / L.det ^ 2) ?_ ?_
  · rw [div_lt_iff₀ hd2]; exact h
  · intro v
    have hsq : ∀ u : Vec3 ℝ, 0 ≤ lenSq u := fun u => by
      simp only [lenSq]
      nlinarith [mul_self_nonneg u.x, mul_self_nonneg u.y, mul_self_nonneg u.z]
    -- rows of the inverse
    have row : ∀ (a b c : ℝ) (A B : ℝ), a * a + b * b + c * c ≤ A * B → 0 ≤ A → 0 ≤ B →
        (a / L.det * v.x + b / L.det * v.y + c / L.det * v.z) *
          (a / L.det * v.x + b / L.det * v.y + c / L.det * v.z) ≤ A * B / L.det ^ 2 * lenSq v := by
      intro a b c A B hab hA hB
      have e : (a / L.det * v.x + b / L.det * v.y + c / L.det * v.z) *
          (a / L.det * v.x + b / L.det * v.y + c / L.det * v.z)
          = (a * v.x + b * v.y + c * v.z) * (a * v.x + b * v.y + c * v.z) / L.det ^ 2 := by
        field_simp
      rw [e, div_mul_eq_mul_div, div_le_div_iff_of_pos_right hd2]
      exact (cauchy3 a b c v.x v.y v.z).trans (mul_le_mul_of_nonneg_right hab (hsq v))
    have cross : ∀ u w : Vec3 ℝ, (u.y * w.z - u.z * w.y) * (u.y * w.z - u.z * w.y)
        + (u.z * w.x - u.x * w.z) * (u.z * w.x - u.x * w.z)
        + (u.x * w.y - u.y * w.x) * (u.x * w.y - u.y * w.x) ≤ lenSq u * lenSq w := by
      intro u w
      simp only [lenSq]
      nlinarith [sq_nonneg (u.x * w.x + u.y * w.y + u.z * w.z)]
    have hA := hsq L.col0
    have hB := hsq L.col1
    have hC := hsq L.col2
    have r1 := row (L.m22 * L.m33 - L.m32 * L.m23) (L.m13 * L.m32 - L.m33 * L.m12)
      (L.m12 * L.m23 - L.m22 * L.m13) (lenSq L.col1) (lenSq L.col2)
      (by have := cross L.col1 L.col2
          simp only [Mat3.col1, Mat3.col2] at this ⊢
          refine le_trans (le_of_eq ?_) this
          ring) hB hC
    have r2 := row (L.m31 * L.m23 - L.m21 * L.m33) (L.m11 * L.m33 - L.m31 * L.m13)
      (L.m13 * L.m21 - L.m23 * L.m11) (lenSq L.col0) (lenSq L.col2)
      (by have := cross L.col0 L.col2
          simp only [Mat3.col0, Mat3.col2] at this ⊢
          refine le_trans (le_of_eq ?_) this
          ring) hA hC
    have r3 := row (L.m21 * L.m32 - L.m31 * L.m22) (L.m12 * L.m31 - L.m32 * L.m11)
      (L.m11 * L.m22 - L.m21 * L.m12) (lenSq L.col0) (lenSq L.col1)
      (by have := cross L.col0 L.col1
          simp only [Mat3.col0, Mat3.col1] at this ⊢
          refine le_trans (le_of_eq ?_) this
          ring) hA hB
    have e1 : lenSq (L.adjDiv L.det * v) ≤ (lenSq L.col1 * lenSq L.col2 + lenSq L.col0 * lenSq L.col2
        + lenSq L.col0 * lenSq L.col1) / L.det ^ 2 * lenSq v := by
      have : lenSq (L.adjDiv L.det * v) ≤ lenSq L.col1 * lenSq L.col2 / L.det ^ 2 * lenSq v
          + lenSq L.col0 * lenSq L.col2 / L.det ^ 2 * lenSq v
          + lenSq L.col0 * lenSq L.col1 / L.det ^ 2 * lenSq v := add_le_add (add_le_add r1 r2) r3
      refine this.trans (le_of_eq ?_)
      ring
    refine e1.trans (mul_le_mul_of_nonneg_right ?_ (hsq v))
    rw [div_le_div_iff_of_pos_right hd2]
    nlinarith [mul_nonneg hA hB, mul_nonneg hA hC, mul_nonneg hB hC, sq_nonneg (lenSq L.col0),
      sq_nonneg (lenSq L.col1), sq_nonneg (lenSq L.col2)]

end CrystSymm
