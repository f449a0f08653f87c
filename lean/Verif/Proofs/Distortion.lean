import Verif.Proofs.SameAtoms

set_option autoImplicit false
set_option linter.unusedSectionVars false

/-! # How much the changes of basis stretch -/

namespace CrystSymm

open Spec Reducer SymmetryAnalyzer

/-- sum of the squares of the entries. -/
def frob (A : Mat3 ℝ) : ℝ := lenSq A.col0 + lenSq A.col1 + lenSq A.col2

theorem frob_nonneg (A : Mat3 ℝ) : 0 ≤ frob A := by
  unfold frob
  linarith [lenSq_nonneg A.col0, lenSq_nonneg A.col1, lenSq_nonneg A.col2]

theorem lenSq_mulVec_le (A : Mat3 ℝ) (v : Vec3 ℝ) : lenSq (A * v) ≤ frob A * lenSq v := by
  obtain ⟨a, b, c, d, e, f, g, h, i⟩ := A
  obtain ⟨x, y, z⟩ := v
  have cs : ∀ a b c : ℝ, (a * x + b * y + c * z) ^ 2 ≤ (a ^ 2 + b ^ 2 + c ^ 2) * (x ^ 2 + y ^ 2 + z ^ 2) := by
    intro a b c
    nlinarith [sq_nonneg (a * y - b * x), sq_nonneg (a * z - c * x), sq_nonneg (b * z - c * y)]
  have h1 := cs a b c
  have h2 := cs d e f
  have h3 := cs g h i
  simp only [frob, lenSq, Mat3.col0, Mat3.col1, Mat3.col2, Mat3.mulVec_x, Mat3.mulVec_y, Mat3.mulVec_z]
  nlinarith

theorem frob_adj_le (A : Mat3 ℝ) : 3 * frob A.adj ≤ frob A ^ 2 := by
  obtain ⟨a, b, c, d, e, f, g, h, i⟩ := A
  set p := a ^ 2 + d ^ 2 + g ^ 2 with hp
  set q := b ^ 2 + e ^ 2 + h ^ 2 with hq
  set r := c ^ 2 + f ^ 2 + i ^ 2 with hr
  have h1 : (e * i - f * h) ^ 2 + (b * i - c * h) ^ 2 + (b * f - c * e) ^ 2 ≤ q * r := by
    nlinarith [sq_nonneg (b * c + e * f + h * i)]
  have h2 : (d * i - f * g) ^ 2 + (a * i - c * g) ^ 2 + (a * f - c * d) ^ 2 ≤ p * r := by
    nlinarith [sq_nonneg (a * c + d * f + g * i)]
  have h3 : (d * h - e * g) ^ 2 + (a * h - b * g) ^ 2 + (a * e - b * d) ^ 2 ≤ p * q := by
    nlinarith [sq_nonneg (a * b + d * e + g * h)]
  have h4 : 3 * (q * r + p * r + p * q) ≤ (p + q + r) ^ 2 := by
    nlinarith [sq_nonneg (p - q), sq_nonneg (p - r), sq_nonneg (q - r)]
  have e1 : frob (⟨a, b, c, d, e, f, g, h, i⟩ : Mat3 ℝ) = p + q + r := by
    simp only [frob, lenSq, Mat3.col0, Mat3.col1, Mat3.col2]; ring
  have e2 : frob (⟨a, b, c, d, e, f, g, h, i⟩ : Mat3 ℝ).adj =
      ((e * i - f * h) ^ 2 + (b * i - c * h) ^ 2 + (b * f - c * e) ^ 2) +
      ((d * i - f * g) ^ 2 + (a * i - c * g) ^ 2 + (a * f - c * d) ^ 2) +
      ((d * h - e * g) ^ 2 + (a * h - b * g) ^ 2 + (a * e - b * d) ^ 2) := by
    simp only [frob, lenSq, Mat3.col0, Mat3.col1, Mat3.col2, Mat3.adj]; ring
  rw [e1, e2]
  linarith

theorem lenSq_adj (A : Mat3 ℝ) (v : Vec3 ℝ) : A.det ^ 2 * lenSq v ≤ frob A.adj * lenSq (A * v) := by
  have h := lenSq_mulVec_le A.adj (A * v)
  have e : lenSq (A.adj * (A * v)) = A.det ^ 2 * lenSq v := by
    have : A.adj * (A * v) = Vec3.scale A.det v := by
      ext <;> simp [Mat3.adj, Mat3.det, Vec3.scale] <;> ring
    rw [this, lenSq_smul]
  rw [e] at h
  exact h

/-- a vector whose image under the basis is short stays short under moderate changes of coordinates. -/
theorem distort {L M : Mat3 ℝ} {F V d c : ℝ} (hF : frob L ≤ F) (hM : frob M ≤ F) (hV : L.det ^ 2 = V ^ 2) (hV0 : V ≠ 0) {u w : Vec3 ℝ}
    (hw : lenSq (L * w) ≤ (d * 2) ^ 2) (hu : lenSq u ≤ c * lenSq w) (hc : 0 ≤ c) :
    lenSq (M * u) ≤ 4 / 3 * c * (F ^ 3 / V ^ 2 * d ^ 2) := by
  have hF0 := le_trans (frob_nonneg L) hF
  have hV2 : 0 < V ^ 2 := by positivity
  have h1 : V ^ 2 * lenSq w ≤ F ^ 2 / 3 * (d * 2) ^ 2 := by
    have a1 := lenSq_adj L w
    have a2 := frob_adj_le L
    have a3 : frob L ^ 2 ≤ F ^ 2 := pow_le_pow_left₀ (frob_nonneg L) hF 2
    rw [hV] at a1
    refine le_trans a1 ?_
    apply mul_le_mul _ hw (lenSq_nonneg _) (by positivity)
    linarith
  have h2 : lenSq (M * u) ≤ F * (c * lenSq w) := by
    refine le_trans (lenSq_mulVec_le M u) ?_
    exact mul_le_mul hM hu (lenSq_nonneg _) hF0
  have h3 : lenSq w ≤ F ^ 2 / 3 * (d * 2) ^ 2 / V ^ 2 := by
    rw [le_div_iff₀ hV2]; linarith
  refine le_trans h2 ?_
  have h4 : F * (c * lenSq w) ≤ F * (c * (F ^ 2 / 3 * (d * 2) ^ 2 / V ^ 2)) := by gcongr
  refine le_trans h4 (le_of_eq ?_)
  field_simp
  ring

/-- the entries of the tables are small. -/
def charSizeOk (ch : ℕ) : Bool :=
  match amapGet? latticeCharToConvTrans ch, amapGet? latticeCharToBravais ch with
  | some m, some b =>
    (match b.centering? with
      | some c =>
        (match amapGet? centeringToPrimTrans c with
          | some p =>
            let t : Mat3 ℤ := (intRot m).transpose
            let n : Mat3 ℤ := (t * p.1).map fun e => e / p.2
            let sq : Mat3 ℤ → ℤ := fun a => (a.toListCM.map fun k => k * k).sum
            decide (sq t ≤ 14) && decide (sq n ≤ 9) && decide (sq n * sq t.adj ≤ 20 * (t.det * t.det))
          | none => false)
      | none => false)
  | _, _ => false

theorem charSizeOk_all : ∀ ch ∈ List.range' 1 44, charSizeOk ch = true := by decide +kernel

theorem frob_overK (a : Mat3 ℤ) : frob (overK ℝ a) = (((a.toListCM.map fun k => k * k).sum : ℤ) : ℝ) := by
  simp [frob, lenSq, Mat3.col0, Mat3.col1, Mat3.col2, overK, Mat3.map, Mat3.toListCM]
  ring

theorem overK_adj (a : Mat3 ℤ) : (overK ℝ a).adj = overK ℝ a.adj := by
  ext <;> simp [overK, Mat3.map, Mat3.adj]

theorem char_distort {ch : ℕ} {m : Mat3 Int8} {P : Mat3 ℝ} {b : BravaisType} (h1 : 1 ≤ ch) (h44 : ch ≤ 44)
    (hm : amapGet? latticeCharToConvTrans ch = some m) (hP : primitiveTransformationMatrix ch = .ret (P, b)) :
    (∀ v : Vec3 ℝ, lenSq (realMat (intRot m).transpose * v) ≤ 14 * lenSq v) ∧
    ∀ (n : Mat3 ℤ) (v : Vec3 ℝ), realMat (intRot m).transpose * P = overK ℝ n →
      lenSq (overK ℝ n * v) ≤ 20 * lenSq (realMat (intRot m).transpose * v) ∧ lenSq (overK ℝ n * v) ≤ 9 * lenSq v := by
  have h := charSizeOk_all ch (by rw [List.mem_range']; exact ⟨ch - 1, by omega, by omega⟩)
  have hok := charTableOk_all ch (by rw [List.mem_range']; exact ⟨ch - 1, by omega, by omega⟩)
  unfold charSizeOk at h
  unfold charTableOk at hok
  rw [hm] at h hok
  split at h
  · rename_i m' b' hm' hb
    cases hm'
    rw [hb] at hok
    split at h
    · rename_i c hc
      simp only [hc] at hok
      split at h
      · rename_i p hp
        simp only [hp] at hok
        simp only [Bool.and_eq_true, decide_eq_true_eq, Bool.or_eq_true] at h hok
        obtain ⟨⟨s1, s3⟩, s2⟩ := h
        obtain ⟨⟨⟨hp0, hq⟩, hdet⟩, hmul⟩ := hok
        set t : Mat3 ℤ := (intRot m).transpose with ht
        set n : Mat3 ℤ := (t * p.1).map fun e => e / p.2 with hn
        have hr : realMat t = overK ℝ t := rfl
        have ht0 : t.det ≠ 0 := by
          intro h0
          rw [h0] at hmul
          have : (centringVectors c).2.length ≠ 0 := by cases c <;> decide
          simp at hmul
          omega
        refine ⟨fun v => ?_, fun n' v hn' => ?_⟩
        · refine le_trans (lenSq_mulVec_le _ v) ?_
          have : frob (realMat t) ≤ 14 := by rw [hr, frob_overK]; exact_mod_cast s1
          exact mul_le_mul_of_nonneg_right this (lenSq_nonneg _)
        · have hnn : n' = n := by
            obtain ⟨m2, P2, b2, c2, n2, g1, g2, g3, -, g5, g6, -⟩ := C32_tables_consistent (K := ℝ) ch h1 h44
            rw [hm] at g1
            rw [hP] at g2
            cases g1
            simp only [Outcome.ret.injEq, Prod.mk.injEq] at g2
            have hPp : P = primMatrix p := by
              have := hP
              unfold primitiveTransformationMatrix at this
              rw [hb] at this
              simp only [Outcome.ofOption, Outcome.ret_bind] at this
              rw [hc] at this
              simp only [Outcome.ret_bind] at this
              rw [hp] at this
              simp only [Outcome.ret_bind, Outcome.ret.injEq, Prod.mk.injEq] at this
              exact this.1.symm
            have hp0' : (p.2 : ℝ) ≠ 0 := by exact_mod_cast hp0
            have hprod : realMat t * (primMatrix p : Mat3 ℝ) = overK ℝ n := by
              have e := congrArg (overK ℝ) hq
              rw [overK_mul] at e
              rw [hr, primMatrix_eq]
              have l : ∀ a b : Mat3 ℝ, ∀ d : ℝ, a * b.divS d = (a * b).divS d := by
                intro a b d; ext <;> simp [Mat3.divS, Mat3.map] <;> ring
              rw [l, ← e]
              ext <;> simp only [overK, Mat3.divS, Mat3.map, Int.cast_mul] <;> field_simp
            rw [hPp, hprod] at hn'
            exact (overK_injective hn').symm
          subst hnn
          have a1 := lenSq_mulVec_le (overK ℝ n) v
          have a2 := lenSq_adj (overK ℝ t) v
          rw [overK_adj, frob_overK, overK_det] at a2
          rw [frob_overK] at a1
          set A : ℤ := (n.toListCM.map fun k => k * k).sum
          set B : ℤ := (t.adj.toListCM.map fun k => k * k).sum
          have a3 : (A : ℝ) * B ≤ 20 * ((t.det : ℝ) * t.det) := by exact_mod_cast s2
          have hA : (0 : ℝ) ≤ A := by rw [← frob_overK]; exact frob_nonneg _
          have hdp : (0 : ℝ) < (t.det : ℝ) ^ 2 := by
            have : (t.det : ℝ) ≠ 0 := by exact_mod_cast ht0
            positivity
          rw [hr]
          set X := lenSq (overK ℝ t * v) with hX
          have hX0 : 0 ≤ X := lenSq_nonneg _
          refine ⟨?_, le_trans a1 (mul_le_mul_of_nonneg_right (by exact_mod_cast s3) (lenSq_nonneg _))⟩
          have a4 : (t.det : ℝ) ^ 2 * lenSq (overK ℝ n * v) ≤ (t.det : ℝ) ^ 2 * (20 * X) := by
            calc (t.det : ℝ) ^ 2 * lenSq (overK ℝ n * v) ≤ (t.det : ℝ) ^ 2 * (A * lenSq v) := by gcongr
              _ = A * ((t.det : ℝ) ^ 2 * lenSq v) := by ring
              _ ≤ A * (B * X) := by gcongr
              _ = (A * B) * X := by ring
              _ ≤ (20 * ((t.det : ℝ) * t.det)) * X := by gcongr
              _ = (t.det : ℝ) ^ 2 * (20 * X) := by ring
          exact le_of_mul_le_mul_left a4 hdp
      · exact absurd h (by simp)
    · exact absurd h (by simp)
  · exact absurd h (by simp)

/-! ### the primitive cell is not longer than the input cell -/

theorem zero_of_lenSq {v : Vec3 ℝ} (h : lenSq v = 0) : v = 0 := by
  simp only [lenSq] at h
  have h1 := sq_nonneg v.x
  have h2 := sq_nonneg v.y
  have h3 := sq_nonneg v.z
  ext
  · exact pow_eq_zero_iff (n := 2) (by norm_num) |>.1 (by nlinarith)
  · exact pow_eq_zero_iff (n := 2) (by norm_num) |>.1 (by nlinarith)
  · exact pow_eq_zero_iff (n := 2) (by norm_num) |>.1 (by nlinarith)

theorem shortest_sum {a b e0 e1 e2 : Vec3 ℝ} {A B C : ℝ} (h0 : a ≠ 0) (hdet : (Mat3.ofCols e0 e1 e2).det ≠ 0)
    (hab : a.cross b ≠ 0) (ha : ∀ e, e = e0 ∨ e = e1 ∨ e = e2 → A ≤ lenSq e)
    (hb : ∀ e, e = e0 ∨ e = e1 ∨ e = e2 → a.cross e ≠ 0 → B ≤ lenSq e)
    (hc : ∀ e, e = e0 ∨ e = e1 ∨ e = e2 → (Mat3.ofCols a b e).det ≠ 0 → C ≤ lenSq e) :
    A + B + C ≤ lenSq e0 + lenSq e1 + lenSq e2 := by
  have hpar : ∀ e, a.cross e = 0 → (Mat3.ofCols a b e).det = 0 := by
    intro e h
    have : (Mat3.ofCols a b e).det = -(b.dot (a.cross e)) := by
      simp [Mat3.ofCols, Mat3.det, Vec3.dot, Vec3.cross]; ring
    rw [this, h]
    simp [Vec3.dot]
  have two : ∀ u v : Vec3 ℝ, a.cross u = 0 → a.cross v = 0 → u.cross v = 0 := by
    intro u v hu hv
    have key : ∀ x y : Vec3 ℝ, a.cross x = 0 → a.cross y = 0 → lenSq a * (x.y * y.z - x.z * y.y) = 0 ∧
        lenSq a * (x.z * y.x - x.x * y.z) = 0 ∧ lenSq a * (x.x * y.y - x.y * y.x) = 0 := by
      intro x y hx hy
      have x1 : a.y * x.z - a.z * x.y = 0 := congrArg Vec3.x hx
      have x2 : a.z * x.x - a.x * x.z = 0 := congrArg Vec3.y hx
      have x3 : a.x * x.y - a.y * x.x = 0 := congrArg Vec3.z hx
      have y1 : a.y * y.z - a.z * y.y = 0 := congrArg Vec3.x hy
      have y2 : a.z * y.x - a.x * y.z = 0 := congrArg Vec3.y hy
      have y3 : a.x * y.y - a.y * y.x = 0 := congrArg Vec3.z hy
      simp only [lenSq]
      refine ⟨?_, ?_, ?_⟩
      · linear_combination (a.x * x.x + a.y * x.y + a.z * x.z) * y1 + y.z * (a.x * x3 - a.z * x1) - y.y * (a.y * x1 - a.x * x2)
      · linear_combination (a.x * x.x + a.y * x.y + a.z * x.z) * y2 + y.x * (a.y * x1 - a.x * x2) - y.z * (a.z * x2 - a.y * x3)
      · linear_combination (a.x * x.x + a.y * x.y + a.z * x.z) * y3 + y.y * (a.z * x2 - a.y * x3) - y.x * (a.x * x3 - a.z * x1)
    have ha0 : lenSq a ≠ 0 := fun h => h0 (zero_of_lenSq h)
    obtain ⟨k1, k2, k3⟩ := key u v hu hv
    ext
    · exact (mul_eq_zero.1 k1).resolve_left ha0
    · exact (mul_eq_zero.1 k2).resolve_left ha0
    · exact (mul_eq_zero.1 k3).resolve_left ha0
  have d01 : e0.cross e1 ≠ 0 := by
    intro h
    apply hdet
    have : (Mat3.ofCols e0 e1 e2).det = (e0.cross e1).dot e2 := by
      simp [Mat3.ofCols, Mat3.det, Vec3.dot, Vec3.cross]; ring
    rw [this, h]; simp [Vec3.dot]
  have d02 : e0.cross e2 ≠ 0 := by
    intro h
    apply hdet
    have : (Mat3.ofCols e0 e1 e2).det = -(e0.cross e2).dot e1 := by
      simp [Mat3.ofCols, Mat3.det, Vec3.dot, Vec3.cross]; ring
    rw [this, h]; simp [Vec3.dot]
  have d12 : e1.cross e2 ≠ 0 := by
    intro h
    apply hdet
    have : (Mat3.ofCols e0 e1 e2).det = (e1.cross e2).dot e0 := by
      simp [Mat3.ofCols, Mat3.det, Vec3.dot, Vec3.cross]; ring
    rw [this, h]; simp [Vec3.dot]
  have A0 := ha e0 (by simp)
  have A1 := ha e1 (by simp)
  have A2 := ha e2 (by simp)
  have B0 := hb e0 (by simp)
  have B1 := hb e1 (by simp)
  have B2 := hb e2 (by simp)
  have hex : (Mat3.ofCols a b e0).det ≠ 0 ∨ (Mat3.ofCols a b e1).det ≠ 0 ∨ (Mat3.ofCols a b e2).det ≠ 0 := by
    by_contra hcon
    push Not at hcon
    obtain ⟨c0, c1, c2⟩ := hcon
    apply hab
    have hd : ∀ e, (Mat3.ofCols a b e).det = (a.cross b).x * e.x + (a.cross b).y * e.y + (a.cross b).z * e.z := by
      intro e; simp [Mat3.ofCols, Mat3.det, Vec3.cross]; ring
    rw [hd] at c0 c1 c2
    have hT : (Mat3.ofCols e0 e1 e2).transpose.det ≠ 0 := by
      have : (Mat3.ofCols e0 e1 e2).transpose.det = (Mat3.ofCols e0 e1 e2).det := by
        simp [Mat3.ofCols, Mat3.det, Mat3.transpose]; ring
      rw [this]; exact hdet
    apply mulVec_injective hT
    ext
    · simp [Mat3.ofCols, Mat3.transpose]; linarith
    · simp [Mat3.ofCols, Mat3.transpose]; linarith
    · simp [Mat3.ofCols, Mat3.transpose]; linarith
  have cr : ∀ u v : Vec3 ℝ, u.cross v ≠ 0 → a.cross u ≠ 0 ∨ a.cross v ≠ 0 := by
    intro u v h
    by_contra hcon
    push Not at hcon
    exact h (two u v hcon.1 hcon.2)
  rcases hex with h | h | h
  · have C0 := hc e0 (by simp) h
    rcases cr e1 e2 d12 with g | g
    · linarith [B1 g]
    · linarith [B2 g]
  · have C1 := hc e1 (by simp) h
    rcases cr e0 e2 d02 with g | g
    · linarith [B0 g]
    · linarith [B2 g]
  · have C2 := hc e2 (by simp) h
    rcases cr e0 e1 d01 with g | g
    · linarith [B0 g]
    · linarith [B1 g]

end CrystSymm
