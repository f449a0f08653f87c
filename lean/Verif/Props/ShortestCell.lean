import Verif.Props.Shortest
import Verif.Props.Primitive

set_option autoImplicit false
set_option linter.unusedSectionVars false

/-! # C54 for the cell returned by `find_primitive_cell` -/

namespace CrystSymm

open Spec Reducer

/-- integer vectors as real ones. -/
def castVec (n : Vec3 ℤ) : Vec3 ℝ := n.map fun k : ℤ => (k : ℝ)

theorem castVec_int (n : Vec3 ℤ) : IntVec (castVec n) := ⟨n.x, n.y, n.z, rfl⟩

theorem castVec_mul (m : Mat3 ℤ) (n : Vec3 ℤ) : castVec (m * n) = (m.map fun k : ℤ => (k : ℝ)) * castVec n := by
  ext <;> simp [castVec, Vec3.map, Mat3.map]

theorem mulVec_scale_neg (L : Mat3 ℝ) (v : Vec3 ℝ) : L * Vec3.scale (-1) v = Vec3.scale (-1) (L * v) := by
  ext <;> simp [Vec3.scale] <;> ring

/-- **C54 (cell).** Under the hypotheses of C28 (a primitive cell, tolerance below lengths, areas and
volume) the vectors of the returned cell are of increasing length.  The first is a shortest one of the combinations of
the input vectors with coefficients `-1`, `0`, `1`, the second a shortest one that is not parallel to the first, the
third a shortest one outside their plane. -/
theorem C54_primitive_cell_vectors (r : Reducer ℝ) (ord : List (String × ℕ) → List (String × ℕ))
    (ho : ∀ l, (ord l).Perm l) (s : Structure ℝ) (hn : s.numSites < 65536)
    (hlen : s.species.length = s.fracCoords.length) (hsv : SvAbove s.lattice)
    (hno : NoTranslation s (r.dtol * 2)) (hd : 0 < r.dtol)
    (hcols : r.dtol < s.a ∧ r.dtol < s.b ∧ r.dtol < s.c) (hvol : r.dtol < |s.volume|)
    (harea : ∀ u v : Vec3 ℝ, IntVec u → IntVec v → (s.lattice * u).cross (s.lattice * v) ≠ 0 →
      r.dtol < ((s.lattice * u).cross (s.lattice * v)).mag) :
    ∃ (s' : Structure ℝ) (a b c : Vec3 ℤ), r.findPrimitiveCell ord s = .ret s' ∧
      SmallVec a ∧ SmallVec b ∧ SmallVec c ∧
      s'.lattice = Mat3.ofCols (s.lattice * castVec a) (s.lattice * castVec b) (s.lattice * castVec c) ∧
      r.dtol < s'.volume ∧
      (s.lattice * castVec a).mag ≤ (s.lattice * castVec b).mag ∧
      (s.lattice * castVec b).mag ≤ (s.lattice * castVec c).mag ∧
      ∀ n : Vec3 ℤ, SmallVec n → n ≠ 0 →
        (s.lattice * castVec a).mag ≤ (s.lattice * castVec n).mag ∧
        ((s.lattice * castVec a).cross (s.lattice * castVec n) ≠ 0 →
          (s.lattice * castVec b).mag ≤ (s.lattice * castVec n).mag) ∧
        ((Mat3.ofCols (s.lattice * castVec a) (s.lattice * castVec b) (s.lattice * castVec n)).det ≠ 0 →
          (s.lattice * castVec c).mag ≤ (s.lattice * castVec n).mag) := by
  obtain ⟨s', M, N, f1, f2, f3, hs', hl', hM, hNdet, hNsmall, ⟨N', hNN, hN'small⟩, hMarea, hM0, hMdet, hsel⟩ :=
    primitive_once r ord ho s hn hlen hsv hno hd hcols hvol harea
  have hpos := second_pos hsv hd.le hM0 hMarea (by rw [hMdet]; exact hvol) hsel
  set l := Structure.getCartCoords s.lattice (combinationVecs
        (Mat3.ofCols (FTrans.pinv s.lattice * M.col0) (FTrans.pinv s.lattice * M.col1)
          (FTrans.pinv s.lattice * M.col2))) with hldef
  have hF : Mat3.ofCols (FTrans.pinv s.lattice * M.col0) (FTrans.pinv s.lattice * M.col1)
          (FTrans.pinv s.lattice * M.col2) = FTrans.pinv s.lattice * M := by
    ext <;> simp [Mat3.ofCols, Mat3.col0, Mat3.col1, Mat3.col2]
  have hcart : ∀ n : Vec3 ℤ, s.lattice * ((FTrans.pinv s.lattice * M) * castVec n : Vec3 ℝ)
      = s.lattice * castVec (N * n) := by
    intro n
    rw [← Mat3.mul_mulVec, ← mul_assoc, mul_pinv hsv, one_mul, hM, Mat3.mul_mulVec, castVec_mul]
  have hsub : ∀ v ∈ l, ∃ n : Vec3 ℤ, SmallVec n ∧ v = s.lattice * castVec n := by
    intro v hv
    rw [hldef, hF] at hv
    unfold Structure.getCartCoords at hv
    obtain ⟨u, hu, rfl⟩ := List.mem_map.1 hv
    obtain ⟨n, hns, -, rfl⟩ := mem_combinationVecs_small hu
    exact ⟨N * n, hNsmall n hns, hcart n⟩
  have hsup : ∀ n : Vec3 ℤ, SmallVec n → n ≠ 0 → s.lattice * castVec n ∈ l := by
    intro n hns hn0
    have e : N * (N' * n) = n := by rw [← Mat3.mul_mulVec, hNN, Mat3.one_mulVec]
    rw [← e, ← hcart, hldef, hF]
    unfold Structure.getCartCoords
    refine List.mem_map_of_mem (small_mem_combinationVecs _ (hN'small n hns) fun h0 => hn0 ?_)
    rw [← e, h0]
    ext <;> simp
  obtain ⟨m1, m2, m3⟩ := getShortest_mem hsel
  obtain ⟨a, ha, rfl⟩ := hsub _ m1
  obtain ⟨b, hb, rfl⟩ := hsub _ m2
  obtain ⟨c, hc, rfl⟩ := hsub _ m3
  set A := s.lattice * castVec a with hA
  set B := s.lattice * castVec b with hB
  set C := s.lattice * castVec c with hC
  have hAB : A.cross B ≠ 0 := by
    intro h0
    have h1 := Vec3.ext_iff.1 h0
    simp only [Vec3.cross, Vec3.zero_x, Vec3.zero_y, Vec3.zero_z] at h1
    have : (Mat3.ofCols A B C).det = 0 := by
      simp only [Mat3.det, Mat3.ofCols]
      linear_combination C.x * h1.1 + C.y * h1.2.1 + C.z * h1.2.2
    linarith
  have hAC : A.cross C ≠ 0 := by
    intro h0
    have h1 := Vec3.ext_iff.1 h0
    simp only [Vec3.cross, Vec3.zero_x, Vec3.zero_y, Vec3.zero_z] at h1
    have : (Mat3.ofCols A B C).det = 0 := by
      simp only [Mat3.det, Mat3.ofCols]
      linear_combination -(B.x * h1.1 + B.y * h1.2.1 + B.z * h1.2.2)
    linarith
  obtain ⟨-, hfirst⟩ := C54_first_is_shortest r.dtol l A B C hsel
  obtain ⟨⟨-, -, hsec⟩, hthird⟩ := C54_second_third_are_shortest r.dtol hd.le l A B C hsel
    ⟨B, m2, harea _ _ (castVec_int a) (castVec_int b) hAB⟩
  obtain ⟨-, -, hbc, hthird⟩ := hthird ⟨C, m3, harea _ _ (castVec_int a) (castVec_int c) hAC, hpos⟩
  refine ⟨s', a, b, c, hs', ha, hb, hc, hl', by unfold Structure.volume; rw [hl']; exact hpos,
    hfirst B m2, hbc, fun n hns hn0 => ⟨hfirst _ (hsup n hns hn0), fun hne => ?_, fun hne => ?_⟩⟩
  · exact hsec _ (hsup n hns hn0) (harea _ _ (castVec_int a) (castVec_int n) hne)
  · -- one of `n`, `-n` is on the positive side
    have hAn : A.cross (s.lattice * castVec n) ≠ 0 := by
      intro h0
      have h1 := Vec3.ext_iff.1 h0
      simp only [Vec3.cross, Vec3.zero_x, Vec3.zero_y, Vec3.zero_z] at h1
      apply hne
      simp only [Mat3.det, Mat3.ofCols]
      linear_combination -(B.x * h1.1 + B.y * h1.2.1 + B.z * h1.2.2)
    have hdet : (Mat3.ofCols A B (s.lattice * castVec n)).det = s.lattice.det * ((Mat3.ofCols a b n).det : ℤ) := by
      have e : Mat3.ofCols A B (s.lattice * castVec n) = s.lattice * (Mat3.ofCols a b n).map fun k : ℤ => (k : ℝ) := by
        ext <;> simp [Mat3.ofCols, hA, hB, castVec, Vec3.map, Mat3.map]
      rw [e, Mat3.det_mul, intCast_det]
    have hbig : r.dtol < |(Mat3.ofCols A B (s.lattice * castVec n)).det| := by
      rw [hdet, abs_mul]
      have h1 : (Mat3.ofCols a b n).det ≠ 0 := by
        intro h0; rw [hdet, h0] at hne; simp at hne
      have h2 : (1 : ℝ) ≤ |((Mat3.ofCols a b n).det : ℝ)| := by
        rw [← Int.cast_abs]
        exact_mod_cast Int.one_le_abs h1
      have h3 : r.dtol < |s.lattice.det| := hvol
      nlinarith [abs_nonneg s.lattice.det]
    rcases abs_cases (Mat3.ofCols A B (s.lattice * castVec n)).det with ⟨e, -⟩ | ⟨e, -⟩
    · rw [e] at hbig
      exact hthird _ (hsup n hns hn0) (harea _ _ (castVec_int a) (castVec_int n) hAn) hbig
    · rw [e] at hbig
      have hneg : s.lattice * castVec (-n) = Vec3.scale (-1) (s.lattice * castVec n) := by
        have : castVec (-n) = Vec3.scale (-1) (castVec n) := by
          ext <;> simp only [castVec, Vec3.map, Vec3.scale, Vec3.neg_x, Vec3.neg_y, Vec3.neg_z] <;> push_cast <;> ring
        rw [this]
        exact mulVec_scale_neg _ _
      have hmag : (s.lattice * castVec (-n)).mag = (s.lattice * castVec n).mag := by
        rw [hneg, mag_eq, mag_eq]
        congr 1
        simp only [lenSq, Vec3.scale]
        ring
      have hcross : A.cross (s.lattice * castVec (-n)) ≠ 0 := by
        intro h0
        apply hAn
        rw [hneg] at h0
        have h1 := Vec3.ext_iff.1 h0
        simp only [Vec3.cross, Vec3.scale, Vec3.zero_x, Vec3.zero_y, Vec3.zero_z] at h1
        ext
        · simp only [Vec3.cross, Vec3.zero_x]; linarith [h1.1]
        · simp only [Vec3.cross, Vec3.zero_y]; linarith [h1.2.1]
        · simp only [Vec3.cross, Vec3.zero_z]; linarith [h1.2.2]
      rw [← hmag]
      refine hthird _ (hsup (-n) (by simpa [SmallVec] using hns) (by simpa using hn0))
        (harea _ _ (castVec_int a) (castVec_int (-n)) hcross) ?_
      rw [hneg]
      have : (Mat3.ofCols A B (Vec3.scale (-1) (s.lattice * castVec n))).det
          = -(Mat3.ofCols A B (s.lattice * castVec n)).det := by
        simp only [Mat3.ofCols, Mat3.det, Vec3.scale]; ring
      rw [this]
      exact hbig

end CrystSymm
