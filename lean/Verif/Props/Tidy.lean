import Verif.Props.Pipeline
import Verif.Props.PyApi
import Verif.Props.Delaunay

set_option autoImplicit false
set_option linter.unusedSectionVars false

/-! # C60: every returned structure is tidy -/

namespace CrystSymm

open Spec Reducer SymmetryAnalyzer

/-- `x` (fractional) lies on an axis of length `len` at a distance of at least `-tol` from the start and of at least
`tol` from the end. -/
def OnAxis (tol len x : ℝ) : Prop := -tol ≤ x * len ∧ x * len ≤ len - tol

/-- a structure as a caller expects it: species, fractional and cartesian positions fit together; sites are sorted by
species; every site lies in the cell (along the axes longer than the tolerance); and normalising again with the same
tolerance changes nothing (when all axes are longer than the tolerance). -/
structure Tidy (s : Structure ℝ) (tol : ℝ) : Prop where
  consistent : Consistent s
  sorted : s.species.Pairwise (· ≤ ·)
  inCell : ∀ v ∈ s.fracCoords,
    (tol < √(lenSq s.lattice.col0) → OnAxis tol √(lenSq s.lattice.col0) v.x) ∧
    (tol < √(lenSq s.lattice.col1) → OnAxis tol √(lenSq s.lattice.col1) v.y) ∧
    (tol < √(lenSq s.lattice.col2) → OnAxis tol √(lenSq s.lattice.col2) v.z)
  stable : tol < √(lenSq s.lattice.col0) → tol < √(lenSq s.lattice.col1) → tol < √(lenSq s.lattice.col2) →
    s.normalizeCoords tol = s

theorem axis_key {tol : ℝ} (h0 : 0 ≤ tol) (m : ℝ) (hm : tol < m) : (0 ≤ tol / m ∧ tol / m < 1) ∧
    ∀ x : ℝ, -(tol / m) ≤ x ∧ x ≤ 1 - tol / m → OnAxis tol m x := by
  have hm0 : 0 < m := lt_of_le_of_lt h0 hm
  refine ⟨⟨by positivity, by rw [div_lt_one hm0]; exact hm⟩, ?_⟩
  rintro x ⟨a, b⟩
  have e : tol / m * m = tol := div_mul_cancel₀ _ hm0.ne'
  constructor
  · nlinarith [mul_le_mul_of_nonneg_right a hm0.le]
  · nlinarith [mul_le_mul_of_nonneg_right b hm0.le]

theorem normalizeCoords_tidy (s : Structure ℝ) {tol : ℝ} (h0 : 0 ≤ tol) : Tidy (s.normalizeCoords tol) tol := by
  refine ⟨normalizeCoords_consistent _ _, normalizeCoords_species_sorted _ _, ?_, ?_⟩
  · intro v hv
    rw [frac_eq_of_sites (normalizeCoords_consistent s tol).1, normalizeCoords_sites] at hv
    obtain ⟨p, hp, rfl⟩ := List.mem_map.1 hv
    rw [List.mem_mergeSort] at hp
    have := (List.of_mem_zip hp).2
    unfold normedFrac normalizeFracVectors at this
    obtain ⟨w, -, hw⟩ := List.mem_map.1 this
    rw [← hw]
    have key : ∀ (m x : ℝ), tol < m → OnAxis tol m (normComp (tol / m) x) := fun m x hm =>
      (axis_key h0 m hm).2 _ (normComp_mem (axis_key h0 m hm).1.1 (axis_key h0 m hm).1.2.le x)
    exact ⟨fun h => key _ _ h, fun h => key _ _ h, fun h => key _ _ h⟩
  · intro h1 h2 h3
    exact C12_normalize_coords_idempotent s tol
      ⟨(axis_key h0 _ h1).1, (axis_key h0 _ h2).1, (axis_key h0 _ h3).1⟩

/-- **C60.** `apply_transformation`. -/
theorem C60_apply_transformation_tidy (fuel : ℕ) (s s' : Structure ℝ) (t : Mat3 ℝ) (tol : ℝ) (h0 : 0 ≤ tol)
    (h : s.applyTransformation fuel t tol = .ret s') : Tidy s' tol := by
  obtain ⟨_, _, -, -, rfl⟩ := applyTransformation_ret h
  exact normalizeCoords_tidy _ h0

/-- **C60.** `find_primitive_cell`, `niggli_reduce` and `delaunay_reduce`. -/
theorem C60_reductions_tidy (r : Reducer ℝ) (h0 : 0 ≤ r.dtol) (s s' : Structure ℝ) :
    (∀ ord, r.findPrimitiveCell ord s = .ret s' → Tidy s' r.dtol) ∧
    (∀ tol, r.niggliReduce s tol = .ret s' → Tidy s' r.dtol) ∧
    (∀ full, r.delaunayReduce s full = .ret s' → Tidy s' r.dtol) := by
  refine ⟨fun ord h => ?_, fun tol h => ?_, fun full h => ?_⟩
  · obtain ⟨_, _, _, _, _, _, _, _, _, _, _, -, -, -, -, -, h⟩ := findPrimitiveCell_ret h
    rw [h]
    exact normalizeCoords_tidy _ h0
  · obtain ⟨st, -, rfl⟩ := niggliReduce_ret h
    exact normalizeCoords_tidy _ h0
  · obtain ⟨_, _, _, -, -, -, rfl⟩ := delaunayReduce_ret h
    exact normalizeCoords_tidy _ h0

/-- **C60.** `get_standard_conventional_structure` and `get_standard_primitive_structure`. -/
theorem C60_standard_cells_tidy (sa : SymmetryAnalyzer ℝ) (h0 : 0 ≤ sa.dtol) (ho : HashOrders ℝ) (fuel : ℕ)
    (s s' : Structure ℝ) :
    (sa.getStandardConventionalStructure ho fuel s = .ret s' → Tidy s' sa.dtol) ∧
    (sa.getStandardPrimitiveStructure ho fuel s = .ret s' → Tidy s' sa.dtol) := by
  constructor
  · intro h
    unfold getStandardConventionalStructure at h
    rw [Outcome.bind_eq_ret] at h
    obtain ⟨prim, -, h⟩ := h
    rw [Outcome.bind_eq_ret] at h
    obtain ⟨red, -, h⟩ := h
    rw [Outcome.bind_eq_ret] at h
    obtain ⟨⟨m, ch⟩, -, h⟩ := h
    exact C60_apply_transformation_tidy _ _ _ _ _ h0 h
  · intro h
    unfold getStandardPrimitiveStructure at h
    rw [Outcome.bind_eq_ret] at h
    obtain ⟨prim, -, h⟩ := h
    rw [Outcome.bind_eq_ret] at h
    obtain ⟨red, -, h⟩ := h
    rw [Outcome.bind_eq_ret] at h
    obtain ⟨⟨m, ch⟩, -, h⟩ := h
    rw [Outcome.bind_eq_ret] at h
    obtain ⟨conv, -, h⟩ := h
    rw [Outcome.bind_eq_ret] at h
    obtain ⟨⟨P, b⟩, -, h⟩ := h
    exact C60_apply_transformation_tidy _ _ _ _ _ h0 h

/-- what Python receives describes a tidy structure. -/
def TidyOutput (out : List ℝ × List String × List (List ℝ)) (tol : ℝ) : Prop :=
  ∃ s : Structure ℝ, Tidy s tol ∧ out.1 = s.lattice.toListCM ∧ out.2.1 = s.species ∧
    out.2.2 = s.fracCoords.map fun v => [v.x, v.y, v.z]

/-- **C60.** The Python functions.  `niggli_reduce` takes no distance tolerance; it uses 0.05. -/
theorem C60_python_tidy (ho : HashOrders ℝ) (fuel : ℕ) (lattice : List ℝ) (species : List String)
    (coords : List (List ℝ)) (cart : Bool) (out : List ℝ × List String × List (List ℝ)) :
    (∀ dtol atol, 0 ≤ dtol →
      PyApi.findPrimitive ho lattice species coords cart dtol atol = .ret out → TidyOutput out dtol) ∧
    (∀ tol, PyApi.niggliReduce lattice species coords cart tol = .ret out → TidyOutput out (1 / 20)) ∧
    (∀ dtol atol, 0 ≤ dtol →
      PyApi.getStandardConventionalStructure ho fuel lattice species coords cart dtol atol = .ret out →
        TidyOutput out dtol) ∧
    (∀ dtol atol, 0 ≤ dtol →
      PyApi.getStandardPrimitiveStructure ho fuel lattice species coords cart dtol atol = .ret out →
        TidyOutput out dtol) := by
  refine ⟨fun dtol atol h0 h => ?_, fun tol h => ?_, fun dtol atol h0 h => ?_, fun dtol atol h0 h => ?_⟩
  · unfold PyApi.findPrimitive at h
    rw [Outcome.bind_eq_ret] at h
    obtain ⟨s, -, h⟩ := h
    rw [Outcome.bind_eq_ret] at h
    obtain ⟨p, hp, h⟩ := h
    cases h
    exact ⟨p, (C60_reductions_tidy ⟨dtol, atol⟩ h0 s p).1 _ hp, rfl, rfl, rfl⟩
  · unfold PyApi.niggliReduce at h
    rw [Outcome.bind_eq_ret] at h
    obtain ⟨s, -, h⟩ := h
    rw [Outcome.bind_eq_ret] at h
    obtain ⟨p, hp, h⟩ := h
    cases h
    have e : (Reducer.default : Reducer ℝ).dtol = 1 / 20 := by
      simp [Reducer.default]; norm_num
    refine ⟨p, ?_, rfl, rfl, rfl⟩
    rw [← e]
    exact (C60_reductions_tidy Reducer.default (by rw [e]; norm_num) s p).2.1 _ hp
  · unfold PyApi.getStandardConventionalStructure at h
    rw [Outcome.bind_eq_ret] at h
    obtain ⟨s, -, h⟩ := h
    rw [Outcome.bind_eq_ret] at h
    obtain ⟨p, hp, h⟩ := h
    cases h
    exact ⟨p, (C60_standard_cells_tidy ⟨dtol, atol⟩ h0 ho fuel s p).1 hp, rfl, rfl, rfl⟩
  · unfold PyApi.getStandardPrimitiveStructure at h
    rw [Outcome.bind_eq_ret] at h
    obtain ⟨s, -, h⟩ := h
    rw [Outcome.bind_eq_ret] at h
    obtain ⟨p, hp, h⟩ := h
    cases h
    exact ⟨p, (C60_standard_cells_tidy ⟨dtol, atol⟩ h0 ho fuel s p).2 hp, rfl, rfl, rfl⟩

/-- a doubled cubic cell: the result has two sites and both lie on the axes of length 8, 4, 4. -/
example : ∃ N s', (∀ fuel ≥ N, cubicOne.applyTransformation fuel (realMat ⟨2, 0, 0, 0, 1, 0, 0, 0, 1⟩) (1 / 100)
    = .ret s') ∧ s'.fracCoords.length = 2 ∧
    ∀ v ∈ s'.fracCoords, OnAxis (1 / 100) 8 v.x ∧ OnAxis (1 / 100) 4 v.y ∧ OnAxis (1 / 100) 4 v.z := by
  obtain ⟨N, s', h, hn, -⟩ := C17_supercell_complete cubicOne ⟨2, 0, 0, 0, 1, 0, 0, 0, 1⟩ (1 / 100) (by decide)
    cubicOne_consistent cubicOne_tols cubicOne_apart
  have ht := C60_apply_transformation_tidy N cubicOne s' _ (1 / 100) (by norm_num) (h N le_rfl)
  have hl := (C16_apply_transformation_sound N cubicOne s' _ (1 / 100) cubicOne_consistent (h N le_rfl)).1
  have h8 : √(lenSq s'.lattice.col0) = 8 := by
    rw [hl, show (8 : ℝ) = √(8 ^ 2) from (Real.sqrt_sq (by norm_num)).symm]
    congr 1
    simp [cubicOne, realMat, Mat3.map, lenSq, Mat3.col0]; norm_num
  have h4 : √(lenSq s'.lattice.col1) = 4 := by
    rw [hl, show (4 : ℝ) = √(4 ^ 2) from (Real.sqrt_sq (by norm_num)).symm]
    congr 1
    simp [cubicOne, realMat, Mat3.map, lenSq, Mat3.col1]; norm_num
  have h4' : √(lenSq s'.lattice.col2) = 4 := by
    rw [hl, show (4 : ℝ) = √(4 ^ 2) from (Real.sqrt_sq (by norm_num)).symm]
    congr 1
    simp [cubicOne, realMat, Mat3.map, lenSq, Mat3.col2]; norm_num
  refine ⟨N, s', h, ?_, fun v hv => ?_⟩
  · rw [← ht.consistent.1]
    exact hn
  · obtain ⟨a, b, c⟩ := ht.inCell v hv
    rw [h8] at a
    rw [h4] at b
    rw [h4'] at c
    exact ⟨a (by norm_num), b (by norm_num), c (by norm_num)⟩

end CrystSymm
