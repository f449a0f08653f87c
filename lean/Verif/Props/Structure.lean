import Verif.Proofs.Structure
import Verif.Proofs.Pinv
import Verif.Proofs.Mag
import Verif.Proofs.Outcome

set_option autoImplicit false

/-! # C11–C15, C21: structures and cells -/

set_option linter.unusedSectionVars false

namespace CrystSymm

open Spec

/-! ### C11 -/

/-- **C11 (any scalar type).** The constructor keeps lattice and species, and keeps the supplied
coordinates in the field they were supplied for. -/
theorem C11_new_fields {K : Type} [Add K] [Mul K] [FTrans K] (L : Mat3 K)
    (sp : List String) (x : List (Vec3 K)) (cart : Bool) :
    (Structure.new L sp x cart).lattice = L ∧ (Structure.new L sp x cart).species = sp ∧
    (cart = true → (Structure.new L sp x cart).coords = x) ∧
    (cart = false → (Structure.new L sp x cart).fracCoords = x) := by
  cases cart <;> simp [Structure.new]

/-- **C11.** Above the singular-value cut-off, cartesian = lattice * fractional, whichever was supplied. -/
theorem C11_new_consistent (L : Mat3 ℝ) (h : SvAbove L) (sp : List String) (x : List (Vec3 ℝ))
    (cart : Bool) :
    (Structure.new L sp x cart).coords = (Structure.new L sp x cart).fracCoords.map (fun v : Vec3 ℝ => L * v) ∧
    (Structure.new L sp x cart).fracCoords.length = x.length := by
  cases cart
  · simp [Structure.new, Structure.getCartCoords]
  · refine ⟨?_, by simp [Structure.new, Structure.getFracCoords]⟩
    simp only [Structure.new, Structure.getFracCoords, if_true, List.map_map]
    conv_lhs => rw [← List.map_id x]
    apply List.map_congr_left
    intro v _
    simp only [Function.comp, id]
    rw [← Mat3.mul_mulVec, mul_pinv h, Mat3.one_mulVec]

/-- **C11 (round trips).** -/
theorem C11_round_trip (L : Mat3 ℝ) (h : SvAbove L) (x : List (Vec3 ℝ)) :
    Structure.getFracCoords L (Structure.getCartCoords L x) = x ∧
    Structure.getCartCoords L (Structure.getFracCoords L x) = x := by
  simp only [Structure.getFracCoords, Structure.getCartCoords, List.map_map]
  constructor <;> conv_rhs => rw [← List.map_id x]
  all_goals
    apply List.map_congr_left
    intro v _
    simp only [Function.comp, id]
    rw [← Mat3.mul_mulVec]
  · rw [pinv_mul h, Mat3.one_mulVec]
  · rw [mul_pinv h, Mat3.one_mulVec]

/-- an orthorhombic cell meets the hypothesis. -/
example : SvAbove ⟨2, 0, 0, 0, 3, 0, 0, 0, 5⟩ := svAbove_diag (by norm_num) (by norm_num) (by norm_num)

/-! ### C12 -/

/-- **C12 (any scalar type, incl. f64).** `normalize_coords` keeps the lattice, leaves a consistent
structure with sorted species, and within each species the sites are exactly the input sites of that
species, in the input order, with normalised positions. -/
theorem C12_normalize_coords_discrete {K : Type} [Add K] [Sub K] [Mul K] [Div K] [Neg K] [Zero K]
    [One K] [LT K] [DecidableLT K] [FRound K] [FTrans K] (s : Structure K) (posTol : K) :
    (s.normalizeCoords posTol).lattice = s.lattice ∧
    Consistent (s.normalizeCoords posTol) ∧
    (s.normalizeCoords posTol).species.Pairwise (· ≤ ·) ∧
    ∀ e, (sites (s.normalizeCoords posTol)).filter (fun p => p.1 = e)
      = ((sites s).filter (fun p => p.1 = e)).map
          (fun p => (p.1, normFracVec (Structure.fracTols s.lattice posTol) p.2)) := by
  refine ⟨rfl, normalizeCoords_consistent s posTol, normalizeCoords_species_sorted s posTol, ?_⟩
  intro e
  rw [normalizeCoords_sites, mergeSort_key_filter]
  unfold sites normedFrac normalizeFracVectors
  rw [List.zip_map_right, List.filter_map]
  rfl

section
variable {K : Type} [Field K] [LinearOrder K] [IsStrictOrderedRing K] [FloorRing K] [FTrans K]

/-- the fractional tolerances lie in `[0,1)`. -/
def FracTolsOK (s : Structure K) (posTol : K) : Prop :=
  let t := Structure.fracTols s.lattice posTol
  (0 ≤ t.x ∧ t.x < 1) ∧ (0 ≤ t.y ∧ t.y < 1) ∧ (0 ≤ t.z ∧ t.z < 1)

/-- **C12.** The sites are the input sites up to order and lattice translations. -/
theorem C12_normalize_coords_same_sites (s : Structure K) (posTol : K) :
    SameSites (sites (s.normalizeCoords posTol)) (sites s) :=
  normalizeCoords_sameSites s posTol

theorem normalizeCoords_in_cell (s : Structure K) (posTol : K) (h : FracTolsOK s posTol) :
    ∀ v ∈ (s.normalizeCoords posTol).fracCoords,
      let t := Structure.fracTols s.lattice posTol
      (-t.x ≤ v.x ∧ v.x ≤ 1 - t.x) ∧ (-t.y ≤ v.y ∧ v.y ≤ 1 - t.y) ∧ (-t.z ≤ v.z ∧ v.z ≤ 1 - t.z) := by
  intro v hv
  rw [frac_eq_of_sites (normalizeCoords_consistent s posTol).1, normalizeCoords_sites] at hv
  obtain ⟨p, hp, rfl⟩ := List.mem_map.1 hv
  rw [List.mem_mergeSort] at hp
  have := (List.of_mem_zip hp).2
  unfold normedFrac normalizeFracVectors at this
  obtain ⟨w, -, hw⟩ := List.mem_map.1 this
  rw [← hw]
  exact ⟨normComp_mem h.1.1 h.1.2.le _, normComp_mem h.2.1.1 h.2.1.2.le _,
    normComp_mem h.2.2.1 h.2.2.2.le _⟩

/-- **C12 (idempotent).** -/
theorem C12_normalize_coords_idempotent (s : Structure K) (posTol : K) (h : FracTolsOK s posTol) :
    (s.normalizeCoords posTol).normalizeCoords posTol = s.normalizeCoords posTol := by
  refine consistent_ext (normalizeCoords_consistent _ _) (normalizeCoords_consistent _ _) rfl ?_
  rw [normalizeCoords_sites]
  have e : (s.normalizeCoords posTol).species.zip (normedFrac (s.normalizeCoords posTol) posTol)
      = sites (s.normalizeCoords posTol) := by
    unfold sites
    congr 1
    unfold normedFrac normalizeFracVectors
    conv_rhs => rw [← List.map_id (s.normalizeCoords posTol).fracCoords]
    apply List.map_congr_left
    intro v hv
    rw [frac_eq_of_sites (normalizeCoords_consistent s posTol).1, normalizeCoords_sites] at hv
    obtain ⟨p, hp, rfl⟩ := List.mem_map.1 hv
    rw [List.mem_mergeSort] at hp
    have := (List.of_mem_zip hp).2
    unfold normedFrac normalizeFracVectors at this
    obtain ⟨w, -, hw⟩ := List.mem_map.1 this
    rw [← hw]
    exact normFracVec_idem h.1 h.2.1 h.2.2 w
  rw [e]
  apply mergeSort_key_of_sorted
  rw [normalizeCoords_sites]
  exact mergeSort_key_sorted Prod.fst _

end

/-- **C12.** All positions lie in the cell: along each axis the distance from the origin of the cell is at least
`-posTol` and at most the length of the axis less `posTol`. -/
theorem C12_normalize_coords_in_cell (s : Structure ℝ) (posTol : ℝ) (h0 : 0 ≤ posTol)
    (h1 : posTol < √(lenSq s.lattice.col0)) (h2 : posTol < √(lenSq s.lattice.col1))
    (h3 : posTol < √(lenSq s.lattice.col2)) :
    ∀ v ∈ (s.normalizeCoords posTol).fracCoords,
      (-posTol ≤ v.x * √(lenSq s.lattice.col0) ∧ v.x * √(lenSq s.lattice.col0) ≤ √(lenSq s.lattice.col0) - posTol) ∧
      (-posTol ≤ v.y * √(lenSq s.lattice.col1) ∧ v.y * √(lenSq s.lattice.col1) ≤ √(lenSq s.lattice.col1) - posTol) ∧
      (-posTol ≤ v.z * √(lenSq s.lattice.col2) ∧ v.z * √(lenSq s.lattice.col2) ≤ √(lenSq s.lattice.col2) - posTol) := by
  have key : ∀ m : ℝ, posTol < m → (0 ≤ posTol / m ∧ posTol / m < 1) ∧
      ∀ x : ℝ, -(posTol / m) ≤ x ∧ x ≤ 1 - posTol / m → -posTol ≤ x * m ∧ x * m ≤ m - posTol := by
    intro m hm
    have hm0 : 0 < m := lt_of_le_of_lt h0 hm
    refine ⟨⟨by positivity, by rw [div_lt_one hm0]; exact hm⟩, ?_⟩
    rintro x ⟨a, b⟩
    have e : posTol / m * m = posTol := div_mul_cancel₀ _ hm0.ne'
    constructor
    · nlinarith [mul_le_mul_of_nonneg_right a hm0.le]
    · nlinarith [mul_le_mul_of_nonneg_right b hm0.le]
  have hok : FracTolsOK s posTol := ⟨(key _ h1).1, (key _ h2).1, (key _ h3).1⟩
  intro v hv
  obtain ⟨hx, hy, hz⟩ := normalizeCoords_in_cell s posTol hok v hv
  exact ⟨(key _ h1).2 _ hx, (key _ h2).2 _ hy, (key _ h3).2 _ hz⟩

/-- hypotheses of C12 for a cell with two species. -/
example : FracTolsOK (⟨⟨2, 0, 0, 0, 3, 0, 0, 0, 5⟩, ["O", "Fe"], [], [⟨5 / 2, 0, 0⟩, ⟨0, -1, 0⟩]⟩ :
    Structure ℝ) (1 / 100) := by
  have h2 : Real.sqrt (2 * 2 + 0 * 0 + 0 * 0) = 2 := by
    rw [show (2 : ℝ) * 2 + 0 * 0 + 0 * 0 = 2 ^ 2 by norm_num]; exact Real.sqrt_sq (by norm_num)
  have h3 : Real.sqrt (0 * 0 + 3 * 3 + 0 * 0) = 3 := by
    rw [show (0 : ℝ) * 0 + 3 * 3 + 0 * 0 = 3 ^ 2 by norm_num]; exact Real.sqrt_sq (by norm_num)
  have h5 : Real.sqrt (0 * 0 + 0 * 0 + 5 * 5) = 5 := by
    rw [show (0 : ℝ) * 0 + 0 * 0 + 5 * 5 = 5 ^ 2 by norm_num]; exact Real.sqrt_sq (by norm_num)
  simp only [FracTolsOK, Structure.fracTols, Vec3.mag, Vec3.normSq, Vec3.dot, Mat3.col0, Mat3.col1,
    Mat3.col2, FTrans.sqrt, h2, h3, h5]
  norm_num

/-! ### C13 -/

/-- **C13 (metric).** For every commutative ring of scalars. -/
theorem C13_metric {K : Type} [CommRing K] (s : Structure K) :
    s.metricTensor.transpose = s.metricTensor ∧
    s.metricTensor = ⟨dotp s.lattice.col0 s.lattice.col0, dotp s.lattice.col0 s.lattice.col1,
      dotp s.lattice.col0 s.lattice.col2, dotp s.lattice.col1 s.lattice.col0,
      dotp s.lattice.col1 s.lattice.col1, dotp s.lattice.col1 s.lattice.col2,
      dotp s.lattice.col2 s.lattice.col0, dotp s.lattice.col2 s.lattice.col1,
      dotp s.lattice.col2 s.lattice.col2⟩ ∧
    s.metricTensor.det = s.volume ^ 2 := by
  refine ⟨?_, ?_, ?_⟩
  · unfold Structure.metricTensor; rw [Mat3.transpose_mul, Mat3.transpose_transpose]
  · ext <;> simp [Structure.metricTensor, dotp, Mat3.transpose, Mat3.col0, Mat3.col1, Mat3.col2]
  · unfold Structure.metricTensor Structure.volume; rw [Mat3.det_mul, Mat3.det_transpose]; ring

section
variable (s : Structure ℝ)

/-- **C13 (lengths).** -/
theorem C13_lengths : s.a = Real.sqrt s.metricTensor.m11 ∧ s.b = Real.sqrt s.metricTensor.m22 ∧
    s.c = Real.sqrt s.metricTensor.m33 ∧ 0 ≤ s.a ∧ 0 ≤ s.b ∧ 0 ≤ s.c :=
  ⟨rfl, rfl, rfl, mag_nonneg _, mag_nonneg _, mag_nonneg _⟩

/-- the angle (in degrees) computed by the crate between two vectors. -/
theorem angle_spec {u v : Vec3 ℝ} {θ : ℝ}
    (hθ : θ = Real.arccos (u.dot v / (|u.mag| * |v.mag|)) * (((180 : ℤ) : ℝ) / Real.pi))
    (hu : u.mag ≠ 0) (hv : v.mag ≠ 0) :
    u.mag * v.mag * Real.cos (θ * Real.pi / 180) = dotp u v ∧ 0 ≤ θ ∧ θ ≤ 180 := by
  have hpi := Real.pi_pos
  have hpos : 0 < u.mag * v.mag :=
    mul_pos (lt_of_le_of_ne (mag_nonneg u) hu.symm) (lt_of_le_of_ne (mag_nonneg v) hv.symm)
  rw [abs_of_nonneg (mag_nonneg u), abs_of_nonneg (mag_nonneg v)] at hθ
  have hb := abs_le.1 (abs_dotp_le u v)
  have hdot : u.dot v = dotp u v := rfl
  have hc : Real.cos (Real.arccos (u.dot v / (u.mag * v.mag))) = u.dot v / (u.mag * v.mag) := by
    apply Real.cos_arccos
    · rw [le_div_iff₀ hpos, hdot]; linarith
    · rw [div_le_one hpos, hdot]; exact hb.2
  refine ⟨?_, ?_, ?_⟩
  · have : θ * Real.pi / 180 = Real.arccos (u.dot v / (u.mag * v.mag)) := by
      rw [hθ]; push_cast; field_simp
    rw [this, hc, ← hdot]; field_simp
  · rw [hθ]
    exact mul_nonneg (Real.arccos_nonneg _) (by push_cast; positivity)
  · rw [hθ]
    have h1 := Real.arccos_le_pi (u.dot v / (u.mag * v.mag))
    calc _ ≤ Real.pi * (((180 : ℤ) : ℝ) / Real.pi) :=
          mul_le_mul_of_nonneg_right h1 (by push_cast; positivity)
      _ = 180 := by push_cast; field_simp

/-- **C13 (angles).** -/
theorem C13_angles (ha : s.a ≠ 0) (hb : s.b ≠ 0) (hc : s.c ≠ 0) :
    (s.b * s.c * Real.cos (s.alpha * Real.pi / 180) = dotp s.lattice.col1 s.lattice.col2 ∧
      0 ≤ s.alpha ∧ s.alpha ≤ 180) ∧
    (s.a * s.c * Real.cos (s.beta * Real.pi / 180) = dotp s.lattice.col0 s.lattice.col2 ∧
      0 ≤ s.beta ∧ s.beta ≤ 180) ∧
    (s.a * s.b * Real.cos (s.gamma * Real.pi / 180) = dotp s.lattice.col0 s.lattice.col1 ∧
      0 ≤ s.gamma ∧ s.gamma ≤ 180) :=
  ⟨angle_spec rfl hb hc, angle_spec rfl ha hc, angle_spec rfl ha hb⟩

/-- **C13 (volume formula).** `V² = a²b²c²(1 - cos²α - cos²β - cos²γ + 2 cosα cosβ cosγ)`. -/
theorem C13_volume (ha : s.a ≠ 0) (hb : s.b ≠ 0) (hc : s.c ≠ 0) :
    s.volume ^ 2 = s.a ^ 2 * s.b ^ 2 * s.c ^ 2 *
      (1 - Real.cos (s.alpha * Real.pi / 180) ^ 2 - Real.cos (s.beta * Real.pi / 180) ^ 2
        - Real.cos (s.gamma * Real.pi / 180) ^ 2
        + 2 * Real.cos (s.alpha * Real.pi / 180) * Real.cos (s.beta * Real.pi / 180)
          * Real.cos (s.gamma * Real.pi / 180)) := by
  obtain ⟨⟨h1, -⟩, ⟨h2, -⟩, ⟨h3, -⟩⟩ := C13_angles s ha hb hc
  generalize Real.cos (s.alpha * Real.pi / 180) = x at *
  generalize Real.cos (s.beta * Real.pi / 180) = y at *
  generalize Real.cos (s.gamma * Real.pi / 180) = z at *
  have ea : s.a * s.a = lenSq s.lattice.col0 := mag_mul_self _
  have eb : s.b * s.b = lenSq s.lattice.col1 := mag_mul_self _
  have ec : s.c * s.c = lenSq s.lattice.col2 := mag_mul_self _
  have e : s.a ^ 2 * s.b ^ 2 * s.c ^ 2 * (1 - x ^ 2 - y ^ 2 - z ^ 2 + 2 * x * y * z)
      = (s.a * s.a) * (s.b * s.b) * (s.c * s.c) - (s.a * s.a) * (s.b * s.c * x) ^ 2
        - (s.b * s.b) * (s.a * s.c * y) ^ 2 - (s.c * s.c) * (s.a * s.b * z) ^ 2
        + 2 * (s.b * s.c * x) * (s.a * s.c * y) * (s.a * s.b * z) := by ring
  rw [e, h1, h2, h3, ea, eb, ec]
  simp only [Structure.volume, Mat3.det, lenSq, dotp, Mat3.col0, Mat3.col1, Mat3.col2]
  ring

end

/-- the hypotheses of C13 (non-zero vectors) for a monoclinic cell. -/
example : (⟨⟨3, 0, -1, 0, 4, 0, 0, 0, 2⟩, [], [], []⟩ : Structure ℝ).a ≠ 0 ∧
    (⟨⟨3, 0, -1, 0, 4, 0, 0, 0, 2⟩, [], [], []⟩ : Structure ℝ).c ≠ 0 := by
  constructor
  · show Real.sqrt _ ≠ 0
    rw [Real.sqrt_ne_zero'] ; simp [Vec3.normSq, Vec3.dot, Mat3.col0]
  · show Real.sqrt _ ≠ 0
    rw [Real.sqrt_ne_zero'] ; norm_num [Vec3.normSq, Vec3.dot, Mat3.col2]

/-! ### C14 -/

/-- **C14 (panic).** -/
theorem C14_reciprocal_panics_iff (s : Structure ℝ) :
    (∃ m, s.reciprocalLattice = .panic m) ↔ s.volume = 0 := by
  unfold Structure.reciprocalLattice Structure.volume
  rw [← Mat3.tryInverse_eq_none_iff]
  split <;> simp_all

theorem reciprocal_eq {s : Structure ℝ} {r : Mat3 ℝ} (h : s.reciprocalLattice = .ret r) :
    ∃ i, s.lattice * i = 1 ∧ i * s.lattice = 1 ∧
      r = i.transpose.map fun e => 2 * Real.pi * e := by
  unfold Structure.reciprocalLattice at h
  split at h
  · exact absurd h (by simp)
  · rename_i inv hi
    rw [Mat3.tryInverse_eq_some_iff] at hi
    refine ⟨inv, hi, Mat3.mul_eq_one_comm' hi, ?_⟩
    simp only [Outcome.ret.injEq] at h
    rw [← h]
    have hpi : (FTrans.pi : ℝ) = Real.pi := rfl
    ext <;> simp only [Mat3.scale, Mat3.map, hpi] <;> push_cast <;> ring

/-- column `i` of a matrix. -/
def Mat3.colF {K : Type} (m : Mat3 K) : Fin 3 → Vec3 K
  | 0 => m.col0 | 1 => m.col1 | 2 => m.col2

/-- **C14 (duality).** -/
theorem C14_reciprocal_dual (s : Structure ℝ) (r : Mat3 ℝ) (h : s.reciprocalLattice = .ret r)
    (i j : Fin 3) : dotp (r.colF i) (s.lattice.colF j) = if i = j then 2 * Real.pi else 0 := by
  obtain ⟨inv, h1, h2, rfl⟩ := reciprocal_eq h
  have e := h2
  simp only [Mat3.ext_iff, Mat3.mul_m11, Mat3.mul_m12, Mat3.mul_m13, Mat3.mul_m21, Mat3.mul_m22,
    Mat3.mul_m23, Mat3.mul_m31, Mat3.mul_m32, Mat3.mul_m33, Mat3.one_m11, Mat3.one_m12, Mat3.one_m13,
    Mat3.one_m21, Mat3.one_m22, Mat3.one_m23, Mat3.one_m31, Mat3.one_m32, Mat3.one_m33] at e
  obtain ⟨e11, e12, e13, e21, e22, e23, e31, e32, e33⟩ := e
  fin_cases i <;> fin_cases j <;>
    simp [Mat3.colF, dotp, Mat3.map, Mat3.transpose, Mat3.col0, Mat3.col1, Mat3.col2]
  · linear_combination (2 * Real.pi) * e11
  · linear_combination (2 * Real.pi) * e12
  · linear_combination (2 * Real.pi) * e13
  · linear_combination (2 * Real.pi) * e21
  · linear_combination (2 * Real.pi) * e22
  · linear_combination (2 * Real.pi) * e23
  · linear_combination (2 * Real.pi) * e31
  · linear_combination (2 * Real.pi) * e32
  · linear_combination (2 * Real.pi) * e33

/-- **C14 (volume).** -/
theorem C14_reciprocal_volume (s : Structure ℝ) (r : Mat3 ℝ) (h : s.reciprocalLattice = .ret r) :
    r.det * s.volume = (2 * Real.pi) ^ 3 := by
  obtain ⟨inv, h1, h2, rfl⟩ := reciprocal_eq h
  have e := congrArg Mat3.det h2
  rw [Mat3.det_mul, Mat3.det_one] at e
  have : (inv.transpose.map fun e => 2 * Real.pi * e).det = (2 * Real.pi) ^ 3 * inv.det := by
    simp only [Mat3.det, Mat3.map, Mat3.transpose]; ring
  rw [this, Structure.volume]
  linear_combination (2 * Real.pi) ^ 3 * e

/-- **C14 (involution).** -/
theorem C14_reciprocal_involutive (s t : Structure ℝ) (h : s.reciprocalLattice = .ret t.lattice) :
    t.reciprocalLattice = .ret s.lattice := by
  obtain ⟨inv, h1, h2, h3⟩ := reciprocal_eq h
  have hpi := Real.pi_ne_zero
  have hi : t.lattice.tryInverse = some (s.lattice.transpose.map fun e => e / (2 * Real.pi)) := by
    rw [Mat3.tryInverse_eq_some_iff, h3]
    have e := congrArg Mat3.transpose h1
    rw [Mat3.transpose_mul] at e
    have : (inv.transpose.map fun e => 2 * Real.pi * e)
        * (s.lattice.transpose.map fun e => e / (2 * Real.pi))
        = inv.transpose * s.lattice.transpose := by
      ext <;> simp [Mat3.map, Mat3.transpose] <;> field_simp
    rw [this, e]; rfl
  unfold Structure.reciprocalLattice
  rw [hi]
  simp only [Outcome.ret.injEq]
  have hpi' : (FTrans.pi : ℝ) = Real.pi := rfl
  ext <;> simp only [Mat3.scale, Mat3.map, Mat3.transpose, hpi'] <;> push_cast <;> field_simp

/-- C14 applies to a real cell: its reciprocal exists. -/
example : ∃ r, (⟨⟨3, 0, -1, 0, 4, 0, 0, 0, 2⟩, [], [], []⟩ : Structure ℝ).reciprocalLattice = .ret r := by
  have : (⟨3, 0, -1, 0, 4, 0, 0, 0, 2⟩ : Mat3 ℝ).tryInverse = some
      ⟨1 / 3, 0, 1 / 6, 0, 1 / 4, 0, 0, 0, 1 / 2⟩ := by
    rw [Mat3.tryInverse_eq_some_iff]; ext <;> norm_num
  unfold Structure.reciprocalLattice
  rw [this]
  exact ⟨_, rfl⟩

/-! ### C15 -/

/-- **C15.** -/
theorem C15_get_transformation_matrix (s s' : Structure ℝ) (h : SvAbove s.lattice) :
    s.lattice * s.getTransformationMatrix s' = s'.lattice := by
  unfold Structure.getTransformationMatrix
  rw [← mul_assoc, mul_pinv h, one_mul]

theorem applyTransformation_lattice {K : Type} [Add K] [Sub K] [Mul K] [Div K] [Neg K] [Zero K] [One K]
    [IntCast K] [LT K] [LE K] [DecidableLT K] [DecidableLE K] [BEq K] [FRound K] [FTrans K]
    {fuel : ℕ} {s s' : Structure K} {t : Mat3 K} {posTol : K}
    (h : s.applyTransformation fuel t posTol = .ret s') : s'.lattice = s.lattice * t := by
  unfold Structure.applyTransformation at h
  simp only at h
  split at h
  · exact absurd h (by simp)
  · rw [Outcome.bind_eq_ret] at h
    obtain ⟨f, -, h⟩ := h
    rw [Outcome.ret.injEq] at h
    rw [← h]; rfl

/-- **C15.** After a transformation by `T`, the transformation matrix is `T`. -/
theorem C15_recovers_transformation (fuel : ℕ) (s s' : Structure ℝ) (t : Mat3 ℝ) (posTol : ℝ)
    (hs : SvAbove s.lattice) (h : s.applyTransformation fuel t posTol = .ret s') :
    s.getTransformationMatrix s' = t := by
  unfold Structure.getTransformationMatrix
  rw [applyTransformation_lattice h, ← mul_assoc, pinv_mul hs, one_mul]

/-! ### C21 -/

/-- **C21.** -/
theorem C21_delaunay_matrix_closes {K : Type} [CommRing K] (s : Structure K) :
    s.delaunayMatrix 0 + s.delaunayMatrix 1 + s.delaunayMatrix 2 + s.delaunayMatrix 3 = 0 ∧
    s.delaunayMatrix 0 = s.lattice.col0 ∧ s.delaunayMatrix 1 = s.lattice.col1 ∧
    s.delaunayMatrix 2 = s.lattice.col2 := by
  refine ⟨?_, rfl, rfl, rfl⟩
  ext <;> simp [Structure.delaunayMatrix, Vec3.scale]

example : (⟨⟨3, 0, -1, 0, 4, 0, 0, 0, 2⟩, [], [], []⟩ : Structure ℚ).delaunayMatrix 3 = ⟨-2, -4, -2⟩ := by
  decide +kernel

end CrystSymm
