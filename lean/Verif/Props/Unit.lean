import Verif.Props.Rotate

set_option autoImplicit false
set_option linter.unusedSectionVars false

/-! # C73: the unit of length -/

namespace CrystSymm

open Spec Structure Reducer SymmetryAnalyzer

variable {q : ℝ}

theorem unit_mulVec (L : Mat3 ℝ) (v : Vec3 ℝ) : L.scale q * v = Vec3.scale q (L * v) := by
  ext <;> simp [Mat3.scale, Mat3.map, Vec3.scale] <;> ring

theorem unit_mul (L T : Mat3 ℝ) : L.scale q * T = (L * T).scale q := by
  ext <;> simp [Mat3.scale, Mat3.map] <;> ring

theorem unit_mag (hq : 0 < q) (v : Vec3 ℝ) : (Vec3.scale q v).mag = q * v.mag := by
  rw [mag_eq, mag_eq, show lenSq (Vec3.scale q v) = q ^ 2 * lenSq v by simp [lenSq, Vec3.scale]; ring,
    Real.sqrt_mul (sq_nonneg q), Real.sqrt_sq hq.le]

theorem unit_col0 (L : Mat3 ℝ) : (L.scale q).col0 = Vec3.scale q L.col0 := by ext <;> simp [Mat3.scale, Mat3.map, Vec3.scale, Mat3.col0, mul_comm]
theorem unit_col1 (L : Mat3 ℝ) : (L.scale q).col1 = Vec3.scale q L.col1 := by ext <;> simp [Mat3.scale, Mat3.map, Vec3.scale, Mat3.col1, mul_comm]
theorem unit_col2 (L : Mat3 ℝ) : (L.scale q).col2 = Vec3.scale q L.col2 := by ext <;> simp [Mat3.scale, Mat3.map, Vec3.scale, Mat3.col2, mul_comm]

theorem unit_tols (hq : 0 < q) (L : Mat3 ℝ) (d : ℝ) : fracTols (L.scale q) (q * d) = fracTols L d := by
  unfold fracTols
  rw [unit_col0, unit_col1, unit_col2, unit_mag hq, unit_mag hq, unit_mag hq, mul_div_mul_left _ _ hq.ne',
    mul_div_mul_left _ _ hq.ne', mul_div_mul_left _ _ hq.ne']

theorem unit_cart (L : Mat3 ℝ) (l : List (Vec3 ℝ)) :
    getCartCoords (L.scale q) l = (getCartCoords L l).map (fun x : Vec3 ℝ => Vec3.scale q x) := by
  unfold getCartCoords
  rw [List.map_map]
  exact List.map_congr_left fun v _ => unit_mulVec L v

theorem unit_coincide (hq : 0 < q) (L : Mat3 ℝ) (tols : Vec3 ℝ) (d : ℝ) (x y : Vec3 ℝ) :
    sitesCoincide (L.scale q) tols (q * d) x y = sitesCoincide L tols d x y := by
  unfold sitesCoincide
  simp only [unit_mulVec, unit_mag hq]
  apply decide_eq_decide.2
  show |q * _| ≤ q * d * _ ↔ |_| ≤ d * _
  rw [abs_mul, abs_of_pos hq, mul_assoc]
  exact mul_le_mul_iff_right₀ hq

theorem unit_addSite (hq : 0 < q) (L : Mat3 ℝ) (tols : Vec3 ℝ) (d : ℝ) : addSite (L.scale q) tols (q * d) = addSite L tols d := by
  funext found x e
  unfold addSite
  simp only [unit_coincide hq]

theorem unit_normalize (hq : 0 < q) (s : Structure ℝ) (d : ℝ) :
    (inUnit q s).normalizeCoords (q * d) = inUnit q (s.normalizeCoords d) := by
  unfold Structure.normalizeCoords inUnit
  simp only [unit_tols hq]
  set frac := normalizeFracVectors s.fracCoords (fracTols s.lattice d)
  set f : String × Vec3 ℝ × Vec3 ℝ → String × Vec3 ℝ × Vec3 ℝ := fun t => (t.1, Vec3.scale q t.2.1, t.2.2) with hf
  have e1 : s.species.zip ((getCartCoords (s.lattice.scale q) frac).zip frac)
      = (s.species.zip ((getCartCoords s.lattice frac).zip frac)).map f := by
    rw [unit_cart, zip_map_left', List.zip_map_right]
    rfl
  have e2 : sortBySpecies ((s.species.zip ((getCartCoords s.lattice frac).zip frac)).map f)
      = (sortBySpecies (s.species.zip ((getCartCoords s.lattice frac).zip frac))).map f := by
    unfold sortBySpecies
    rw [← List.map_mergeSort]
    intro a _ b _
    rfl
  rw [e1, e2]
  simp [hf, List.map_map, Function.comp_def]

theorem unit_searchLoop (hq : 0 < q) (L : Mat3 ℝ) (tols : Vec3 ℝ) (d : ℝ) (T : Mat3 ℝ) (ratio : ℝ) (total : ℕ)
    (sites : List (Vec3 ℝ × String)) (fuel mult : ℕ) (found : List (Vec3 ℝ × String)) :
    searchLoop (L.scale q) tols (q * d) T ratio total sites fuel mult found
      = searchLoop L tols d T ratio total sites fuel mult found := by
  have hp : ∀ mult found, searchPass (L.scale q) tols (q * d) T mult sites found = searchPass L tols d T mult sites found := by
    intro mult found
    unfold searchPass
    simp only [unit_addSite hq]
  induction fuel generalizing mult found with
  | zero => rfl
  | succ fuel ih => simp only [searchLoop, hp, ih]

/-- the analyzer with its distance tolerance in the other unit. -/
def analyzerInUnit (q : ℝ) (sa : SymmetryAnalyzer ℝ) : SymmetryAnalyzer ℝ := ⟨q * sa.dtol, sa.atol⟩

/-- **C73, partial.** Changing the unit of length (of the structure and of the distance tolerance alike) commutes with the
normalisation of the coordinates and with a change of basis, and the search for the operations of a cell gives the same operations. -/
theorem C73_unit_of_length_partial (hq : 0 < q) (sa : SymmetryAnalyzer ℝ) (h : HashOrders ℝ) (fuel : ℕ) (s : Structure ℝ) :
    (inUnit q s).normalizeCoords (analyzerInUnit q sa).dtol = inUnit q (s.normalizeCoords sa.dtol) ∧
    (∀ T, (inUnit q s).applyTransformation fuel T (analyzerInUnit q sa).dtol
      = (s.applyTransformation fuel T sa.dtol).bind fun p => .ret (inUnit q p)) ∧
    ∀ b, (analyzerInUnit q sa).getPrimitiveSpaceGroupOps h fuel (inUnit q s) b = sa.getPrimitiveSpaceGroupOps h fuel s b := by
  have hl : (inUnit q s).lattice = s.lattice.scale q := rfl
  have hsp : (inUnit q s).species = s.species := rfl
  have hfr : (inUnit q s).fracCoords = s.fracCoords := rfl
  have hn : (inUnit q s).numSites = s.numSites := rfl
  have hd : (analyzerInUnit q sa).dtol = q * sa.dtol := rfl
  have hmin : (inUnit q s).getMinElement h.minEle = s.getMinElement h.minEle := rfl
  refine ⟨unit_normalize hq _ _, fun T => ?_, fun b => ?_⟩
  · unfold applyTransformation
    have hco : (inUnit q s).coords.length = s.coords.length := List.length_map _
    simp only [hl, hsp, hfr, hco, hd, unit_tols hq, unit_searchLoop hq]
    cases T.tryInverse with
    | none => rfl
    | some T' =>
      simp only
      rw [bind_bind']
      refine bind_congr' fun F => ?_
      rw [unit_mul, unit_cart]
      exact congrArg Outcome.ret (unit_normalize hq
        ⟨s.lattice * T, F.map Prod.snd, getCartCoords (s.lattice * T) (F.map Prod.fst), F.map Prod.fst⟩ sa.dtol)
  · have hcs : ∀ L tols d, countStep h (L.scale q) tols (q * d) = countStep h L tols d := by
      intro L tols d
      funext st t
      unfold countStep bumpCount
      simp only [unit_coincide hq]
    have hops : ∀ L tols d n, opsForRotation h (L.scale q) tols (q * d) n = opsForRotation h L tols d n := by
      intro L tols d n
      funext p
      unfold opsForRotation
      rw [hcs]
    unfold getPrimitiveSpaceGroupOps
    simp only [hl, hfr, hn, hd, hmin, unit_tols hq, hops]

/-- one atom in a cell that is a little longer in one direction. -/
noncomputable def nearCube : Structure ℝ :=
  Structure.new ⟨10, 0, 0, 0, 10, 0, 0, 0, 10 + 1 / 250000⟩ ["A"] [0] false

theorem nearCube_inUnit : inUnit 100 nearCube = Structure.new ⟨1000, 0, 0, 0, 1000, 0, 0, 0, 1000 + 1 / 2500⟩ ["A"] [0] false := by
  unfold inUnit nearCube Structure.new getCartCoords
  simp [Mat3.scale, Mat3.map, Vec3.scale]
  norm_num
  ext <;> simp

/-- the tolerance of the lattice character of a cell with edges between `x` and `z`. -/
theorem eps_bounds {x y z : ℝ} (hx : 0 < x) (hxy : x ≤ y) (hyz : y ≤ z) :
    x / 100000 ≤ eps tol1em5 (x * y * z) ∧ eps tol1em5 (x * y * z) ≤ z / 100000 := by
  have hy : 0 < y := by linarith
  have hz : 0 < z := by linarith
  have cube : ∀ t : ℝ, 0 < t → (t ^ 3) ^ ((1 : ℝ) / 3) = t := by
    intro t ht
    rw [show t ^ 3 = t ^ (3 : ℝ) by norm_num, ← Real.rpow_mul ht.le]
    norm_num
  have h1 : x ^ 3 ≤ x * y * z := by
    have : x * x ≤ y * z := mul_le_mul hxy (hxy.trans hyz) hx.le hy.le
    nlinarith
  have h2 : x * y * z ≤ z ^ 3 := by
    have : x * y ≤ z * z := mul_le_mul (hxy.trans hyz) hyz hy.le hz.le
    nlinarith
  have r1 := Real.rpow_le_rpow (by positivity) h1 (show (0 : ℝ) ≤ 1 / 3 by norm_num)
  have r2 := Real.rpow_le_rpow (by positivity) h2 (show (0 : ℝ) ≤ 1 / 3 by norm_num)
  rw [cube x hx] at r1
  rw [cube z hz] at r2
  unfold eps
  rw [tol1em5_real]
  constructor <;> linarith

/-- **C73 is false of the code.** The same crystal with the same tolerance, once in one unit and once in a unit a hundred times
smaller, is reported with two different space groups (221 and 123): the tolerance of the lattice character is proportional to a length
but is compared with squares of lengths. -/
theorem C73_false_unit (h : HashOrders ℝ) (hv : h.Valid) (atol : ℝ) : ∃ N, ∀ fuel ≥ N,
    ∃ (sym sym' : String) (ops ops' : List (SymmOp ℝ)),
      (⟨1 / 20, atol⟩ : SymmetryAnalyzer ℝ).getSpaceGroupInfo h fuel nearCube = .ret (221, sym, ops) ∧
      (analyzerInUnit 100 ⟨1 / 20, atol⟩).getSpaceGroupInfo h fuel (inUnit 100 nearCube) = .ret (123, sym', ops') := by
  obtain ⟨N, hN⟩ := C56_right_angles (⟨1 / 20, atol⟩ : SymmetryAnalyzer ℝ) h hv nearCube "A" ⟨rfl, rfl⟩ 10 10 (10 + 1 / 250000) rfl
    le_rfl (by norm_num) (by norm_num) (by norm_num) (by norm_num) (by norm_num) (by norm_num)
  obtain ⟨N', hN'⟩ := C56_right_angles (analyzerInUnit 100 ⟨1 / 20, atol⟩) h hv (inUnit 100 nearCube) "A" ⟨rfl, rfl⟩ 1000 1000
    (1000 + 1 / 2500) (by rw [nearCube_inUnit]; rfl) le_rfl (by norm_num) (by norm_num [analyzerInUnit]) (by norm_num [analyzerInUnit])
    (by norm_num [analyzerInUnit]) (by norm_num [analyzerInUnit]) (by norm_num)
  refine ⟨max N N', fun fuel hf => ?_⟩
  obtain ⟨num, sym, ops, g1, g2, g3, -⟩ := hN fuel (le_trans (le_max_left _ _) hf)
  obtain ⟨num', sym', ops', g1', g2', g3', -⟩ := hN' fuel (le_trans (le_max_right _ _) hf)
  obtain ⟨b1, -⟩ := eps_bounds (x := 10) (y := 10) (z := 10 + 1 / 250000) (by norm_num) le_rfl (by norm_num)
  obtain ⟨b2, b3⟩ := eps_bounds (x := 1000) (y := 1000) (z := 1000 + 1 / 2500) (by norm_num) le_rfl (by norm_num)
  have c1 : |(10 : ℝ) ^ 2 - 10 ^ 2| ≤ eps tol1em5 (10 * 10 * (10 + 1 / 250000)) := by
    rw [sub_self, abs_zero]; linarith
  have c2 : |(10 : ℝ) ^ 2 - (10 + 1 / 250000) ^ 2| ≤ eps tol1em5 (10 * 10 * (10 + 1 / 250000)) := by
    rw [abs_le]
    constructor <;> linarith
  have c3 : |(1000 : ℝ) ^ 2 - 1000 ^ 2| ≤ eps tol1em5 (1000 * 1000 * (1000 + 1 / 2500)) := by
    rw [sub_self, abs_zero]; linarith
  have c4 : ¬ |(1000 : ℝ) ^ 2 - (1000 + 1 / 2500) ^ 2| ≤ eps tol1em5 (1000 * 1000 * (1000 + 1 / 2500)) := by
    rw [abs_le]
    rintro ⟨h1, -⟩
    linarith
  rw [if_pos ⟨c1, c2⟩, Prod.mk.injEq] at g3
  rw [if_neg (fun h => c4 h.2), if_pos (Or.inl c3), Prod.mk.injEq] at g3'
  obtain ⟨rfl, -⟩ := g3
  obtain ⟨rfl, -⟩ := g3'
  exact ⟨sym, sym', ops, ops', g1, g1'⟩

/-- the partial theorem applies to this crystal: the supercell of a doubled basis in the other unit. -/
example (fuel : ℕ) : (inUnit 100 nearCube).applyTransformation fuel ⟨2, 0, 0, 0, 1, 0, 0, 0, 1⟩ 5
    = (nearCube.applyTransformation fuel ⟨2, 0, 0, 0, 1, 0, 0, 0, 1⟩ (1 / 20)).bind fun p => .ret (inUnit 100 p) := by
  have := (C73_unit_of_length_partial (q := 100) (by norm_num) ⟨1 / 20, 5⟩ ⟨id, fun _ => id, id, id, fun _ => id, id⟩ fuel nearCube).2.1
    ⟨2, 0, 0, 0, 1, 0, 0, 0, 1⟩
  rw [← this]
  norm_num [analyzerInUnit]

end CrystSymm
