import Verif.Props.RockSalt
import Verif.Props.Salt
import Verif.Props.Copies
import Verif.Props.ShortestCell
import Verif.Props.CentredBoxes

set_option autoImplicit false
set_option linter.unusedSectionVars false

/-! # Further examples: rock salt, caesium chloride and silicon for C54, C76, C77, C79 and C80 -/

namespace CrystSymm

open Spec Reducer SymmetryAnalyzer NiggliCert PointGroup

/-- C54 for caesium chloride: the primitive cell found is spanned by vectors of length 4. -/
example (r : Reducer ℝ) (hr : r.dtol = 1 / 20) (ord : List (String × ℕ) → List (String × ℕ)) (ho : ∀ l, (ord l).Perm l) :
    ∃ s', r.findPrimitiveCell ord (saltCell 5) = .ret s' ∧ s'.lattice.col0.mag = 4 := by
  have hc : CleanInput (saltCell 5) r.dtol := by rw [hr]; exact salt_clean 5
  obtain ⟨s', a, b, c, h1, ha, -, -, hl, hv, -, -, hmin⟩ := C54_primitive_cell_vectors r ord ho (saltCell 5) hc.small hc.consistent.1
    hc.svAbove hc.primitive hc.tol hc.cols hc.volume hc.areas
  refine ⟨s', h1, ?_⟩
  have e0 : s'.lattice.col0 = (saltCell 5).lattice * castVec a := by rw [hl]; rfl
  rw [e0]
  apply le_antisymm
  · refine ((hmin ⟨1, 0, 0⟩ (by unfold SmallVec; decide) (by decide)).1).trans (le_of_eq ?_)
    rw [mag_eq, salt_lattice]
    have : lenSq ((⟨4, 0, 0, 0, 4, 0, 0, 0, 4⟩ : Mat3 ℝ) * castVec ⟨1, 0, 0⟩) = 4 ^ 2 := by
      norm_num [lenSq, castVec, Vec3.map]
    rw [this]
    exact Real.sqrt_sq (by norm_num)
  · have ha0 : castVec a ≠ 0 := by
      intro h0
      have : s'.volume = 0 := by
        unfold Structure.volume
        rw [hl, h0, Mat3.mulVec_zero]
        simp [Mat3.ofCols, Mat3.det]
      rw [this] at hv
      linarith [hc.tol]
    have := salt_long 5 (castVec a) ⟨a.x, a.y, a.z, rfl⟩ ha0
    rw [mag_eq]
    refine Real.le_sqrt_of_sq_le ?_
    exact this

section
variable {c : ℝ}

theorem rockSalt_shift {c : ℝ} {Q : Mat3 ℝ} {t : Vec3 ℝ} (h : CrystalSymmetry (refCell c faceBasis [("Na", 0), ("Cl", ⟨1, 1, 1⟩)]) Q t) :
    ∃ n : Vec3 ℤ, t = cubicVec c (faceBasis * n) := by
  have hd : 0 < faceBasis.det := by decide
  have h0 : AtomAt (refCell c faceBasis [("Na", 0), ("Cl", ⟨1, 1, 1⟩)]) "Na" 0 :=
    (refCell_atomAt hd).2 ⟨0, ⟨("Na", 0), by simp, rfl, 0, by decide⟩, (cubicVec_zero c).symm⟩
  have h1 := (h.2 "Na" 0).1 h0
  rw [Mat3.mulVec_zero, zero_add] at h1
  obtain ⟨m, ⟨p, hp, he, n, rfl⟩, rfl⟩ := (refCell_atomAt hd).1 h1
  have hp' : p = ("Na", 0) := by
    simp only [List.mem_cons, List.not_mem_nil, or_false] at hp
    rcases hp with rfl | rfl
    · rfl
    · exact absurd he (by decide)
  subst hp'
  exact ⟨n, by rw [zero_add]⟩

theorem rockSalt_grid (c : ℝ) : GridOrigin (refCell c faceBasis [("Na", 0), ("Cl", ⟨1, 1, 1⟩)]) := by
  intro Q t h
  obtain ⟨n, rfl⟩ := rockSalt_shift h
  refine ⟨Vec3.scale 12 (cubicVec 1 n), ⟨12 * n.x, 12 * n.y, 12 * n.z, by ext <;> simp [cubicVec, Vec3.scale]⟩, ?_⟩
  have e : (refCell c faceBasis [("Na", 0), ("Cl", ⟨1, 1, 1⟩)]).lattice = cubicLattice c faceBasis := rfl
  have e2 : cubicLattice c faceBasis * Vec3.scale 12 (cubicVec 1 n) = Vec3.scale 12 (cubicLattice c faceBasis * cubicVec 1 n) := by
    ext <;> simp [Vec3.scale] <;> ring
  rw [e, e2, cubicLattice_mulVec]

theorem commute_scalar {d : ℝ} (hd : d ≠ 0) {Q R : Mat3 ℝ} (h : Q * (⟨d, 0, 0, 0, d, 0, 0, 0, d⟩ : Mat3 ℝ) = (⟨d, 0, 0, 0, d, 0, 0, 0, d⟩ : Mat3 ℝ) * R) :
    Q = R := by
  have k : ∀ x y : ℝ, x * d = d * y → x = y := by
    intro x y hxy
    rw [mul_comm] at hxy
    exact mul_left_cancel₀ hd hxy
  rw [Mat3.ext_iff] at h ⊢
  simp only [Mat3.mul_m11, Mat3.mul_m12, Mat3.mul_m13, Mat3.mul_m21, Mat3.mul_m22, Mat3.mul_m23, Mat3.mul_m31, Mat3.mul_m32, Mat3.mul_m33,
    mul_zero, zero_mul, add_zero, zero_add] at h
  obtain ⟨h1, h2, h3, h4, h5, h6, h7, h8, h9⟩ := h
  exact ⟨k _ _ h1, k _ _ h2, k _ _ h3, k _ _ h4, k _ _ h5, k _ _ h6, k _ _ h7, k _ _ h8, k _ _ h9⟩

/-- C77 for rock salt in its usual cell, with edge `2 c`: whatever number the run returns, the operations returned contain, within the
tolerance and up to vectors of the cell, every symmetry of the cube combined with every translation between sodium atoms, and nothing else;
the number is that of the table that lists the symmetries. -/
theorem C77_rock_salt_operations (hc : 2 ≤ c) (hc' : c ≤ 1000) (h : HashOrders ℝ) (hv : h.Valid) (atol : ℝ) (fuel num : ℕ) (sym : String)
    (ops : List (SymmOp ℝ)) (hr : (⟨1 / 20, atol⟩ : SymmetryAnalyzer ℝ).getSpaceGroupInfo h fuel (cubicCell c rockSaltAtoms) = .ret (num, sym, ops)) :
    num = 225 ∧ sym = "Fm-3m" ∧
    (∀ (W : Mat3 ℤ) (m : Vec3 ℤ), OrthoInt W → (m.x + m.y + m.z) % 2 = 0 → ∃ o ∈ ops, castRot o.rotation = overK ℝ W ∧
      ∃ w : Vec3 ℤ, lenSq (Vec3.scale (2 * c) (o.translation - castVec w) - cubicVec c m) ≤ (1 / 20) ^ 2) ∧
    (∀ o ∈ ops, ∃ (W : Mat3 ℤ) (m : Vec3 ℤ), OrthoInt W ∧ (m.x + m.y + m.z) % 2 = 0 ∧ castRot o.rotation = overK ℝ W ∧
      lenSq (Vec3.scale (2 * c) o.translation - cubicVec c m) ≤ (1 / 20) ^ 2) := by
  obtain ⟨ops', N, hN⟩ := C77_rock_salt hc hc' h hv atol
  have hone := (C75_one_outcome ⟨1 / 20, atol⟩ h (cubicCell c rockSaltAtoms) fuel N).1 (by rw [hr]; simp) (by rw [hN N le_rfl]; simp)
  rw [hr, hN N le_rfl] at hone
  simp only [Outcome.ret.injEq, Prod.mk.injEq] at hone
  obtain ⟨prim, hp, hl⟩ := rockSalt_primitive (c := c) (by linarith) (⟨1 / 20, atol⟩ : SymmetryAnalyzer ℝ).reducer rfl h.minEle hv.minEle
  have hF : frobZ faceBasis = 6 := by decide
  have hD : faceBasis.det = 2 := by decide
  have c0 : 0 < c := by linarith
  have c1 : 1 ≤ c := by linarith
  have c2 : 4 ≤ c ^ 2 := by nlinarith
  have hcl : CleanInput (refCell c faceBasis [("Na", 0), ("Cl", ⟨1, 1, 1⟩)]) (1 / 20) :=
    cubic_clean c1 rockSalt_crystal (by rw [hF, hD]; push_cast; nlinarith) (by rw [hF]; norm_num)
  have hvp : 0 < (refCell c faceBasis [("Na", 0), ("Cl", ⟨1, 1, 1⟩)]).volume := by
    rw [refCell_volume, hD]; positivity
  have hvol : prim.volume = |(refCell c faceBasis [("Na", 0), ("Cl", ⟨1, 1, 1⟩)]).volume| := by
    rw [abs_of_pos hvp]
    unfold Structure.volume
    rw [hl]; rfl
  obtain ⟨g1, g2, -⟩ := C77_operations ⟨1 / 20, atol⟩ h hv fuel (cubicCell c rockSaltAtoms) (refCell c faceBasis [("Na", 0), ("Cl", ⟨1, 1, 1⟩)])
    prim hcl (cubic_cleanCell c1 rockSalt_crystal (by rw [hF]; push_cast; nlinarith)) hp hvol (by rw [hl]; exact le_rfl) (by
      obtain ⟨-, s1⟩ := cubic_size c1 rockSalt_crystal
      have : c ^ 2 ≤ 1000 ^ 2 := pow_le_pow_left₀ c0.le hc' 2
      rw [hF] at s1
      show _ ≤ (200000000 * (1 / 20 : ℝ)) ^ 2
      push_cast at s1
      nlinarith) (cubic_clear c1 hc' rockSalt_crystal) (cubic_resolved c0 rockSalt_crystal _) (rockSalt_grid c)
      (cubic_small c1 rockSalt_crystal hcl) num sym ops hr
  have hd2 : 2 * c ≠ 0 := by positivity
  have hmul : ∀ v : Vec3 ℝ, (cubicCell c rockSaltAtoms).lattice * v = Vec3.scale (2 * c) v := by
    intro v
    rw [cubicCell_lattice]
    ext <;> simp [Vec3.scale]
  refine ⟨hone.1, hone.2.1, fun W m hW hm => ?_, fun o ho => ?_⟩
  · obtain ⟨n, rfl⟩ := face_lattice.2 hm
    obtain ⟨o, ho, e, w, ⟨i, j, k, rfl⟩, hw⟩ := g2 _ _ (crystalSymmetry_congr (sameAtoms_symm (cubic_same rockSalt_crystal))
      (cubic_symmetry (c := c) rockSalt_crystal hW n))
    refine ⟨o, ho, (commute_scalar hd2 e).symm, ⟨i, j, k⟩, ?_⟩
    rw [hmul, hmul] at hw
    refine (le_of_eq ?_).trans hw
    congr 1
    ext <;> simp [Vec3.scale, castVec, Vec3.map] <;> ring
  · obtain ⟨Q, t, hs, e, ht⟩ := g1 o ho
    have hs' := crystalSymmetry_congr (cubic_same rockSalt_crystal) hs
    obtain ⟨W, hW, rfl⟩ := cubic_isometry c0 rockSalt_crystal hs'.1 (symmetry_mapsLattice (clean_primitiveCell hcl) hs')
    obtain ⟨n, rfl⟩ := rockSalt_shift hs'
    refine ⟨W, faceBasis * n, hW, face_lattice.1 ⟨n, rfl⟩, (commute_scalar hd2 e).symm, ?_⟩
    rw [← hmul]
    exact ht

end

/-- C80 for silicon: at one of the three origins of a cell `P` the group of the reflected crystal is found, with number 227. -/
example (h : HashOrders ℝ) (hv : h.Valid) (P : Mat3 ℝ) : ∃ w ∈ goodOrigins, ∀ (f' : ℕ) (s' p' : Structure ℝ),
    CleanCrystal ⟨1 / 20, 5⟩ h s' s' → Carries (overK ℝ swapXY) (P * w) (siCell (543 / 400) siBasis) s' →
    (⟨1 / 20, 5⟩ : SymmetryAnalyzer ℝ).getStandardPrimitiveStructure h f' s' = .ret p' → p'.lattice = P →
    ∃ sym' ops' N, ∀ fuel ≥ N, (⟨1 / 20, 5⟩ : SymmetryAnalyzer ℝ).getSpaceGroupInfo h fuel s' = .ret (227, sym', ops') := by
  obtain ⟨ops, N, hr⟩ := C78_silicon (u := 543 / 400) (by norm_num) (by norm_num) h hv 5
  obtain ⟨w, hw, hcopy⟩ := C80_copy_origin _ h hv N _ _ (si_crystal (by norm_num) (by norm_num) siBasis_ok hv 5) 227 _ ops (hr N le_rfl)
    (overK ℝ swapXY) (orthoInt_orthogonal swapXY_ok) P
  refine ⟨w, hw, fun f' s' p' hc hs hp hl => ?_⟩
  obtain ⟨sym', ops', N', hN⟩ := hcopy _ h f' s' s' p' 0 hv hc ⟨0, 0, 0, by ext <;> simp⟩ (by rw [add_zero]; exact hs) hp hl
  refine ⟨sym', ops', N', ?_⟩
  have e : copyNumber (overK ℝ swapXY) 227 = 227 := by
    unfold copyNumber
    split
    · rfl
    · decide
  rw [e] at hN
  exact hN

/-- C79 for a cell centred on the face of `b` and `c`: the edges 5, 3 and 4 give a cell without volume, the edges 3, 5 and 4 a primitive one. -/
example (r : Reducer ℝ) (hd : r.dtol = 1 / 20) :
    (∃ s', r.findPrimitiveCell id (metalCell (box 5 3 4) 2 [⟨0, 1, 1⟩]) = .ret s' ∧ s'.volume = 0) ∧
    ∃ s', r.findPrimitiveCell id (metalCell (box 3 5 4) 2 [⟨0, 1, 1⟩]) = .ret s' ∧
      SpansTranslations (metalCell (box 3 5 4) 2 [⟨0, 1, 1⟩]) s' := by
  constructor
  · have hcell := box_centred (a := 5) (b := 3) (c := 4) (hs := [⟨0, 1, 1⟩]) (d := r.dtol) (by unfold GridVecs; decide) (by simp)
      (by decide) (by rw [hd]; norm_num) (by norm_num) (by norm_num) (by norm_num)
    obtain ⟨s', e, k, -⟩ := C79_base_centred_a r id (fun _ => List.Perm.refl _) hcell
    obtain ⟨ea, eb, ec⟩ := box_lengths (a := 5) (b := 3) (c := 4) (N := 2) (hs := [⟨0, 1, 1⟩]) (by norm_num) (by norm_num) (by norm_num)
    rw [ea, eb, ec, box_reach] at k
    refine ⟨s', e, k ⟨?_, by norm_num, by norm_num, Or.inl (by norm_num)⟩⟩
    rw [Real.sqrt_lt' (by norm_num)]
    norm_num
  · have hcell := box_centred (a := 3) (b := 5) (c := 4) (hs := [⟨0, 1, 1⟩]) (d := r.dtol) (by unfold GridVecs; decide) (by simp)
      (by decide) (by rw [hd]; norm_num) (by norm_num) (by norm_num) (by norm_num)
    obtain ⟨s', e, -, k⟩ := C79_base_centred_a r id (fun _ => List.Perm.refl _) hcell
    obtain ⟨ea, eb, ec⟩ := box_lengths (a := 3) (b := 5) (c := 4) (N := 2) (hs := [⟨0, 1, 1⟩]) (by norm_num) (by norm_num) (by norm_num)
    rw [ea, eb, ec] at k
    exact ⟨s', e, (k (fun h => absurd h.2.1 (by norm_num))).1⟩

/-- C79 for a hexagonal cell with the edges 4 and 10, one atom per lattice point and the reverse rhombohedral centring. -/
example (r : Reducer ℝ) (hd : r.dtol = 1 / 20) : ∃ s', r.findPrimitiveCell id (metalCell (hexBox 4 10) 3 [⟨1, 2, 1⟩, ⟨2, 1, 2⟩]) = .ret s' ∧
    SpansTranslations (metalCell (hexBox 4 10) 3 [⟨1, 2, 1⟩, ⟨2, 1, 2⟩]) s' := by
  have h3 : √3 * √3 = (3 : ℝ) := Real.mul_self_sqrt (by norm_num)
  have h3' : (17 : ℝ) / 10 < √3 := by rw [Real.lt_sqrt (by norm_num)]; norm_num
  have l0 : lenSq (hexBox 4 10).col0 = 16 := by norm_num [lenSq, hexBox, Mat3.col0]
  have l1 : lenSq (hexBox 4 10).col1 = 16 := by simp only [lenSq, hexBox, Mat3.col1]; linear_combination 4 * h3
  have l2 : lenSq (hexBox 4 10).col2 = 100 := by norm_num [lenSq, hexBox, Mat3.col2]
  have hdet : (hexBox 4 10).det = 80 * √3 := by simp only [hexBox, Mat3.det]; ring
  have hlen : ∀ {v : Vec3 ℝ} {q : ℝ}, lenSq v = q → 1 < q → 3 * r.dtol < v.mag := by
    intro v q e hq
    rw [mag_eq, e, hd, Real.lt_sqrt (by norm_num)]
    linarith
  have hcell : CentredCell (metalCell (hexBox 4 10) 3 [⟨1, 2, 1⟩, ⟨2, 1, 2⟩]) 3 [⟨1, 2, 1⟩, ⟨2, 1, 2⟩] r.dtol := by
    refine metal_centred (by unfold GridVecs; decide) (by simp) (by decide) (by rw [hd]; norm_num) ?_ ?_ ?_ ?_
    · exact ⟨by exact_mod_cast hlen l0 (by norm_num), by exact_mod_cast hlen l1 (by norm_num), by exact_mod_cast hlen l2 (by norm_num)⟩
    · rw [hdet, frob, l0, l1, l2]; nlinarith
    · rw [hdet, frob, l0, l1, l2, hd]; push_cast; nlinarith
    · rw [hdet, hd]; push_cast; linarith
  obtain ⟨s', e, k, -⟩ := C79_rhombohedral_reverse r id (fun _ => List.Perm.refl _) hcell
    ⟨l1.trans l0.symm, by rw [show lenSq (metalCell (hexBox 4 10) 3 [⟨1, 2, 1⟩, ⟨2, 1, 2⟩]).lattice.col0 = 16 from l0]
                          norm_num [metalCell, Structure.new, dotp, hexBox, Mat3.col0, Mat3.col1],
      by norm_num [metalCell, Structure.new, dotp, hexBox, Mat3.col0, Mat3.col2],
      by norm_num [metalCell, Structure.new, dotp, hexBox, Mat3.col1, Mat3.col2]⟩
  exact ⟨s', e, k⟩

end CrystSymm
