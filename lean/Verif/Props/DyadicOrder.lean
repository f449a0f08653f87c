import Verif.Props.DyadicCubes
import Verif.Props.RockSalt
import Verif.Props.AtomOrder

set_option autoImplicit false
set_option linter.unusedSectionVars false

/-! # The order of the atoms matters in double arithmetic -/

namespace CrystSymm

open Spec Reducer

section
variable {ρ : Rounding}

/-- a lattice in a plane has a pseudo-inverse that ignores the third direction. -/
theorem pinv_plane {L : Mat3 (RNum ρ)} (h1 : L.m31 = 0) (h2 : L.m32 = 0) (h3 : L.m33 = 0) :
    (FTrans.pinv L : Mat3 (RNum ρ)).m13 = 0 ∧ (FTrans.pinv L : Mat3 (RNum ρ)).m23 = 0 ∧ (FTrans.pinv L : Mat3 (RNum ρ)).m33 = 0 := by
  have key : ∀ i : Fin 3, pinvMatrix (1 / 1000000) (valM L).toMatrix i 2 = 0 := by
    intro i
    unfold pinvMatrix
    rw [Matrix.mul_apply, Fin.sum_univ_three]
    have e : ∀ j : Fin 3, (valM L).toMatrix.conjTranspose j 2 = 0 := by
      intro j
      rw [Matrix.conjTranspose_apply]
      have : (valM L).toMatrix 2 j = 0 := by
        fin_cases j
        · show (L.m31).val = 0; rw [h1, RNum.val_zero]
        · show (L.m32).val = 0; rw [h2, RNum.val_zero]
        · show (L.m33).val = 0; rw [h3, RNum.val_zero]
      rw [this, star_zero]
    rw [e, e, e, mul_zero, mul_zero, mul_zero, add_zero, add_zero]
  have r : ∀ i : Fin 3, (RNum.round (pinvMatrix (1 / 1000000) (valM L).toMatrix i 2) : RNum ρ) = 0 := fun i => by rw [key i]; rfl
  exact ⟨r 0, r 1, r 2⟩

theorem third_column_mul (A : Mat3 (RNum ρ)) {B : Mat3 (RNum ρ)} (h : B.m13 = 0 ∧ B.m23 = 0 ∧ B.m33 = 0) :
    (A * B).m13 = 0 ∧ (A * B).m23 = 0 ∧ (A * B).m33 = 0 := by
  obtain ⟨h1, h2, h3⟩ := h
  refine ⟨?_, ?_, ?_⟩
  · show A.m11 * B.m13 + A.m12 * B.m23 + A.m13 * B.m33 = 0
    rw [h1, h2, h3]; simp only [RNum.mul_zero', RNum.add_zero']
  · show A.m21 * B.m13 + A.m22 * B.m23 + A.m23 * B.m33 = 0
    rw [h1, h2, h3]; simp only [RNum.mul_zero', RNum.add_zero']
  · show A.m31 * B.m13 + A.m32 * B.m23 + A.m33 * B.m33 = 0
    rw [h1, h2, h3]; simp only [RNum.mul_zero', RNum.add_zero']

theorem third_column_inverse {A : Mat3 (RNum ρ)} (h : A.m13 = 0 ∧ A.m23 = 0 ∧ A.m33 = 0) : A.tryInverse = none := by
  obtain ⟨h1, h2, h3⟩ := h
  have : A.det = 0 := by
    unfold Mat3.det
    rw [h1, h2, h3]
    simp only [RNum.mul_zero', RNum.zero_mul', RNum.sub_zero', RNum.add_zero']
  unfold Mat3.tryInverse
  rw [this, if_pos]
  show decide ((0 : RNum ρ).val = (0 : RNum ρ).val) = true
  simp

/-- **C103 (no answer).** If the primitive cell found in rounded arithmetic lies in the plane of the first two axes of a box, no
space group is reported. -/
theorem C103_no_answer (sa : SymmetryAnalyzer (RNum ρ)) (h : HashOrders (RNum ρ)) (fuel : ℕ) (s prim : Structure (RNum ρ)) (a b c : RNum ρ)
    (hs : s.lattice = rbox a b c) (hp : sa.reducer.findPrimitiveCell h.minEle s = .ret prim)
    (h0 : prim.lattice.m31 = 0 ∧ prim.lattice.m32 = 0 ∧ prim.lattice.m33 = 0) : ∀ res, sa.getSpaceGroupInfo h fuel s ≠ .ret res := by
  intro res hr
  unfold SymmetryAnalyzer.getSpaceGroupInfo at hr
  simp only [Outcome.bind_eq_ret] at hr
  obtain ⟨prim', h1, nig, h2, ⟨T, ch⟩, h3, conv, h4, ⟨P, bravais⟩, h5, sp, h6, gens, h7, sg, h8, system, h9, ident, h10,
    ⟨num', sym'⟩, h11, invP, h12, invT, h13, ops', h14, hfin⟩ := hr
  rw [hp] at h1
  obtain rfl := Outcome.ret.inj h1
  have hz : (prim.getTransformationMatrix s).m13 = 0 ∧ (prim.getTransformationMatrix s).m23 = 0 ∧ (prim.getTransformationMatrix s).m33 = 0 := by
    obtain ⟨p1, p2, p3⟩ := pinv_plane h0.1 h0.2.1 h0.2.2
    unfold Structure.getTransformationMatrix
    rw [hs]
    generalize (FTrans.pinv prim.lattice : Mat3 (RNum ρ)) = Q at *
    refine ⟨?_, ?_, ?_⟩
    · show Q.m11 * 0 + Q.m12 * 0 + Q.m13 * c = 0
      rw [p1]; simp only [RNum.mul_zero', RNum.zero_mul', RNum.add_zero']
    · show Q.m21 * 0 + Q.m22 * 0 + Q.m23 * c = 0
      rw [p2]; simp only [RNum.mul_zero', RNum.zero_mul', RNum.add_zero']
    · show Q.m31 * 0 + Q.m32 * 0 + Q.m33 * c = 0
      rw [p3]; simp only [RNum.mul_zero', RNum.zero_mul', RNum.add_zero']
  unfold SpaceGroup.applyTransformation at h14
  rw [third_column_inverse (third_column_mul _ hz)] at h14
  exact absurd h14 (by simp)

end

/-- four iron atoms in a cube of edge 8, in two orders. -/
def fourAtoms : List (String × Vec3 ℤ) := [("Fe", 0), ("Fe", ⟨1, 0, 0⟩), ("Fe", ⟨0, 1, 0⟩), ("Fe", ⟨1, 1, 0⟩)]
def fourAtoms' : List (String × Vec3 ℤ) := [("Fe", 0), ("Fe", ⟨0, 1, 0⟩), ("Fe", ⟨1, 0, 0⟩), ("Fe", ⟨1, 1, 0⟩)]

theorem cube64 : DyadicCube binary64 4 128 := dyadicCube64 (k := 3) (by norm_num) (by norm_num)

theorem four_base {l : List (String × Vec3 ℤ)} (h : ∀ e ∈ l.map Prod.fst, e = "Fe") :
    ∀ e' ∈ l.map Prod.fst, (∀ k ∈ l.map Prod.fst, (l.map Prod.fst).count e' < (l.map Prod.fst).count k ∨
      ((l.map Prod.fst).count e' = (l.map Prod.fst).count k ∧ e' ≤ k)) → e' = "Fe" := fun e' he' _ => h e' he'

/-- **C103 (the order of the atoms in double arithmetic).** Four iron atoms at 0, (1/2,0,0), (0,1/2,0) and (1/2,1/2,0) in a cube of edge 8,
computed with doubles: in this order the primitive cell 4 x 4 x 8 is found. With the second and the third atom exchanged the lattice
that is returned has two columns that are exactly zero, and a space group is never reported. -/
theorem C103_false_atom_order (sa : SymmetryAnalyzer (RNum binary64)) (h : HashOrders (RNum binary64)) (hv : h.Valid)
    (hd : 0 ≤ sa.dtol.val ∧ sa.dtol.val ≤ 1 / 4) :
    (∃ p, sa.reducer.findPrimitiveCell h.minEle (cubeOf binary64 4 fourAtoms) = .ret p ∧ valM p.lattice = ⟨4, 0, 0, 0, 4, 0, 0, 0, 8⟩) ∧
    (∃ p, sa.reducer.findPrimitiveCell h.minEle (cubeOf binary64 4 fourAtoms') = .ret p ∧ valM p.lattice = ⟨0, 0, 0, 0, 0, 4, 0, 0, 0⟩) ∧
    ∀ fuel res, sa.getSpaceGroupInfo h fuel (cubeOf binary64 4 fourAtoms') ≠ .ret res := by
  obtain ⟨p, a1, a2⟩ := cube_primitive cube64 (r := sa.reducer) hv.minEle (l := fourAtoms) hd.1 hd.2 (by decide) (by decide) (by decide)
    "Fe" 0 0 (four_base (by decide)) (by decide) (by decide) (f := ⟨1, 0, 0⟩) (g := ⟨0, 1, 0⟩) (k := ⟨0, 0, 2⟩) (by decide +kernel)
  obtain ⟨q, b1, b2⟩ := cube_primitive cube64 (r := sa.reducer) hv.minEle (l := fourAtoms') hd.1 hd.2 (by decide) (by decide) (by decide)
    "Fe" 0 0 (four_base (by decide)) (by decide) (by decide) (f := 0) (g := 0) (k := ⟨0, 1, 0⟩) (by decide +kernel)
  have hcol : ∀ u v w : Vec3 ℤ, Fits u → Fits v → Fits w → valM (Mat3.ofCols (dyv (1024 * 4) u) (dyv (1024 * 4) v) (dyv (1024 * 4) w) : Mat3 (RNum binary64)) =
      Mat3.ofCols (cubicVec 4 u) (cubicVec 4 v) (cubicVec 4 w) := by
    intro u v w hu hv hw
    have e : (4 : ℝ) = ((4 : ℤ) : ℝ) := by norm_num
    rw [e, ← valV_cart cube64 hu, ← valV_cart cube64 hv, ← valV_cart cube64 hw]
    rfl
  refine ⟨⟨p, a1, ?_⟩, ⟨q, b1, ?_⟩, fun fuel => ?_⟩
  · rw [a2, hcol _ _ _ (by decide) (by decide) (by decide)]
    ext <;> norm_num [Mat3.ofCols, cubicVec]
  · rw [b2, hcol _ _ _ (by decide) (by decide) (by decide)]
    ext <;> norm_num [Mat3.ofCols, cubicVec]
  · refine C103_no_answer sa h fuel _ q _ _ _ (cubeOf_lattice _) b1 ?_
    rw [b2]
    have e : (dy (1024 * 4 * 0) : RNum binary64) = 0 := by rw [mul_zero, dy_zero]
    exact ⟨e, e, e⟩

/-! ## Examples -/

/-- what the two inputs are: the edges and the coordinates as numbers. -/
example : valM (cubeOf binary64 4 fourAtoms').lattice = ⟨8, 0, 0, 0, 8, 0, 0, 0, 8⟩ ∧
    (cubeOf binary64 4 fourAtoms').fracCoords.map valV = [⟨0, 0, 0⟩, ⟨0, 1 / 2, 0⟩, ⟨1 / 2, 0, 0⟩, ⟨1 / 2, 1 / 2, 0⟩] ∧
    (cubeOf binary64 4 fourAtoms').species = ["Fe", "Fe", "Fe", "Fe"] := by
  refine ⟨?_, ?_, rfl⟩
  · rw [cubeOf_lattice, valM_rbox, val_dy cube64.exact (by norm_num)]
    ext <;> norm_num
  · rw [cubeOf_frac]
    simp only [fourAtoms', List.map_cons, List.map_nil]
    rw [valV_half cube64 (by decide), valV_half cube64 (by decide), valV_half cube64 (by decide), valV_half cube64 (by decide)]
    simp [halfVec]

/-- the default tolerance 5/100 in doubles. -/
theorem default_dtol64 : 0 ≤ (lit 5 / lit 100 : RNum binary64).val ∧ (lit 5 / lit 100 : RNum binary64).val ≤ 1 / 4 := by
  have l5 : (lit 5 : RNum binary64).val = 5 := by
    show binary64.fl ((5 : ℤ) : ℝ) = 5
    rw [fl_int cube64 (by norm_num)]; norm_num
  have l100 : (lit 100 : RNum binary64).val = 100 := by
    show binary64.fl ((100 : ℤ) : ℝ) = 100
    rw [fl_int cube64 (by norm_num)]; norm_num
  rw [RNum.val_div, l5, l100]
  constructor
  · rw [← fl_zero binary64]; exact binary64.mono _ _ (by norm_num)
  · have := fl_quarter cube64 (n := 1) (by norm_num)
    rw [Int.cast_one] at this
    rw [← this]; exact binary64.mono _ _ (by norm_num)

/-- with the default settings, in doubles, the second list has no space group. -/
example (h : HashOrders (RNum binary64)) (hv : h.Valid) (fuel : ℕ) (res : ℕ × String × List (SymmOp (RNum binary64))) :
    (⟨lit 5 / lit 100, lit 5⟩ : SymmetryAnalyzer (RNum binary64)).getSpaceGroupInfo h fuel (cubeOf binary64 4 fourAtoms') ≠ .ret res :=
  (C103_false_atom_order _ h hv default_dtol64).2.2 fuel res

theorem cube_same_values {l : List (String × Vec3 ℤ)} (hl : ∀ p ∈ l, UnitCoords p.2) : SameValues (cubeOf binary64 4 l) (cubicCell 4 l) where
  lattice := by
    rw [cubeOf_lattice, valM_rbox, val_dy cube64.exact (by norm_num), cubicCell_lattice]
    norm_num
  species := rfl
  frac := by
    rw [cubeOf_frac, cubicCell_frac, List.map_map]
    exact List.map_congr_left fun p hp => valV_half cube64 (unit_fits (hl p hp))

/-- rock salt with an edge of 8, in doubles: the three vectors to the centres of the faces, exactly as in exact arithmetic. -/
example : ∃ p p', (⟨lit 5 / lit 100, lit 5⟩ : Reducer (RNum binary64)).findPrimitiveCell id (cubeOf binary64 4 rockSaltAtoms) = .ret p ∧
    (⟨1 / 20, 5⟩ : Reducer ℝ).findPrimitiveCell List.reverse (cubicCell 4 rockSaltAtoms) = .ret p' ∧ valM p.lattice = p'.lattice := by
  refine C103_double _ _ id List.reverse (fun _ => List.Perm.refl _) List.reverse_perm default_dtol64 (by norm_num) 3 (by norm_num) _ _
    (cube_same_values (by decide)) ?_
  refine ⟨?_, by simp [cubicCell_species, cubicCell_frac], by decide, by decide, ?_⟩
  · rw [cubicCell_lattice]; norm_num
  · intro v hv
    rw [cubicCell_frac] at hv
    simp only [rockSaltAtoms, List.map_cons, List.map_nil, List.mem_cons, List.not_mem_nil, or_false] at hv
    rcases hv with rfl | rfl | rfl | rfl | rfl | rfl | rfl | rfl <;> simp [halfVec]

end CrystSymm
