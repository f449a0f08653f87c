import Verif.Props.Settings
import Verif.Props.RockSalt

set_option autoImplicit false
set_option linter.unusedSectionVars false

/-! # C78: the choice of the axes matters for the diamond structure -/

namespace CrystSymm

open Spec Reducer SymmetryAnalyzer PointGroup

/-- the primitive cell of a clean input, from the two selections of shortest vectors. -/
theorem clean_primitive_steps {r : Reducer ℝ} {ord : List (String × ℕ) → List (String × ℕ)} (ho : ∀ l, (ord l).Perm l)
    {s : Structure ℝ} (hc : CleanInput s r.dtol) {x y z f1 f2 f3 : Vec3 ℝ}
    (h1 : getShortestTranslationVecs r.dtol [s.lattice.col0, s.lattice.col1, s.lattice.col2] = .ret (x, y, z))
    (h2 : getShortestTranslationVecs r.dtol (Structure.getCartCoords s.lattice (combinationVecs
        (Mat3.ofCols (FTrans.pinv s.lattice * x) (FTrans.pinv s.lattice * y) (FTrans.pinv s.lattice * z)))) = .ret (f1, f2, f3)) :
    ∃ prim, r.findPrimitiveCell ord s = .ret prim ∧ prim.lattice = Mat3.ofCols f1 f2 f3 := by
  have hlen := hc.consistent.1
  have hno := hc.primitive
  have hd := hc.tol
  set temp := s.normalizeCoords r.dtol with htemp
  set tols := Structure.fracTols s.lattice r.dtol with htols
  have hlat : temp.lattice = s.lattice := rfl
  have hperm : temp.species.Perm s.species := by
    have h1 := normalizeCoords_sites s r.dtol
    have h2 : temp.species = (sites temp).map Prod.fst :=
      species_eq_of_sites (normalizeCoords_consistent s r.dtol).1
    rw [h2, h1]
    refine ((List.mergeSort_perm _ _).map _).trans ?_
    rw [List.map_fst_zip]
    simp [normedFrac, normalizeFracVectors, hlen]
  have hne : temp.species ≠ [] := by
    intro h0
    rw [h0] at hperm
    exact hno.1 hperm.nil_eq.symm
  obtain ⟨⟨minEle, inds, counts⟩, hmin⟩ := (C19_get_min_element_panics_iff temp ord ho).2 hne
  have hn' : temp.numSites < 65536 := by
    have := hc.small
    unfold Structure.numSites at this ⊢; rw [hperm.length_eq]; exact this
  obtain ⟨⟨hmem, hleast⟩, hinds, -⟩ := C19_get_min_element temp ord ho hn' minEle inds counts hmin
  have hrare : Rarest s minEle := by
    refine ⟨hperm.mem_iff.1 hmem, fun e he => ?_⟩
    have := hleast e (hperm.mem_iff.2 he)
    rw [hperm.count_eq, hperm.count_eq] at this
    rcases this with h | h
    · exact h.le
    · exact h.1.le
  have hind : amapGet? inds minEle = some (temp.species.idxOf minEle) := by rw [hinds, if_pos hmem]
  set i := temp.species.idxOf minEle with hi
  have hilt : i < temp.species.length := List.idxOf_lt_length_of_mem hmem
  have hi' : temp.species[i]? = some minEle := by
    rw [List.getElem?_eq_getElem hilt, List.getElem_idxOf]
  have hilt' : i < temp.fracCoords.length := by
    rw [← (normalizeCoords_consistent s r.dtol).1]; exact hilt
  have htol : ∀ m : ℝ, r.dtol < m → 0 ≤ r.dtol / m ∧ r.dtol / m < 1 := by
    intro m hm
    have : 0 < m := lt_trans hd hm
    exact ⟨by positivity, by rw [div_lt_one this]; exact hm⟩
  have hfilter : (candidateVecs tols minEle i (temp.fracCoords[i]'hilt') temp.species temp.fracCoords).filter
        (isTranslation temp.lattice tols r.dtol (temp.fracCoords.zip temp.species)) = unitVecs := by
    refine (candidates_filtered hno hrare hi' (List.getElem?_eq_getElem hilt')).trans ?_
    rw [List.filter_eq_self]
    intro e he
    exact unit_isTranslation hd.le (htol _ hc.cols.1) (htol _ hc.cols.2.1) (htol _ hc.cols.2.2) _ he
  have hcart : Structure.getCartCoords temp.lattice unitVecs
      = [s.lattice.col0, s.lattice.col1, s.lattice.col2] := by
    rw [hlat]
    simp only [Structure.getCartCoords, unitVecs, List.map_cons, List.map_nil, List.cons.injEq, and_true]
    refine ⟨?_, ?_, ?_⟩ <;> ext <;> simp [Mat3.col0, Mat3.col1, Mat3.col2]
  unfold findPrimitiveCell
  simp only
  rw [← htemp, ← htols, hmin]
  simp only [Outcome.bind, hind, Outcome.ofOption]
  rw [List.getElem?_eq_getElem hilt']
  simp only
  rw [hfilter, hcart, h1]
  simp only
  rw [hlat, h2]
  exact ⟨_, rfl, rfl⟩

/-- even coordinates whose sum is a multiple of four: the face-centred lattice. -/
def EvenFour (m : Vec3 ℤ) : Prop := m.x % 2 = 0 ∧ m.y % 2 = 0 ∧ m.z % 2 = 0 ∧ (m.x + m.y + m.z) % 4 = 0

/-- the other half of the atoms. -/
def OddFour (m : Vec3 ℤ) : Prop := m.x % 2 = 1 ∧ m.y % 2 = 1 ∧ m.z % 2 = 1 ∧ (m.x + m.y + m.z) % 4 = 3

/-- the atoms of the diamond structure, in units of a quarter of the edge of the cube. -/
def siAtoms : List (String × Vec3 ℤ) := [("Si", 0), ("Si", ⟨1, 1, 1⟩)]

/-- the facts about the basis, in integers. -/
structure SiBasis (M : Mat3 ℤ) : Prop where
  lat : ∀ m, (∃ n : Vec3 ℤ, m = M * n) ↔ EvenFour m
  det : M.det = 16
  frob : frobZ M = 24
  gram : M.transpose * M = ⟨8, 4, 4, 4, 8, 4, 4, 4, 8⟩
  first : shortestZ 9 [M.col0, M.col1, M.col2] = some (M.col0, M.col1, M.col2)
  short : ∀ k ∈ [M.col0, M.col1, M.col2], normZ k < 9
  bound : ∀ k ∈ combZ M, normZ k < 50
  second : shortestZ 50 (combZ M) = some (M.col0, M.col1, M.col2)

variable {M : Mat3 ℤ} {u : ℝ}

theorem si_atoms (h : SiBasis M) (e : String) (m : Vec3 ℤ) : AtZ M siAtoms e m ↔ e = "Si" ∧ (EvenFour m ∨ OddFour m) := by
  unfold AtZ siAtoms
  simp only [List.mem_cons, List.not_mem_nil, or_false, exists_eq_or_imp, exists_eq_left, zero_add, h.lat]
  have h1 : (∃ n : Vec3 ℤ, m = ⟨1, 1, 1⟩ + M * n) ↔ OddFour m := by
    have : (∃ n : Vec3 ℤ, m = ⟨1, 1, 1⟩ + M * n) ↔ ∃ n : Vec3 ℤ, m - ⟨1, 1, 1⟩ = M * n :=
      exists_congr fun n => by rw [sub_eq_iff_eq_add, add_comm]
    rw [this, h.lat]
    unfold EvenFour OddFour
    simp only [Vec3.sub_x, Vec3.sub_y, Vec3.sub_z]
    omega
  rw [h1]
  constructor
  · rintro (⟨rfl, h⟩ | ⟨rfl, h⟩)
    exacts [⟨rfl, .inl h⟩, ⟨rfl, .inr h⟩]
  · rintro ⟨rfl, h | h⟩
    exacts [.inl ⟨rfl, h⟩, .inr ⟨rfl, h⟩]

/-- the crystal with the edge `4 u`, in the primitive cell with the basis `M`. -/
noncomputable def siCell (u : ℝ) (M : Mat3 ℤ) : Structure ℝ := refCell u M siAtoms

theorem si_atomAt (h : SiBasis M) {e : String} {x : Vec3 ℝ} :
    AtomAt (siCell u M) e x ↔ ∃ m, (e = "Si" ∧ (EvenFour m ∨ OddFour m)) ∧ x = cubicVec u m := by
  unfold siCell
  rw [refCell_atomAt (by rw [h.det]; norm_num)]
  simp only [si_atoms h]

theorem si_same {M' : Mat3 ℤ} (h : SiBasis M) (h' : SiBasis M') : SameAtoms (siCell u M) (siCell u M') := by
  intro e x
  rw [si_atomAt h, si_atomAt h']

theorem si_lattice (h : SiBasis M) {x : Vec3 ℝ} :
    (∃ n : Vec3 ℝ, IntVec n ∧ x = cubicLattice u M * n) ↔ ∃ m, EvenFour m ∧ x = cubicVec u m := by
  constructor
  · rintro ⟨n, hn, rfl⟩
    obtain ⟨v, hv⟩ := lattice_cubic (c := u) (M := M) hn
    exact ⟨_, (h.lat _).1 ⟨v, rfl⟩, hv⟩
  · rintro ⟨m, hm, rfl⟩
    obtain ⟨n, rfl⟩ := (h.lat _).2 hm
    exact ⟨cubicVec 1 n, intVec_cubic.2 ⟨n, rfl⟩, (cubicLattice_mulVec _ _ _).symm⟩

/-- the lattice is the face-centred lattice of rock salt with the doubled unit. -/
theorem si_face (h : SiBasis M) : SameLattice (cubicLattice u M) (cubicLattice (2 * u) faceBasis) := by
  intro v
  constructor
  · rintro ⟨n, hn, rfl⟩
    obtain ⟨m, ⟨h1, h2, h3, h4⟩, hm⟩ := (si_lattice h).1 ⟨n, hn, rfl⟩
    obtain ⟨k, hk⟩ := (face_lattice (m := ⟨m.x / 2, m.y / 2, m.z / 2⟩)).2 (by simp only; omega)
    refine ⟨cubicVec 1 k, intVec_cubic.2 ⟨k, rfl⟩, ?_⟩
    rw [cubicLattice_mulVec, ← hk, hm]
    obtain ⟨a, ha⟩ := Int.dvd_of_emod_eq_zero h1
    obtain ⟨b, hb⟩ := Int.dvd_of_emod_eq_zero h2
    obtain ⟨d, hd⟩ := Int.dvd_of_emod_eq_zero h3
    rw [ha, hb, hd]
    ext <;> simp [cubicVec, ha, hb, hd] <;> ring
  · rintro ⟨n, hn, rfl⟩
    obtain ⟨k, rfl⟩ := intVec_cubic.1 hn
    rw [cubicLattice_mulVec]
    have h0 := face_lattice.1 ⟨k, rfl⟩
    refine (si_lattice h).2 ⟨⟨2 * (faceBasis * k).x, 2 * (faceBasis * k).y, 2 * (faceBasis * k).z⟩, ?_, ?_⟩
    · unfold EvenFour
      simp only
      omega
    · ext <;> simp [cubicVec] <;> ring

theorem si_isometry (hu : 0 < u) (h : SiBasis M) {Q : Mat3 ℝ} (hQ : Orthogonal Q) (hm : MapsLattice Q (cubicLattice u M)) :
    ∃ W : Mat3 ℤ, OrthoInt W ∧ Q = overK ℝ W :=
  cubic_isometry (c := 2 * u) (by linarith) rockSalt_crystal hQ (mapsLattice_congr (si_face h) hm)

theorem orthoInt_even {W : Mat3 ℤ} (hW : OrthoInt W) {m : Vec3 ℤ} (h : EvenFour m) : EvenFour (W * m) := by
  obtain ⟨h1, h2, h3, h4⟩ := h
  obtain ⟨a, ha⟩ := Int.dvd_of_emod_eq_zero h1
  obtain ⟨b, hb⟩ := Int.dvd_of_emod_eq_zero h2
  obtain ⟨d, hd⟩ := Int.dvd_of_emod_eq_zero h3
  have h5 := orthoInt_parity hW ⟨a, b, d⟩
  have ex : (W * m).x = 2 * (W * (⟨a, b, d⟩ : Vec3 ℤ)).x := by simp only [Mat3.mulVec_x, ha, hb, hd]; ring
  have ey : (W * m).y = 2 * (W * (⟨a, b, d⟩ : Vec3 ℤ)).y := by simp only [Mat3.mulVec_y, ha, hb, hd]; ring
  have ez : (W * m).z = 2 * (W * (⟨a, b, d⟩ : Vec3 ℤ)).z := by simp only [Mat3.mulVec_z, ha, hb, hd]; ring
  unfold EvenFour
  rw [ex, ey, ez]
  simp only at h5
  omega

theorem orthoInt_ones {W : Mat3 ℤ} (hW : OrthoInt W) :
    (W * (⟨1, 1, 1⟩ : Vec3 ℤ)).x % 2 = 1 ∧ (W * (⟨1, 1, 1⟩ : Vec3 ℤ)).y % 2 = 1 ∧ (W * (⟨1, 1, 1⟩ : Vec3 ℤ)).z % 2 = 1 := by
  obtain ⟨⟨a, ha⟩, ⟨b, hb⟩, ⟨d, hd⟩⟩ := orthoInt_columns (orthoInt_transpose hW)
  simp only [Mat3.transpose] at ha hb hd
  simp only [Mat3.mulVec_x, Mat3.mulVec_y, Mat3.mulVec_z]
  omega

theorem orthoInt_inverse {W : Mat3 ℤ} (hW : OrthoInt W) (v : Vec3 ℤ) : W.transpose * (W * v) = v := by
  rw [← Mat3.mul_mulVec, show W.transpose * W = 1 from hW, Mat3.one_mulVec]

/-- motions that map the two atoms of the cell to atoms are symmetries. -/
theorem si_symmetry_of (h : SiBasis M) {W : Mat3 ℤ} (hW : OrthoInt W) {m : Vec3 ℤ} (hm : EvenFour m ∨ OddFour m)
    (hm1 : EvenFour (W * (⟨1, 1, 1⟩ : Vec3 ℤ) + m) ∨ OddFour (W * (⟨1, 1, 1⟩ : Vec3 ℤ) + m)) :
    CrystalSymmetry (siCell u M) (overK ℝ W) (cubicVec u m) := by
  obtain ⟨v1, v2, v3⟩ := orthoInt_ones hW
  refine ⟨orthoInt_orthogonal hW, fun e x => ⟨fun hx => ?_, fun hx => ?_⟩⟩
  · obtain ⟨a, ⟨he, ha⟩, rfl⟩ := (si_atomAt h).1 hx
    refine (si_atomAt h).2 ⟨W * a + m, ⟨he, ?_⟩, by rw [overK_cubicVec, cubicVec_add]⟩
    rcases ha with ha | ha
    · have h1 := orthoInt_even hW ha
      unfold EvenFour OddFour at *
      simp only [Vec3.add_x, Vec3.add_y, Vec3.add_z] at *
      omega
    · have h1 : EvenFour (W * (a - ⟨1, 1, 1⟩)) := orthoInt_even hW (by
        unfold EvenFour OddFour at *
        simp only [Vec3.sub_x, Vec3.sub_y, Vec3.sub_z]
        omega)
      rw [Mat3.mulVec_sub] at h1
      unfold EvenFour OddFour at *
      simp only [Vec3.add_x, Vec3.add_y, Vec3.add_z, Vec3.sub_x, Vec3.sub_y, Vec3.sub_z] at *
      omega
  · obtain ⟨b, ⟨he, hb⟩, e1⟩ := (si_atomAt h).1 hx
    have hx' : x = cubicVec u (W.transpose * (b - m)) := by
      rw [← overK_cubicVec, ← cubicVec_sub, ← e1, add_sub_cancel_right, ← Mat3.mul_mulVec, ← overK_mul,
        show W.transpose * W = 1 from hW, overK_one, Mat3.one_mulVec]
    refine (si_atomAt h).2 ⟨_, ⟨he, ?_⟩, hx'⟩
    have hcase : EvenFour (b - m) ∨ EvenFour (b - (W * (⟨1, 1, 1⟩ : Vec3 ℤ) + m)) := by
      unfold EvenFour OddFour at *
      simp only [Vec3.add_x, Vec3.add_y, Vec3.add_z, Vec3.sub_x, Vec3.sub_y, Vec3.sub_z] at *
      omega
    rcases hcase with h1 | h1
    · exact .inl (orthoInt_even (orthoInt_transpose hW) h1)
    · right
      have h2 := orthoInt_even (orthoInt_transpose hW) h1
      have e2 : b - (W * (⟨1, 1, 1⟩ : Vec3 ℤ) + m) = b - m - W * (⟨1, 1, 1⟩ : Vec3 ℤ) := by abel
      rw [e2, Mat3.mulVec_sub _ (b - m), orthoInt_inverse hW] at h2
      unfold EvenFour at h2
      unfold OddFour
      simp only [Vec3.sub_x, Vec3.sub_y, Vec3.sub_z] at *
      omega

/-- the symmetries of the crystal. -/
theorem si_symmetry (hu : 0 < u) (h : SiBasis M) {Q : Mat3 ℝ} {t : Vec3 ℝ} (hm : MapsLattice Q (cubicLattice u M))
    (hs : CrystalSymmetry (siCell u M) Q t) : ∃ W : Mat3 ℤ, OrthoInt W ∧ Q = overK ℝ W ∧ ∃ m, t = cubicVec u m ∧
      (EvenFour m ∨ OddFour m) ∧ (EvenFour (W * (⟨1, 1, 1⟩ : Vec3 ℤ) + m) ∨ OddFour (W * (⟨1, 1, 1⟩ : Vec3 ℤ) + m)) := by
  obtain ⟨W, hW, rfl⟩ := si_isometry hu h hs.1 hm
  refine ⟨W, hW, rfl, ?_⟩
  obtain ⟨m, ⟨-, hm0⟩, e0⟩ := (si_atomAt h).1 ((hs.2 "Si" 0).1 ((si_atomAt h).2 ⟨0, ⟨rfl, .inl (by simp [EvenFour])⟩, by
    rw [cubicVec_zero]⟩))
  obtain ⟨m', ⟨-, hm1⟩, e1⟩ := (si_atomAt h).1 ((hs.2 "Si" (cubicVec u ⟨1, 1, 1⟩)).1 ((si_atomAt h).2 ⟨⟨1, 1, 1⟩, ⟨rfl, .inr (by
    simp [OddFour])⟩, rfl⟩))
  rw [Mat3.mulVec_zero, zero_add] at e0
  rw [e0, overK_cubicVec, cubicVec_add] at e1
  have := cubicVec_injective hu.ne' e1
  exact ⟨m, e0, hm0, by rw [this]; exact hm1⟩

theorem si_resolved {d : ℝ} (hd : 0 < d) (hu : 4 * d < u) (h : SiBasis M) : Resolved (siCell u M) d := by
  have hu0 : 0 < u := by linarith
  rintro Q t ⟨hQ, hm, hnear⟩
  obtain ⟨W, hW, rfl⟩ := si_isometry hu0 h hQ hm
  obtain ⟨y, hy, hle⟩ := hnear "Si" 0 ((si_atomAt h).2 ⟨0, ⟨rfl, .inl (by simp [EvenFour])⟩, by rw [cubicVec_zero]⟩)
  obtain ⟨y', hy', hle'⟩ := hnear "Si" (cubicVec u ⟨1, 1, 1⟩) ((si_atomAt h).2 ⟨⟨1, 1, 1⟩, ⟨rfl, .inr (by simp [OddFour])⟩, rfl⟩)
  obtain ⟨m, ⟨-, hm0⟩, rfl⟩ := (si_atomAt h).1 hy
  obtain ⟨m', ⟨-, hm1⟩, rfl⟩ := (si_atomAt h).1 hy'
  rw [Mat3.mulVec_zero, zero_add] at hle
  rw [overK_cubicVec] at hle'
  have hz : W * (⟨1, 1, 1⟩ : Vec3 ℤ) + m - m' = 0 := by
    by_contra h0
    have h1 : (1 : ℝ) ≤ normZ (W * (⟨1, 1, 1⟩ : Vec3 ℤ) + m - m') := by exact_mod_cast one_le_normZ h0
    have h2 : lenSq (cubicVec u (W * (⟨1, 1, 1⟩ : Vec3 ℤ) + m - m')) ≤ (4 * d) ^ 2 := by
      rw [← cubicVec_sub, ← cubicVec_add]
      set a := cubicVec u (W * (⟨1, 1, 1⟩ : Vec3 ℤ)) with ha
      set b := cubicVec u m with hb
      set b' := cubicVec u m' with hb'
      unfold lenSq at *
      simp only [Vec3.add_x, Vec3.add_y, Vec3.add_z, Vec3.sub_x, Vec3.sub_y, Vec3.sub_z] at *
      nlinarith [sq_nonneg (a.x + t.x - b'.x + (t.x - b.x)), sq_nonneg (a.y + t.y - b'.y + (t.y - b.y)),
        sq_nonneg (a.z + t.z - b'.z + (t.z - b.z))]
    rw [lenSq_cubicVec] at h2
    nlinarith
  refine ⟨cubicVec u m, si_symmetry_of h hW hm0 ?_, by nlinarith⟩
  rw [sub_eq_zero.1 hz]
  exact hm1

theorem si_grid (hu : 0 < u) (h : SiBasis M) (hp : PrimitiveCell (siCell u M)) : GridOrigin (siCell u M) := by
  intro Q t hs
  obtain ⟨W, hW, rfl, m, rfl, hm, -⟩ := si_symmetry hu h (symmetry_mapsLattice hp hs) hs
  refine (si_lattice (u := u) h).2 ⟨⟨12 * m.x, 12 * m.y, 12 * m.z⟩, ?_, ?_⟩
  · unfold EvenFour
    simp only
    omega
  · ext <;> simp [cubicVec, Vec3.scale] <;> ring

theorem si_lenSq (h : SiBasis M) (k : Vec3 ℤ) : lenSq (cubicLattice u M * cubicVec 1 k) =
    u ^ 2 * ((4 * (k.x * k.x + k.y * k.y + k.z * k.z + (k.x + k.y + k.z) * (k.x + k.y + k.z)) : ℤ) : ℝ) := by
  have e1 : ((M * k).x * (M * k).x + (M * k).y * (M * k).y + (M * k).z * (M * k).z) =
      4 * (k.x * k.x + k.y * k.y + k.z * k.z + (k.x + k.y + k.z) * (k.x + k.y + k.z)) := by
    have h11 := congrArg Mat3.m11 h.gram
    have h12 := congrArg Mat3.m12 h.gram
    have h13 := congrArg Mat3.m13 h.gram
    have h22 := congrArg Mat3.m22 h.gram
    have h23 := congrArg Mat3.m23 h.gram
    have h33 := congrArg Mat3.m33 h.gram
    simp [Mat3.transpose] at h11 h12 h13 h22 h23 h33
    simp only [Mat3.mulVec_x, Mat3.mulVec_y, Mat3.mulVec_z]
    linear_combination k.x * k.x * h11 + 2 * k.x * k.y * h12 + 2 * k.x * k.z * h13 + k.y * k.y * h22 + 2 * k.y * k.z * h23 +
      k.z * k.z * h33
  rw [cubicLattice_mulVec, lenSq_cubicVec, normZ_cast, ← e1]
  push_cast
  ring

theorem si_small (hu : 0 < u) (h : SiBasis M) : SmallMatrices (cubicLattice u M) := by
  intro Q hQ hm
  obtain ⟨U, hU⟩ := mapsLattice_iff.1 hm
  have key : ∀ k : Vec3 ℤ, k.x * k.x + k.y * k.y + k.z * k.z + (k.x + k.y + k.z) * (k.x + k.y + k.z) = 2 →
      ∀ e, e = (U * k).x ∨ e = (U * k).y ∨ e = (U * k).z → e = 0 ∨ e = 1 ∨ e = -1 := by
    intro k hk e he
    have e1 : Q * (cubicLattice u M * cubicVec 1 k) = cubicLattice u M * cubicVec 1 (U * k) := by
      rw [← Mat3.mul_mulVec, hU, Mat3.mul_mulVec, overK_cubicVec]
    have e2 := lenSq_orthogonal hQ (cubicLattice u M * cubicVec 1 k)
    rw [e1, si_lenSq h, si_lenSq h, hk, mul_right_inj' (by positivity)] at e2
    have e3 : 4 * ((U * k).x * (U * k).x + (U * k).y * (U * k).y + (U * k).z * (U * k).z +
        ((U * k).x + (U * k).y + (U * k).z) * ((U * k).x + (U * k).y + (U * k).z)) = 4 * 2 := by exact_mod_cast e2
    have b : e * e ≤ 2 := by
      have := mul_self_nonneg (U * k).x
      have := mul_self_nonneg (U * k).y
      have := mul_self_nonneg (U * k).z
      have := mul_self_nonneg ((U * k).x + (U * k).y + (U * k).z)
      rcases he with rfl | rfl | rfl <;> linarith
    have b1 : e < 2 := by nlinarith
    have b2 : -2 < e := by nlinarith
    omega
  have k0 := key ⟨1, 0, 0⟩ (by norm_num)
  have k1 := key ⟨0, 1, 0⟩ (by norm_num)
  have k2 := key ⟨0, 0, 1⟩ (by norm_num)
  simp at k0 k1 k2
  obtain ⟨a1, a2, a3⟩ := k0
  obtain ⟨b1, b2, b3⟩ := k1
  obtain ⟨d1, d2, d3⟩ := k2
  refine ⟨U, ?_, hU, U.m11, by simp [Mat3.toListCM], a1⟩
  intro e he
  simp only [Mat3.toListCM, List.mem_cons, List.not_mem_nil, or_false] at he
  have bnd : ∀ x : ℤ, (x = 0 ∨ x = 1 ∨ x = -1) → -128 ≤ x ∧ x ≤ 127 := by
    intro x hx
    rcases hx with rfl | rfl | rfl <;> norm_num
  rcases he with rfl | rfl | rfl | rfl | rfl | rfl | rfl | rfl | rfl <;> apply bnd <;> assumption

theorem si_volume (h : SiBasis M) : (siCell u M).volume = 16 * u ^ 3 := by
  unfold siCell
  rw [refCell_volume, h.det]
  push_cast
  ring

theorem si_eps (hu : 0 < u) (h : SiBasis M) :
    0 < eps tol1em5 |(siCell u M).volume| ∧ eps tol1em5 |(siCell u M).volume| ≤ u / 25000 := by
  obtain ⟨h1, h2⟩ := cubic_eps (c := 2 * u) (by linarith) rockSalt_crystal
  have e : (refCell (2 * u) faceBasis [("Na", 0), ("Cl", ⟨1, 1, 1⟩)]).volume = (siCell u M).volume := by
    rw [si_volume h, refCell_volume, show faceBasis.det = 2 from by decide]
    push_cast
    ring
  rw [e] at h1 h2
  exact ⟨h1, by linarith⟩

theorem si_size (hu : 1 ≤ u) (h : SiBasis M) : 24 * u ^ 2 ≤ cellSize (siCell u M) ∧ cellSize (siCell u M) ≤ 24 * u ^ 2 + u / 250 := by
  obtain ⟨e0, e1⟩ := si_eps (u := u) (by linarith) h
  have h1 : cellSize (siCell u M) = frob (cubicLattice u M) + 100 * |eps tol1em5 (|(siCell u M).volume|)| := rfl
  rw [h1, cubicLattice_frob, abs_of_pos e0, h.frob]
  push_cast
  constructor <;> linarith

theorem si_pairs {m m' : Vec3 ℤ} (hm : EvenFour m ∨ OddFour m) (hm' : EvenFour m' ∨ OddFour m') (hne : m ≠ m') : 3 ≤ normZ (m - m') := by
  apply normZ_three (sub_ne_zero.2 hne) <;> simp only [Vec3.sub_x, Vec3.sub_y, Vec3.sub_z] <;> unfold EvenFour OddFour at * <;> omega

/-- the vector between the two atoms of the cell is not a translation. -/
theorem si_noTranslation {δ : ℝ} (hδ : 0 ≤ δ) (hu : δ < u) (h : SiBasis M) : NoTranslation (siCell u M) δ := by
  have hM : 0 < M.det := by rw [h.det]; norm_num
  have hu0 : 0 < u := by linarith
  have h2 : (siCell u M).lattice * ((cubicLattice 1 M).adjDiv (cubicLattice 1 M).det * cubicVec 1 (0 : Vec3 ℤ)) = cubicVec u 0 := refCell_mulVec hM _ _
  have h3 : (siCell u M).lattice * ((cubicLattice 1 M).adjDiv (cubicLattice 1 M).det * cubicVec 1 (⟨1, 1, 1⟩ : Vec3 ℤ)) =
      cubicVec u ⟨1, 1, 1⟩ := refCell_mulVec hM _ _
  have hs : sites (siCell u M) = [("Si", (cubicLattice 1 M).adjDiv (cubicLattice 1 M).det * cubicVec 1 (0 : Vec3 ℤ)),
      ("Si", (cubicLattice 1 M).adjDiv (cubicLattice 1 M).det * cubicVec 1 (⟨1, 1, 1⟩ : Vec3 ℤ))] := refCell_sites u M siAtoms
  set o := (cubicLattice 1 M).adjDiv (cubicLattice 1 M).det * cubicVec 1 (0 : Vec3 ℤ) with ho
  set w := (cubicLattice 1 M).adjDiv (cubicLattice 1 M).det * cubicVec 1 (⟨1, 1, 1⟩ : Vec3 ℤ) with hw
  have key : ∀ (d x : Vec3 ℝ) (k : Vec3 ℤ), SamePoint d x → lenSq ((siCell u M).lattice * d) ≤ δ * δ →
      (siCell u M).lattice * x = cubicVec u k → ¬ EvenFour k → False := by
    intro d x k hdx hle hx hk
    rw [samePoint_iff_intVec] at hdx
    obtain ⟨m, hm, e⟩ := (si_lattice (u := u) h).1 ⟨_, hdx, rfl⟩
    have e1 : (siCell u M).lattice * d = cubicVec u (k + m) := by
      have : (siCell u M).lattice * (d - x) = cubicVec u m := e
      rw [Mat3.mulVec_sub, hx, sub_eq_iff_eq_add] at this
      rw [this, cubicVec_add, add_comm]
    have h0 : k + m ≠ 0 := by
      intro h0
      have ex := congrArg Vec3.x h0
      have ey := congrArg Vec3.y h0
      have ez := congrArg Vec3.z h0
      simp only [Vec3.add_x, Vec3.add_y, Vec3.add_z, Vec3.zero_x, Vec3.zero_y, Vec3.zero_z] at ex ey ez
      apply hk
      unfold EvenFour at *
      omega
    have h1 : (1 : ℝ) ≤ normZ (k + m) := by exact_mod_cast one_le_normZ h0
    rw [e1, lenSq_cubicVec] at hle
    nlinarith
  have n1 : ¬ EvenFour ⟨1, 1, 1⟩ := by simp [EvenFour]
  have n2 : ¬ EvenFour ⟨-1, -1, -1⟩ := by simp [EvenFour]
  have n3 : ¬ EvenFour ⟨2, 2, 2⟩ := by simp [EvenFour]
  have n4 : ¬ EvenFour ⟨-2, -2, -2⟩ := by simp [EvenFour]
  have lx : ∀ (p t q : Vec3 ℝ) (a b c k : Vec3 ℤ), (siCell u M).lattice * p = cubicVec u a → (siCell u M).lattice * t = cubicVec u b →
      (siCell u M).lattice * q = cubicVec u c → a + b - c = k → (siCell u M).lattice * (p + t - q) = cubicVec u k := by
    intro p t q a b c k h1 h2 h3 h4
    rw [Mat3.mulVec_sub, Mat3.mulVec_add, h1, h2, h3, cubicVec_add, cubicVec_sub, h4]
  have lt1 : (siCell u M).lattice * (w - o) = cubicVec u ⟨1, 1, 1⟩ := by
    rw [Mat3.mulVec_sub, h2, h3, cubicVec_sub, sub_zero]
  have lt2 : (siCell u M).lattice * (o - w) = cubicVec u ⟨-1, -1, -1⟩ := by
    rw [Mat3.mulVec_sub, h2, h3, cubicVec_sub]
    congr 1
  refine ⟨by simp [siCell, refCell, Structure.new, siAtoms], ?_⟩
  rw [hs, List.pairwise_pair]
  intro _ _
  constructor
  · intro ht
    obtain ⟨q, hq, -, d, h1, hle⟩ := ht ("Si", w) (by rw [hs]; simp)
    rw [hs] at hq
    simp only [List.mem_cons, List.not_mem_nil, or_false] at hq
    rcases hq with rfl | rfl
    · exact key _ _ _ h1 hle (lx _ _ _ _ _ _ ⟨2, 2, 2⟩ h3 lt1 h2 (by decide)) n3
    · exact key _ _ _ h1 hle (lx _ _ _ _ _ _ ⟨1, 1, 1⟩ h3 lt1 h3 (by decide)) n1
  · intro ht
    obtain ⟨q, hq, -, d, h1, hle⟩ := ht ("Si", o) (by rw [hs]; simp)
    rw [hs] at hq
    simp only [List.mem_cons, List.not_mem_nil, or_false] at hq
    rcases hq with rfl | rfl
    · exact key _ _ _ h1 hle (lx _ _ _ _ _ _ ⟨-1, -1, -1⟩ h2 lt2 h2 (by decide)) n2
    · exact key _ _ _ h1 hle (lx _ _ _ _ _ _ ⟨-2, -2, -2⟩ h2 lt2 h3 (by decide)) n4

theorem si_clean (hu : 6 / 5 ≤ u) (h : SiBasis M) : CleanInput (siCell u M) (1 / 20) := by
  have hu0 : 0 < u := by linarith
  have hM : 0 < M.det := by rw [h.det]; norm_num
  obtain ⟨s0, s1⟩ := si_size (by linarith) h
  have hV : (siCell u M).volume = 16 * u ^ 3 := si_volume h
  have u2 : 36 / 25 ≤ u ^ 2 := by nlinarith
  have u3 : 1 ≤ u ^ 3 := one_le_pow₀ (by linarith)
  have u4 : 1 ≤ u ^ 4 := one_le_pow₀ (by linarith)
  have hS0 : 0 ≤ cellSize (siCell u M) := le_trans (by positivity) s0
  have hS1 : cellSize (siCell u M) ≤ u ^ 2 * (24 + 1 / 250) := by nlinarith
  have e6 : u ^ 6 = u ^ 2 * u ^ 4 := by ring
  refine ⟨⟨?_, ?_⟩, ?_, ?_, si_noTranslation (by norm_num) (by linarith) h, by norm_num, ?_, ?_, ?_, ?_⟩
  · simp [siCell, refCell, Structure.new]
  · simp [siCell, refCell, Structure.new, Structure.getCartCoords]
  · show (2 : ℕ) < 65536
    norm_num
  · unfold DistinctSites siCell
    rw [refCell_sites, List.pairwise_map]
    unfold siAtoms
    rw [List.pairwise_pair]
    intro hsame
    rw [samePoint_iff_intVec] at hsame
    obtain ⟨v, hv⟩ := intVec_cubic.1 hsame
    have e1 := congrArg (fun w : Vec3 ℝ => (siCell u M).lattice * w) hv
    simp only [Mat3.mulVec_sub] at e1
    unfold siCell at e1
    rw [refCell_mulVec hM, refCell_mulVec hM, show (refCell u M siAtoms).lattice = cubicLattice u M from rfl, cubicLattice_mulVec,
      cubicVec_sub] at e1
    have := (h.lat _).1 ⟨v, cubicVec_injective hu0.ne' e1⟩
    simp [EvenFour] at this
  · rw [hV, abs_of_pos (by positivity)]
    linarith
  · rw [hV, mul_pow, ← pow_mul, e6]
    nlinarith
  · rw [hV, mul_pow, ← pow_mul, e6]
    have : cellSize (siCell u M) ^ 2 ≤ (u ^ 2 * (24 + 1 / 250)) ^ 2 := pow_le_pow_left₀ hS0 hS1 2
    refine lt_of_le_of_lt this ?_
    nlinarith
  · intro e e' x y hx hy
    obtain ⟨m, ⟨rfl, hm⟩, rfl⟩ := (si_atomAt h).1 hx
    obtain ⟨m', ⟨rfl, hm'⟩, rfl⟩ := (si_atomAt h).1 hy
    by_cases hmm : m = m'
    · exact .inl ⟨rfl, by rw [hmm]⟩
    · right
      rw [cubicVec_sub, lenSq_cubicVec]
      have h3 : (3 : ℝ) ≤ normZ (m - m') := by exact_mod_cast si_pairs hm hm' hmm
      have hS3 : cellSize (siCell u M) ^ 3 ≤ (u ^ 2 * (24 + 1 / 250)) ^ 3 := pow_le_pow_left₀ hS0 hS1 3
      rw [hV]
      have e1 : 27 * (cellSize (siCell u M) ^ 3 / (16 * u ^ 3) ^ 2 * (1 / 20) ^ 2) ≤
          27 * ((u ^ 2 * (24 + 1 / 250)) ^ 3 / (16 * u ^ 3) ^ 2 * (1 / 20) ^ 2) := by gcongr
      have e2 : 27 * ((u ^ 2 * (24 + 1 / 250)) ^ 3 / (16 * u ^ 3) ^ 2 * (1 / 20) ^ 2) = 27 * (24 + 1 / 250) ^ 3 / 256 / 400 := by
        field_simp
        ring
      rw [e2] at e1
      refine lt_of_le_of_lt e1 (lt_of_lt_of_le (b := 3 * (36 / 25)) (by norm_num) ?_)
      nlinarith

theorem si_clear (hu : 1 ≤ u) (hu' : u ≤ 500) (h : SiBasis M) :
    ClearLattice (siCell u M).lattice (eps tol1em5 |(siCell u M).volume|) := by
  obtain ⟨e0, e1⟩ := si_eps (u := u) (by linarith) h
  refine clearLattice_integral (g := u ^ 2) ?_ e0 (by linarith) (by nlinarith) (M.transpose * M) ?_
  · rw [show (siCell u M).lattice.det = 16 * u ^ 3 from si_volume h]; positivity
  · show (cubicLattice u M).transpose * cubicLattice u M = _
    ext <;> simp [cubicLattice, cubicVec, Mat3.ofCols, Mat3.transpose, Mat3.scale, Mat3.map, overK, Mat3.col0, Mat3.col1, Mat3.col2] <;> ring

theorem si_long (hu : 1 ≤ u) (h : SiBasis M) : LongVectors (siCell u M).lattice (48 * (1 / 20)) := by
  intro n hn h0
  obtain ⟨v, rfl⟩ := intVec_cubic.1 hn
  show _ ≤ lenSq (cubicLattice u M * _)
  rw [si_lenSq h]
  have hv : v ≠ 0 := by
    rintro rfl
    exact h0 (cubicVec_zero 1)
  have h1 : 2 ≤ v.x * v.x + v.y * v.y + v.z * v.z + (v.x + v.y + v.z) * (v.x + v.y + v.z) := by
    have h2 := one_le_normZ hv
    have h3 := normZ_int v
    have h4 := mul_self_nonneg (v.x + v.y + v.z)
    by_contra hlt
    have h5 : v.x * v.x + v.y * v.y + v.z * v.z = 1 := by omega
    obtain ⟨k, hk⟩ := orthoInt_odd h5
    have h6 : (v.x + v.y + v.z) * (v.x + v.y + v.z) = 0 := by omega
    have := mul_self_eq_zero.1 h6
    omega
  have h2 : (2 : ℝ) ≤ ((v.x * v.x + v.y * v.y + v.z * v.z + (v.x + v.y + v.z) * (v.x + v.y + v.z) : ℤ) : ℝ) := by exact_mod_cast h1
  push_cast at h2 ⊢
  nlinarith

/-- the crystal satisfies the assumptions of C78 in both cells. -/
theorem si_crystal (hu : 6 / 5 ≤ u) (hu' : u ≤ 500) (h : SiBasis M) {ha : HashOrders ℝ} (hv : ha.Valid) (atol : ℝ) :
    CleanCrystal ⟨1 / 20, atol⟩ ha (siCell u M) (siCell u M) := by
  have hcl := si_clean hu h
  obtain ⟨-, s1⟩ := si_size (by linarith : 1 ≤ u) h
  refine CleanCrystal.of_input hv hcl ?_ (si_clear (by linarith) hu' h) (si_resolved (by norm_num) (by norm_num; linarith) h)
    (si_grid (by linarith) h (clean_primitiveCell hcl)) (si_long (by linarith) h) (si_small (by linarith) h)
  show _ ≤ (200000000 * (1 / 20 : ℝ)) ^ 2
  nlinarith

theorem unit_combinations (c : ℝ) (M : Mat3 ℤ) : Structure.getCartCoords (cubicLattice c M) (combinationVecs (1 : Mat3 ℝ)) =
    (combZ M).map (cubicVec c) := by
  have hbase : (baseCombVecs : List (Vec3 ℝ)) = ([⟨1, 0, 0⟩, ⟨0, 1, 0⟩, ⟨0, 0, 1⟩, ⟨1, 1, 0⟩, ⟨1, 0, 1⟩, ⟨0, 1, 1⟩, ⟨-1, 1, 0⟩,
      ⟨-1, 0, 1⟩, ⟨0, -1, 1⟩, ⟨1, 1, 1⟩, ⟨-1, 1, 1⟩, ⟨1, -1, 1⟩, ⟨1, 1, -1⟩] : List (Vec3 ℤ)).map (cubicVec 1) := by
    simp [baseCombVecs, cubicVec]
  unfold Structure.getCartCoords combinationVecs combZ
  rw [hbase, List.flatMap_map, List.map_flatMap, List.map_flatMap]
  apply List.flatMap_congr
  intro v hv
  have hne : v ≠ 0 := by
    rintro rfl
    revert hv
    decide
  have e2 : Vec3.scale (-1) (cubicVec 1 v) = cubicVec 1 (-v) := by
    ext <;> simp [cubicVec, Vec3.scale]
  have hm : zeroTol < (FRound.abs (cubicVec 1 (-v)).mag : ℝ) := by
    show _ < |_|
    rw [abs_of_nonneg (mag_nonneg _), mag_eq]
    apply Real.lt_sqrt_of_sq_lt
    have h1 : (1 : ℝ) ≤ normZ (-v) := by exact_mod_cast one_le_normZ (neg_ne_zero.2 hne)
    rw [lenSq_cubicVec]
    have : (zeroTol : ℝ) = 1 / 1000000 := by simp [zeroTol, lit]
    rw [this]
    linarith
  have e3 : M * (-v) = -(M * v) := by ext <;> simp <;> ring
  simp only [Mat3.one_mulVec, e2, if_pos hm, List.cons_append, List.nil_append, List.map_cons, List.map_nil, cubicLattice_mulVec, e3]

theorem si_primitive (hu : 6 / 5 ≤ u) (h : SiBasis M) {r : Reducer ℝ} (hr : r.dtol = 1 / 20) {ord : List (String × ℕ) → List (String × ℕ)}
    (ho : ∀ l, (ord l).Perm l) : ∃ prim, r.findPrimitiveCell ord (siCell u M) = .ret prim ∧ prim.lattice = cubicLattice u M := by
  have hcl : CleanInput (siCell u M) r.dtol := by rw [hr]; exact si_clean hu h
  have hu0 : 0 < u := by linarith
  have u2 : 1 ≤ u ^ 2 := one_le_pow₀ (by linarith)
  have u3 : 1 ≤ u ^ 3 := one_le_pow₀ (by linarith)
  have hF := getShortest_cubic hu0 (by rw [hr]; norm_num : 0 ≤ r.dtol) (by rw [hr]; linarith) (by rw [hr]; linarith) h.short h.first
  have hS := getShortest_cubic hu0 (by rw [hr]; norm_num : 0 ≤ r.dtol) (by rw [hr]; linarith) (by rw [hr]; linarith) h.bound h.second
  refine clean_primitive_steps ho hcl hF ?_
  have hp : ∀ t : Vec3 ℝ, (FTrans.pinv (siCell u M).lattice : Mat3 ℝ) * ((siCell u M).lattice * t) = t := fun t => by
    rw [← Mat3.mul_mulVec, pinv_mul hcl.svAbove, Mat3.one_mulVec]
  have c0 : cubicVec u M.col0 = (siCell u M).lattice * (⟨1, 0, 0⟩ : Vec3 ℝ) := by
    ext <;> simp [siCell, refCell, Structure.new, cubicLattice, Mat3.ofCols]
  have c1 : cubicVec u M.col1 = (siCell u M).lattice * (⟨0, 1, 0⟩ : Vec3 ℝ) := by
    ext <;> simp [siCell, refCell, Structure.new, cubicLattice, Mat3.ofCols]
  have c2 : cubicVec u M.col2 = (siCell u M).lattice * (⟨0, 0, 1⟩ : Vec3 ℝ) := by
    ext <;> simp [siCell, refCell, Structure.new, cubicLattice, Mat3.ofCols]
  rw [c0, c1, c2, hp, hp, hp, show Mat3.ofCols (⟨1, 0, 0⟩ : Vec3 ℝ) ⟨0, 1, 0⟩ ⟨0, 0, 1⟩ = 1 from rfl,
    show (siCell u M).lattice = cubicLattice u M from rfl, unit_combinations, hS, c0, c1, c2]
  rfl

/-- the basis of the standard primitive cell. -/
def cycled (M : Mat3 ℤ) : Mat3 ℤ := Mat3.ofCols M.col1 M.col2 M.col0

/-- the standard primitive cell: the same vectors in another order. -/
theorem si_standard (hu : 6 / 5 ≤ u) (hu' : u ≤ 500) (h : SiBasis M) {ha : HashOrders ℝ} (hv : ha.Valid) (atol : ℝ) :
    ∃ (p : Structure ℝ) (f : ℕ), (⟨1 / 20, atol⟩ : SymmetryAnalyzer ℝ).getStandardPrimitiveStructure ha f (siCell u M) = .ret p ∧
      p.lattice = cubicLattice u (cycled M) ∧ InSystem (siCell u M).lattice .Cubic ∧
      ∀ Q, Orthogonal Q → MapsLattice Q p.lattice → ∃ c ∈ holoCodes .cF, Q * p.lattice = p.lattice * overK ℝ (decZ c) := by
  have hc := si_crystal hu hu' h hv atol
  have hu0 : 0 < u := by linarith
  obtain ⟨prim, k1, hl⟩ := si_primitive hu h (r := (⟨1 / 20, atol⟩ : SymmetryAnalyzer ℝ).reducer) rfl hv.minEle
  obtain ⟨e0, e1⟩ := si_eps hu0 h
  have hvol : prim.volume = |(siCell u M).volume| := by
    rw [abs_of_pos (by rw [si_volume h]; positivity)]
    unfold Structure.volume
    rw [hl]
    rfl
  have gram : ∀ a b : Vec3 ℤ, dotp (cubicVec u a) (cubicVec u b) = u ^ 2 * ((a.x * b.x + a.y * b.y + a.z * b.z : ℤ) : ℝ) := by
    intro a b
    simp only [dotp, cubicVec]
    push_cast
    ring
  have h11 := congrArg Mat3.m11 h.gram
  have h12 := congrArg Mat3.m12 h.gram
  have h13 := congrArg Mat3.m13 h.gram
  have h22 := congrArg Mat3.m22 h.gram
  have h23 := congrArg Mat3.m23 h.gram
  have h33 := congrArg Mat3.m33 h.gram
  simp [Mat3.transpose] at h11 h12 h13 h22 h23 h33
  have lsq : ∀ a : Vec3 ℤ, lenSq (cubicVec u a) = u ^ 2 * ((a.x * a.x + a.y * a.y + a.z * a.z : ℤ) : ℝ) := by
    intro a
    simp only [lenSq, cubicVec]
    push_cast
    ring
  have p0 : lenSq prim.lattice.col0 = 8 * u ^ 2 := by
    rw [hl, show (cubicLattice u M).col0 = cubicVec u M.col0 from rfl, lsq]
    simp only [Mat3.col0, h11]; push_cast; ring
  have p1 : lenSq prim.lattice.col1 = 8 * u ^ 2 := by
    rw [hl, show (cubicLattice u M).col1 = cubicVec u M.col1 from rfl, lsq]
    simp only [Mat3.col1, h22]; push_cast; ring
  have p2 : lenSq prim.lattice.col2 = 8 * u ^ 2 := by
    rw [hl, show (cubicLattice u M).col2 = cubicVec u M.col2 from rfl, lsq]
    simp only [Mat3.col2, h33]; push_cast; ring
  have p3 : dotp prim.lattice.col1 prim.lattice.col2 = 4 * u ^ 2 := by
    rw [hl, show (cubicLattice u M).col1 = cubicVec u M.col1 from rfl, show (cubicLattice u M).col2 = cubicVec u M.col2 from rfl, gram]
    simp only [Mat3.col1, Mat3.col2, h23]; push_cast; ring
  have p4 : dotp prim.lattice.col0 prim.lattice.col2 = 4 * u ^ 2 := by
    rw [hl, show (cubicLattice u M).col0 = cubicVec u M.col0 from rfl, show (cubicLattice u M).col2 = cubicVec u M.col2 from rfl, gram]
    simp only [Mat3.col0, Mat3.col2, h13]; push_cast; ring
  have p5 : dotp prim.lattice.col0 prim.lattice.col1 = 4 * u ^ 2 := by
    rw [hl, show (cubicLattice u M).col0 = cubicVec u M.col0 from rfl, show (cubicLattice u M).col1 = cubicVec u M.col1 from rfl, gram]
    simp only [Mat3.col0, Mat3.col1, h12]; push_cast; ring
  have u2 : 36 / 25 ≤ u ^ 2 := by nlinarith
  set ε := eps tol1em5 |(siCell u M).volume| with hε
  have hlt : ε < u ^ 2 := by nlinarith
  obtain ⟨nig, k2, hnl⟩ := C27_niggli_returns_on_reduced_partial (⟨1 / 20, atol⟩ : SymmetryAnalyzer ℝ).reducer prim tol1em5
    (by rw [hvol]; exact abs_nonneg _) (by rw [hvol]; exact e0.le) (by
      rw [hvol, ← hε]
      unfold NiggliCellWeak
      rw [p0, p1, p2, p3, p4, p5]
      have habs : |2 * (4 * u ^ 2)| = 8 * u ^ 2 := by rw [abs_of_pos (by positivity)]; ring
      constructor
      all_goals first
        | linarith
        | (rw [habs]; linarith)
        | (intro _; linarith)
        | (left; refine ⟨?_, ?_, ?_⟩ <;> nlinarith)
        | (rw [abs_of_pos (by positivity)]; intro hx; nlinarith)) (by
      left
      rw [hvol, ← hε, p3, p4, p5]
      refine ⟨?_, ?_, ?_⟩ <;> nlinarith)
  have hnv : nig.volume = prim.volume := by unfold Structure.volume; rw [hnl]
  have k3 : getLatticeCharacter nig tol1em5 = .ret 1 := by
    rw [getLatticeCharacter_eq (by rw [hnv, hvol]; exact abs_nonneg _), hnv, hnl, hvol, ← hε, p0, p1, p2, p3, p4, p5]
    exact characterOf_face e0 (by linarith) (by ring)
  obtain ⟨N, k, conv, p, hret, -⟩ := clean_standard ⟨1 / 20, atol⟩ ha hv hc.clean hc.found k1 k2 k3
  obtain ⟨N₁, hN₁⟩ := C35_primitive_holohedry_returns (K := ℝ)
  have hp := (hret (N + N₁) (by omega)).2
  obtain ⟨prim', nig', ch', b', g1, g2, g3, g4, key⟩ := clean_system ⟨1 / 20, atol⟩ ha hv _ _ _ p hc.clean hc.found hc.size hc.clear hp
  rw [k1] at g1
  cases g1
  rw [k2] at g2
  cases g2
  rw [k3] at g3
  cases g3
  have hb : b' = .cF := Option.some.inj (g4.symm.trans (by rfl))
  subst hb
  obtain ⟨pg, hpg⟩ := hN₁ (N + N₁) (by omega) ha hv .cF
  obtain ⟨hfull, hsy⟩ := key pg hpg
  refine ⟨p, N + N₁, hp, ?_, (hsy .Cubic (by decide)).2 (by decide) rfl, ?_⟩
  · obtain ⟨prim', nig', conv', ch', m, P, b, j1, j2, j3, j4, j5, j6, -, j8⟩ := standardPrimitive_ret hp
    rw [k1] at j1
    cases j1
    rw [k2] at j2
    cases j2
    rw [k3] at j8
    cases j8
    have hm : m = ⟨1, -1, 1, 1, 1, -1, -1, 1, 1⟩ := Option.some.inj (j3.symm.trans (by decide))
    have hP : P = ⟨0, 1 / 2, 1 / 2, 1 / 2, 0, 1 / 2, 1 / 2, 1 / 2, 0⟩ := by
      have e : (primitiveTransformationMatrix 1 : Outcome (Mat3 ℝ × BravaisType)) =
        .ret (primMatrix (⟨0, 1, 1, 1, 0, 1, 1, 1, 0⟩, 2), .cF) := rfl
      rw [e] at j5
      have e2 := (Prod.mk.inj (Outcome.ret.inj j5)).1
      rw [← e2]
      ext <;> simp [primMatrix, Mat3.divS, Mat3.map, lit]
    rw [applyTransformation_lattice j6, applyTransformation_lattice j4, hnl, hl, hm, hP]
    ext <;> simp [castRot, Mat3.map, Mat3.transpose, cubicLattice, cycled, Mat3.ofCols, cubicVec, Mat3.col0, Mat3.col1, Mat3.col2] <;> ring
  · intro R hR hm
    obtain ⟨W, hW, e⟩ := hfull.1 R hR hm
    obtain ⟨c, hc, rfl⟩ := List.mem_map.1 ((holo_perm hv hpg).mem_iff.1 hW)
    exact ⟨c, hc, by rw [e, intRot_dec8]⟩

/-- the basis of the usual primitive cell. -/
def siBasis : Mat3 ℤ := Mat3.ofCols ⟨0, 2, 2⟩ ⟨2, 0, 2⟩ ⟨2, 2, 0⟩

/-- the basis of the cell turned by 90° about the third axis of the cube. -/
def siTurned : Mat3 ℤ := Mat3.ofCols ⟨-2, 0, 2⟩ ⟨0, 2, 2⟩ ⟨-2, 2, 0⟩

set_option maxRecDepth 100000 in
theorem siBasis_ok : SiBasis siBasis where
  lat := by
    intro m
    constructor
    · rintro ⟨n, rfl⟩
      simp [siBasis, Mat3.ofCols, EvenFour]
      omega
    · rintro ⟨h1, h2, h3, h4⟩
      refine ⟨⟨(m.y + m.z - m.x) / 4, (m.x + m.z - m.y) / 4, (m.x + m.y - m.z) / 4⟩, ?_⟩
      ext <;> simp [siBasis, Mat3.ofCols] <;> omega
  det := by decide
  frob := by decide
  gram := by decide
  first := by decide +kernel
  short := by decide +kernel
  bound := by decide +kernel
  second := by decide +kernel

set_option maxRecDepth 100000 in
theorem siTurned_ok : SiBasis siTurned where
  lat := by
    intro m
    constructor
    · rintro ⟨n, rfl⟩
      simp [siTurned, Mat3.ofCols, EvenFour]
      omega
    · rintro ⟨h1, h2, h3, h4⟩
      refine ⟨⟨(m.z - m.y - m.x) / 4, (m.x + m.y + m.z) / 4, (m.y - m.x - m.z) / 4⟩, ?_⟩
      ext <;> simp [siTurned, Mat3.ofCols] <;> omega
  det := by decide
  frob := by decide
  gram := by decide
  first := by decide +kernel
  short := by decide +kernel
  bound := by decide +kernel
  second := by decide +kernel

/-- the rotation with the code `c` in the coordinates of the cube. -/
def siRot (c : ℕ) : Mat3 ℤ := (cycled siBasis * decZ c * (cycled siBasis).adj).map fun k => k / 16

/-- the sum of the coordinates of the image of the second atom. -/
def siSum (c : ℕ) : ℤ := (siRot c * (⟨1, 1, 1⟩ : Vec3 ℤ)).x + (siRot c * (⟨1, 1, 1⟩ : Vec3 ℤ)).y + (siRot c * (⟨1, 1, 1⟩ : Vec3 ℤ)).z

/-- the symmetry with this rotation in the basis of the standard primitive cell. -/
def siOp (c : ℕ) : ZOp := (decZ c, if siSum c % 4 = 3 then ⟨0, 0, 0⟩ else ⟨3, 3, 3⟩)

/-- table 227. -/
def siEntry : Option (List ℕ) :=
  (amapGet? sgNumToFullMatrices .Cubic).bind fun groups => (amapGet? groups 48).bind fun cands =>
    (cands.find? fun p => p.1 = 227).map Prod.snd

def siCheck : Bool :=
  (match siEntry with
  | some codes => (groupZ (227, codes)).isPerm ((holoCodes .cF).map siOp)
  | none => false) &&
  (holoCodes .cF).all fun c => decide (siRot c * cycled siBasis = cycled siBasis * decZ c) &&
    decide ((siRot c).transpose * siRot c = 1)

set_option maxRecDepth 100000 in
theorem siCheck_ok : siCheck = true := by decide +kernel

theorem si_table : ∃ codes, IsTableEntry .Cubic 48 227 codes ∧ (groupZ (227, codes)).Perm ((holoCodes .cF).map siOp) := by
  have hk := siCheck_ok
  unfold siCheck at hk
  rw [Bool.and_eq_true] at hk
  have h1 := hk.1
  split at h1
  · rename_i codes hp
    unfold siEntry at hp
    simp only [Option.bind_eq_some_iff, Option.map_eq_some_iff] at hp
    obtain ⟨groups, e2, cands, e3, q, e4, rfl⟩ := hp
    have hq : q.1 = 227 := by simpa using List.find?_some e4
    refine ⟨q.2, ⟨groups, cands, amapGet?_mem e2, amapGet?_mem e3, ?_⟩, List.isPerm_iff.1 h1⟩
    rw [← hq]; exact List.mem_of_find?_eq_some e4
  · exact absurd h1 (by simp)

theorem siRot_spec {c : ℕ} (hc : c ∈ holoCodes .cF) : siRot c * cycled siBasis = cycled siBasis * decZ c ∧ OrthoInt (siRot c) := by
  have hk := siCheck_ok
  unfold siCheck at hk
  rw [Bool.and_eq_true, List.all_eq_true] at hk
  have := hk.2 c hc
  rw [Bool.and_eq_true, decide_eq_true_eq, decide_eq_true_eq] at this
  exact this

/-- the group of the crystal in the basis of the standard primitive cell of the usual cell is the table. -/
theorem si_group (hu : 6 / 5 ≤ u) {p : Structure ℝ} (hl : p.lattice = cubicLattice u (cycled siBasis))
    (hcode : ∀ Q, Orthogonal Q → MapsLattice Q p.lattice → ∃ c ∈ holoCodes .cF, Q * p.lattice = p.lattice * overK ℝ (decZ c))
    {e : ℕ × List ℕ} (hperm : (groupZ e).Perm ((holoCodes .cF).map siOp)) :
    GroupIs (siCell u siBasis) p.lattice ((groupZ e).map (opK ℝ)) := by
  have hu0 : 0 < u := by linarith
  have hcl := si_clean hu siBasis_ok
  have hdet : (cubicLattice u (cycled siBasis)).det ≠ 0 := by
    rw [cubicLattice_det, show (cycled siBasis).det = 16 from by decide]
    push_cast
    positivity
  have hsame : SameLattice (cubicLattice u siBasis) (cubicLattice u (cycled siBasis)) := by
    intro v
    constructor
    · rintro ⟨n, hn, rfl⟩
      obtain ⟨k, rfl⟩ := intVec_cubic.1 hn
      refine ⟨cubicVec 1 ⟨k.y, k.z, k.x⟩, intVec_cubic.2 ⟨_, rfl⟩, ?_⟩
      rw [cubicLattice_mulVec, cubicLattice_mulVec]
      congr 1
      ext <;> simp [cycled, Mat3.ofCols, Mat3.col0, Mat3.col1, Mat3.col2] <;> ring
    · rintro ⟨n, hn, rfl⟩
      obtain ⟨k, rfl⟩ := intVec_cubic.1 hn
      refine ⟨cubicVec 1 ⟨k.z, k.x, k.y⟩, intVec_cubic.2 ⟨_, rfl⟩, ?_⟩
      rw [cubicLattice_mulVec, cubicLattice_mulVec]
      congr 1
      ext <;> simp [cycled, Mat3.ofCols, Mat3.col0, Mat3.col1, Mat3.col2] <;> ring
  -- rotations in the two bases
  have hbasis : ∀ c ∈ holoCodes .cF, overK ℝ (siRot c) * cubicLattice u (cycled siBasis) = cubicLattice u (cycled siBasis) * overK ℝ (decZ c) := by
    intro c hc
    have h1 : ∀ B : Mat3 ℤ, cubicLattice u B = Mat3.scale u (overK ℝ B) := by
      intro B
      ext <;> simp [cubicLattice, Mat3.ofCols, cubicVec, Mat3.scale, Mat3.map, overK, Mat3.col0, Mat3.col1, Mat3.col2] <;> ring
    have h2 := congrArg (overK ℝ) (siRot_spec hc).1
    rw [overK_mul, overK_mul] at h2
    have h3 : ∀ A B : Mat3 ℝ, A * Mat3.scale u B = Mat3.scale u (A * B) := by
      intro A B
      ext <;> simp [Mat3.scale, Mat3.map] <;> ring
    have h4 : ∀ A B : Mat3 ℝ, Mat3.scale u A * B = Mat3.scale u (A * B) := by
      intro A B
      ext <;> simp [Mat3.scale, Mat3.map] <;> ring
    rw [h1, h3, h4, h2]
  have hrot : ∀ c ∈ holoCodes .cF, ∀ Q : Mat3 ℝ, Q * p.lattice = p.lattice * overK ℝ (decZ c) ↔ Q = overK ℝ (siRot c) := by
    intro c hc Q
    rw [hl, ← hbasis c hc]
    constructor
    · intro h
      have := congrArg (fun X => X * (cubicLattice u (cycled siBasis)).adjDiv (cubicLattice u (cycled siBasis)).det) h
      simpa only [mul_assoc, Mat3.mul_adjDiv hdet, mul_one] using this
    · rintro rfl
      rfl
  -- translations in the two bases
  have hquarter : cubicLattice u (cycled siBasis) * (⟨3 / 12, 3 / 12, 3 / 12⟩ : Vec3 ℝ) = cubicVec u ⟨1, 1, 1⟩ := by
    ext <;> simp [cubicLattice, cycled, siBasis, Mat3.ofCols, Mat3.col0, Mat3.col1, Mat3.col2, cubicVec] <;> ring
  have hev : ∀ x : Vec3 ℝ, IntVec x ↔ ∃ m, EvenFour m ∧ p.lattice * x = cubicVec u m := by
    intro x
    rw [hl]
    constructor
    · intro hx
      obtain ⟨n, hn, e⟩ := (hsame _).2 ⟨x, hx, rfl⟩
      obtain ⟨m, hm, e'⟩ := (si_lattice (u := u) siBasis_ok).1 ⟨n, hn, rfl⟩
      exact ⟨m, hm, by rw [e, e']⟩
    · rintro ⟨m, hm, e⟩
      obtain ⟨n, hn, e'⟩ := (hsame _).1 ((si_lattice (u := u) siBasis_ok).2 ⟨m, hm, rfl⟩)
      rw [mulVec_injective hdet (e.trans e')]
      exact hn
  have htrans : ∀ (c : ℕ) (x : Vec3 ℝ), IntVec (x - (opK ℝ (siOp c)).translation) ↔
      ∃ m, p.lattice * x = cubicVec u m ∧ if siSum c % 4 = 3 then EvenFour m else OddFour m := by
    intro c x
    rw [hev]
    unfold siOp opK
    split_ifs with hs
    · have : (⟨((0 : ℤ) : ℝ) / 12, ((0 : ℤ) : ℝ) / 12, ((0 : ℤ) : ℝ) / 12⟩ : Vec3 ℝ) = 0 := by ext <;> simp
      simp only [this, sub_zero]
      exact exists_congr fun m => and_comm
    · have e3 : (⟨((3 : ℤ) : ℝ) / 12, ((3 : ℤ) : ℝ) / 12, ((3 : ℤ) : ℝ) / 12⟩ : Vec3 ℝ) = ⟨3 / 12, 3 / 12, 3 / 12⟩ := by ext <;> simp
      simp only [e3, Mat3.mulVec_sub]
      rw [hl, hquarter]
      constructor
      · rintro ⟨m, hm, e⟩
        refine ⟨m + ⟨1, 1, 1⟩, by rw [← cubicVec_add, ← e]; abel, ?_⟩
        unfold EvenFour at hm
        unfold OddFour
        simp only [Vec3.add_x, Vec3.add_y, Vec3.add_z]
        omega
      · rintro ⟨m, e, hm⟩
        refine ⟨m - ⟨1, 1, 1⟩, ?_, by rw [e, cubicVec_sub]⟩
        unfold OddFour at hm
        unfold EvenFour
        simp only [Vec3.sub_x, Vec3.sub_y, Vec3.sub_z]
        omega
  have hrange : ∀ c ∈ holoCodes .cF, castRot (K := ℝ) (opK ℝ (siOp c)).rotation = overK ℝ (decZ c) := by
    intro c hc
    have hm : siOp c ∈ groupZ e := hperm.mem_iff.2 (List.mem_map.2 ⟨c, hc, rfl⟩)
    rw [castRot_overK, show (opK ℝ (siOp c)).rotation = rotZ (siOp c) from rfl, intRot_rotZ (groupZ_range _ hm)]
    rfl
  -- which translations go with a rotation
  have hpair : ∀ c ∈ holoCodes .cF, ∀ m : Vec3 ℤ, (if siSum c % 4 = 3 then EvenFour m else OddFour m) ↔
      (EvenFour m ∨ OddFour m) ∧ (EvenFour (siRot c * (⟨1, 1, 1⟩ : Vec3 ℤ) + m) ∨ OddFour (siRot c * (⟨1, 1, 1⟩ : Vec3 ℤ) + m)) := by
    intro c hc m
    obtain ⟨v1, v2, v3⟩ := orthoInt_ones (siRot_spec hc).2
    have hsum : siSum c = (siRot c * (⟨1, 1, 1⟩ : Vec3 ℤ)).x + (siRot c * (⟨1, 1, 1⟩ : Vec3 ℤ)).y +
      (siRot c * (⟨1, 1, 1⟩ : Vec3 ℤ)).z := rfl
    rw [hsum]
    unfold EvenFour OddFour
    simp only [Vec3.add_x, Vec3.add_y, Vec3.add_z]
    split_ifs with hs
    · omega
    · omega
  intro Q x
  constructor
  · intro hs
    have hm := symmetry_mapsLattice (clean_primitiveCell hcl) hs
    obtain ⟨c, hc, hQ⟩ := hcode Q hs.1 (by rw [hl]; exact mapsLattice_congr hsame hm)
    refine ⟨opK ℝ (siOp c), List.mem_map.2 ⟨siOp c, hperm.mem_iff.2 (List.mem_map.2 ⟨c, hc, rfl⟩), rfl⟩, by rw [hrange c hc]; exact hQ, ?_⟩
    obtain ⟨W, hW, e1, m, e2, h1, h2⟩ := si_symmetry hu0 siBasis_ok hm hs
    have hWc : W = siRot c := overK_injective (K := ℝ) (e1.symm.trans ((hrot c hc Q).1 hQ))
    subst hWc
    exact (htrans c x).2 ⟨m, e2, (hpair c hc m).2 ⟨h1, h2⟩⟩
  · rintro ⟨o, ho, hQ, hx⟩
    obtain ⟨a, ha, rfl⟩ := List.mem_map.1 ho
    obtain ⟨c, hc, rfl⟩ := List.mem_map.1 (hperm.mem_iff.1 ha)
    rw [hrange c hc] at hQ
    have hQ' := (hrot c hc Q).1 hQ
    subst hQ'
    obtain ⟨m, e, hm⟩ := (htrans c x).1 hx
    obtain ⟨h1, h2⟩ := (hpair c hc m).1 hm
    rw [e]
    exact si_symmetry_of siBasis_ok (siRot_spec hc).2 h1 h2

/-- **C78 (silicon).** The diamond structure with the edge `4 u` in its usual primitive cell: number 227. -/
theorem C78_silicon (hu : 6 / 5 ≤ u) (hu' : u ≤ 500) (h : HashOrders ℝ) (hv : h.Valid) (atol : ℝ) : ∃ ops N, ∀ fuel ≥ N,
    (⟨1 / 20, atol⟩ : SymmetryAnalyzer ℝ).getSpaceGroupInfo h fuel (siCell u siBasis) = .ret (227, "Fd-3m1", ops) := by
  obtain ⟨p, f, hp, hl, hsys, hcode⟩ := si_standard hu hu' siBasis_ok hv atol
  obtain ⟨codes, hent, hperm⟩ := si_table
  obtain ⟨table, htab, -⟩ := C39_tables_are_groups (K := ℝ) _ _ _ _ hent
  have hc := si_crystal hu hu' siBasis_ok hv atol
  have hg := si_group hu hl hcode hperm
  rw [← tableOps_eq htab] at hg
  obtain ⟨sym, ops, N, e1, e2⟩ := found_of_cell _ h hv f _ _ p hc.clean hc.found hc.same hc.nonsing hc.index hc.size hc.clear hc.resolved hc.long
    hc.small hp .Cubic 48 227 codes table (by decide) hsys hent htab (by decide) hg
  have hs : sym = "Fd-3m1" := by
    have : amapGet? sgNumToSymbol 227 = some "Fd-3m1" := by decide +kernel
    exact Option.some.inj (e1.symm.trans this)
  subst hs
  exact ⟨ops, N, e2⟩

/-- the inversion. -/
def siInv : Mat3 ℤ := .ofCols ⟨-1, 0, 0⟩ ⟨0, -1, 0⟩ ⟨0, 0, -1⟩

set_option maxRecDepth 100000 in
/-- the inversion of table 227 moves the origin by `(1/4, 1/4, 1/4)`. -/
theorem si_inversion_ok : (sgNumToFullMatrices.all fun g => g.2.all fun q => q.2.all fun e =>
    if e.1 = 227 then (groupZ e).any fun a => a.1 == siInv && a.2 == ⟨3, 3, 3⟩ else true) = true := by decide +kernel

theorem si_inversion {sys : LatticeSystem} {n : ℕ} {codes : List ℕ} (h : IsTableEntry sys n 227 codes) :
    (siInv, (⟨3, 3, 3⟩ : Vec3 ℤ)) ∈ groupZ (227, codes) := by
  obtain ⟨groups, cands, h1, h2, h3⟩ := h
  have := List.all_eq_true.1 (List.all_eq_true.1 (List.all_eq_true.1 si_inversion_ok _ h1) _ h2) _ h3
  rw [if_pos rfl, List.any_eq_true] at this
  obtain ⟨⟨a, b⟩, ha, e⟩ := this
  rw [Bool.and_eq_true, beq_iff_eq, beq_iff_eq] at e
  obtain ⟨rfl, rfl⟩ := e
  exact ha

/-- **C78 (the axes matter).** The same crystal in the cell whose basis is turned by 90° about an axis of the cube: nothing is
reported. -/
theorem C78_false_turned_axes (hu : 6 / 5 ≤ u) (hu' : u ≤ 500) (h : HashOrders ℝ) (hv : h.Valid) (atol : ℝ) :
    SameAtoms (siCell u siBasis) (siCell u siTurned) ∧ ∀ fuel num sym ops,
      (⟨1 / 20, atol⟩ : SymmetryAnalyzer ℝ).getSpaceGroupInfo h fuel (siCell u siTurned) ≠ .ret (num, sym, ops) := by
  have hu0 : 0 < u := by linarith
  have hsame : SameAtoms (siCell u siBasis) (siCell u siTurned) := si_same siBasis_ok siTurned_ok
  refine ⟨hsame, fun fuel num sym ops hr => ?_⟩
  obtain ⟨ops', N, hN⟩ := C78_silicon hu hu' h hv atol
  have hc := si_crystal hu hu' siBasis_ok hv atol
  have hc' := si_crystal hu hu' siTurned_ok hv atol
  obtain ⟨rfl, -⟩ := C78_same_number _ _ h h hv hv N fuel _ _ _ _ hc hc' hsame _ _ _ _ _ _ (hN N le_rfl) hr
  obtain ⟨p, f, hp, hl, hsys, hcode⟩ := si_standard hu hu' siTurned_ok hv atol
  obtain ⟨-, sys, n, codes, table, hR, hsys', hent, htab, hg⟩ := (reported_iff_of_cell _ h hv f _ _ p hc'.clean hc'.found hc'.same hc'.nonsing
    hc'.index hc'.size hc'.clear hc'.resolved hc'.grid hc'.long hc'.small hp 227).1 ⟨fuel, sym, ops, hr⟩
  rw [tableOps_eq htab] at hg
  have hin := si_inversion hent
  have hsym := (hg (overK ℝ siInv) ⟨3 / 12, 3 / 12, 3 / 12⟩).2 ⟨_, List.mem_map.2 ⟨_, hin, rfl⟩, by
    rw [castRot_overK, show (opK ℝ (siInv, (⟨3, 3, 3⟩ : Vec3 ℤ))).rotation = rotZ (siInv, (⟨3, 3, 3⟩ : Vec3 ℤ)) from rfl,
      intRot_rotZ (groupZ_range _ hin)]
    ext <;> simp [overK, Mat3.map, siInv, Mat3.ofCols], by
    rw [show (⟨3 / 12, 3 / 12, 3 / 12⟩ : Vec3 ℝ) - (opK ℝ (siInv, (⟨3, 3, 3⟩ : Vec3 ℤ))).translation = 0 from by ext <;> simp [opK]]
    exact intVec_zero⟩
  have ht : p.lattice * (⟨3 / 12, 3 / 12, 3 / 12⟩ : Vec3 ℝ) = cubicVec u ⟨-1, 1, 1⟩ := by
    rw [hl]
    ext <;> simp [cubicLattice, cycled, siTurned, Mat3.ofCols, Mat3.col0, Mat3.col1, Mat3.col2, cubicVec] <;> ring
  rw [ht] at hsym
  obtain ⟨W, -, -, m, e, hm, -⟩ := si_symmetry hu0 siTurned_ok
    (symmetry_mapsLattice (clean_primitiveCell (si_clean hu siTurned_ok)) hsym) hsym
  rw [← cubicVec_injective hu0.ne' e] at hm
  simp [EvenFour, OddFour] at hm

/-- silicon (edge 5.43) in its usual cell is reported, in the turned cell it is not. -/
example (h : HashOrders ℝ) (hv : h.Valid) :
    (∃ ops N, ∀ fuel ≥ N, (⟨1 / 20, 5⟩ : SymmetryAnalyzer ℝ).getSpaceGroupInfo h fuel (siCell (543 / 400) siBasis) = .ret (227, "Fd-3m1", ops)) ∧
      ∀ fuel num sym ops, (⟨1 / 20, 5⟩ : SymmetryAnalyzer ℝ).getSpaceGroupInfo h fuel (siCell (543 / 400) siTurned) ≠ .ret (num, sym, ops) :=
  ⟨C78_silicon (by norm_num) (by norm_num) h hv 5, (C78_false_turned_axes (by norm_num) (by norm_num) h hv 5).2⟩

/-- silicon at two angle tolerances, with different hash orders: same number. -/
example (h h' : HashOrders ℝ) (hv : h.Valid) (hv' : h'.Valid) (f f' num num' : ℕ) (sym sym' : String) (ops ops' : List (SymmOp ℝ))
    (hr : (⟨1 / 20, 5⟩ : SymmetryAnalyzer ℝ).getSpaceGroupInfo h f (siCell (543 / 400) siBasis) = .ret (num, sym, ops))
    (hr' : (⟨1 / 20, 3⟩ : SymmetryAnalyzer ℝ).getSpaceGroupInfo h' f' (siCell (543 / 400) siTurned) = .ret (num', sym', ops')) : num = num' :=
  (C78_same_number _ _ h h' hv hv' f f' _ _ _ _ (si_crystal (by norm_num) (by norm_num) siBasis_ok hv 5)
    (si_crystal (by norm_num) (by norm_num) siTurned_ok hv' 3) (si_same siBasis_ok siTurned_ok) num num' sym sym' ops ops' hr hr').1

/-- caesium chloride, with the chlorine in the cell and one cell higher. -/
theorem salt_crystal (j : ℤ) {h : HashOrders ℝ} (hv : h.Valid) (atol : ℝ) : CleanCrystal ⟨1 / 20, atol⟩ h (saltCell j) (saltCell j) :=
  .of_input hv (salt_clean j) (by rw [salt_size]; norm_num) (salt_clear j) (salt_resolved j) (salt_gridOrigin j)
    (fun n hn h0 => le_trans (by norm_num) (salt_long j n hn h0)) (salt_small j)

example (h h' : HashOrders ℝ) (hv : h.Valid) (hv' : h'.Valid) (f : ℕ) (sym : String) (ops : List (SymmOp ℝ))
    (hr : (⟨1 / 20, 5⟩ : SymmetryAnalyzer ℝ).getSpaceGroupInfo h f (saltCell 5) = .ret (221, sym, ops)) :
    ∃ ops' N, ∀ fuel ≥ N, (⟨1 / 20, 3⟩ : SymmetryAnalyzer ℝ).getSpaceGroupInfo h' fuel (saltCell 15) = .ret (221, sym, ops') := by
  have hc' := salt_crystal 15 hv' 3
  obtain ⟨prim, nig, k1, k2, k3⟩ := salt_cells 15 h' hv' 3
  obtain ⟨N, k, conv, p, hret, -⟩ := clean_standard ⟨1 / 20, 3⟩ h' hv' hc'.clean hc'.found k1 k2 k3
  refine C78_same_answer_partial _ _ h h' hv hv' f N _ _ _ _ p (salt_crystal 5 hv 5) hc' ?_ 221 sym ops hr (hret N le_rfl).2 (by decide)
  have hx : ∀ n : Vec3 ℝ, saltSite 15 + (n - ⟨0, 0, 1⟩) = saltSite 5 + n := by
    intro n
    ext <;> simp [saltSite] <;> ring
  intro e x
  rw [salt_atomAt, salt_atomAt]
  refine or_congr Iff.rfl (and_congr Iff.rfl ⟨?_, ?_⟩)
  · rintro ⟨n, hn, rfl⟩
    exact ⟨n - ⟨0, 0, 1⟩, intVec_subV hn ⟨0, 0, 1, by simp⟩, by rw [hx n]⟩
  · rintro ⟨n, hn, rfl⟩
    refine ⟨n + ⟨0, 0, 1⟩, intVec_add hn ⟨0, 0, 1, by simp⟩, ?_⟩
    rw [← hx]
    congr 1
    ext <;> simp

end CrystSymm
