import Verif.Props.Conventional
import Verif.Proofs.CubicCell
import Verif.Props.Salt

set_option autoImplicit false
set_option linter.unusedSectionVars false

/-! # C77: crystals in centred cubic cells -/

namespace CrystSymm

open Spec Reducer SymmetryAnalyzer PointGroup

theorem cubicVec_add (c : ℝ) (u v : Vec3 ℤ) : cubicVec c u + cubicVec c v = cubicVec c (u + v) := by
  ext <;> simp [cubicVec] <;> ring

theorem cubicVec_sub (c : ℝ) (u v : Vec3 ℤ) : cubicVec c u - cubicVec c v = cubicVec c (u - v) := by
  ext <;> simp [cubicVec] <;> ring

theorem cubicVec_zero (c : ℝ) : cubicVec c 0 = 0 := by ext <;> simp [cubicVec]

theorem cubicVec_injective {c : ℝ} (hc : c ≠ 0) {u v : Vec3 ℤ} (h : cubicVec c u = cubicVec c v) : u = v := by
  have x := congrArg Vec3.x h
  have y := congrArg Vec3.y h
  have z := congrArg Vec3.z h
  simp only [cubicVec, mul_eq_mul_left_iff, hc, or_false] at x y z
  ext
  · exact_mod_cast x
  · exact_mod_cast y
  · exact_mod_cast z

theorem overK_cubicVec (c : ℝ) (W : Mat3 ℤ) (v : Vec3 ℤ) : overK ℝ W * cubicVec c v = cubicVec c (W * v) := by
  ext <;> simp [cubicVec, overK, Mat3.map] <;> ring

theorem intVec_cubic {n : Vec3 ℝ} : IntVec n ↔ ∃ v : Vec3 ℤ, n = cubicVec 1 v := by
  constructor
  · rintro ⟨a, b, c, rfl⟩
    exact ⟨⟨a, b, c⟩, by ext <;> simp [cubicVec]⟩
  · rintro ⟨v, rfl⟩
    exact ⟨v.x, v.y, v.z, by ext <;> simp [cubicVec]⟩

/-- the lattice with the columns `c M`. -/
noncomputable def cubicLattice (c : ℝ) (M : Mat3 ℤ) : Mat3 ℝ := Mat3.ofCols (cubicVec c M.col0) (cubicVec c M.col1) (cubicVec c M.col2)

theorem cubicLattice_mulVec (c : ℝ) (M : Mat3 ℤ) (v : Vec3 ℤ) : cubicLattice c M * cubicVec 1 v = cubicVec c (M * v) := by
  ext <;> simp [cubicLattice, cubicVec, Mat3.ofCols, Mat3.col0, Mat3.col1, Mat3.col2] <;> ring

theorem cubicLattice_det (c : ℝ) (M : Mat3 ℤ) : (cubicLattice c M).det = c ^ 3 * M.det := by
  simp [cubicLattice, cubicVec, Mat3.ofCols, Mat3.col0, Mat3.col1, Mat3.col2, Mat3.det]; ring

/-- the sum of the squares of the entries. -/
def frobZ (M : Mat3 ℤ) : ℕ := normZ M.col0 + normZ M.col1 + normZ M.col2

theorem cubicLattice_frob (c : ℝ) (M : Mat3 ℤ) : frob (cubicLattice c M) = c ^ 2 * frobZ M := by
  have h0 : (cubicLattice c M).col0 = cubicVec c M.col0 := rfl
  have h1 : (cubicLattice c M).col1 = cubicVec c M.col1 := rfl
  have h2 : (cubicLattice c M).col2 = cubicVec c M.col2 := rfl
  unfold frob frobZ
  rw [h0, h1, h2, lenSq_cubicVec, lenSq_cubicVec, lenSq_cubicVec]
  push_cast
  ring

/-- the crystal in a primitive cell. -/
noncomputable def refCell (c : ℝ) (M : Mat3 ℤ) (l : List (String × Vec3 ℤ)) : Structure ℝ :=
  Structure.new (cubicLattice c M) (l.map Prod.fst)
    (l.map fun p => (cubicLattice 1 M).adjDiv (cubicLattice 1 M).det * cubicVec 1 p.2) false

theorem refCell_sites (c : ℝ) (M : Mat3 ℤ) (l : List (String × Vec3 ℤ)) :
    sites (refCell c M l) = l.map fun p => (p.1, (cubicLattice 1 M).adjDiv (cubicLattice 1 M).det * cubicVec 1 p.2) := by
  unfold sites refCell Structure.new
  simp [List.zip_map']

theorem refCell_mulVec {c : ℝ} {M : Mat3 ℤ} (hM : 0 < M.det) (l : List (String × Vec3 ℤ)) (v : Vec3 ℤ) :
    (refCell c M l).lattice * ((cubicLattice 1 M).adjDiv (cubicLattice 1 M).det * cubicVec 1 v) = cubicVec c v := by
  have hd : (cubicLattice 1 M).det ≠ 0 := by
    rw [cubicLattice_det]
    have : (0 : ℝ) < M.det := by exact_mod_cast hM
    positivity
  have h1 : (cubicLattice 1 M) * ((cubicLattice 1 M).adjDiv (cubicLattice 1 M).det * cubicVec 1 v) = cubicVec 1 v := by
    rw [← Mat3.mul_mulVec, Mat3.mul_adjDiv hd, Mat3.one_mulVec]
  have h2 : (refCell c M l).lattice = (cubicLattice 1 M).scale c := by
    show cubicLattice c M = _
    ext <;> simp [cubicLattice, cubicVec, Mat3.ofCols, Mat3.scale, Mat3.map] <;> ring
  have h3 : ∀ (A : Mat3 ℝ) (w : Vec3 ℝ), Mat3.scale c A * w = Vec3.scale c (A * w) := by
    intro A w
    ext <;> simp [Mat3.scale, Mat3.map, Vec3.scale] <;> ring
  rw [h2, h3, h1]
  ext <;> simp [cubicVec, Vec3.scale]

/-- the sites of the crystal, in units of `c`. -/
def AtZ (M : Mat3 ℤ) (l : List (String × Vec3 ℤ)) (e : String) (m : Vec3 ℤ) : Prop := ∃ p ∈ l, p.1 = e ∧ ∃ n : Vec3 ℤ, m = p.2 + M * n

theorem refCell_atomAt {c : ℝ} {M : Mat3 ℤ} (hM : 0 < M.det) {l : List (String × Vec3 ℤ)} {e : String} {x : Vec3 ℝ} :
    AtomAt (refCell c M l) e x ↔ ∃ m, AtZ M l e m ∧ x = cubicVec c m := by
  unfold AtomAt AtZ
  rw [refCell_sites]
  constructor
  · rintro ⟨q, hq, n, hn, rfl⟩
    obtain ⟨p, hp, e1⟩ := List.mem_map.1 hq
    obtain ⟨v, rfl⟩ := intVec_cubic.1 hn
    cases e1
    refine ⟨p.2 + M * v, ⟨p, hp, rfl, v, rfl⟩, ?_⟩
    rw [Mat3.mulVec_add, refCell_mulVec hM, show (refCell c M l).lattice = cubicLattice c M from rfl, cubicLattice_mulVec, cubicVec_add]
  · rintro ⟨m, ⟨p, hp, rfl, n, rfl⟩, rfl⟩
    refine ⟨_, List.mem_map.2 ⟨p, hp, rfl⟩, cubicVec 1 n, intVec_cubic.2 ⟨n, rfl⟩, ?_⟩
    rw [Mat3.mulVec_add, refCell_mulVec hM, show (refCell c M l).lattice = cubicLattice c M from rfl, cubicLattice_mulVec, cubicVec_add]

theorem cubicCell_atomAt {c : ℝ} {l : List (String × Vec3 ℤ)} {e : String} {x : Vec3 ℝ} :
    AtomAt (cubicCell c l) e x ↔ ∃ m, AtZ ⟨2, 0, 0, 0, 2, 0, 0, 0, 2⟩ l e m ∧ x = cubicVec c m := by
  have h2 : ∀ v : Vec3 ℤ, (cubicCell c l).lattice * cubicVec 1 v = cubicVec c ((⟨2, 0, 0, 0, 2, 0, 0, 0, 2⟩ : Mat3 ℤ) * v) := by
    intro v
    rw [cubicCell_lattice]
    ext <;> simp [cubicVec] <;> ring
  unfold AtomAt AtZ
  rw [cubicCell_sites]
  constructor
  · rintro ⟨q, hq, n, hn, rfl⟩
    obtain ⟨p, hp, e1⟩ := List.mem_map.1 hq
    obtain ⟨v, rfl⟩ := intVec_cubic.1 hn
    cases e1
    exact ⟨_, ⟨p, hp, rfl, v, rfl⟩, by rw [Mat3.mulVec_add, cubicCell_mulVec, h2, cubicVec_add]⟩
  · rintro ⟨m, ⟨p, hp, rfl, n, rfl⟩, rfl⟩
    exact ⟨_, List.mem_map.2 ⟨p, hp, rfl⟩, cubicVec 1 n, intVec_cubic.2 ⟨n, rfl⟩, by
      rw [Mat3.mulVec_add, cubicCell_mulVec, h2, cubicVec_add]⟩

/-- the facts about the crystal, in integers: the conventional cell, a primitive cell, the atoms, the symmetry of the cube. -/
structure CubicCrystal (l r : List (String × Vec3 ℤ)) (M : Mat3 ℤ) (P : String → Vec3 ℤ → Prop) (q k : ℕ) : Prop where
  conv : ∀ e m, AtZ ⟨2, 0, 0, 0, 2, 0, 0, 0, 2⟩ l e m ↔ P e m
  prim : ∀ e m, AtZ M r e m ↔ P e m
  det : 0 < M.det ∧ M.det ≤ 8
  inner : ∀ n : Vec3 ℤ, ∃ k : Vec3 ℤ, (⟨2 * n.x, 2 * n.y, 2 * n.z⟩ : Vec3 ℤ) = M * k
  one : ∃ e, ∀ m, P e m ↔ ∃ n : Vec3 ℤ, m = M * n
  once : ∃ e, (r.map Prod.fst).count e = 1
  few : l.length < 65536 ∧ r.length < 65536
  cube : ∀ W : Mat3 ℤ, OrthoInt W → ∀ e m, P e m → P e (W * m)
  apart : ∀ e e' m m', P e m → P e' m' → (e = e' ∧ m = m') ∨ q ≤ normZ (m - m')
  long : ∀ n : Vec3 ℤ, M * n ≠ 0 → k ≤ normZ (M * n)
  distinct : r.Pairwise fun p p' => ∀ n : Vec3 ℤ, p.2 - p'.2 ≠ M * n

theorem four_squares {x y z : ℤ} (h : x * x + y * y + z * z = 4) : ∃ a b c : ℤ, x = 2 * a ∧ y = 2 * b ∧ z = 2 * c := by
  have sq : ∀ t : ℤ, t * t % 4 = 0 ∧ t % 2 = 0 ∨ t * t % 4 = 1 ∧ t % 2 = 1 := by
    intro t
    rcases Int.emod_two_eq_zero_or_one t with ht | ht
    · left
      obtain ⟨k, rfl⟩ := Int.dvd_of_emod_eq_zero ht
      refine ⟨?_, ht⟩
      rw [show 2 * k * (2 * k) = 4 * (k * k) by ring]
      omega
    · right
      refine ⟨?_, ht⟩
      obtain ⟨k, hk⟩ : ∃ k, t = 2 * k + 1 := ⟨t / 2, by omega⟩
      subst hk
      rw [show (2 * k + 1) * (2 * k + 1) = 4 * (k * k + k) + 1 by ring]
      omega
  rcases sq x with ⟨h1, h1'⟩ | ⟨h1, h1'⟩ <;> rcases sq y with ⟨h2, h2'⟩ | ⟨h2, h2'⟩ <;> rcases sq z with ⟨h3, h3'⟩ | ⟨h3, h3'⟩ <;>
    exact ⟨x / 2, y / 2, z / 2, by omega, by omega, by omega⟩

variable {l r : List (String × Vec3 ℤ)} {M : Mat3 ℤ} {P : String → Vec3 ℤ → Prop} {q k : ℕ} {c : ℝ}

theorem lattice_cubic {n : Vec3 ℝ} (hn : IntVec n) : ∃ v : Vec3 ℤ, cubicLattice c M * n = cubicVec c (M * v) := by
  obtain ⟨v, rfl⟩ := intVec_cubic.1 hn
  exact ⟨v, cubicLattice_mulVec _ _ _⟩

/-- the isometries of the lattice are those of the cube. -/
theorem cubic_isometry (hc : 0 < c) (h : CubicCrystal l r M P q k) {Q : Mat3 ℝ} (hQ : Orthogonal Q)
    (hm : MapsLattice Q (cubicLattice c M)) : ∃ W : Mat3 ℤ, OrthoInt W ∧ Q = overK ℝ W := by
  have key : ∀ n : Vec3 ℤ, normZ n = 1 → ∃ w : Vec3 ℤ, Q * cubicVec 1 n = cubicVec 1 w := by
    intro n hn
    obtain ⟨k, hk⟩ := h.inner n
    obtain ⟨k', hk', e⟩ := hm (cubicVec 1 k) (intVec_cubic.2 ⟨k, rfl⟩)
    obtain ⟨v, hv⟩ := lattice_cubic (c := c) (M := M) hk'
    rw [cubicLattice_mulVec, ← hk, hv] at e
    have e1 := lenSq_orthogonal hQ (cubicVec c (⟨2 * n.x, 2 * n.y, 2 * n.z⟩ : Vec3 ℤ))
    rw [e, lenSq_cubicVec, lenSq_cubicVec, mul_right_inj' (by positivity)] at e1
    have e2 : (M * v).x * (M * v).x + (M * v).y * (M * v).y + (M * v).z * (M * v).z = 4 := by
      have h1 : (1 : ℝ) = (n.x : ℝ) * n.x + n.y * n.y + n.z * n.z := by
        have := normZ_cast n
        rw [hn] at this
        simpa using this
      have h2 := normZ_cast (M * v)
      have h3 := normZ_cast (⟨2 * n.x, 2 * n.y, 2 * n.z⟩ : Vec3 ℤ)
      have : (((M * v).x * (M * v).x + (M * v).y * (M * v).y + (M * v).z * (M * v).z : ℤ) : ℝ) = 4 := by
        push_cast at h2 h3 ⊢
        nlinarith
      exact_mod_cast this
    obtain ⟨a, b, d, ha, hb, hd⟩ := four_squares e2
    refine ⟨⟨a, b, d⟩, ?_⟩
    have e3 : cubicVec c (⟨2 * n.x, 2 * n.y, 2 * n.z⟩ : Vec3 ℤ) = Vec3.scale (2 * c) (cubicVec 1 n) := by
      ext <;> simp [cubicVec, Vec3.scale] <;> ring
    have e4 : cubicVec c (M * v) = Vec3.scale (2 * c) (cubicVec 1 ⟨a, b, d⟩) := by
      ext <;> simp only [cubicVec, Vec3.scale, ha, hb, hd] <;> push_cast <;> ring
    have e5 : Q * Vec3.scale (2 * c) (cubicVec 1 n) = Vec3.scale (2 * c) (Q * cubicVec 1 n) := by
      ext <;> simp [Vec3.scale] <;> ring
    rw [e3, e4, e5] at e
    have hx := congrArg Vec3.x e
    have hy := congrArg Vec3.y e
    have hz := congrArg Vec3.z e
    have h2c : 2 * c ≠ 0 := by positivity
    simp only [Vec3.scale] at hx hy hz
    exact Vec3.ext (mul_left_cancel₀ h2c hx) (mul_left_cancel₀ h2c hy) (mul_left_cancel₀ h2c hz)
  obtain ⟨w1, h1⟩ := key ⟨1, 0, 0⟩ (by decide)
  obtain ⟨w2, h2⟩ := key ⟨0, 1, 0⟩ (by decide)
  obtain ⟨w3, h3⟩ := key ⟨0, 0, 1⟩ (by decide)
  have x1 := congrArg Vec3.x h1
  have y1 := congrArg Vec3.y h1
  have z1 := congrArg Vec3.z h1
  have x2 := congrArg Vec3.x h2
  have y2 := congrArg Vec3.y h2
  have z2 := congrArg Vec3.z h2
  have x3 := congrArg Vec3.x h3
  have y3 := congrArg Vec3.y h3
  have z3 := congrArg Vec3.z h3
  simp [cubicVec] at x1 y1 z1 x2 y2 z2 x3 y3 z3
  have hQe : Q = overK ℝ (Mat3.ofCols w1 w2 w3) := by
    ext <;> simp only [overK, Mat3.map, Mat3.ofCols] <;> assumption
  refine ⟨_, ?_, hQe⟩
  apply overK_injective (K := ℝ)
  rw [overK_mul, overK_one]
  have : overK ℝ (Mat3.ofCols w1 w2 w3).transpose = Q.transpose := by
    rw [hQe]; rfl
  rw [this, ← hQe]
  exact hQ

theorem orthoInt_orthogonal {W : Mat3 ℤ} (hW : OrthoInt W) : Orthogonal (overK ℝ W) := by
  have := congrArg (overK ℝ) hW
  rw [overK_mul, overK_one] at this
  exact this

/-- every rotation of the cube, with a translation of the lattice, is a symmetry. -/
theorem cubic_symmetry (h : CubicCrystal l r M P q k) {W : Mat3 ℤ} (hW : OrthoInt W) (n : Vec3 ℤ) :
    CrystalSymmetry (refCell c M r) (overK ℝ W) (cubicVec c (M * n)) := by
  have shift : ∀ e m (k : Vec3 ℤ), P e m → P e (m + M * k) := by
    intro e m k hm
    obtain ⟨p, hp, e1, j, rfl⟩ := (h.prim _ _).2 hm
    exact (h.prim _ _).1 ⟨p, hp, e1, j + k, by rw [Mat3.mulVec_add, add_assoc]⟩
  refine ⟨orthoInt_orthogonal hW, fun e x => ⟨fun hx => ?_, fun hx => ?_⟩⟩
  · obtain ⟨m, hm, rfl⟩ := (refCell_atomAt h.det.1).1 hx
    refine (refCell_atomAt h.det.1).2 ⟨W * m + M * n, ?_, by rw [overK_cubicVec, cubicVec_add]⟩
    exact (h.prim _ _).2 (shift _ _ _ (h.cube W hW _ _ ((h.prim _ _).1 hm)))
  · obtain ⟨m, hm, e1⟩ := (refCell_atomAt h.det.1).1 hx
    refine (refCell_atomAt h.det.1).2 ⟨W.transpose * (m - M * n), ?_, ?_⟩
    · refine (h.prim _ _).2 (h.cube _ (orthoInt_transpose hW) _ _ ?_)
      have := shift _ _ (-n) ((h.prim _ _).1 hm)
      have e2 : M * (-n) = -(M * n) := by ext <;> simp <;> ring
      rwa [e2, ← sub_eq_add_neg] at this
    · rw [← overK_cubicVec, ← cubicVec_sub, ← e1, add_sub_cancel_right, ← Mat3.mul_mulVec, ← overK_mul,
        show W.transpose * W = 1 from hW, overK_one, Mat3.one_mulVec]

theorem cubic_resolved (hc : 0 < c) (h : CubicCrystal l r M P q k) (d : ℝ) : Resolved (refCell c M r) d := by
  rintro Q t ⟨hQ, hm, hnear⟩
  obtain ⟨W, hW, rfl⟩ := cubic_isometry hc h hQ hm
  obtain ⟨e, he⟩ := h.one
  obtain ⟨y, hy, hle⟩ := hnear e 0 ((refCell_atomAt h.det.1).2 ⟨0, (h.prim _ _).2 ((he 0).2 ⟨0, by rw [Mat3.mulVec_zero]⟩), by
    rw [cubicVec_zero]⟩)
  obtain ⟨m, hm', rfl⟩ := (refCell_atomAt h.det.1).1 hy
  obtain ⟨n, rfl⟩ := (he m).1 ((h.prim _ _).1 hm')
  refine ⟨_, cubic_symmetry h hW n, ?_⟩
  rw [Mat3.mulVec_zero, zero_add] at hle
  nlinarith [sq_nonneg d]

theorem cubic_same (h : CubicCrystal l r M P q k) : SameAtoms (cubicCell c l) (refCell c M r) := by
  intro e x
  rw [cubicCell_atomAt, refCell_atomAt h.det.1]
  exact exists_congr fun m => and_congr_left fun _ => (h.conv e m).trans (h.prim e m).symm

theorem refCell_volume : (refCell c M r).volume = c ^ 3 * M.det := cubicLattice_det c M

theorem cubic_eps (hc : 0 < c) (h : CubicCrystal l r M P q k) :
    0 < eps tol1em5 |(refCell c M r).volume| ∧ eps tol1em5 |(refCell c M r).volume| ≤ c / 50000 := by
  have h1 : (0 : ℝ) < M.det := by exact_mod_cast h.det.1
  have h2 : (M.det : ℝ) ≤ 8 := by exact_mod_cast h.det.2
  have h3 : (0 : ℝ) < c ^ 3 * M.det := by positivity
  rw [refCell_volume, abs_of_pos h3]
  unfold eps
  rw [tol1em5_real]
  constructor
  · have := Real.rpow_pos_of_pos h3 (1 / 3)
    positivity
  · have h4 : (c ^ 3 * (M.det : ℝ)) ^ (1 / 3 : ℝ) ≤ ((2 * c) ^ 3) ^ (1 / 3 : ℝ) := by
      apply Real.rpow_le_rpow h3.le _ (by norm_num)
      nlinarith [pow_pos hc 3]
    have h5 : ((2 * c) ^ 3) ^ (1 / 3 : ℝ) = 2 * c := by
      rw [← Real.rpow_natCast, ← Real.rpow_mul (by positivity)]
      norm_num
    rw [h5] at h4
    linarith

theorem cubic_size (hc : 1 ≤ c) (h : CubicCrystal l r M P q k) :
    c ^ 2 * frobZ M ≤ cellSize (refCell c M r) ∧ cellSize (refCell c M r) ≤ c ^ 2 * (frobZ M + 1 / 500) := by
  obtain ⟨e0, e1⟩ := cubic_eps (c := c) (by linarith) h
  have h1 : cellSize (refCell c M r) = frob (cubicLattice c M) + 100 * |eps tol1em5 (|(refCell c M r).volume|)| := rfl
  rw [h1, cubicLattice_frob, abs_of_pos e0]
  constructor
  · linarith
  · nlinarith

theorem cubic_apart (h : CubicCrystal l r M P q k) {D : ℝ} (hD : D < q * c ^ 2) : AtomsApart (refCell c M r) D := by
  intro e e' x y hx hy
  obtain ⟨m, hm, rfl⟩ := (refCell_atomAt h.det.1).1 hx
  obtain ⟨m', hm', rfl⟩ := (refCell_atomAt h.det.1).1 hy
  rcases h.apart _ _ _ _ ((h.prim _ _).1 hm) ((h.prim _ _).1 hm') with ⟨rfl, rfl⟩ | hq
  · exact .inl ⟨rfl, rfl⟩
  · right
    rw [cubicVec_sub, lenSq_cubicVec]
    have : (q : ℝ) ≤ normZ (m - m') := by exact_mod_cast hq
    nlinarith [sq_nonneg c]

theorem cubic_clean (hc : 1 ≤ c) (h : CubicCrystal l r M P q k)
    (hnum : 27 * ((frobZ M : ℝ) + 1 / 500) ^ 3 < 400 * (M.det : ℝ) ^ 2 * q * c ^ 2) (hF : frobZ M ≤ 20) :
    CleanInput (refCell c M r) (1 / 20) := by
  have hc0 : 0 < c := by linarith
  have h1 : (1 : ℝ) ≤ M.det := by exact_mod_cast h.det.1
  obtain ⟨s0, s1⟩ := cubic_size hc h
  have hF' : (frobZ M : ℝ) ≤ 20 := by exact_mod_cast hF
  have hF0 : (0 : ℝ) ≤ frobZ M := Nat.cast_nonneg _
  have hV : (refCell c M r).volume = c ^ 3 * M.det := refCell_volume
  have hVp : (0 : ℝ) < c ^ 3 * M.det := by positivity
  have c3 : 1 ≤ c ^ 3 := one_le_pow₀ hc
  have c4 : 1 ≤ c ^ 4 := one_le_pow₀ hc
  have hS0 : 0 ≤ cellSize (refCell c M r) := le_trans (by positivity) s0
  have hS1 : cellSize (refCell c M r) ≤ c ^ 2 * 21 := by nlinarith [sq_nonneg c]
  have hDsq : 1 ≤ (M.det : ℝ) ^ 2 := one_le_pow₀ h1
  have hV2 : c ^ 6 ≤ (c ^ 3 * (M.det : ℝ)) ^ 2 := by
    rw [mul_pow]
    nlinarith [pow_pos hc0 6]
  have c24 : c ^ 2 ≤ c ^ 6 := pow_le_pow_right₀ hc (by norm_num)
  have c46 : c ^ 4 ≤ c ^ 6 := pow_le_pow_right₀ hc (by norm_num)
  refine ⟨⟨?_, ?_⟩, ?_, ?_, noTranslation_of_once _ ?_, by norm_num, ?_, ?_, ?_, ?_⟩
  · simp [refCell, Structure.new]
  · simp [refCell, Structure.new, Structure.getCartCoords]
  · show ((r.map Prod.fst).length : ℕ) < 65536
    rw [List.length_map]; exact h.few.2
  · unfold DistinctSites
    rw [refCell_sites, List.pairwise_map]
    refine h.distinct.imp fun {p p'} hpp hsame => ?_
    rw [samePoint_iff_intVec] at hsame
    obtain ⟨v, hv⟩ := intVec_cubic.1 hsame
    have e1 := congrArg (fun w : Vec3 ℝ => (refCell c M r).lattice * w) hv
    simp only [Mat3.mulVec_sub, refCell_mulVec h.det.1] at e1
    rw [show (refCell c M r).lattice = cubicLattice c M from rfl, cubicLattice_mulVec, cubicVec_sub] at e1
    exact hpp v (cubicVec_injective hc0.ne' e1)
  · exact h.once
  · rw [hV, abs_of_pos hVp]
    nlinarith
  · rw [hV]
    refine lt_of_le_of_lt (b := (1 / 20) ^ 2 * (c ^ 2 * 21)) (by nlinarith) ?_
    refine lt_of_lt_of_le ?_ hV2
    nlinarith
  · rw [hV]
    have : cellSize (refCell c M r) ^ 2 ≤ (c ^ 2 * 21) ^ 2 := pow_le_pow_left₀ hS0 hS1 2
    refine lt_of_le_of_lt this ?_
    nlinarith
  · apply cubic_apart h
    have hS3 : cellSize (refCell c M r) ^ 3 ≤ (c ^ 2 * (frobZ M + 1 / 500)) ^ 3 := pow_le_pow_left₀ hS0 s1 3
    rw [hV]
    have e1 : 27 * (cellSize (refCell c M r) ^ 3 / (c ^ 3 * (M.det : ℝ)) ^ 2 * (1 / 20) ^ 2) ≤
        27 * ((c ^ 2 * ((frobZ M : ℝ) + 1 / 500)) ^ 3 / (c ^ 3 * (M.det : ℝ)) ^ 2 * (1 / 20) ^ 2) := by
      gcongr
    refine lt_of_le_of_lt e1 ?_
    have e2 : 27 * ((c ^ 2 * ((frobZ M : ℝ) + 1 / 500)) ^ 3 / (c ^ 3 * (M.det : ℝ)) ^ 2 * (1 / 20) ^ 2) =
        27 * ((frobZ M : ℝ) + 1 / 500) ^ 3 / (400 * (M.det : ℝ) ^ 2) := by
      field_simp
      ring
    rw [e2, div_lt_iff₀ (by positivity)]
    linarith

theorem cubic_cleanCell (hc : 1 ≤ c) (h : CubicCrystal l r M P q k) (hnum : 3 * (frobZ M : ℝ) < 400 * q * c ^ 2) :
    CleanCell (cubicCell c l) (refCell c M r) (1 / 20) := by
  have hc0 : 0 < c := by linarith
  have h1 : (1 : ℝ) ≤ M.det := by exact_mod_cast h.det.1
  have hV : (cubicCell c l).volume = 8 * c ^ 3 := by
    unfold Structure.volume
    rw [cubicCell_lattice]
    simp [Mat3.det]; ring
  have hfr : frob (cubicCell c l).lattice = 12 * c ^ 2 := by
    rw [cubicCell_lattice]
    simp only [frob, lenSq, Mat3.col0, Mat3.col1, Mat3.col2]
    ring
  refine ⟨⟨?_, ?_⟩, ?_, cubic_same h, ?_, ?_, ?_, ?_, ?_, ?_⟩
  · simp [cubicCell, Structure.new]
  · simp [cubicCell, Structure.new, Structure.getCartCoords]
  · show ((l.map Prod.fst).length : ℕ) < 65536
    rw [List.length_map]; exact h.few.1
  · rw [show (cubicCell c l).lattice.det = 8 * c ^ 3 from hV]; positivity
  · rw [hV, refCell_volume, abs_of_pos (by positivity), abs_of_pos (by positivity)]
    nlinarith [pow_pos hc0 3]
  · rw [hV, hfr]
    have : c ^ 4 ≤ c ^ 6 := pow_le_pow_right₀ hc (by norm_num)
    nlinarith [pow_pos hc0 6]
  · have ha : (cubicCell c l).a = 2 * c := by
      unfold Structure.a; rw [cubicCell_lattice]; exact mag_axis_x (by positivity)
    have hb : (cubicCell c l).b = 2 * c := by
      unfold Structure.b; rw [cubicCell_lattice]; exact mag_axis_y (by positivity)
    have hcc : (cubicCell c l).c = 2 * c := by
      unfold Structure.c; rw [cubicCell_lattice]; exact mag_axis_z (by positivity)
    rw [ha, hb, hcc]
    refine ⟨?_, ?_, ?_⟩ <;> linarith
  · rintro x hx y hy - - ht p hp
    obtain ⟨k, hk, e, w, hw, hle⟩ := ht p hp
    refine ⟨k, hk, e, w, hw, ?_⟩
    rw [cubicCell_sites] at hx hy hp hk
    obtain ⟨x', -, rfl⟩ := List.mem_map.1 hx
    obtain ⟨y', -, rfl⟩ := List.mem_map.1 hy
    obtain ⟨p', -, rfl⟩ := List.mem_map.1 hp
    obtain ⟨k', -, rfl⟩ := List.mem_map.1 hk
    rw [samePoint_iff_intVec] at hw
    obtain ⟨v, hv⟩ := intVec_cubic.1 hw
    have e1 : w = halfVec (⟨2 * v.x, 2 * v.y, 2 * v.z⟩ + (p'.2 + (y'.2 - x'.2) - k'.2)) := by
      rw [sub_eq_iff_eq_add] at hv
      rw [hv]
      ext <;> simp [halfVec, cubicVec] <;> ring
    rw [e1, cubicCell_mulVec, lenSq_cubicVec] at hle ⊢
    set z := (⟨2 * v.x, 2 * v.y, 2 * v.z⟩ : Vec3 ℤ) + (p'.2 + (y'.2 - x'.2) - k'.2) with hz
    by_cases h0 : z = 0
    · rw [h0]; simp [normZ]
    · exfalso
      have : (1 : ℝ) ≤ normZ z := by exact_mod_cast one_le_normZ h0
      nlinarith
  · intro e e' x y hx hy
    refine cubic_apart h (D := _) ?_ e e' x y ((cubic_same h _ _).1 hx) ((cubic_same h _ _).1 hy)
    rw [hV, hfr, show (refCell c M r).lattice = cubicLattice c M from rfl, cubicLattice_frob]
    have e2 : 4 / 3 * (c ^ 2 * (frobZ M : ℝ) * (12 * c ^ 2) ^ 2 / (8 * c ^ 3) ^ 2 * (1 / 20) ^ 2) = 3 * (frobZ M : ℝ) / 400 := by
      field_simp
      ring
    rw [e2, div_lt_iff₀ (by norm_num)]
    linarith

theorem cubic_clear (hc : 1 ≤ c) (hc' : c ≤ 1000) (h : CubicCrystal l r M P q k) :
    ClearLattice (refCell c M r).lattice (eps tol1em5 |(refCell c M r).volume|) := by
  have hc0 : 0 < c := by linarith
  have h1 : (0 : ℝ) < M.det := by exact_mod_cast h.det.1
  obtain ⟨e0, e1⟩ := cubic_eps hc0 h
  refine clearLattice_integral (g := c ^ 2) ?_ e0 (by linarith) (by nlinarith) (M.transpose * M) ?_
  · show (cubicLattice c M).det ≠ 0
    rw [cubicLattice_det]; positivity
  · show (cubicLattice c M).transpose * cubicLattice c M = _
    ext <;> simp [cubicLattice, cubicVec, Mat3.ofCols, Mat3.transpose, Mat3.scale, Mat3.map, overK, Mat3.col0, Mat3.col1, Mat3.col2] <;> ring

theorem cubic_small (hc : 1 ≤ c) (h : CubicCrystal l r M P q k) (hcl : CleanInput (refCell c M r) (1 / 20)) :
    SmallSymmetries (cubicCell c l) := by
  intro Q t hs
  have h1 := crystalSymmetry_congr (cubic_same h) hs
  obtain ⟨W, hW, rfl⟩ := cubic_isometry (by linarith) h hs.1 (symmetry_mapsLattice (clean_primitiveCell hcl) h1)
  obtain ⟨f1, f2⟩ := OrthoInt.entries hW
  refine ⟨W, f1, ?_, f2⟩
  rw [cubicCell_lattice]
  ext <;> simp <;> ring

theorem cubic_long (h : CubicCrystal l r M P q k) (hq : (48 * (1 / 20) : ℝ) ^ 2 ≤ k * c ^ 2) :
    LongVectors (refCell c M r).lattice (48 * (1 / 20)) := by
  intro n hn h0
  obtain ⟨v, rfl⟩ := intVec_cubic.1 hn
  show _ ≤ lenSq (cubicLattice c M * _)
  rw [cubicLattice_mulVec, lenSq_cubicVec]
  have hMv : M * v ≠ 0 := by
    intro e
    have hd : (overK ℝ M).det ≠ 0 := by
      rw [overK_det]
      have : (0 : ℝ) < M.det := by exact_mod_cast h.det.1
      exact this.ne'
    have e2 : overK ℝ M * cubicVec 1 v = overK ℝ M * (0 : Vec3 ℝ) := by rw [overK_cubicVec, e, cubicVec_zero, Mat3.mulVec_zero]
    exact h0 (mulVec_injective hd e2)
  have : (k : ℝ) ≤ normZ (M * v) := by exact_mod_cast h.long v hMv
  nlinarith [sq_nonneg c]

/-- the answer for a crystal in a centred cubic cell. -/
theorem cubic_answer (hc : 1 ≤ c) (hc' : c ≤ 1000) (ha : HashOrders ℝ) (hv : ha.Valid) (atol : ℝ) (h : CubicCrystal l r M P q k)
    (hnum : 27 * ((frobZ M : ℝ) + 1 / 500) ^ 3 < 400 * (M.det : ℝ) ^ 2 * q * c ^ 2) (hF : frobZ M ≤ 20)
    (hnum2 : 3 * (frobZ M : ℝ) < 400 * q * c ^ 2) (hq : (48 * (1 / 20) : ℝ) ^ 2 ≤ k * c ^ 2)
    (prim : Structure ℝ) (hprim : (⟨1 / 20, atol⟩ : SymmetryAnalyzer ℝ).reducer.findPrimitiveCell ha.minEle (cubicCell c l) = .ret prim)
    (hlat : prim.lattice = cubicLattice c M)
    (hnig : NiggliCellWeak (eps tol1em5 prim.volume) prim.lattice)
    (hsign : (eps tol1em5 prim.volume ≤ 2 * dotp prim.lattice.col1 prim.lattice.col2 ∧
        eps tol1em5 prim.volume ≤ 2 * dotp prim.lattice.col0 prim.lattice.col2 ∧
        eps tol1em5 prim.volume ≤ 2 * dotp prim.lattice.col0 prim.lattice.col1) ∨
      (2 * dotp prim.lattice.col1 prim.lattice.col2 < eps tol1em5 prim.volume ∧
        2 * dotp prim.lattice.col0 prim.lattice.col2 < eps tol1em5 prim.volume ∧
        2 * dotp prim.lattice.col0 prim.lattice.col1 < eps tol1em5 prim.volume))
    (ch : ℕ) (b : BravaisType)
    (hch : characterOf (some (eps tol1em5 prim.volume)) (lenSq prim.lattice.col0) (lenSq prim.lattice.col1) (lenSq prim.lattice.col2)
      (dotp prim.lattice.col1 prim.lattice.col2) (dotp prim.lattice.col0 prim.lattice.col2) (dotp prim.lattice.col0 prim.lattice.col1) =
        .ret ch)
    (hb : amapGet? latticeCharToBravais ch = some b) (hb1 : b ≠ .mI) (hb2 : b ≠ .hR) :
    ∃ sym ops N, amapGet? sgNumToSymbol (latticeGroup b) = some sym ∧ ∀ fuel ≥ N,
      (⟨1 / 20, atol⟩ : SymmetryAnalyzer ℝ).getSpaceGroupInfo ha fuel (cubicCell c l) = .ret (latticeGroup b, sym, ops) := by
  have hc0 : 0 < c := by linarith
  have hcl := cubic_clean hc h hnum hF
  have h1 : (0 : ℝ) < M.det := by exact_mod_cast h.det.1
  have hpv : prim.volume = (refCell c M r).volume := by
    unfold Structure.volume; rw [hlat]; rfl
  have hvp : 0 < (refCell c M r).volume := by rw [refCell_volume]; positivity
  obtain ⟨e0, -⟩ := cubic_eps hc0 h
  rw [abs_of_pos hvp] at e0
  obtain ⟨nig, hn, hnl⟩ := C27_niggli_returns_on_reduced_partial (⟨1 / 20, atol⟩ : SymmetryAnalyzer ℝ).reducer prim tol1em5
    (by rw [hpv]; exact hvp.le) (by rw [hpv]; exact e0.le) hnig hsign
  have hnv : nig.volume = prim.volume := by unfold Structure.volume; rw [hnl]
  refine C77_holohedral ⟨1 / 20, atol⟩ ha hv (cubicCell c l) (refCell c M r) hcl (cubic_cleanCell hc h hnum2) prim nig hprim
    (by rw [hpv, abs_of_pos hvp]) (by rw [hlat]; exact le_rfl) ?_ (cubic_clear hc hc' h) (cubic_resolved hc0 h _)
    (cubic_long h hq) (cubic_small hc h hcl) (fun Q hQ hm => ?_) ch b hn ?_ hb hb1 hb2
  · obtain ⟨-, s1⟩ := cubic_size hc h
    have hF' : (frobZ M : ℝ) ≤ 20 := by exact_mod_cast hF
    have : cellSize (refCell c M r) ≤ 1000 ^ 2 * 21 := by
      refine s1.trans ?_
      have : c ^ 2 ≤ 1000 ^ 2 := pow_le_pow_left₀ hc0.le hc' 2
      nlinarith [sq_nonneg c]
    show _ ≤ (200000000 * (1 / 20 : ℝ)) ^ 2
    linarith
  · obtain ⟨W, hW, rfl⟩ := cubic_isometry hc0 h hQ hm
    have := cubic_symmetry (c := c) h hW 0
    rw [Mat3.mulVec_zero, cubicVec_zero] at this
    exact crystalSymmetry_congr (sameAtoms_symm (cubic_same h)) this
  · rw [getLatticeCharacter_eq (by rw [hnv, hpv]; exact hvp.le), hnv, hnl]
    exact hch

/-! ## the cases -/

/-- rock salt in its usual cell: chlorine, then sodium. -/
def rockSaltAtoms : List (String × Vec3 ℤ) := [("Cl", ⟨1, 1, 1⟩), ("Cl", ⟨1, 0, 0⟩), ("Cl", ⟨0, 1, 0⟩), ("Cl", ⟨0, 0, 1⟩),
  ("Na", ⟨0, 0, 0⟩), ("Na", ⟨0, 1, 1⟩), ("Na", ⟨1, 0, 1⟩), ("Na", ⟨1, 1, 0⟩)]

/-- a metal in the body-centred cell. -/
def ironAtoms : List (String × Vec3 ℤ) := [("Fe", ⟨0, 0, 0⟩), ("Fe", ⟨1, 1, 1⟩)]

def faceBasis : Mat3 ℤ := Mat3.ofCols ⟨0, 1, 1⟩ ⟨1, 0, 1⟩ ⟨1, 1, 0⟩

def bodyBasis : Mat3 ℤ := Mat3.ofCols ⟨1, 1, 1⟩ ⟨1, -1, -1⟩ ⟨-1, 1, -1⟩

def rockSaltAt (e : String) (m : Vec3 ℤ) : Prop := (e = "Cl" ∧ (m.x + m.y + m.z) % 2 = 1) ∨ (e = "Na" ∧ (m.x + m.y + m.z) % 2 = 0)

def ironAt (e : String) (m : Vec3 ℤ) : Prop := e = "Fe" ∧ (m.x - m.y) % 2 = 0 ∧ (m.x - m.z) % 2 = 0

theorem face_lattice {m : Vec3 ℤ} : (∃ n : Vec3 ℤ, m = faceBasis * n) ↔ (m.x + m.y + m.z) % 2 = 0 := by
  constructor
  · rintro ⟨n, rfl⟩
    simp [faceBasis, Mat3.ofCols]
    omega
  · intro h
    refine ⟨⟨(m.y + m.z - m.x) / 2, (m.x + m.z - m.y) / 2, (m.x + m.y - m.z) / 2⟩, ?_⟩
    ext <;> simp [faceBasis, Mat3.ofCols] <;> omega

theorem body_lattice {m : Vec3 ℤ} : (∃ n : Vec3 ℤ, m = bodyBasis * n) ↔ (m.x - m.y) % 2 = 0 ∧ (m.x - m.z) % 2 = 0 := by
  constructor
  · rintro ⟨n, rfl⟩
    simp [bodyBasis, Mat3.ofCols]
    omega
  · rintro ⟨h1, h2⟩
    refine ⟨⟨(m.x + m.y) / 2, (m.x - m.z) / 2, (m.y - m.z) / 2⟩, ?_⟩
    ext <;> simp [bodyBasis, Mat3.ofCols] <;> omega

theorem normZ_int (m : Vec3 ℤ) : (normZ m : ℤ) = m.x * m.x + m.y * m.y + m.z * m.z := by
  have := normZ_cast m
  have e : ((normZ m : ℤ) : ℝ) = ((m.x * m.x + m.y * m.y + m.z * m.z : ℤ) : ℝ) := by push_cast; linarith
  exact_mod_cast e

theorem normZ_two {m : Vec3 ℤ} (h0 : m ≠ 0) (h : (m.x + m.y + m.z) % 2 = 0) : 2 ≤ normZ m := by
  have h1 := one_le_normZ h0
  by_contra hlt
  have h2 : normZ m = 1 := by omega
  have h3 := normZ_int m
  rw [h2] at h3
  obtain ⟨k, hk⟩ := orthoInt_odd h3.symm
  omega

theorem normZ_three {m : Vec3 ℤ} (h0 : m ≠ 0) (h1 : (m.x - m.y) % 2 = 0) (h2 : (m.x - m.z) % 2 = 0) : 3 ≤ normZ m := by
  have h3 := normZ_int m
  have odd : ∀ t : ℤ, t % 2 = 1 → 1 ≤ t * t := by
    intro t ht
    have : t ≠ 0 := by omega
    have := mul_self_pos.2 this
    omega
  rcases Int.emod_two_eq_zero_or_one m.x with hx | hx
  · obtain ⟨a, ha⟩ := Int.dvd_of_emod_eq_zero hx
    obtain ⟨b, hb⟩ : ∃ b, m.y = 2 * b := ⟨m.y / 2, by omega⟩
    obtain ⟨d, hd⟩ : ∃ d, m.z = 2 * d := ⟨m.z / 2, by omega⟩
    have h4 : (⟨a, b, d⟩ : Vec3 ℤ) ≠ 0 := by
      intro e
      apply h0
      have ex := congrArg Vec3.x e
      have ey := congrArg Vec3.y e
      have ez := congrArg Vec3.z e
      simp only [Vec3.zero_x, Vec3.zero_y, Vec3.zero_z] at ex ey ez
      ext
      · rw [ha, ex]; rfl
      · rw [hb, ey]; rfl
      · rw [hd, ez]; rfl
    have h5 := one_le_normZ h4
    have h6 := normZ_int ⟨a, b, d⟩
    simp only at h6
    rw [ha, hb, hd] at h3
    have : (normZ m : ℤ) = 4 * normZ ⟨a, b, d⟩ := by rw [h3, h6]; ring
    omega
  · have a1 := odd _ hx
    have a2 := odd m.y (by omega)
    have a3 := odd m.z (by omega)
    omega

theorem orthoInt_columns {W : Mat3 ℤ} (hW : OrthoInt W) :
    (∃ k, W.m11 + W.m21 + W.m31 = 2 * k + 1) ∧ (∃ k, W.m12 + W.m22 + W.m32 = 2 * k + 1) ∧ (∃ k, W.m13 + W.m23 + W.m33 = 2 * k + 1) :=
  ⟨orthoInt_odd (congrArg Mat3.m11 hW), orthoInt_odd (congrArg Mat3.m22 hW), orthoInt_odd (congrArg Mat3.m33 hW)⟩

/-- the parity of the sum of the coordinates does not change. -/
theorem orthoInt_parity {W : Mat3 ℤ} (hW : OrthoInt W) (m : Vec3 ℤ) :
    ((W * m).x + (W * m).y + (W * m).z) % 2 = (m.x + m.y + m.z) % 2 := by
  obtain ⟨⟨a, ha⟩, ⟨b, hb⟩, ⟨d, hd⟩⟩ := orthoInt_columns hW
  have : (W * m).x + (W * m).y + (W * m).z = m.x + m.y + m.z + 2 * (a * m.x + b * m.y + d * m.z) := by
    simp only [Mat3.mulVec_x, Mat3.mulVec_y, Mat3.mulVec_z]
    linear_combination m.x * ha + m.y * hb + m.z * hd
  omega

theorem rockSalt_crystal : CubicCrystal rockSaltAtoms [("Na", 0), ("Cl", ⟨1, 1, 1⟩)] faceBasis rockSaltAt 1 2 where
  conv := by
    intro e m
    unfold AtZ rockSaltAt rockSaltAtoms
    constructor
    · rintro ⟨p, hp, rfl, n, rfl⟩
      simp only [List.mem_cons, List.not_mem_nil, or_false] at hp
      rcases hp with rfl | rfl | rfl | rfl | rfl | rfl | rfl | rfl <;> simp <;> omega
    · have key : ∀ a b d : ℤ, (a = 0 ∨ a = 1) → (b = 0 ∨ b = 1) → (d = 0 ∨ d = 1) → (m.x - a) % 2 = 0 → (m.y - b) % 2 = 0 →
          (m.z - d) % 2 = 0 → ∃ n : Vec3 ℤ, m = ⟨a, b, d⟩ + (⟨2, 0, 0, 0, 2, 0, 0, 0, 2⟩ : Mat3 ℤ) * n := by
        intro a b d _ _ _ h1 h2 h3
        refine ⟨⟨(m.x - a) / 2, (m.y - b) / 2, (m.z - d) / 2⟩, ?_⟩
        ext <;> simp <;> omega
      have hx := Int.emod_two_eq_zero_or_one m.x
      have hy := Int.emod_two_eq_zero_or_one m.y
      have hz := Int.emod_two_eq_zero_or_one m.z
      have hn := key (m.x % 2) (m.y % 2) (m.z % 2) hx hy hz (by omega) (by omega) (by omega)
      rintro (⟨rfl, h⟩ | ⟨rfl, h⟩)
      · refine ⟨("Cl", ⟨m.x % 2, m.y % 2, m.z % 2⟩), ?_, rfl, hn⟩
        rcases hx with hx | hx <;> rcases hy with hy | hy <;> rcases hz with hz | hz <;> rw [hx, hy, hz] <;>
          first
          | (exfalso; omega)
          | simp
      · refine ⟨("Na", ⟨m.x % 2, m.y % 2, m.z % 2⟩), ?_, rfl, hn⟩
        rcases hx with hx | hx <;> rcases hy with hy | hy <;> rcases hz with hz | hz <;> rw [hx, hy, hz] <;>
          first
          | (exfalso; omega)
          | simp
  prim := by
    intro e m
    unfold AtZ rockSaltAt
    simp only [List.mem_cons, List.not_mem_nil, or_false, exists_eq_or_imp, exists_eq_left, zero_add, face_lattice]
    have h1 : (∃ n : Vec3 ℤ, m = ⟨1, 1, 1⟩ + faceBasis * n) ↔ (m.x + m.y + m.z) % 2 = 1 := by
      have : (∃ n : Vec3 ℤ, m = ⟨1, 1, 1⟩ + faceBasis * n) ↔ ∃ n : Vec3 ℤ, m - ⟨1, 1, 1⟩ = faceBasis * n :=
        exists_congr fun n => by rw [sub_eq_iff_eq_add, add_comm]
      rw [this, face_lattice]
      simp only [Vec3.sub_x, Vec3.sub_y, Vec3.sub_z]
      omega
    rw [h1]
    constructor
    · rintro (⟨rfl, h⟩ | ⟨rfl, h⟩)
      · exact .inr ⟨rfl, h⟩
      · exact .inl ⟨rfl, h⟩
    · rintro (⟨rfl, h⟩ | ⟨rfl, h⟩)
      · exact .inr ⟨rfl, h⟩
      · exact .inl ⟨rfl, h⟩
  det := by decide
  inner := fun n => face_lattice.2 (by simp only; omega)
  one := ⟨"Na", fun m => by rw [face_lattice]; simp [rockSaltAt]⟩
  once := ⟨"Na", by decide⟩
  few := by decide
  cube := by
    intro W hW e m h
    unfold rockSaltAt at *
    rwa [orthoInt_parity hW]
  apart := by
    intro e e' m m' h h'
    by_cases hm : m = m'
    · subst hm
      left
      unfold rockSaltAt at h h'
      rcases h with ⟨rfl, h⟩ | ⟨rfl, h⟩ <;> rcases h' with ⟨rfl, h'⟩ | ⟨rfl, h'⟩ <;> first | exact ⟨rfl, rfl⟩ | (exfalso; omega)
    · exact .inr (one_le_normZ (sub_ne_zero.2 hm))
  long := fun n hn => normZ_two hn (face_lattice.1 ⟨n, rfl⟩)
  distinct := by
    rw [List.pairwise_pair]
    intro n hn
    have := face_lattice.1 ⟨n, hn⟩
    simp at this

theorem iron_crystal : CubicCrystal ironAtoms [("Fe", 0)] bodyBasis ironAt 3 3 where
  conv := by
    intro e m
    unfold AtZ ironAt ironAtoms
    simp only [List.mem_cons, List.not_mem_nil, or_false, exists_eq_or_imp, exists_eq_left]
    constructor
    · rintro (⟨rfl, n, rfl⟩ | ⟨rfl, n, rfl⟩) <;> simp
    · rintro ⟨rfl, h1, h2⟩
      rcases Int.emod_two_eq_zero_or_one m.x with hx | hx
      · left
        refine ⟨rfl, ⟨m.x / 2, m.y / 2, m.z / 2⟩, ?_⟩
        ext <;> simp <;> omega
      · right
        refine ⟨rfl, ⟨m.x / 2, m.y / 2, m.z / 2⟩, ?_⟩
        ext <;> simp <;> omega
  prim := by
    intro e m
    unfold AtZ ironAt
    simp only [List.mem_cons, List.not_mem_nil, or_false, exists_eq_left, zero_add, body_lattice]
    exact and_congr_left fun _ => eq_comm
  det := by decide
  inner := fun n => body_lattice.2 (by simp only; omega)
  one := ⟨"Fe", fun m => by rw [body_lattice]; simp [ironAt]⟩
  once := ⟨"Fe", by decide⟩
  few := by decide
  cube := by
    rintro W hW e m ⟨rfl, h1, h2⟩
    obtain ⟨⟨a, ha⟩, ⟨b, hb⟩, ⟨d, hd⟩⟩ := orthoInt_columns (orthoInt_transpose hW)
    simp only [Mat3.transpose] at ha hb hd
    obtain ⟨j, hj⟩ : ∃ j, m.y = m.x + 2 * j := ⟨(m.y - m.x) / 2, by omega⟩
    obtain ⟨k, hk⟩ : ∃ k, m.z = m.x + 2 * k := ⟨(m.z - m.x) / 2, by omega⟩
    refine ⟨rfl, ?_, ?_⟩
    · have : (W * m).x - (W * m).y = 2 * (m.x * (a - b) + j * (W.m12 - W.m22) + k * (W.m13 - W.m23)) := by
        simp only [Mat3.mulVec_x, Mat3.mulVec_y]
        rw [hj, hk]
        linear_combination m.x * ha - m.x * hb
      omega
    · have : (W * m).x - (W * m).z = 2 * (m.x * (a - d) + j * (W.m12 - W.m32) + k * (W.m13 - W.m33)) := by
        simp only [Mat3.mulVec_x, Mat3.mulVec_z]
        rw [hj, hk]
        linear_combination m.x * ha - m.x * hd
      omega
  apart := by
    rintro e e' m m' ⟨rfl, h1, h2⟩ ⟨rfl, h1', h2'⟩
    by_cases hm : m = m'
    · exact .inl ⟨rfl, hm⟩
    · right
      apply normZ_three (sub_ne_zero.2 hm) <;> simp only [Vec3.sub_x, Vec3.sub_y, Vec3.sub_z] <;> omega
  long := fun n hn => by
    obtain ⟨h1, h2⟩ := body_lattice.1 ⟨n, rfl⟩
    exact normZ_three hn h1 h2
  distinct := by simp

/-- character 1: the face-centred cubic lattice. -/
theorem characterOf_face {ε A D : ℝ} (hε : 0 < ε) (hD : ε < D) (hA : A = 2 * D) : characterOf (some ε) A A A D D D = .ret 1 := by
  have ht : isTypeI (some ε) [D, D, D] = true := isTypeI_of_ge hε.le hD.le hD.le hD.le
  have h1 : ∀ x : ℝ, custEq x x ε = true := fun x => custEq_self hε.le
  have h2 : A / 2 = D := by rw [hA]; ring
  unfold characterOf
  simp [ht, eqE, getFirstSet, defMatches, h1, Vec3.divS, h2]

/-- character 5: the body-centred cubic lattice. -/
theorem characterOf_body {ε A D : ℝ} (hε : 0 < ε) (hD : ε < D) (hA : A = 3 * D) :
    characterOf (some ε) A A A (-D) (-D) (-D) = .ret 5 := by
  have hs : ∀ acc : Int8 × Int8, numNegativeZeroStep ε acc (-D) = (acc.1 + 1, acc.2) := by
    intro acc
    unfold numNegativeZeroStep
    rw [if_pos (by linarith)]
  have ht : isTypeI (some ε) [-D, -D, -D] = false := by
    simp only [isTypeI, nnzE, numNegativeZero, List.foldl_cons, List.foldl_nil, hs]
    decide
  have h1 : ∀ x : ℝ, custEq x x ε = true := fun x => custEq_self hε.le
  have h0 : custEq 0 (-D) ε = false := by
    rw [Bool.eq_false_iff]
    intro h
    rw [custEq_iff', zero_sub, neg_neg, abs_of_pos (by linarith)] at h
    linarith
  have h2 : A / -3 = -D := by rw [hA]; ring
  unfold characterOf
  simp [ht, eqE, getFirstSet, defMatches, h1, h0, Vec3.divS, h2]

set_option maxRecDepth 100000 in
theorem rockSalt_primitive (hc : 1 ≤ c) (r : Reducer ℝ) (hr : r.dtol = 1 / 20) (ord : List (String × ℕ) → List (String × ℕ))
    (ho : ∀ l, (ord l).Perm l) : ∃ prim, r.findPrimitiveCell ord (cubicCell c rockSaltAtoms) = .ret prim ∧
      prim.lattice = cubicLattice c faceBasis := by
  exact cubic_primitive ho (by rw [hr]; norm_num) (by rw [hr]; linarith) hc (by decide +kernel) (by decide +kernel) (by decide) "Cl" 0 ⟨1, 1, 1⟩
    (by decide +kernel) (by decide +kernel) rfl (by decide +kernel) (N := 5) (by decide +kernel) (x := ⟨0, 1, 1⟩) (y := ⟨1, 0, 1⟩) (z := ⟨1, 1, 0⟩)
    (by decide +kernel) (by decide +kernel) (N' := 20) (by decide +kernel) (f := ⟨0, 1, 1⟩) (g := ⟨1, 0, 1⟩) (h := ⟨1, 1, 0⟩) (by decide +kernel)

set_option maxRecDepth 100000 in
theorem iron_primitive (hc : 1 ≤ c) (r : Reducer ℝ) (hr : r.dtol = 1 / 20) (ord : List (String × ℕ) → List (String × ℕ))
    (ho : ∀ l, (ord l).Perm l) : ∃ prim, r.findPrimitiveCell ord (cubicCell c ironAtoms) = .ret prim ∧
      prim.lattice = cubicLattice c bodyBasis := by
  exact cubic_primitive ho (by rw [hr]; norm_num) (by rw [hr]; linarith) hc (by decide +kernel) (by decide +kernel) (by decide) "Fe" 0 ⟨0, 0, 0⟩
    (by decide +kernel) (by decide +kernel) rfl (by decide +kernel) (N := 5) (by decide +kernel) (x := ⟨1, 1, 1⟩) (y := ⟨2, 0, 0⟩) (z := ⟨0, 2, 0⟩)
    (by decide +kernel) (by decide +kernel) (N' := 40) (by decide +kernel) (f := ⟨1, 1, 1⟩) (g := ⟨1, -1, -1⟩) (h := ⟨-1, 1, -1⟩) (by decide +kernel)

theorem face_products (c : ℝ) : lenSq (cubicLattice c faceBasis).col0 = 2 * c ^ 2 ∧ lenSq (cubicLattice c faceBasis).col1 = 2 * c ^ 2 ∧
    lenSq (cubicLattice c faceBasis).col2 = 2 * c ^ 2 ∧ dotp (cubicLattice c faceBasis).col1 (cubicLattice c faceBasis).col2 = c ^ 2 ∧
    dotp (cubicLattice c faceBasis).col0 (cubicLattice c faceBasis).col2 = c ^ 2 ∧
    dotp (cubicLattice c faceBasis).col0 (cubicLattice c faceBasis).col1 = c ^ 2 := by
  refine ⟨?_, ?_, ?_, ?_, ?_, ?_⟩ <;>
    simp [cubicLattice, faceBasis, Mat3.ofCols, Mat3.col0, Mat3.col1, Mat3.col2, cubicVec, lenSq, dotp] <;> ring

theorem body_products (c : ℝ) : lenSq (cubicLattice c bodyBasis).col0 = 3 * c ^ 2 ∧ lenSq (cubicLattice c bodyBasis).col1 = 3 * c ^ 2 ∧
    lenSq (cubicLattice c bodyBasis).col2 = 3 * c ^ 2 ∧ dotp (cubicLattice c bodyBasis).col1 (cubicLattice c bodyBasis).col2 = -c ^ 2 ∧
    dotp (cubicLattice c bodyBasis).col0 (cubicLattice c bodyBasis).col2 = -c ^ 2 ∧
    dotp (cubicLattice c bodyBasis).col0 (cubicLattice c bodyBasis).col1 = -c ^ 2 := by
  refine ⟨?_, ?_, ?_, ?_, ?_, ?_⟩ <;>
    simp [cubicLattice, bodyBasis, Mat3.ofCols, Mat3.col0, Mat3.col1, Mat3.col2, cubicVec, lenSq, dotp] <;> ring

/-- **C77 (rock salt).** The crystal of rock salt in its usual cell with eight atoms, with edge `2 c`, where `2 ≤ c ≤ 1000`:
`get_space_group_info` with distance tolerance `0.05` returns number 225, `Fm-3m`. -/
theorem C77_rock_salt (hc : 2 ≤ c) (hc' : c ≤ 1000) (h : HashOrders ℝ) (hv : h.Valid) (atol : ℝ) : ∃ ops N, ∀ fuel ≥ N,
    (⟨1 / 20, atol⟩ : SymmetryAnalyzer ℝ).getSpaceGroupInfo h fuel (cubicCell c rockSaltAtoms) = .ret (225, "Fm-3m", ops) := by
  obtain ⟨prim, hp, hl⟩ := rockSalt_primitive (c := c) (by linarith) (⟨1 / 20, atol⟩ : SymmetryAnalyzer ℝ).reducer rfl h.minEle hv.minEle
  obtain ⟨e0, e1⟩ := cubic_eps (c := c) (by linarith) rockSalt_crystal
  have hvol : prim.volume = |(refCell c faceBasis [("Na", 0), ("Cl", ⟨1, 1, 1⟩)]).volume| := by
    rw [refCell_volume, abs_of_pos]
    · unfold Structure.volume; rw [hl, cubicLattice_det]
    · have : (0 : ℝ) < (faceBasis.det : ℝ) := by exact_mod_cast (by decide : 0 < faceBasis.det)
      positivity
  obtain ⟨p0, p1, p2, p3, p4, p5⟩ := face_products c
  have hF : frobZ faceBasis = 6 := by decide
  have hD : faceBasis.det = 2 := by decide
  have c2 : 4 ≤ c ^ 2 := by nlinarith
  set ε := eps tol1em5 |(refCell c faceBasis [("Na", 0), ("Cl", ⟨1, 1, 1⟩)]).volume| with hε
  obtain ⟨sym, ops, N, e, hN⟩ := cubic_answer (c := c) (by linarith) hc' h hv atol rockSalt_crystal
    (by rw [hF, hD]; push_cast; nlinarith) (by rw [hF]; norm_num) (by rw [hF]; push_cast; nlinarith) (by push_cast; nlinarith) prim hp hl
    (by
      rw [hvol, ← hε, hl]
      unfold NiggliCellWeak
      rw [p0, p1, p2, p3, p4, p5]
      have habs : |2 * c ^ 2| = 2 * c ^ 2 := abs_of_pos (by positivity)
      constructor
      all_goals first
        | linarith
        | (rw [habs]; linarith)
        | (intro _; linarith)
        | (left; refine ⟨?_, ?_, ?_⟩ <;> nlinarith)
        | (rw [abs_of_pos (by positivity)]; intro hx; nlinarith))
    (by
      left
      rw [hvol, ← hε, hl, p3, p4, p5]
      refine ⟨?_, ?_, ?_⟩ <;> nlinarith) 1 .cF
    (by
      rw [hvol, ← hε, hl, p0, p1, p2, p3, p4, p5]
      exact characterOf_face e0 (by nlinarith) rfl) rfl (by decide) (by decide)
  have hs : sym = "Fm-3m" := by
    have : amapGet? sgNumToSymbol 225 = some "Fm-3m" := by decide +kernel
    exact Option.some.inj (e.symm.trans this)
  subst hs
  exact ⟨ops, N, hN⟩

/-- **C77 (body-centred metals).** The body-centred cubic crystal in its usual cell with two atoms, with edge `2 c`, where
`1.4 ≤ c ≤ 1000`: number 229, `Im-3m`. -/
theorem C77_body_centred (hc : 7 / 5 ≤ c) (hc' : c ≤ 1000) (h : HashOrders ℝ) (hv : h.Valid) (atol : ℝ) : ∃ ops N, ∀ fuel ≥ N,
    (⟨1 / 20, atol⟩ : SymmetryAnalyzer ℝ).getSpaceGroupInfo h fuel (cubicCell c ironAtoms) = .ret (229, "Im-3m", ops) := by
  obtain ⟨prim, hp, hl⟩ := iron_primitive (c := c) (by linarith) (⟨1 / 20, atol⟩ : SymmetryAnalyzer ℝ).reducer rfl h.minEle hv.minEle
  obtain ⟨e0, e1⟩ := cubic_eps (c := c) (by linarith) iron_crystal
  have hvol : prim.volume = |(refCell c bodyBasis [("Fe", 0)]).volume| := by
    rw [refCell_volume, abs_of_pos]
    · unfold Structure.volume; rw [hl, cubicLattice_det]
    · have : (0 : ℝ) < (bodyBasis.det : ℝ) := by exact_mod_cast (by decide : 0 < bodyBasis.det)
      positivity
  obtain ⟨p0, p1, p2, p3, p4, p5⟩ := body_products c
  have hF : frobZ bodyBasis = 9 := by decide
  have hD : bodyBasis.det = 4 := by decide
  have c2 : 49 / 25 ≤ c ^ 2 := by nlinarith
  set ε := eps tol1em5 |(refCell c bodyBasis [("Fe", 0)]).volume| with hε
  obtain ⟨sym, ops, N, e, hN⟩ := cubic_answer (c := c) (by linarith) hc' h hv atol iron_crystal
    (by rw [hF, hD]; push_cast; nlinarith) (by rw [hF]; norm_num) (by rw [hF]; push_cast; nlinarith) (by push_cast; nlinarith) prim hp hl
    (by
      rw [hvol, ← hε, hl]
      unfold NiggliCellWeak
      rw [p0, p1, p2, p3, p4, p5]
      have hneg : |2 * -c ^ 2| = 2 * c ^ 2 := by rw [abs_of_neg (by nlinarith)]; ring
      have hd1 : |2 * -c ^ 2 - 3 * c ^ 2| = 5 * c ^ 2 := by rw [abs_of_neg (by nlinarith)]; ring
      have hd2 : |2 * -c ^ 2 + 3 * c ^ 2| = c ^ 2 := by
        rw [show 2 * -c ^ 2 + 3 * c ^ 2 = c ^ 2 by ring]; exact abs_of_pos (by positivity)
      have hlt : ε < c ^ 2 := by nlinarith
      constructor
      all_goals first
        | linarith
        | (rw [hneg]; linarith)
        | (intro _; rw [hneg]; linarith)
        | (right; refine ⟨?_, ?_, ?_⟩ <;> nlinarith)
        | (rw [hd1]; intro hx; linarith)
        | (rw [hd2]; intro hx; linarith)
        | (intro _; linarith))
    (by
      right
      rw [hvol, ← hε, hl, p3, p4, p5]
      refine ⟨?_, ?_, ?_⟩ <;> nlinarith) 5 .cI
    (by
      rw [hvol, ← hε, hl, p0, p1, p2, p3, p4, p5]
      exact characterOf_body e0 (by nlinarith) rfl) rfl (by decide) (by decide)
  have hs : sym = "Im-3m" := by
    have : amapGet? sgNumToSymbol 229 = some "Im-3m" := by decide +kernel
    exact Option.some.inj (e.symm.trans this)
  subst hs
  exact ⟨ops, N, hN⟩

/-- sodium chloride, edge 5.64, and iron, edge 2.87. -/
example (h : HashOrders ℝ) (hv : h.Valid) :
    (∃ ops N, ∀ fuel ≥ N, (⟨1 / 20, 1⟩ : SymmetryAnalyzer ℝ).getSpaceGroupInfo h fuel (cubicCell (282 / 100) rockSaltAtoms) =
      .ret (225, "Fm-3m", ops)) ∧
    ∃ ops N, ∀ fuel ≥ N, (⟨1 / 20, 1⟩ : SymmetryAnalyzer ℝ).getSpaceGroupInfo h fuel (cubicCell (1435 / 1000) ironAtoms) =
      .ret (229, "Im-3m", ops) :=
  ⟨C77_rock_salt (by norm_num) (by norm_num) h hv 1, C77_body_centred (by norm_num) (by norm_num) h hv 1⟩

end CrystSymm
