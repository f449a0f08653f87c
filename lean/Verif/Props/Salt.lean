import Verif.Props.Iff

set_option autoImplicit false
set_option linter.unusedSectionVars false

/-! # C76: two atoms in a cube -/

namespace CrystSymm

open Spec SymmetryAnalyzer PointGroup

/-- the position of the second atom, in fractions of the edges. -/
noncomputable def saltSite (j : ℤ) : Vec3 ℝ := ⟨1 / 2, 1 / 2, j / 10⟩

/-- a cube with edge 4, caesium at the corner and chlorine above the centre of the base; `j = 5` is caesium chloride. -/
noncomputable def saltCell (j : ℤ) : Structure ℝ :=
  Structure.new ⟨4, 0, 0, 0, 4, 0, 0, 0, 4⟩ ["Cs", "Cl"] [0, saltSite j] false

theorem salt_lattice (j : ℤ) : (saltCell j).lattice = ⟨4, 0, 0, 0, 4, 0, 0, 0, 4⟩ := rfl

theorem salt_mulVec (j : ℤ) (v : Vec3 ℝ) : (saltCell j).lattice * v = Vec3.scale 4 v := by
  rw [salt_lattice]; ext <;> simp [Vec3.scale]

theorem salt_sites (j : ℤ) : sites (saltCell j) = [("Cs", 0), ("Cl", saltSite j)] := rfl

theorem scale_injective {u v : Vec3 ℝ} (h : Vec3.scale 4 u = Vec3.scale 4 v) : u = v := by
  have x := congrArg Vec3.x h
  have y := congrArg Vec3.y h
  have z := congrArg Vec3.z h
  simp only [Vec3.scale] at x y z
  ext <;> linarith

theorem salt_atomAt {j : ℤ} {e : String} {x : Vec3 ℝ} : AtomAt (saltCell j) e x ↔
    (e = "Cs" ∧ ∃ n : Vec3 ℝ, IntVec n ∧ x = Vec3.scale 4 n) ∨
      (e = "Cl" ∧ ∃ n : Vec3 ℝ, IntVec n ∧ x = Vec3.scale 4 (saltSite j + n)) := by
  unfold AtomAt
  simp only [salt_sites, List.mem_cons, List.not_mem_nil, or_false, Prod.mk.injEq, salt_mulVec]
  constructor
  · rintro ⟨q, ⟨rfl, rfl⟩ | ⟨rfl, rfl⟩, n, hn, rfl⟩
    · exact .inl ⟨rfl, n, hn, by rw [zero_add]⟩
    · exact .inr ⟨rfl, n, hn, rfl⟩
  · rintro (⟨rfl, n, hn, rfl⟩ | ⟨rfl, n, hn, rfl⟩)
    · exact ⟨0, .inl ⟨rfl, rfl⟩, n, hn, by rw [zero_add]⟩
    · exact ⟨_, .inr ⟨rfl, rfl⟩, n, hn, rfl⟩

/-- the isometries of a cube are integer matrices. -/
theorem salt_isometry {j : ℤ} {Q : Mat3 ℝ} (hQ : Orthogonal Q) (hm : MapsLattice Q (saltCell j).lattice) :
    ∃ W : Mat3 ℤ, OrthoInt W ∧ Q = overK ℝ W := by
  obtain ⟨k1, ⟨a, b, c, rfl⟩, e1⟩ := hm ⟨1, 0, 0⟩ ⟨1, 0, 0, by ext <;> simp⟩
  obtain ⟨k2, ⟨a', b', c', rfl⟩, e2⟩ := hm ⟨0, 1, 0⟩ ⟨0, 1, 0, by ext <;> simp⟩
  obtain ⟨k3, ⟨a'', b'', c'', rfl⟩, e3⟩ := hm ⟨0, 0, 1⟩ ⟨0, 0, 1, by ext <;> simp⟩
  rw [salt_lattice] at e1 e2 e3
  have x1 := congrArg Vec3.x e1
  have y1 := congrArg Vec3.y e1
  have z1 := congrArg Vec3.z e1
  have x2 := congrArg Vec3.x e2
  have y2 := congrArg Vec3.y e2
  have z2 := congrArg Vec3.z e2
  have x3 := congrArg Vec3.x e3
  have y3 := congrArg Vec3.y e3
  have z3 := congrArg Vec3.z e3
  simp only [Mat3.mulVec_x, Mat3.mulVec_y, Mat3.mulVec_z, mul_one, mul_zero, add_zero, zero_add, zero_mul] at x1 y1 z1 x2 y2 z2 x3 y3 z3
  have hQe : Q = overK ℝ ⟨a, a', a'', b, b', b'', c, c', c''⟩ := by
    ext <;> simp only [overK, Mat3.map] <;> linarith
  refine ⟨_, ?_, hQe⟩
  apply overK_injective (K := ℝ)
  rw [overK_mul, overK_one]
  have : overK ℝ (⟨a, a', a'', b, b', b'', c, c', c''⟩ : Mat3 ℤ).transpose = Q.transpose := by
    rw [hQe]; rfl
  rw [this, ← hQe]
  exact hQ

theorem salt_maps {j : ℤ} {W : Mat3 ℤ} (hW : OrthoInt W) : Orthogonal (overK ℝ W) ∧ MapsLattice (overK ℝ W) (saltCell j).lattice := by
  constructor
  · have := congrArg (overK ℝ) hW
    rw [overK_mul, overK_one] at this
    exact this
  · intro n hn
    refine ⟨_, intVec_overK (m := W) hn, ?_⟩
    rw [salt_mulVec, salt_mulVec]
    ext <;> simp [Vec3.scale] <;> ring

theorem overK_scale (W : Mat3 ℤ) (v : Vec3 ℝ) : overK ℝ W * Vec3.scale 4 v = Vec3.scale 4 (overK ℝ W * v) := by
  ext <;> simp [Vec3.scale] <;> ring

theorem orthoInt_transpose {W : Mat3 ℤ} (hW : OrthoInt W) : OrthoInt W.transpose := by
  have hd : W.det * W.det = 1 := by
    have := congrArg Mat3.det hW
    have ht : W.transpose.det = W.det := by simp [Mat3.det, Mat3.transpose]; ring
    rwa [Mat3.det_mul, ht, Mat3.det_one] at this
  obtain ⟨D, h1, h2, -⟩ := unimodular_inverse (Int.isUnit_iff.1 (IsUnit.of_mul_eq_one _ hd))
  have h3 : W.transpose = D := by
    calc W.transpose = W.transpose * (W * D) := by rw [h1, mul_one]
      _ = D := by rw [← mul_assoc, show W.transpose * W = 1 from hW, one_mul]
  have h4 : W.transpose.transpose = W := rfl
  unfold OrthoInt
  rw [h4, h3, h1]

/-- what maps the chlorine site to one is a symmetry, with any lattice translation. -/
theorem salt_symmetry {j : ℤ} {W : Mat3 ℤ} (hW : OrthoInt W) (hc : IntVec (overK ℝ W * saltSite j - saltSite j)) {n : Vec3 ℝ}
    (hn : IntVec n) : CrystalSymmetry (saltCell j) (overK ℝ W) (Vec3.scale 4 n) := by
  have fwd : ∀ {V : Mat3 ℤ} {m : Vec3 ℝ}, IntVec (overK ℝ V * saltSite j - saltSite j) → IntVec m → ∀ {e x},
      AtomAt (saltCell j) e x → AtomAt (saltCell j) e (overK ℝ V * x + Vec3.scale 4 m) := by
    intro V m hV hm e x hx
    have hadd : ∀ u v : Vec3 ℝ, Vec3.scale 4 u + Vec3.scale 4 v = Vec3.scale 4 (u + v) := by
      intro u v; ext <;> simp [Vec3.scale] <;> ring
    rcases salt_atomAt.1 hx with ⟨rfl, k, hk, rfl⟩ | ⟨rfl, k, hk, rfl⟩
    · refine salt_atomAt.2 (.inl ⟨rfl, overK ℝ V * k + m, intVec_sum (intVec_overK hk) hm, ?_⟩)
      rw [overK_scale, hadd]
    · refine salt_atomAt.2 (.inr ⟨rfl, (overK ℝ V * saltSite j - saltSite j) + (overK ℝ V * k + m),
        intVec_sum hV (intVec_sum (intVec_overK hk) hm), ?_⟩)
      rw [overK_scale, hadd, Mat3.mulVec_add]
      congr 1
      abel
  refine ⟨(salt_maps (j := j) hW).1, fun e x => ⟨fwd hc hn, fun hx => ?_⟩⟩
  have hWt : overK ℝ W.transpose * overK ℝ W = 1 := by rw [← overK_mul, show W.transpose * W = 1 from hW, overK_one]
  have hneg : ∀ {v : Vec3 ℝ}, IntVec v → IntVec (-v) := by
    rintro v ⟨a, b, c, rfl⟩
    exact ⟨-a, -b, -c, by ext <;> simp⟩
  have hc' : IntVec (overK ℝ W.transpose * saltSite j - saltSite j) := by
    have e1 : overK ℝ W.transpose * saltSite j - saltSite j = -(overK ℝ W.transpose * (overK ℝ W * saltSite j - saltSite j)) := by
      rw [Mat3.mulVec_sub, ← Mat3.mul_mulVec, hWt, Mat3.one_mulVec]; abel
    rw [e1]
    exact hneg (intVec_overK hc)
  have h1 := fwd hc' (hneg (intVec_overK (m := W.transpose) hn)) hx
  have e2 : overK ℝ W.transpose * (overK ℝ W * x + Vec3.scale 4 n) + Vec3.scale 4 (-(overK ℝ W.transpose * n)) = x := by
    rw [Mat3.mulVec_add, ← Mat3.mul_mulVec, hWt, Mat3.one_mulVec, overK_scale]
    ext <;> simp [Vec3.scale] <;> ring
  rwa [e2] at h1

/-- conversely a symmetry maps the chlorine site to one, and its translation is a lattice vector. -/
theorem salt_symmetry_only {j : ℤ} {W : Mat3 ℤ} {t : Vec3 ℝ} (h : CrystalSymmetry (saltCell j) (overK ℝ W) t) :
    IntVec (overK ℝ W * saltSite j - saltSite j) ∧ ∃ n : Vec3 ℝ, IntVec n ∧ t = Vec3.scale 4 n := by
  have h1 := (h.2 "Cs" 0).1 (salt_atomAt.2 (.inl ⟨rfl, 0, intVec_zero, by ext <;> simp [Vec3.scale]⟩))
  rw [Mat3.mulVec_zero, zero_add] at h1
  rcases salt_atomAt.1 h1 with ⟨-, n, hn, rfl⟩ | ⟨h, -⟩
  · refine ⟨?_, n, hn, rfl⟩
    have h2 := (h.2 "Cl" _).1 (salt_atomAt.2 (.inr ⟨rfl, 0, intVec_zero, rfl⟩))
    rcases salt_atomAt.1 h2 with ⟨h, -⟩ | ⟨-, m, hm, e⟩
    · exact absurd h (by decide)
    · rw [add_zero, overK_scale] at e
      have e2 : overK ℝ W * saltSite j + n = saltSite j + m := by
        apply scale_injective
        rw [← e]; ext <;> simp [Vec3.scale] <;> ring
      have e3 : overK ℝ W * saltSite j - saltSite j = m - n := by
        rw [sub_eq_sub_iff_add_eq_add, e2, add_comm]
      rw [e3]
      exact intVec_subV hm hn
  · exact absurd h (by decide)

theorem salt_tenth (j : ℤ) (W : Mat3 ℤ) : ∃ a b c : ℤ, Vec3.scale 10 (overK ℝ W * saltSite j - saltSite j) = ⟨a, b, c⟩ := by
  refine ⟨W.m11 * 5 + W.m12 * 5 + W.m13 * j - 5, W.m21 * 5 + W.m22 * 5 + W.m23 * j - 5, W.m31 * 5 + W.m32 * 5 + W.m33 * j - j, ?_⟩
  unfold saltSite
  ext <;> simp [Vec3.scale, overK, Mat3.map] <;> ring

/-- near symmetries are symmetries. -/
theorem salt_resolved (j : ℤ) : Resolved (saltCell j) (1 / 20) := by
  rintro Q t ⟨hQ, hm, h⟩
  obtain ⟨W, hW, rfl⟩ := salt_isometry hQ hm
  obtain ⟨y, hy, hle⟩ := h "Cs" 0 (salt_atomAt.2 (.inl ⟨rfl, 0, intVec_zero, by ext <;> simp [Vec3.scale]⟩))
  obtain ⟨z, hz, hle2⟩ := h "Cl" _ (salt_atomAt.2 (.inr ⟨rfl, 0, intVec_zero, rfl⟩))
  rcases salt_atomAt.1 hy with ⟨-, n, hn, rfl⟩ | ⟨h, -⟩
  swap
  · exact absurd h (by decide)
  rcases salt_atomAt.1 hz with ⟨h, -⟩ | ⟨-, m, hm', rfl⟩
  · exact absurd h (by decide)
  rw [Mat3.mulVec_zero, zero_add] at hle
  refine ⟨_, salt_symmetry hW ?_ hn, ?_⟩
  · rw [add_zero, overK_scale] at hle2
    obtain ⟨i1, i2, i3, hi⟩ := intVec_subV hm' hn
    obtain ⟨a, b, c, ht⟩ := salt_tenth j W
    have sq : ∀ {x y z : ℝ}, x * x + y * y + z * z ≤ (2 * (1 / 20)) ^ 2 → |x| ≤ 1 / 10 ∧ |y| ≤ 1 / 10 ∧ |z| ≤ 1 / 10 := by
      intro x y z h
      refine ⟨abs_le_of_sq_le_sq (by nlinarith [mul_self_nonneg y, mul_self_nonneg z]) (by norm_num),
        abs_le_of_sq_le_sq (by nlinarith [mul_self_nonneg x, mul_self_nonneg z]) (by norm_num),
        abs_le_of_sq_le_sq (by nlinarith [mul_self_nonneg x, mul_self_nonneg y]) (by norm_num)⟩
    obtain ⟨p1, p2, p3⟩ := sq hle
    obtain ⟨q1, q2, q3⟩ := sq hle2
    have key : ∀ {w c t n m i : ℝ} {a : ℤ} {k : ℤ}, |t - 4 * n| ≤ 1 / 10 → |4 * w + t - 4 * (c + m)| ≤ 1 / 10 →
        10 * (w - c) = a → m - n = k → w - c = k := by
      intro w c t n m i a k h1 h2 h3 h4
      have h5 : |(a : ℝ) - 10 * k| < 1 := by
        rw [← h3, ← h4]
        rw [abs_le] at h1 h2
        rw [abs_lt]
        constructor <;> linarith
      have h6 : |a - 10 * k| < 1 := by exact_mod_cast h5
      have h7 : a = 10 * k := by
        have := Int.abs_lt_one_iff.1 h6
        omega
      rw [h7] at h3
      push_cast at h3
      linarith
    have hx := congrArg Vec3.x ht
    have hy := congrArg Vec3.y ht
    have hz := congrArg Vec3.z ht
    have ix := congrArg Vec3.x hi
    have iy := congrArg Vec3.y hi
    have iz := congrArg Vec3.z hi
    exact ⟨i1, i2, i3, Vec3.ext (key (i := 0) p1 q1 hx ix) (key (i := 0) p2 q2 hy iy) (key (i := 0) p3 q3 hz iz)⟩
  · refine hle.trans ?_
    norm_num

theorem salt_gridOrigin (j : ℤ) : GridOrigin (saltCell j) := by
  intro Q t h
  have h1 := (h.2 "Cs" 0).1 (salt_atomAt.2 (.inl ⟨rfl, 0, intVec_zero, by ext <;> simp [Vec3.scale]⟩))
  rw [Mat3.mulVec_zero, zero_add] at h1
  rcases salt_atomAt.1 h1 with ⟨-, n, ⟨a, b, c, rfl⟩, rfl⟩ | ⟨h, -⟩
  · refine ⟨⟨(12 * a : ℤ), (12 * b : ℤ), (12 * c : ℤ)⟩, ⟨12 * a, 12 * b, 12 * c, rfl⟩, ?_⟩
    rw [salt_mulVec]
    push_cast
    ext <;> simp [Vec3.scale] <;> ring
  · exact absurd h (by decide)

theorem salt_volume (j : ℤ) : (saltCell j).volume = 64 := by
  unfold Structure.volume; rw [salt_lattice]; simp [Mat3.det]; norm_num

theorem salt_eps : eps tol1em5 64 = 1 / 25000 := by
  unfold eps
  rw [tol1em5_real, show (64 : ℝ) = 4 ^ (3 : ℝ) by norm_num, ← Real.rpow_mul (by norm_num)]
  norm_num

theorem salt_size (j : ℤ) : cellSize (saltCell j) = 48 + 1 / 250 := by
  unfold cellSize
  rw [salt_volume, salt_lattice, show |(64 : ℝ)| = 64 by norm_num, salt_eps]
  norm_num [lenSq, Mat3.col0, Mat3.col1, Mat3.col2]

theorem salt_long (j : ℤ) : LongVectors (saltCell j).lattice 4 := by
  rintro n ⟨a, b, c, rfl⟩ hne
  rw [salt_mulVec]
  have h1 : 1 ≤ a ^ 2 + b ^ 2 + c ^ 2 := by
    by_contra hlt
    have a1 := sq_nonneg a
    have a2 := sq_nonneg b
    have a3 := sq_nonneg c
    have b1 : a ^ 2 = 0 := by omega
    have b2 : b ^ 2 = 0 := by omega
    have b3 : c ^ 2 = 0 := by omega
    rw [sq_eq_zero_iff] at b1 b2 b3
    subst b1; subst b2; subst b3
    exact hne (by ext <;> simp)
  have h2 : (1 : ℝ) ≤ (a : ℝ) ^ 2 + (b : ℝ) ^ 2 + (c : ℝ) ^ 2 := by exact_mod_cast h1
  simp only [lenSq, Vec3.scale]
  nlinarith

theorem salt_clean (j : ℤ) : CleanInput (saltCell j) (1 / 20) := by
  have hhalf : ∀ k : ℤ, (1 / 4 : ℝ) ≤ (1 / 2 + k) * (1 / 2 + k) := by
    intro k
    have : 0 ≤ k * k + k := by
      rcases lt_or_ge k 0 with h | h
      · nlinarith
      · positivity
    have h2 : (0 : ℝ) ≤ k * k + k := by exact_mod_cast this
    nlinarith
  have hfar : ∀ {u v : Vec3 ℝ}, IntVec u → IntVec v → 8 ≤ lenSq (Vec3.scale 4 (saltSite j + u) - Vec3.scale 4 v) := by
    rintro u v ⟨a, b, c, rfl⟩ ⟨a', b', c', rfl⟩
    have h1 := hhalf (a - a')
    have h2 := hhalf (b - b')
    push_cast at h1 h2
    simp only [lenSq, saltSite, Vec3.scale, Vec3.sub_x, Vec3.sub_y, Vec3.sub_z, Vec3.add_x, Vec3.add_y, Vec3.add_z]
    nlinarith [mul_self_nonneg (4 * ((j : ℝ) / 10 + c) - 4 * c')]
  have hsame : ∀ {w u v : Vec3 ℝ}, IntVec u → IntVec v → u = v ∨ 16 ≤ lenSq (Vec3.scale 4 (w + u) - Vec3.scale 4 (w + v)) := by
    intro w u v hu hv
    by_cases h0 : u - v = 0
    · exact .inl (sub_eq_zero.1 h0)
    · right
      have := salt_long j (u - v) (intVec_subV hu hv) h0
      rw [salt_mulVec] at this
      rw [show Vec3.scale 4 (w + u) - Vec3.scale 4 (w + v) = Vec3.scale 4 (u - v) by ext <;> simp [Vec3.scale] <;> ring]
      linarith
  have hsym : ∀ x y : Vec3 ℝ, lenSq (x - y) = lenSq (y - x) := by
    intro x y; simp [lenSq]; ring
  refine ⟨⟨rfl, rfl⟩, (by norm_num : (2 : ℕ) < 65536), ?_, noTranslation_of_once _ ⟨"Cs", rfl⟩, by norm_num, by rw [salt_volume]; norm_num,
    by rw [salt_volume, salt_size]; norm_num, by rw [salt_volume, salt_size]; norm_num, ?_⟩
  · unfold DistinctSites
    rw [salt_sites, List.pairwise_pair, samePoint_iff_intVec]
    rintro ⟨a, b, c, e⟩
    have := congrArg Vec3.x e
    simp [saltSite] at this
    have h2 : (2 * a : ℝ) = -1 := by linarith
    have h3 : 2 * a = -1 := by exact_mod_cast h2
    omega
  · rw [salt_size, salt_volume]
    intro e e' x y hx hy
    rcases salt_atomAt.1 hx with ⟨rfl, n, hn, rfl⟩ | ⟨rfl, n, hn, rfl⟩ <;>
      rcases salt_atomAt.1 hy with ⟨rfl, m, hm, rfl⟩ | ⟨rfl, m, hm, rfl⟩
    · rcases hsame (w := 0) hn hm with rfl | h
      · exact .inl ⟨rfl, rfl⟩
      · right
        rw [zero_add, zero_add] at h
        norm_num
        linarith
    · right
      have := hfar hm hn
      rw [hsym]
      norm_num
      linarith
    · right
      have := hfar hn hm
      norm_num
      linarith
    · rcases hsame (w := saltSite j) hn hm with rfl | h
      · exact .inl ⟨rfl, rfl⟩
      · right
        norm_num
        linarith

theorem orthoInt_bounds {W : Mat3 ℤ} (hW : OrthoInt W) : ∀ e ∈ W.toListCM, -1 ≤ e ∧ e ≤ 1 := by
  have r1 : W.m11 * W.m11 + W.m21 * W.m21 + W.m31 * W.m31 = 1 := congrArg Mat3.m11 hW
  have r2 : W.m12 * W.m12 + W.m22 * W.m22 + W.m32 * W.m32 = 1 := congrArg Mat3.m22 hW
  have r3 : W.m13 * W.m13 + W.m23 * W.m23 + W.m33 * W.m33 = 1 := congrArg Mat3.m33 hW
  have bd : ∀ {x y z : ℤ}, x * x + y * y + z * z = 1 → (-1 ≤ x ∧ x ≤ 1) ∧ (-1 ≤ y ∧ y ≤ 1) ∧ (-1 ≤ z ∧ z ≤ 1) := by
    intro x y z h
    refine ⟨⟨?_, ?_⟩, ⟨?_, ?_⟩, ⟨?_, ?_⟩⟩ <;> nlinarith [mul_self_nonneg x, mul_self_nonneg y, mul_self_nonneg z]
  obtain ⟨p1, p2, p3⟩ := bd r1
  obtain ⟨q1, q2, q3⟩ := bd r2
  obtain ⟨s1, s2, s3⟩ := bd r3
  intro e he
  simp only [Mat3.toListCM, List.mem_cons, List.not_mem_nil, or_false] at he
  rcases he with rfl | rfl | rfl | rfl | rfl | rfl | rfl | rfl | rfl <;> assumption

theorem orthoInt_odd {x y z : ℤ} (h : x * x + y * y + z * z = 1) : ∃ k : ℤ, x + y + z = 2 * k + 1 := by
  obtain ⟨a, ha⟩ := Int.even_mul_succ_self x
  obtain ⟨b, hb⟩ := Int.even_mul_succ_self y
  obtain ⟨c, hc⟩ := Int.even_mul_succ_self z
  exact ⟨a + b + c - 1, by linarith⟩

/-- the centre of the cube is mapped to a centre. -/
theorem salt_odd {W : Mat3 ℤ} (hW : OrthoInt W) : IntVec (overK ℝ W * saltSite 5 - saltSite 5) := by
  have hT := orthoInt_transpose hW
  obtain ⟨a, ha⟩ := orthoInt_odd (show W.m11 * W.m11 + W.m12 * W.m12 + W.m13 * W.m13 = 1 from congrArg Mat3.m11 hT)
  obtain ⟨b, hb⟩ := orthoInt_odd (show W.m21 * W.m21 + W.m22 * W.m22 + W.m23 * W.m23 = 1 from congrArg Mat3.m22 hT)
  obtain ⟨c, hc⟩ := orthoInt_odd (show W.m31 * W.m31 + W.m32 * W.m32 + W.m33 * W.m33 = 1 from congrArg Mat3.m33 hT)
  have ha' : (W.m11 : ℝ) + W.m12 + W.m13 = 2 * a + 1 := by exact_mod_cast ha
  have hb' : (W.m21 : ℝ) + W.m22 + W.m23 = 2 * b + 1 := by exact_mod_cast hb
  have hc' : (W.m31 : ℝ) + W.m32 + W.m33 = 2 * c + 1 := by exact_mod_cast hc
  refine ⟨a, b, c, ?_⟩
  unfold saltSite
  ext <;> simp [overK, Mat3.map] <;> linarith

theorem salt_small (j : ℤ) : SmallMatrices (saltCell j).lattice := by
  intro Q hQ hm
  obtain ⟨W, hW, rfl⟩ := salt_isometry hQ hm
  have hb := orthoInt_bounds hW
  refine ⟨W, fun e he => by have := hb e he; omega, ?_, W.m11, by simp [Mat3.toListCM], ?_⟩
  · rw [salt_lattice]; ext <;> simp <;> ring
  · have := hb W.m11 (by simp [Mat3.toListCM])
    omega

theorem salt_clear (j : ℤ) : ClearLattice (saltCell j).lattice (eps tol1em5 |(saltCell j).volume|) := by
  rw [salt_volume, show |(64 : ℝ)| = 64 by norm_num, salt_eps]
  refine clearLattice_integral (g := 16) ?_ (by norm_num) (by norm_num) (by norm_num) 1 ?_
  · rw [salt_lattice]; simp [Mat3.det]
  · rw [salt_lattice, overK_one]
    ext <;> simp [Mat3.transpose, Mat3.scale, Mat3.map] <;> norm_num

/-- the cells found for these crystals: the lattice is cubic primitive. -/
theorem salt_cells (j : ℤ) (h : HashOrders ℝ) (hv : h.Valid) (atol : ℝ) :
    ∃ prim nig, (⟨1 / 20, atol⟩ : SymmetryAnalyzer ℝ).reducer.findPrimitiveCell h.minEle (saltCell j) = .ret prim ∧
      (⟨1 / 20, atol⟩ : SymmetryAnalyzer ℝ).reducer.niggliReduce prim tol1em5 = .ret nig ∧
      getLatticeCharacter nig tol1em5 = .ret 3 := by
  obtain ⟨prim, nig, S, -, -, -, -, h1, -, -, -, l0, l1, l2, d01, d02, d12, h2, hnl, hvn⟩ :=
    right_angles_cells_of ⟨1 / 20, atol⟩ h hv (saltCell j) (by norm_num : (2 : ℕ) < 65536) rfl (noTranslation_of_once _ ⟨"Cs", rfl⟩) 4 4 4
      (salt_lattice j) le_rfl le_rfl (by norm_num) (by norm_num) (by norm_num) (by norm_num) (by norm_num)
  refine ⟨prim, nig, h1, h2, ?_⟩
  have hε : (0 : ℝ) < eps tol1em5 (4 * 4 * 4) := by
    rw [show (4 * 4 * 4 : ℝ) = 64 by norm_num, salt_eps]; norm_num
  rw [getLatticeCharacter_eq (by rw [hvn]; norm_num), hvn, hnl, l0, l1, l2, d01, d02, d12, characterOf_orthogonal hε,
    sub_self, abs_zero, if_pos ⟨hε.le, hε.le⟩]

/-- caesium chloride: number 221 is reported. -/
example (h : HashOrders ℝ) (hv : h.Valid) (atol : ℝ) : ∃ ops N, ∀ fuel ≥ N,
    (⟨1 / 20, atol⟩ : SymmetryAnalyzer ℝ).getSpaceGroupInfo h fuel (saltCell 5) = .ret (221, "Pm-3m", ops) := by
  obtain ⟨prim, nig, h1, h2, h3⟩ := salt_cells 5 h hv atol
  obtain ⟨sym, ops, N, e, hN⟩ := C76_holohedral ⟨1 / 20, atol⟩ h hv (saltCell 5) (salt_clean 5)
    (by rw [salt_size]; norm_num) (salt_clear 5) (salt_resolved 5)
    (fun n hn h0 => le_trans (by norm_num) (salt_long 5 n hn h0)) (salt_small 5) (fun Q hQ hm => by
      obtain ⟨W, hW, rfl⟩ := salt_isometry hQ hm
      have h0 : (0 : Vec3 ℝ) = Vec3.scale 4 0 := by ext <;> simp [Vec3.scale]
      rw [h0]
      refine salt_symmetry hW ?_ intVec_zero
      exact salt_odd hW) prim nig 3 .cP h1 h2 h3 rfl (by decide) (by decide)
  have hs : sym = "Pm-3m" := by
    have : amapGet? sgNumToSymbol 221 = some "Pm-3m" := by decide +kernel
    exact Option.some.inj (e.symm.trans this)
  subst hs
  exact ⟨ops, N, hN⟩

set_option maxRecDepth 100000 in
/-- every cubic group of the tables has an operation with trace zero (a threefold rotation or rotoinversion). -/
theorem cubic_threefold : ∀ q ∈ sgNumToFullMatrices, q.1 = .Cubic → ∀ g ∈ q.2, ∀ e ∈ g.2,
    (groupZ e).any (fun o => decide (o.1.m11 + o.1.m22 + o.1.m33 = 0)) = true := by decide +kernel

/-- **C76 (cubic lattices).** For a crystal with a cubic lattice a group is reported only if the crystal has threefold symmetry. -/
theorem C76_cubic_lattice_needs_threefold (sa : SymmetryAnalyzer ℝ) (h : HashOrders ℝ) (hv : h.Valid) (s : Structure ℝ)
    (hc : CleanInput s sa.dtol) (hsize : 81 * cellSize s ≤ (200000000 * sa.dtol) ^ 2)
    (hcl : ClearLattice s.lattice (eps tol1em5 |s.volume|)) (hres : Resolved s sa.dtol) (hgrid : GridOrigin s)
    (hlong : LongVectors s.lattice (48 * sa.dtol)) (hsm : SmallMatrices s.lattice) (hcub : InSystem s.lattice .Cubic)
    (fuel num : ℕ) (sym : String) (ops : List (SymmOp ℝ)) (hr : sa.getSpaceGroupInfo h fuel s = .ret (num, sym, ops)) :
    ∃ Q t, CrystalSymmetry s Q t ∧ Q.m11 + Q.m22 + Q.m33 = 0 := by
  obtain ⟨prim, nig, p, ch, b, gens, sg, sys, codes, table, total, k1, k2, -, -, k5, -⟩ :=
    info_steps hv hr fun _ _ k1 => clean_svAbove hc (clean_finds (r := sa.reducer) hv.minEle hc _ k1)
  obtain ⟨psame, plat, pdet, -⟩ := clean_pipeline hv hc (clean_finds (r := sa.reducer) hv.minEle hc) hsize k1 k2 k5
  obtain ⟨-, sys', n, codes', table', hR, hsys, hent, htab, hiff⟩ :=
    (C76_reported_iff sa h hv fuel s p hc hsize hcl hres hgrid hlong hsm k5 num).1 ⟨fuel, sym, ops, hr⟩
  have hss : sys' = .Cubic := by
    obtain ⟨l, h1, h2, h3⟩ := hsys
    obtain ⟨l', h1', h2', h3'⟩ := hcub
    have : l.length = l'.length := by
      apply List.Perm.length_eq
      rw [List.perm_ext_iff_of_nodup h1 h1']
      intro Q
      rw [h2, h2']
    rw [h3, h3'] at this
    cases sys' <;> simp_all [systemOrder]
  subst hss
  obtain ⟨groups, cands, g1, g2, g3⟩ := hent
  have h3 := cubic_threefold _ g1 rfl _ g2 _ g3
  obtain ⟨z, hz, h0⟩ := List.any_eq_true.1 h3
  have h0 := of_decide_eq_true h0
  have ho : opK ℝ z ∈ table' := by
    rw [tableOps_eq htab]; exact List.mem_map.2 ⟨z, hz, rfl⟩
  have hrot : intRot (opK ℝ z).rotation = z.1 := intRot_rotZ (groupZ_range z hz)
  set M : Mat3 ℝ := castRot (opK ℝ z).rotation with hM
  have hinv' : p.lattice.adjDiv p.lattice.det * p.lattice = 1 := Mat3.adjDiv_mul pdet
  refine ⟨p.lattice * M * p.lattice.adjDiv p.lattice.det, _, (hiff _ (opK ℝ z).translation).2
    ⟨_, ho, by rw [mul_assoc, hinv', mul_one], by rw [sub_self]; exact intVec_zero⟩, ?_⟩
  rw [mul_assoc, trace_mul_comm, mul_assoc, hinv', mul_one, hM, castRot_overK, hrot]
  simp only [overK, Mat3.map]
  exact_mod_cast h0

/-- **C76 (a crystal without an answer).** Caesium chloride with chlorine moved along an axis, group `P4mm` with a cubic lattice: nothing
is reported. -/
theorem C76_cubic_metric_no_answer (h : HashOrders ℝ) (hv : h.Valid) (atol : ℝ) (fuel : ℕ) (x : ℕ × String × List (SymmOp ℝ)) :
    (⟨1 / 20, atol⟩ : SymmetryAnalyzer ℝ).getSpaceGroupInfo h fuel (saltCell 4) ≠ .ret x := by
  obtain ⟨num, sym, ops⟩ := x
  intro hr
  set sa : SymmetryAnalyzer ℝ := ⟨1 / 20, atol⟩
  have hsize : 81 * cellSize (saltCell 4) ≤ (200000000 * sa.dtol) ^ 2 := by
    rw [salt_size]; norm_num [show sa.dtol = 1 / 20 from rfl]
  obtain ⟨prim, nig, h1, h2, h3⟩ := salt_cells 4 h hv atol
  obtain ⟨N, k, conv, p, hret, -⟩ := clean_standard sa h hv (salt_clean 4) (clean_finds (r := sa.reducer) hv.minEle (salt_clean 4)) h1 h2 h3
  obtain ⟨N₁, hN₁⟩ := C35_primitive_holohedry_returns (K := ℝ)
  obtain ⟨prim', nig', ch', b', g1, g2, g3, g4, key⟩ := clean_system sa h hv _ _ _ p (salt_clean 4) (clean_finds (r := sa.reducer) hv.minEle (salt_clean 4)) hsize (salt_clear 4)
    (hret (N + N₁) (by omega)).2
  rw [h1] at g1
  cases g1
  rw [h2] at g2
  cases g2
  rw [h3] at g3
  cases g3
  have hb : b' = .cP := (Option.some.inj (g4.symm.trans (rfl : amapGet? latticeCharToBravais 3 = some .cP)))
  subst hb
  obtain ⟨pg, hpg⟩ := hN₁ (N + N₁) (by omega) h hv .cP
  obtain ⟨Q, t, hsym, h0⟩ := C76_cubic_lattice_needs_threefold sa h hv (saltCell 4) (salt_clean 4) hsize (salt_clear 4) (salt_resolved 4)
    (salt_gridOrigin 4) (fun n hn h0 => le_trans (by norm_num [show sa.dtol = 1 / 20 from rfl]) (salt_long 4 n hn h0)) (salt_small 4)
    (((key pg hpg).2 .Cubic (by decide)).2 (by decide) (by decide)) fuel num sym ops hr
  have hprim : PrimitiveCell (saltCell 4) := by
    intro t ht
    have h1 := ht "Cs" 0 (salt_atomAt.2 (.inl ⟨rfl, 0, intVec_zero, by ext <;> simp [Vec3.scale]⟩))
    rw [zero_add] at h1
    rcases salt_atomAt.1 h1 with ⟨-, n, hn, e⟩ | ⟨h, -⟩
    · exact ⟨n, hn, by rw [salt_mulVec]; exact e⟩
    · exact absurd h (by decide)
  obtain ⟨W, hW, rfl⟩ := salt_isometry hsym.1 (symmetry_mapsLattice hprim hsym)
  obtain ⟨⟨a, b, c, e⟩, -⟩ := salt_symmetry_only hsym
  have ez := congrArg Vec3.z e
  simp only [saltSite, Vec3.sub_z, Mat3.mulVec_z, overK, Mat3.map] at ez
  have e1 : 5 * W.m31 + 5 * W.m32 + 4 * W.m33 - 4 = 10 * c := by
    have : (5 : ℝ) * W.m31 + 5 * W.m32 + 4 * W.m33 - 4 = 10 * c := by push_cast at ez; linarith
    exact_mod_cast this
  have e2 : W.m11 + W.m22 + W.m33 = 0 := by
    simp only [overK, Mat3.map] at h0
    exact_mod_cast h0
  have hb := orthoInt_bounds hW
  simp only [Mat3.toListCM, List.forall_mem_cons] at hb
  obtain ⟨b11, b21, b31, b12, b22, b32, b13, b23, b33, -⟩ := hb
  have r1 : W.m11 * W.m11 + W.m21 * W.m21 + W.m31 * W.m31 = 1 := congrArg Mat3.m11 hW
  have r2 : W.m12 * W.m12 + W.m22 * W.m22 + W.m32 * W.m32 = 1 := congrArg Mat3.m22 hW
  have r12 : W.m11 * W.m12 + W.m21 * W.m22 + W.m31 * W.m32 = 0 := congrArg Mat3.m12 hW
  have t3 : W.m31 * W.m31 + W.m32 * W.m32 + W.m33 * W.m33 = 1 := congrArg Mat3.m33 (orthoInt_transpose hW)
  have h33 : W.m33 = 1 := by omega
  have h31 : W.m31 = 0 := by rw [h33] at t3; nlinarith [mul_self_nonneg W.m31, mul_self_nonneg W.m32]
  have h32 : W.m32 = 0 := by rw [h33] at t3; nlinarith [mul_self_nonneg W.m31, mul_self_nonneg W.m32]
  rw [h31] at r1 r12
  rw [h32] at r2
  rcases (by omega : (W.m11 = 0 ∧ W.m22 = -1) ∨ (W.m11 = -1 ∧ W.m22 = 0)) with ⟨x, y⟩ | ⟨x, y⟩
  · rw [x, y] at r12
    rw [x] at r1
    have : W.m21 = 0 := by linarith
    rw [this] at r1
    simp at r1
  · rw [x, y] at r12
    rw [y] at r2
    have : W.m12 = 0 := by linarith
    rw [this] at r2
    simp at r2

end CrystSymm
