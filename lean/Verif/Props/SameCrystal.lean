import Verif.Proofs.Distortion
import Verif.Props.CrystalSymm
import Verif.Props.Orthogonal

set_option autoImplicit false
set_option linter.unusedSectionVars false

/-! # C71: the standard cells describe the input crystal -/

namespace CrystSymm

open Spec Reducer SymmetryAnalyzer NiggliCert PointGroup

/-- sum of the squared lengths of the cell vectors, plus the slack of the Niggli reduction. -/
noncomputable def cellSize (s : Structure ℝ) : ℝ :=
  lenSq s.lattice.col0 + lenSq s.lattice.col1 + lenSq s.lattice.col2 + 100 * |eps tol1em5 (|s.volume|)|

/-- conditions on the input alone: a primitive cell with distinct sites, not too flat, whose atoms are far apart compared
with the distance tolerance `d`. -/
structure CleanInput (s : Structure ℝ) (d : ℝ) : Prop where
  consistent : Consistent s
  small : s.numSites < 65536
  distinct : DistinctSites s
  primitive : NoTranslation s (d * 2)
  tol : 0 < d
  volume : d < |s.volume|
  area : d ^ 2 * cellSize s < s.volume ^ 2
  flat : cellSize s ^ 2 < 10 ^ 12 * s.volume ^ 2
  apart : AtomsApart s (27 * (cellSize s ^ 3 / s.volume ^ 2 * d ^ 2))

theorem frob_transpose (L : Mat3 ℝ) : frob L.transpose = frob L := by
  simp only [frob, lenSq, Mat3.col0, Mat3.col1, Mat3.col2, Mat3.transpose]; ring

theorem area_bound {L : Mat3 ℝ} {u v : Vec3 ℝ} (hu : IntVec u) (hv : IntVec v) (hdet : L.det ≠ 0)
    (hne : (L * u).cross (L * v) ≠ 0) : L.det ^ 2 ≤ frob L * lenSq ((L * u).cross (L * v)) := by
  have h1 := lenSq_mulVec_le L.transpose ((L * u).cross (L * v))
  have e : L.transpose * ((L * u).cross (L * v)) = Vec3.scale L.det (u.cross v) := by
    ext <;> simp [Mat3.transpose, Vec3.cross, Vec3.scale, Mat3.det] <;> ring
  rw [e, lenSq_smul, frob_transpose] at h1
  refine le_trans ?_ h1
  have h2 : 1 ≤ lenSq (u.cross v) := by
    obtain ⟨i, j, k, rfl⟩ := hu
    obtain ⟨i', j', k', rfl⟩ := hv
    have hne' : (⟨i, j, k⟩ : Vec3 ℝ).cross ⟨i', j', k'⟩ ≠ 0 := by
      intro h0
      apply hne
      rw [h0] at e
      have hT : L.transpose.det ≠ 0 := by
        have : L.transpose.det = L.det := by simp [Mat3.det, Mat3.transpose]; ring
        rw [this]; exact hdet
      apply mulVec_injective hT
      rw [e, Mat3.mulVec_zero]
      ext <;> simp [Vec3.scale]
    have e2 : (⟨i, j, k⟩ : Vec3 ℝ).cross ⟨i', j', k'⟩ = (⟨((j * k' - k * j' : ℤ) : ℝ),
        ((k * i' - i * k' : ℤ) : ℝ), ((i * j' - j * i' : ℤ) : ℝ)⟩ : Vec3 ℝ) := by
      simp [Vec3.cross]
    rw [e2] at hne' ⊢
    unfold lenSq
    simp only
    generalize j * k' - k * j' = p at *
    generalize k * i' - i * k' = q at *
    generalize i * j' - j * i' = t at *
    have : (1 : ℤ) ≤ p * p + q * q + t * t := by
      by_contra hlt
      have hp : p = 0 := by nlinarith [mul_self_nonneg p, mul_self_nonneg q, mul_self_nonneg t]
      have hq : q = 0 := by nlinarith [mul_self_nonneg p, mul_self_nonneg q, mul_self_nonneg t]
      have ht : t = 0 := by nlinarith [mul_self_nonneg p, mul_self_nonneg q, mul_self_nonneg t]
      apply hne'
      rw [hp, hq, ht]
      ext <;> simp
    exact_mod_cast this
  nlinarith [sq_nonneg L.det]

theorem mean_cube {p q r : ℝ} (p0 : 0 ≤ p) (q0 : 0 ≤ q) (r0 : 0 ≤ r) : 27 * (p * (q * r)) ≤ (p + q + r) ^ 3 := by
  have e : (p + q + r) ^ 3 - 27 * (p * (q * r)) = 1 / 2 * ((p + q + r) * ((p - q) ^ 2 + (p - r) ^ 2 + (q - r) ^ 2)) +
      3 * (p * (q - r) ^ 2 + q * (p - r) ^ 2 + r * (p - q) ^ 2) := by ring
  have : 0 ≤ (p + q + r) ^ 3 - 27 * (p * (q * r)) := by rw [e]; positivity
  linarith

/-- Hadamard's inequality with the arithmetic and geometric mean. -/
theorem frob_cube (L : Mat3 ℝ) : 27 * L.det ^ 2 ≤ frob L ^ 3 := by
  obtain ⟨a, b, c, d, e, f, g, h, i⟩ := L
  set p := a ^ 2 + d ^ 2 + g ^ 2 with hp
  set q := b ^ 2 + e ^ 2 + h ^ 2 with hq
  set r := c ^ 2 + f ^ 2 + i ^ 2 with hr
  have p0 : 0 ≤ p := by positivity
  have q0 : 0 ≤ q := by positivity
  have r0 : 0 ≤ r := by positivity
  have h1 : (e * i - f * h) ^ 2 + (b * i - c * h) ^ 2 + (b * f - c * e) ^ 2 ≤ q * r := by
    nlinarith [sq_nonneg (b * c + e * f + h * i)]
  have h2 : (a * (e * i - f * h) - d * (b * i - c * h) + g * (b * f - c * e)) ^ 2 ≤
      p * ((e * i - f * h) ^ 2 + (b * i - c * h) ^ 2 + (b * f - c * e) ^ 2) := by
    generalize e * i - f * h = x
    generalize b * i - c * h = y
    generalize b * f - c * e = z
    rw [hp]
    nlinarith [sq_nonneg (a * y + d * x), sq_nonneg (a * z - g * x), sq_nonneg (d * z + g * y)]
  have h3 : (a * (e * i - f * h) - d * (b * i - c * h) + g * (b * f - c * e)) ^ 2 ≤ p * (q * r) :=
    le_trans h2 (mul_le_mul_of_nonneg_left h1 p0)
  have e1 : frob (⟨a, b, c, d, e, f, g, h, i⟩ : Mat3 ℝ) = p + q + r := by
    simp only [frob, lenSq, Mat3.col0, Mat3.col1, Mat3.col2]; ring
  have e2 : (⟨a, b, c, d, e, f, g, h, i⟩ : Mat3 ℝ).det = a * (e * i - f * h) - d * (b * i - c * h) + g * (b * f - c * e) := by
    simp only [Mat3.det]; ring
  rw [e1, e2]
  have h4 : 27 * (p * (q * r)) ≤ (p + q + r) ^ 3 := mean_cube p0 q0 r0
  linarith

theorem longVectors_of_apart {s : Structure ℝ} {D d : ℝ} (hne : sites s ≠ []) (hdet : s.lattice.det ≠ 0)
    (ha : AtomsApart s D) (hD : d ^ 2 ≤ D) : LongVectors s.lattice d := by
  intro n hn hn0
  obtain ⟨q, hq⟩ := List.exists_mem_of_ne_nil _ hne
  have h1 := atomAt_site hq
  rcases ha _ _ _ _ (atomAt_add h1 hn) h1 with ⟨-, e⟩ | hlt
  · exfalso
    apply hn0
    apply mulVec_injective hdet
    rw [Mat3.mulVec_zero]
    have e2 : s.lattice * n = s.lattice * q.2 + s.lattice * n - s.lattice * q.2 := by abel
    rw [e2, e]
    abel
  · have e2 : s.lattice * q.2 + s.lattice * n - s.lattice * q.2 = s.lattice * n := by abel
    rw [e2] at hlt
    linarith

namespace CleanInput

variable {s : Structure ℝ} {d : ℝ} (hc : CleanInput s d)
include hc

theorem det_ne : s.lattice.det ≠ 0 := by
  intro h
  have := hc.volume
  have := hc.tol
  unfold Structure.volume at *
  rw [h] at *
  simp at *
  linarith

theorem size_ge : frob s.lattice ≤ cellSize s := by
  unfold frob cellSize
  linarith [abs_nonneg (eps tol1em5 (|s.volume|))]

theorem bound : (24 * d) ^ 2 ≤ 27 * (cellSize s ^ 3 / s.volume ^ 2 * d ^ 2) := by
  have hV : 0 < s.volume ^ 2 := by have := hc.det_ne; unfold Structure.volume; positivity
  have h1 : 27 ≤ cellSize s ^ 3 / s.volume ^ 2 := by
    rw [le_div_iff₀ hV]
    refine le_trans (frob_cube s.lattice) ?_
    exact pow_le_pow_left₀ (frob_nonneg _) hc.size_ge 3
  nlinarith [sq_nonneg d]

theorem sites_ne : sites s ≠ [] := by
  intro h
  have := sites_length hc.consistent
  rw [h] at this
  exact hc.primitive.1 (List.eq_nil_of_length_eq_zero this.symm)

theorem long : LongVectors s.lattice (24 * d) := longVectors_of_apart hc.sites_ne hc.det_ne hc.apart hc.bound

theorem svAbove : SvAbove s.lattice := by
  apply svAbove_of_size
  refine lt_of_le_of_lt (pow_le_pow_left₀ (frob_nonneg s.lattice) hc.size_ge 2) hc.flat

theorem cols : d < s.a ∧ d < s.b ∧ d < s.c := by
  have key : ∀ n : Vec3 ℝ, IntVec n → n ≠ 0 → d < (s.lattice * n).mag := by
    intro n hn h0
    have h1 := hc.long n hn h0
    rw [mag_eq]
    apply Real.lt_sqrt_of_sq_lt
    nlinarith [hc.tol, mul_pos hc.tol hc.tol]
  have e0 : s.lattice * (⟨1, 0, 0⟩ : Vec3 ℝ) = s.lattice.col0 := by ext <;> simp [Mat3.col0]
  have e1 : s.lattice * (⟨0, 1, 0⟩ : Vec3 ℝ) = s.lattice.col1 := by ext <;> simp [Mat3.col1]
  have e2 : s.lattice * (⟨0, 0, 1⟩ : Vec3 ℝ) = s.lattice.col2 := by ext <;> simp [Mat3.col2]
  refine ⟨?_, ?_, ?_⟩
  · have := key ⟨1, 0, 0⟩ ⟨1, 0, 0, by simp⟩ (by intro h; simpa using congrArg Vec3.x h)
    rwa [e0] at this
  · have := key ⟨0, 1, 0⟩ ⟨0, 1, 0, by simp⟩ (by intro h; simpa using congrArg Vec3.y h)
    rwa [e1] at this
  · have := key ⟨0, 0, 1⟩ ⟨0, 0, 1, by simp⟩ (by intro h; simpa using congrArg Vec3.z h)
    rwa [e2] at this

theorem areas (u v : Vec3 ℝ) (hu : IntVec u) (hv : IntVec v) (hne : (s.lattice * u).cross (s.lattice * v) ≠ 0) :
    d < ((s.lattice * u).cross (s.lattice * v)).mag := by
  rw [mag_eq]
  apply Real.lt_sqrt_of_sq_lt
  have h1 := area_bound hu hv hc.det_ne hne
  have h2 := hc.area
  have h3 := hc.size_ge
  have h4 := lenSq_nonneg ((s.lattice * u).cross (s.lattice * v))
  have h5 : s.volume = s.lattice.det := rfl
  rw [h5] at h2
  have h6 : 0 < cellSize s := by
    rcases lt_or_eq_of_le (le_trans (frob_nonneg s.lattice) h3) with h | h
    · exact h
    · exfalso
      have h7 : frob s.lattice = 0 := le_antisymm (by rw [h]; exact h3) (frob_nonneg _)
      rw [h7, zero_mul] at h1
      have := hc.det_ne
      have : 0 < s.lattice.det ^ 2 := by positivity
      linarith
  have h7 : d ^ 2 * cellSize s < cellSize s * lenSq ((s.lattice * u).cross (s.lattice * v)) := by
    nlinarith
  rw [mul_comm] at h7
  exact lt_of_mul_lt_mul_left h7 h6.le

end CleanInput

/-- the primitive cell of a clean input: the same crystal in a cell that is no longer. -/
theorem clean_primitive {r : Reducer ℝ} {ord : List (String × ℕ) → List (String × ℕ)} (ho : ∀ l, (ord l).Perm l)
    {s : Structure ℝ} (hc : CleanInput s r.dtol) :
    ∃ (prim : Structure ℝ) (n : Mat3 ℤ), r.findPrimitiveCell ord s = .ret prim ∧ (n.det = 1 ∨ n.det = -1) ∧
      prim.lattice = s.lattice * overK ℝ n ∧ prim.volume = |s.volume| ∧ frob prim.lattice ≤ frob s.lattice ∧
      Consistent prim ∧ SameAtoms s prim ∧ DistinctSites prim ∧ SvAbove prim.lattice ∧ PrimitiveCell prim ∧
      prim.numSites = s.numSites := by
  obtain ⟨prim, h1, -, a, b, c, -, -, -, hl, hdet, hvol⟩ := C28_primitive_right_handed_partial r ord ho s hc.small hc.consistent.1
    hc.svAbove hc.primitive hc.tol hc.cols hc.volume hc.areas
  obtain ⟨prim', a', b', c', h1', -, -, -, hl', hvp, -, -, hmin⟩ := C54_primitive_cell_vectors r ord ho s hc.small hc.consistent.1
    hc.svAbove hc.primitive hc.tol hc.cols hc.volume hc.areas
  rw [h1] at h1'
  cases h1'
  set n := Mat3.ofCols a b c with hn
  have hn1 : n.det = 1 ∨ n.det = -1 := Int.natAbs_eq_iff.1 hdet
  have hfrob : frob prim.lattice ≤ frob s.lattice := by
    have hp0 : prim.lattice.det ≠ 0 := by
      have : 0 < prim.volume := lt_trans hc.tol hvp
      exact this.ne'
    have hdc : ∀ u v w : Vec3 ℝ, (Mat3.ofCols u v w).det = (u.cross v).dot w := by
      intro u v w; simp [Mat3.ofCols, Mat3.det, Vec3.dot, Vec3.cross]; ring
    have hcr : (s.lattice * castVec a').cross (s.lattice * castVec b') ≠ 0 := by
      intro h
      apply hp0
      rw [hl', hdc, h]
      simp [Vec3.dot]
    have ha0 : s.lattice * castVec a' ≠ 0 := by
      intro h
      apply hcr
      rw [h]
      ext <;> simp [Vec3.cross]
    have hcol : ∀ e, e = s.lattice.col0 ∨ e = s.lattice.col1 ∨ e = s.lattice.col2 → ∃ k : Vec3 ℤ, SmallVec k ∧ k ≠ 0 ∧
        e = s.lattice * castVec k := by
      intro e he
      rcases he with rfl | rfl | rfl
      · exact ⟨⟨1, 0, 0⟩, by simp [SmallVec], by decide, by ext <;> simp [castVec, Vec3.map, Mat3.col0]⟩
      · exact ⟨⟨0, 1, 0⟩, by simp [SmallVec], by decide, by ext <;> simp [castVec, Vec3.map, Mat3.col1]⟩
      · exact ⟨⟨0, 0, 1⟩, by simp [SmallVec], by decide, by ext <;> simp [castVec, Vec3.map, Mat3.col2]⟩
    have hof : Mat3.ofCols s.lattice.col0 s.lattice.col1 s.lattice.col2 = s.lattice := by
      ext <;> simp [Mat3.ofCols, Mat3.col0, Mat3.col1, Mat3.col2]
    have := shortest_sum (A := lenSq (s.lattice * castVec a')) (B := lenSq (s.lattice * castVec b'))
      (C := lenSq (s.lattice * castVec c')) ha0 (by rw [hof]; exact hc.det_ne) hcr (by
        intro e he
        obtain ⟨k, k1, k2, rfl⟩ := hcol e he
        exact mag_le_mag_iff.1 (hmin k k1 k2).1) (by
        intro e he h
        obtain ⟨k, k1, k2, rfl⟩ := hcol e he
        exact mag_le_mag_iff.1 ((hmin k k1 k2).2.1 h)) (by
        intro e he h
        obtain ⟨k, k1, k2, rfl⟩ := hcol e he
        exact mag_le_mag_iff.1 ((hmin k k1 k2).2.2 h))
    unfold frob
    rw [hl']
    exact this
  have hcons : Consistent prim := by
    obtain ⟨_, _, _, _, _, _, _, _, _, _, _, -, -, -, -, -, e⟩ := findPrimitiveCell_ret h1
    rw [e]
    exact normalizeCoords_consistent _ _
  have hpd : prim.lattice.det ^ 2 = s.volume ^ 2 := by
    have : prim.lattice.det = |s.volume| := hvol
    rw [this, sq_abs]
  have hsv : SvAbove prim.lattice := by
    apply svAbove_of_size
    rw [hpd]
    refine lt_of_le_of_lt (pow_le_pow_left₀ (frob_nonneg prim.lattice) (le_trans hfrob hc.size_ge) 2) hc.flat
  have hsame : SameAtoms s prim := by
    refine primitive_sameAtoms hc.tol.le h1 hsv hn1 hl (fun w hw => ?_) hc.apart
    have hV0 : s.volume ≠ 0 := hc.det_ne
    have := distort (L := s.lattice) (M := prim.lattice) (F := cellSize s) (V := s.volume) (d := r.dtol) (c := 1) hc.size_ge
      (le_trans hfrob hc.size_ge) rfl hV0 (u := w) (w := w)
      (by rw [mul_comm]; exact (mag_le_iff (by linarith [hc.tol])).1 hw) (by rw [one_mul]) zero_le_one
    have h0 : 0 ≤ cellSize s ^ 3 / s.volume ^ 2 * r.dtol ^ 2 := by
      have := le_trans (frob_nonneg _) hc.size_ge
      positivity
    linarith
  have hds : DistinctSites prim := C52_no_duplicate_sites r ord s prim hc.tol hc.cols h1
  refine ⟨prim, n, h1, hn1, hl, hvol, hfrob, hcons, hsame, hds, hsv, ?_, ?_⟩
  · obtain ⟨prim2, g1, -, -, g4⟩ := C57_primitive_partial r ord ho s hc.small hc.consistent.1 hc.svAbove hc.primitive hc.tol hc.cols
      hc.volume hc.areas
    rw [h1] at g1
    cases g1
    intro t ht
    have hs : ∀ v : Vec3 ℝ, s.lattice * (s.lattice.adjDiv s.lattice.det * v) = v := fun v => by
      rw [← Mat3.mul_mulVec, Mat3.mul_adjDiv hc.det_ne, Mat3.one_mulVec]
    obtain ⟨k, hk, e⟩ := g4 (s.lattice.adjDiv s.lattice.det * t) (by
      intro p hp
      obtain ⟨q, hq, m, hm, e⟩ := (hsame _ _).2 (ht _ _ ((hsame _ _).1 (atomAt_site hp)))
      refine ⟨_, hq, rfl, 0, ?_, ?_⟩
      · have e2 : p.2 + s.lattice.adjDiv s.lattice.det * t = q + m := by
          apply mulVec_injective hc.det_ne
          rw [Mat3.mulVec_add, hs, e]
        show SamePoint 0 (p.2 + s.lattice.adjDiv s.lattice.det * t - q)
        rw [e2, samePoint_iff_intVec]
        have := intVec_neg hm
        convert this using 1
        show 0 - (q + m - q) = -m
        abel
      · rw [Mat3.mulVec_zero]
        simp [lenSq])
    exact ⟨k, hk, by rw [← e, hs]⟩
  · exact card_sameAtoms hc.consistent hcons hc.det_ne hn1 hl hsame hc.distinct hds

/-- the cell `prim` describes the crystal of `s`, is right-handed and primitive, and its edges are no longer than those of `s`. -/
structure FoundPrim (s prim : Structure ℝ) : Prop where
  change : ∃ n : Mat3 ℤ, (n.det = 1 ∨ n.det = -1) ∧ prim.lattice = s.lattice * overK ℝ n
  volume : prim.volume = |s.volume|
  size : frob prim.lattice ≤ frob s.lattice
  consistent : Consistent prim
  same : SameAtoms s prim
  distinct : DistinctSites prim
  sv : SvAbove prim.lattice
  primitive : PrimitiveCell prim
  num : prim.numSites = s.numSites

/-- whatever `find_primitive_cell` returns for `s` is a primitive cell of the crystal of `ref`. -/
def Finds (r : Reducer ℝ) (ord : List (String × ℕ) → List (String × ℕ)) (s ref : Structure ℝ) : Prop :=
  ∀ prim, r.findPrimitiveCell ord s = .ret prim → FoundPrim ref prim

theorem clean_finds {r : Reducer ℝ} {ord : List (String × ℕ) → List (String × ℕ)} (ho : ∀ l, (ord l).Perm l)
    {s : Structure ℝ} (hc : CleanInput s r.dtol) : Finds r ord s s := by
  intro prim h1
  obtain ⟨prim', n, h1', hn, hl, hvol, hfrob, hcons, hsame, hds, hsv, hprim, hnum⟩ := clean_primitive ho hc
  rw [h1] at h1'
  cases h1'
  exact ⟨⟨n, hn, hl⟩, hvol, hfrob, hcons, hsame, hds, hsv, hprim, hnum⟩

theorem primitiveCell_congr {a b : Structure ℝ} {n : Mat3 ℤ} (hn : n.det = 1 ∨ n.det = -1)
    (hl : b.lattice = a.lattice * overK ℝ n) (ha : SameAtoms a b) (hp : PrimitiveCell a) : PrimitiveCell b := by
  intro t ht
  obtain ⟨k, hk, e⟩ := hp t fun e x hx => (ha _ _).2 (ht _ _ ((ha _ _).1 hx))
  obtain ⟨j, hj, e'⟩ := (lattice_vectors hn hl).2 k hk
  exact ⟨j, hj, by rw [e, e']⟩

/-- a clean input is a primitive cell. -/
theorem clean_primitiveCell {s : Structure ℝ} {d : ℝ} (hc : CleanInput s d) : PrimitiveCell s := by
  obtain ⟨prim, n, -, hn, hl, -, -, -, hsame, -, -, hprim, -⟩ :=
    clean_primitive (r := (⟨d, 1⟩ : Reducer ℝ)) (ord := id) (fun l => List.Perm.refl l) hc
  obtain ⟨m, hm, -, hm1⟩ := unimodular_inverse hn
  refine primitiveCell_congr (n := m) (by rw [hm1]; exact hn) ?_ (sameAtoms_symm hsame) hprim
  rw [hl, mul_assoc, ← overK_mul, hm, overK_one, mul_one]

theorem sameLattice_trans {A B C : Mat3 ℝ} (h : SameLattice A B) (h' : SameLattice B C) : SameLattice A C :=
  fun v => (h v).trans (h' v)

theorem charVecs_le {eps : Option ℝ} {a b c d e f : ℝ} {p : Vec3 ℝ × ℕ} (h : p ∈ charVecs eps a b c d e f) : p.2 ≤ 44 := by
  unfold charVecs getFirstSet getSecondSet getThirdSet getFourthSet at h
  split_ifs at h <;> simp only [List.mem_append, List.mem_cons, List.not_mem_nil, or_false, false_or] at h <;>
    aesop

theorem character_range {s : Structure ℝ} {ch : ℕ} (h : getLatticeCharacter s tol1em5 = .ret ch) : 1 ≤ ch ∧ ch ≤ 44 := by
  unfold getLatticeCharacter at h
  obtain ⟨p, hp, -, hcase⟩ := characterOf_ret h
  have h1 := charVecs_pos hp
  have h2 := charVecs_le hp
  omega

/-- the reduced cell of a clean crystal. -/
theorem clean_niggli {r : Reducer ℝ} {s prim nig : Structure ℝ} (hc : CleanInput s r.dtol) (hf : FoundPrim s prim)
    (h2 : r.niggliReduce prim tol1em5 = .ret nig) :
    Consistent nig ∧ SameAtoms s nig ∧ DistinctSites nig ∧ PrimitiveCell nig ∧ nig.numSites = s.numSites ∧
      frob nig.lattice ≤ cellSize s ∧ nig.lattice.det ^ 2 = s.volume ^ 2 ∧ SameLattice s.lattice nig.lattice := by
  obtain ⟨⟨n, hn, hl⟩, hvol, hfrob, hcons, hsame, hds, hsv, hprim, hnum⟩ := hf
  have hpv : prim.volume ^ 2 = s.volume ^ 2 := by rw [hvol, sq_abs]
  obtain ⟨hsz, hdet⟩ := niggli_size r prim nig tol1em5 h2
  rw [hvol] at hsz
  have hsz' : frob nig.lattice ≤ cellSize s := by
    unfold frob at hfrob ⊢
    unfold cellSize
    linarith
  have hsvn : SvAbove nig.lattice := by
    refine niggli_svAbove r prim nig tol1em5 h2 ?_
    rw [hvol, sq_abs]
    refine lt_of_le_of_lt (pow_le_pow_left₀ ?_ ?_ 2) hc.flat
    · have := frob_nonneg prim.lattice
      unfold frob at this
      positivity
    · unfold frob at hfrob
      unfold cellSize
      linarith
  obtain ⟨hsc, -, hcn, -⟩ := C24_niggli_keeps_crystal r prim nig tol1em5 hcons h2 hsvn
  obtain ⟨sa2, ds2⟩ := sameAtoms_of_sameCrystal hsc
  obtain ⟨U, ⟨m, hm, rfl⟩, hl2, -⟩ := hsc
  have hl2' : nig.lattice = prim.lattice * overK ℝ m := hl2
  have hpd : prim.lattice.det ≠ 0 := by
    intro h0
    have : prim.volume = 0 := h0
    rw [this] at hvol
    exact hc.det_ne (abs_eq_zero.1 hvol.symm)
  refine ⟨hcn, sameAtoms_trans hsame sa2, ds2 hds, primitiveCell_congr hm hl2' sa2 hprim, ?_, hsz', hdet.trans hpv, ?_⟩
  · rw [card_sameAtoms hcons hcn hpd hm hl2' sa2 hds (ds2 hds), hnum]
  · rw [hl2', hl]
    exact sameLattice_trans (sameLattice_mul hn) (sameLattice_mul hm)

theorem standardPrimitive_mono {sa : SymmetryAnalyzer ℝ} {h : HashOrders ℝ} {fuel : ℕ} {s p : Structure ℝ}
    (hp : sa.getStandardPrimitiveStructure h fuel s = .ret p) (n : ℕ) :
    sa.getStandardPrimitiveStructure h (fuel + n) s = .ret p := by
  unfold getStandardPrimitiveStructure at hp ⊢
  simp only [Outcome.bind_eq_ret] at hp
  obtain ⟨prim, h1, nig, h2, ⟨T, ch⟩, h3, conv, h4, ⟨P, b⟩, h5, h6⟩ := hp
  rw [h1, Outcome.ret_bind, h2, Outcome.ret_bind, h3, Outcome.ret_bind]
  simp only
  rw [applyTransformation_mono h4 n, Outcome.ret_bind, h5, Outcome.ret_bind]
  exact applyTransformation_mono h6 n

/-- what C71 says, with the lattice of the standard primitive cell. -/
theorem clean_standard (sa : SymmetryAnalyzer ℝ) (h : HashOrders ℝ) (hv : h.Valid) {s ref prim nig : Structure ℝ} {ch : ℕ}
    (hc : CleanInput ref sa.dtol) (hf : Finds sa.reducer h.minEle s ref) (h1 : sa.reducer.findPrimitiveCell h.minEle s = .ret prim)
    (h2 : sa.reducer.niggliReduce prim tol1em5 = .ret nig) (h3 : getLatticeCharacter nig tol1em5 = .ret ch) :
    ∃ (N k : ℕ) (conv p : Structure ℝ), (∀ fuel ≥ N, sa.getStandardConventionalStructure h fuel s = .ret conv ∧
        sa.getStandardPrimitiveStructure h fuel s = .ret p) ∧
      Consistent conv ∧ SameAtoms ref conv ∧ DistinctSites conv ∧ 1 ≤ k ∧ k ≤ 4 ∧ conv.numSites = k * ref.numSites ∧
      |conv.volume| = k * |ref.volume| ∧
      Consistent p ∧ SameAtoms ref p ∧ DistinctSites p ∧ PrimitiveCell p ∧ p.numSites = ref.numSites ∧
      SameLattice ref.lattice p.lattice ∧ p.species.Pairwise (· ≤ ·) ∧ p.lattice.det ≠ 0 ∧
      ∀ v : Vec3 ℝ, lenSq (p.lattice * v) ≤ 9 * cellSize ref * lenSq v := by
  have hcr : CleanInput ref sa.reducer.dtol := hc
  obtain ⟨cn, san, dsn, pn, nn, fn, dn, ln⟩ := clean_niggli hcr (hf prim h1) h2
  have hdet : nig.lattice.det ≠ 0 := by
    intro h0
    rw [h0] at dn
    have := hc.det_ne
    have h5 : ref.volume ≠ 0 := this
    have : 0 < ref.volume ^ 2 := by positivity
    norm_num at dn
    linarith
  have hV0 : ref.volume ≠ 0 := hc.det_ne
  obtain ⟨r1, r2⟩ := character_range h3
  obtain ⟨m, P, b, c, n, hm, hP, hcen, -, hprod, hn, -⟩ := C32_tables_consistent (K := ℝ) ch r1 r2
  obtain ⟨q1, q2⟩ := char_distort r1 r2 hm hP
  have hF0 : 0 ≤ cellSize ref := le_trans (frob_nonneg _) fn
  set D := 27 * (cellSize ref ^ 3 / ref.volume ^ 2 * sa.dtol ^ 2) with hD
  have h0 : 0 ≤ cellSize ref ^ 3 / ref.volume ^ 2 * sa.dtol ^ 2 := by positivity
  have hTe : (castRot m : Mat3 ℝ).transpose = realMat (intRot m).transpose := by rw [castRot_overK]; rfl
  have hne : nig.numSites ≠ 0 := by
    rw [nn]
    intro h0
    exact hc.primitive.1 (List.eq_nil_of_length_eq_zero h0)
  have apn := atomsApart_congr san hc.apart
  have hnes : sites nig ≠ [] := by
    intro h
    have := sites_length cn
    rw [h] at this
    exact hne this.symm
  obtain ⟨N, conv, p, hret, c1, d1, s1, l1, n1, c2, d2, s2, so2, n2, n', hn', l2⟩ := standard_sameAtoms (D := D) cn dsn hne hc.tol
    (longVectors_of_apart hnes hdet apn hc.bound) hdet hm hP (by
      intro v hvm
      have := distort (d := sa.dtol) fn fn dn hV0 ((mag_le_iff (by linarith [hc.tol])).1 hvm) (q1 v) (by norm_num)
      linarith) (by
      intro n v hn hvm
      have := distort (d := sa.dtol) fn fn dn hV0 ((mag_le_iff (by linarith [hc.tol])).1 hvm) (q2 n v hn).1 (by norm_num)
      linarith) apn
  have hk : ∃ k : ℕ, 1 ≤ k ∧ k ≤ 4 ∧ (intRot m).transpose.det.natAbs = k := by
    obtain ⟨m', P', b', c', n', e1, e2, e3, -, e5, e6, e7⟩ := C32_tables_consistent (K := ℝ) ch r1 r2
    rw [hm] at e1
    cases e1
    have := e7 1
    have hn1 : |(n'.det : ℝ)| = 1 := by rcases e6 with h | h <;> rw [h] <;> norm_num
    rw [one_mul, e5, overK_det, hTe, realMat_det, hn1, mul_one] at this
    have h2 : (((intRot m).transpose.det.natAbs : ℤ) : ℝ) = (((centringVectors c').2.length : ℤ) : ℝ) := by
      rw [Int.natCast_natAbs]; push_cast; exact this
    refine ⟨_, ?_, ?_, by exact_mod_cast h2⟩ <;> cases c' <;> decide
  obtain ⟨k, k1, k4, hk⟩ := hk
  have hnn : n' = n := by
    have e1 := l2
    have hstd := (hret N le_rfl).2
    rw [applyTransformation_lattice hstd, l1, mul_assoc, ← hTe, hprod] at e1
    exact (overK_injective (mat_mul_injective hdet e1)).symm
  refine ⟨N, k, conv, p, fun fuel hf => ?_, c1, sameAtoms_trans san s1, d1, k1, k4, by rw [n1, hk, nn], ?_, c2, sameAtoms_trans san s2, d2,
    primitiveCell_congr hn' l2 s2 pn, by rw [n2, nn], ?_, so2, ?_, ?_⟩
  · obtain ⟨e1, e2⟩ := hret fuel hf
    have hconv : conventionalTransformationMatrix nig = .ret ((castRot m).transpose, ch) := by
      unfold conventionalTransformationMatrix
      rw [h3]
      simp only [Outcome.ret_bind, hm, Outcome.ofOption]
    unfold getStandardConventionalStructure getStandardPrimitiveStructure
    rw [h1, Outcome.ret_bind, Outcome.ret_bind, h2, Outcome.ret_bind, Outcome.ret_bind, hconv, Outcome.ret_bind, Outcome.ret_bind]
    simp only
    rw [e1, Outcome.ret_bind, hP, Outcome.ret_bind]
    exact ⟨rfl, e2⟩
  · unfold Structure.volume
    rw [l1, Mat3.det_mul, realMat_det, abs_mul]
    have h4 : |((intRot m).transpose.det : ℝ)| = k := by
      rw [← Int.cast_abs, ← Int.natCast_natAbs, hk]; simp
    have h5 : |nig.lattice.det| = |ref.lattice.det| := by
      rw [← Real.sqrt_sq_eq_abs, ← Real.sqrt_sq_eq_abs, dn]; rfl
    rw [h4, h5, mul_comm]
  · rw [l2]
    exact sameLattice_trans ln (sameLattice_mul hn')
  · rw [l2, Mat3.det_mul, overK_det]
    refine mul_ne_zero hdet ?_
    rcases hn' with h | h <;> rw [h] <;> norm_num
  · intro v
    rw [l2, Mat3.mul_mulVec, hnn]
    have i1 := lenSq_mulVec_le nig.lattice (overK ℝ n * v)
    have i2 := (q2 n v (by rw [← hTe]; exact hprod)).2
    calc lenSq (nig.lattice * (overK ℝ n * v)) ≤ frob nig.lattice * lenSq (overK ℝ n * v) := i1
      _ ≤ cellSize ref * (9 * lenSq v) := mul_le_mul fn i2 (lenSq_nonneg _) hF0
      _ = 9 * cellSize ref * lenSq v := by ring

/-- **C71.** For a clean input the primitive cell is always found, and it and the reduced cell have exactly the atoms of the
input: the same species at the same points of space, no site twice.  If the Niggli reduction ends and a lattice character is
found, both standard structures are returned and have exactly these atoms as well; the standard primitive cell is primitive with
as many sites as the input, the conventional cell has `k ≤ 4` times the volume and the number of sites. -/
theorem C71_standard_cells (sa : SymmetryAnalyzer ℝ) (h : HashOrders ℝ) (hv : h.Valid) (s : Structure ℝ)
    (hc : CleanInput s sa.dtol) :
    ∃ prim : Structure ℝ, sa.reducer.findPrimitiveCell h.minEle s = .ret prim ∧ SameAtoms s prim ∧ DistinctSites prim ∧
      prim.numSites = s.numSites ∧ SameLattice s.lattice prim.lattice ∧
      ∀ nig, sa.reducer.niggliReduce prim tol1em5 = .ret nig →
        SameAtoms s nig ∧ DistinctSites nig ∧ nig.numSites = s.numSites ∧ SameLattice s.lattice nig.lattice ∧
        ∀ ch, getLatticeCharacter nig tol1em5 = .ret ch → ∃ (N k : ℕ) (conv p : Structure ℝ),
          (∀ fuel ≥ N, sa.getStandardConventionalStructure h fuel s = .ret conv ∧
            sa.getStandardPrimitiveStructure h fuel s = .ret p) ∧
          SameAtoms s conv ∧ DistinctSites conv ∧ 1 ≤ k ∧ k ≤ 4 ∧ conv.numSites = k * s.numSites ∧
          |conv.volume| = k * |s.volume| ∧
          SameAtoms s p ∧ DistinctSites p ∧ PrimitiveCell p ∧ p.numSites = s.numSites ∧ SameLattice s.lattice p.lattice := by
  obtain ⟨prim, n, h1, hn, hl, -, -, -, hsame, hds, -, -, hnum⟩ := clean_primitive (r := sa.reducer) (ord := h.minEle) hv.minEle hc
  refine ⟨prim, h1, hsame, hds, hnum, by rw [hl]; exact sameLattice_mul hn, fun nig h2 => ?_⟩
  obtain ⟨-, san, dsn, -, nn, -, -, ln⟩ := clean_niggli (r := sa.reducer) hc (clean_finds (r := sa.reducer) hv.minEle hc prim h1) h2
  refine ⟨san, dsn, nn, ln, fun ch h3 => ?_⟩
  obtain ⟨N, k, conv, p, e1, -, e3, e4, e5, e6, e7, e8, -, f1, f2, f3, f4, f5, -⟩ := clean_standard sa h hv hc (clean_finds (r := sa.reducer) hv.minEle hc) h1 h2 h3
  exact ⟨N, k, conv, p, e1, e3, e4, e5, e6, e7, e8, f1, f2, f3, f4, f5⟩

/-- the standard primitive structure of a clean input has separated sites and edges of the right size. -/
theorem clean_searchable {s p : Structure ℝ} {d : ℝ} (hc : CleanInput s d) (hsize : 81 * cellSize s ≤ (d * 1000000000) ^ 2)
    (pc : Consistent p) (psame : SameAtoms s p) (pds : DistinctSites p) (pnum : p.numSites = s.numSites)
    (psort : p.species.Pairwise (· ≤ ·)) (pdet : p.lattice.det ≠ 0)
    (plen : ∀ v : Vec3 ℝ, lenSq (p.lattice * v) ≤ 9 * cellSize s * lenSq v) : Searchable p d := by
  have apn := atomsApart_congr psame hc.apart
  have hnes : sites p ≠ [] := by
    intro h
    have := sites_length pc
    rw [h] at this
    have h0 : p.numSites = 0 := this.symm
    rw [pnum] at h0
    exact hc.primitive.1 (List.eq_nil_of_length_eq_zero h0)
  have hL := longVectors_of_apart hnes pdet apn hc.bound
  refine ⟨pc.1, by have := hc.small; rw [← pnum] at this; exact this, psort, ⟨hc.tol, ?_⟩, ?_⟩
  · intro v hv
    have : ∃ w : Vec3 ℝ, lenSq w = 1 ∧ IntVec w ∧ w ≠ 0 ∧ v = p.lattice * w := by
      rcases hv with rfl | rfl | rfl
      · exact ⟨⟨1, 0, 0⟩, by simp [lenSq], ⟨1, 0, 0, by simp⟩, (by intro h; simpa using congrArg Vec3.x h), by ext <;> simp [Mat3.col0]⟩
      · exact ⟨⟨0, 1, 0⟩, by simp [lenSq], ⟨0, 1, 0, by simp⟩, (by intro h; simpa using congrArg Vec3.y h), by ext <;> simp [Mat3.col1]⟩
      · exact ⟨⟨0, 0, 1⟩, by simp [lenSq], ⟨0, 0, 1, by simp⟩, (by intro h; simpa using congrArg Vec3.z h), by ext <;> simp [Mat3.col2]⟩
    obtain ⟨w, w1, w2, w3, rfl⟩ := this
    have i1 := hL w w2 w3
    have i2 := plen w
    rw [w1, mul_one] at i2
    constructor
    · nlinarith [sq_nonneg d]
    · linarith
  · intro a b e x y ha hb hab w hw
    have ax : AtomAt p e (p.lattice * x) := atomAt_site (List.mem_of_getElem? ha)
    have ay : AtomAt p e (p.lattice * y + p.lattice * w) := atomAt_add (atomAt_site (List.mem_of_getElem? hb)) hw
    have e1 : p.lattice * x - (p.lattice * y + p.lattice * w) = p.lattice * (x - y - w) := by
      rw [← Mat3.mulVec_add, ← Mat3.mulVec_sub]
      congr 1
      abel
    rcases apn _ _ _ _ ax ay with ⟨-, e2⟩ | hlt
    · exfalso
      apply hab
      refine distinct_index pds ha hb ?_
      rw [samePoint_iff_intVec]
      rw [← Mat3.mulVec_add] at e2
      have := mulVec_injective pdet e2
      show IntVec (x - y)
      rw [this, add_sub_cancel_left]
      exact hw
    · rw [e1] at hlt
      have := hc.bound
      nlinarith [sq_nonneg d]

/-- **C71 (symmetries of the input).** For a clean input whose reduced cell satisfies the Niggli conditions exactly and is resolved
by the tolerance: whenever `get_space_group_info` returns, every motion of space that maps the *input* crystal onto itself is in the
table of the reported group, with a translation that agrees up to a lattice vector and the tolerance. -/
theorem C71_input_symmetries_in_group (sa : SymmetryAnalyzer ℝ) (h : HashOrders ℝ) (hv : h.Valid) (fuel : ℕ)
    (s : Structure ℝ) (hc : CleanInput s sa.dtol) (hsize : 81 * cellSize s ≤ (sa.dtol * 1000000000) ^ 2)
    (num : ℕ) (sym : String) (ops : List (SymmOp ℝ)) (hr : sa.getSpaceGroupInfo h fuel s = .ret (num, sym, ops)) :
    ∃ (prim nig p : Structure ℝ) (sys : LatticeSystem) (n : ℕ) (codes : List ℕ) (table : List (SymmOp ℝ)),
      sa.reducer.findPrimitiveCell h.minEle s = .ret prim ∧ sa.reducer.niggliReduce prim tol1em5 = .ret nig ∧
      sa.getStandardPrimitiveStructure h fuel s = .ret p ∧ SameAtoms s p ∧ SameLattice s.lattice p.lattice ∧
      amapGet? sgNumToSymbol num = some sym ∧ IsTableEntry sys n num codes ∧ TableOps num codes table ∧
      (0 < nig.volume → NiggliCell 0 nig.lattice → ToleranceResolves nig tol1em5 →
        ∀ (Q : Mat3 ℝ) (u : Vec3 ℝ), CrystalSymmetry s Q (p.lattice * u) → ∃ o ∈ table,
          Q * p.lattice = p.lattice * castRot o.rotation ∧
          NearInt (u.x - o.translation.x) (sa.dtol / p.lattice.col0.mag + 1 / 1000000000) ∧
          NearInt (u.y - o.translation.y) (sa.dtol / p.lattice.col1.mag + 1 / 1000000000) ∧
          NearInt (u.z - o.translation.z) (sa.dtol / p.lattice.col2.mag + 1 / 1000000000)) := by
  obtain ⟨prim, nig, p, sys, n, codes, table, k1, k2, k3, k4, k5, k6, key⟩ :=
    C70_reported_group_contains_symmetries sa h hv fuel s num sym ops hr
  obtain ⟨prim', nig', conv, ch, m, P, b, g1, g2, -, -, -, -, -, g8⟩ := standardPrimitive_ret k3
  rw [k1] at g1
  cases g1
  rw [k2] at g2
  cases g2
  obtain ⟨N, k, conv', p', hret, -, -, -, -, -, -, -, pc, psame, pds, pprim, pnum, plat, psort, pdet, plen⟩ :=
    clean_standard sa h hv hc (clean_finds (r := sa.reducer) hv.minEle hc) k1 k2 g8
  have hpp : p' = p := by
    have h1 := (hret (N + fuel) (by omega)).2
    have h2 := standardPrimitive_mono k3 N
    rw [Nat.add_comm, h1] at h2
    exact Outcome.ret.inj h2
  subst hpp
  refine ⟨prim, nig, p', sys, n, codes, table, k1, k2, k3, psame, plat, k4, k5, k6, fun hV hn hres Q u hsym => ?_⟩
  have hsearch := clean_searchable hc hsize pc psame pds pnum psort pdet plen
  refine key hV hn hres hsearch pprim Q u ⟨hsym.1, fun e x => ?_⟩
  rw [← psame, ← psame]
  exact hsym.2 e x

/-- **C71 (right angles).** For every clean input whose cell has right angles and edges in increasing order nothing is left to
assume: both standard structures are returned and have exactly the atoms of the input; the conventional cell is the primitive one. -/
theorem C71_right_angles (sa : SymmetryAnalyzer ℝ) (h : HashOrders ℝ) (hv : h.Valid) (s : Structure ℝ)
    (hc : CleanInput s sa.dtol) (x y z : ℝ) (hl : s.lattice = ⟨x, 0, 0, 0, y, 0, 0, 0, z⟩) (hx : 0 < x) (hxy : x ≤ y) (hyz : y ≤ z) :
    ∃ (N k : ℕ) (conv p : Structure ℝ), (∀ fuel ≥ N, sa.getStandardConventionalStructure h fuel s = .ret conv ∧
        sa.getStandardPrimitiveStructure h fuel s = .ret p) ∧
      SameAtoms s conv ∧ DistinctSites conv ∧ 1 ≤ k ∧ k ≤ 4 ∧ conv.numSites = k * s.numSites ∧ |conv.volume| = k * |s.volume| ∧
      SameAtoms s p ∧ DistinctSites p ∧ PrimitiveCell p ∧ p.numSites = s.numSites ∧ SameLattice s.lattice p.lattice := by
  have hd := hc.tol
  have hy : 0 < y := by linarith
  have hz : 0 < z := by linarith
  have hx24 : 24 * sa.dtol ≤ x := by
    have := hc.long (⟨1, 0, 0⟩ : Vec3 ℝ) ⟨1, 0, 0, by simp⟩ (by intro h; simpa using congrArg Vec3.x h)
    rw [hl] at this
    simp [lenSq] at this
    nlinarith
  have hvol' : s.volume = x * y * z := by
    unfold Structure.volume; rw [hl]; simp [Mat3.det]; ring
  have hV : 0 < x * y * z := by positivity
  have hvol : sa.dtol < x * y * z := by
    have := hc.volume
    rwa [hvol', abs_of_pos hV] at this
  have harea : sa.dtol < x * y := by
    have := hc.areas (⟨1, 0, 0⟩ : Vec3 ℝ) (⟨0, 1, 0⟩ : Vec3 ℝ) ⟨1, 0, 0, by simp⟩ ⟨0, 1, 0, by simp⟩ (by
      rw [hl]
      intro h
      have := congrArg Vec3.z h
      simp [Vec3.cross] at this
      rcases this with h | h <;> linarith)
    rw [hl] at this
    have e : ((⟨x, 0, 0, 0, y, 0, 0, 0, z⟩ : Mat3 ℝ) * (⟨1, 0, 0⟩ : Vec3 ℝ)).cross
        ((⟨x, 0, 0, 0, y, 0, 0, 0, z⟩ : Mat3 ℝ) * (⟨0, 1, 0⟩ : Vec3 ℝ)) = ⟨0, 0, x * y⟩ := by
      ext <;> simp [Vec3.cross]
    rwa [e, mag_axis_z (by positivity)] at this
  have hcut : 1 / 1000000 < x := by
    have := hc.svAbove (⟨1, 0, 0⟩ : Vec3 ℝ) (by intro h; simpa using congrArg Vec3.x h)
    rw [hl] at this
    simp [lenSq] at this
    nlinarith
  obtain ⟨prim, nig, S, -, -, -, -, h1, -, -, -, l0, l1, l2, d01, d02, d12, h2, hnl, hvn⟩ :=
    right_angles_cells_of sa h hv s hc.small hc.consistent.1 hc.primitive x y z hl hxy hyz hd hx24 harea hvol hcut
  have hε : 0 < eps tol1em5 nig.volume := by
    unfold eps
    rw [tol1em5_real, hvn]
    have := Real.rpow_pos_of_pos hV ((1 : ℝ) / 3)
    positivity
  have h3 := getLatticeCharacter_eq (s := nig) (tol := tol1em5) (by rw [hvn]; exact hV.le)
  rw [hnl, l0, l1, l2, d01, d02, d12, characterOf_orthogonal hε] at h3
  obtain ⟨N, k, conv, p, e1, -, e3, e4, e5, e6, e7, e8, -, f1, f2, f3, f4, f5, -⟩ := clean_standard sa h hv hc (clean_finds (r := sa.reducer) hv.minEle hc) h1 h2 h3
  exact ⟨N, k, conv, p, e1, e3, e4, e5, e6, e7, e8, f1, f2, f3, f4, f5⟩

/-- two atoms of the only element, a quarter of the first edge apart: primitive, though no element occurs once. -/
noncomputable def pairCell : Structure ℝ := Structure.new 1 ["A", "A"] [0, ⟨1 / 4, 0, 0⟩] false

theorem pairCell_sites : sites pairCell = [("A", 0), ("A", ⟨1 / 4, 0, 0⟩)] := rfl

theorem quarter_far {i : ℤ} {c : ℝ} (hc : c = 1 / 4 ∨ c = -(1 / 4) ∨ c = 1 / 2 ∨ c = -(1 / 2)) : 1 / 16 ≤ (c + i) ^ 2 := by
  have h : (0 : ℤ) ≤ (i) ∨ i ≤ -1 := by omega
  rcases h with h | h
  · rcases hc with rfl | rfl | rfl | rfl
    · have : (0 : ℝ) ≤ i := by exact_mod_cast h
      nlinarith
    · rcases h.eq_or_lt with h | h
      · rw [← h]; norm_num
      · have : (1 : ℝ) ≤ i := by exact_mod_cast h
        nlinarith
    · have : (0 : ℝ) ≤ i := by exact_mod_cast h
      nlinarith
    · rcases h.eq_or_lt with h | h
      · rw [← h]; norm_num
      · have : (1 : ℝ) ≤ i := by exact_mod_cast h
        nlinarith
  · have : (i : ℝ) ≤ -1 := by exact_mod_cast h
    rcases hc with rfl | rfl | rfl | rfl <;> nlinarith

/-- the hypotheses of C71 hold for this crystal. -/
theorem pairCell_clean : CleanInput pairCell (1 / 1000) := by
  have hl : pairCell.lattice = 1 := rfl
  have hvol : pairCell.volume = 1 := by unfold Structure.volume; rw [hl]; simp [Mat3.det]
  have hsz : cellSize pairCell = 3 + 1 / 1000 := by
    unfold cellSize eps
    rw [hvol, abs_one, Real.one_rpow, tol1em5_real, hl]
    norm_num [lenSq, Mat3.col0, Mat3.col1, Mat3.col2]
  refine ⟨⟨rfl, ?_⟩, by decide, ?_, ⟨by decide, ?_⟩, by norm_num, by rw [hvol]; norm_num, by rw [hvol, hsz]; norm_num,
    by rw [hvol, hsz]; norm_num, ?_⟩
  · rfl
  · unfold DistinctSites
    rw [pairCell_sites]
    simp only [List.pairwise_cons, List.mem_singleton, forall_eq, List.not_mem_nil, false_imp_iff, implies_true, List.Pairwise.nil,
      and_true]
    rintro ⟨⟨i, hi⟩, -⟩
    have := quarter_far (i := i) (c := 1 / 4) (Or.inl rfl)
    simp at hi
    rw [show (1 / 4 + (i : ℝ)) = 0 by linarith] at this
    norm_num at this
  · rw [pairCell_sites]
    simp only [List.pairwise_cons, List.mem_singleton, forall_eq, List.not_mem_nil, false_imp_iff, implies_true, List.Pairwise.nil,
      and_true]
    have far : ∀ d q : Vec3 ℝ, ∀ c : ℝ, (c = 1 / 4 ∨ c = -(1 / 4) ∨ c = 1 / 2 ∨ c = -(1 / 2)) → q.x = c →
        SamePoint d q → ¬ lenSq (pairCell.lattice * d) ≤ 1 / 1000 * 2 * (1 / 1000 * 2) := by
      rintro d q c hc hq ⟨⟨i, hi⟩, -⟩ hle
      have := quarter_far (i := i) hc
      rw [hl, Mat3.one_mulVec] at hle
      unfold lenSq at hle
      rw [hq] at hi
      have e : d.x = c + i := by linarith
      rw [← e] at this
      nlinarith [sq_nonneg d.y, sq_nonneg d.z]
    intro _ _
    constructor
    · intro ht
      obtain ⟨q, hq, -, d, hd, hle⟩ := ht ("A", ⟨1 / 4, 0, 0⟩) (by rw [pairCell_sites]; simp)
      rw [pairCell_sites] at hq
      simp only [List.mem_cons, List.not_mem_nil, or_false] at hq
      rcases hq with rfl | rfl
      · exact far _ _ (1 / 2) (by tauto) (by norm_num) hd hle
      · exact far _ _ (1 / 4) (by tauto) (by norm_num) hd hle
    · intro ht
      obtain ⟨q, hq, -, d, hd, hle⟩ := ht ("A", 0) (by rw [pairCell_sites]; simp)
      rw [pairCell_sites] at hq
      simp only [List.mem_cons, List.not_mem_nil, or_false] at hq
      rcases hq with rfl | rfl
      · exact far _ _ (-(1 / 4)) (by tauto) (by norm_num) hd hle
      · exact far _ _ (-(1 / 2)) (by tauto) (by norm_num) hd hle
  · rw [hsz, hvol]
    rintro e e' u v ⟨p, hp, n, ⟨i, j, k, rfl⟩, rfl⟩ ⟨q, hq, m, ⟨i', j', k', rfl⟩, rfl⟩
    rw [pairCell_sites] at hp hq
    simp only [List.mem_cons, List.not_mem_nil, or_false, Prod.mk.injEq] at hp hq
    rw [hl, Mat3.one_mulVec, Mat3.one_mulVec]
    have same : ∀ p : Vec3 ℝ, (p + (⟨i, j, k⟩ : Vec3 ℝ) = p + (⟨i', j', k'⟩ : Vec3 ℝ)) ∨
        27 * ((3 + 1 / 1000) ^ 3 / 1 ^ 2 * (1 / 1000) ^ 2) < lenSq (p + (⟨i, j, k⟩ : Vec3 ℝ) - (p + (⟨i', j', k'⟩ : Vec3 ℝ))) := by
      intro p
      by_cases h0 : i = i' ∧ j = j' ∧ k = k'
      · left; rw [h0.1, h0.2.1, h0.2.2]
      · right
        have h1 : 1 ≤ (i - i') ^ 2 + (j - j') ^ 2 + (k - k') ^ 2 := by
          by_contra hlt
          have a1 := sq_nonneg (i - i')
          have a2 := sq_nonneg (j - j')
          have a3 := sq_nonneg (k - k')
          have b1 : (i - i') ^ 2 = 0 := by omega
          have b2 : (j - j') ^ 2 = 0 := by omega
          have b3 : (k - k') ^ 2 = 0 := by omega
          rw [sq_eq_zero_iff] at b1 b2 b3
          omega
        have h2 : (1 : ℝ) ≤ ((i : ℝ) - i') ^ 2 + ((j : ℝ) - j') ^ 2 + ((k : ℝ) - k') ^ 2 := by exact_mod_cast h1
        have e : lenSq (p + (⟨i, j, k⟩ : Vec3 ℝ) - (p + (⟨i', j', k'⟩ : Vec3 ℝ)))
            = ((i : ℝ) - i') ^ 2 + ((j : ℝ) - j') ^ 2 + ((k : ℝ) - k') ^ 2 := by
          simp [lenSq]; ring
        rw [e]
        norm_num
        linarith
    have other : ∀ w : Vec3 ℝ, ∀ c : ℝ, (c = 1 / 4 ∨ c = -(1 / 4)) → w.x = c + (i - i') →
        27 * ((3 + 1 / 1000) ^ 3 / 1 ^ 2 * (1 / 1000) ^ 2) < lenSq w := by
      intro w c hc hw
      have := quarter_far (i := i - i') (c := c) (by tauto)
      push_cast at this
      rw [← hw] at this
      unfold lenSq
      norm_num
      nlinarith [sq_nonneg w.y, sq_nonneg w.z]
    rcases hp with ⟨rfl, rfl⟩ | ⟨rfl, rfl⟩ <;> rcases hq with ⟨rfl, rfl⟩ | ⟨rfl, rfl⟩
    · exact (same _).imp (fun h => ⟨rfl, h⟩) id
    · exact Or.inr (other _ (-(1 / 4)) (by tauto) (by simp; ring))
    · exact Or.inr (other _ (1 / 4) (by tauto) (by simp; ring))
    · exact (same _).imp (fun h => ⟨rfl, h⟩) id

/-- both standard structures of this crystal are returned; the primitive one has two sites and the same atoms. -/
example (h : HashOrders ℝ) (hv : h.Valid) (atol : ℝ) : ∃ (N : ℕ) (conv p : Structure ℝ),
    (∀ fuel ≥ N, (⟨1 / 1000, atol⟩ : SymmetryAnalyzer ℝ).getStandardConventionalStructure h fuel pairCell = .ret conv ∧
      (⟨1 / 1000, atol⟩ : SymmetryAnalyzer ℝ).getStandardPrimitiveStructure h fuel pairCell = .ret p) ∧
    SameAtoms pairCell conv ∧ SameAtoms pairCell p ∧ p.numSites = 2 ∧ PrimitiveCell p := by
  obtain ⟨N, k, conv, p, e1, e2, -, -, -, -, -, e3, -, e4, e5, -⟩ := C71_right_angles ⟨1 / 1000, atol⟩ h hv pairCell pairCell_clean
    1 1 1 rfl one_pos le_rfl le_rfl
  exact ⟨N, conv, p, e1, e2, e3, e5, e4⟩

end CrystSymm
