import Verif.Proofs.GridCrystal

/-! # The answer for crystals on a grid -/

set_option autoImplicit false
set_option linter.unusedSectionVars false

namespace CrystSymm

open Spec Reducer SymmetryAnalyzer PointGroup NiggliCert

variable {b : BravaisType} {e : ℕ × List ℕ} {M R S : Mat3 ℤ} {A B : List ℕ} {w₀ : Vec3 ℤ} {c : ℝ}

theorem cubicLattice_mul (u : ℝ) (M R : Mat3 ℤ) : cubicLattice u (M * R) = cubicLattice u M * overK ℝ R := by
  ext <;> simp [cubicLattice, Mat3.ofCols, cubicVec, Mat3.map, overK, Mat3.col0, Mat3.col1, Mat3.col2] <;> ring

theorem grid_primitive (hc : 3 ≤ c) (h : GridBasis b M R S) (ho : Orbits b e A B w₀) (hlen : (groupZ e).length ≤ 48) {r : Reducer ℝ}
    (hr : r.dtol = 1 / 20) {ord : List (String × ℕ) → List (String × ℕ)} (hord : ∀ l, (ord l).Perm l) :
    ∃ prim, r.findPrimitiveCell ord (gridCell c M R A B) = .ret prim ∧ prim.lattice = cubicLattice (48 * c) M := by
  have hcl : CleanInput (gridCell c M R A B) r.dtol := by rw [hr]; exact grid_clean hc h ho hlen
  have hL := grid_lattice (c := c) (M := M) (R := R) (A := A) (B := B)
  set u := 48 * c with hu
  have hu1 : 1 ≤ u := by linarith
  have hu0 : 0 < u := by linarith
  have u2 : 1 ≤ u ^ 2 := one_le_pow₀ hu1
  have u3 : 1 ≤ u ^ 3 := one_le_pow₀ hu1
  have hF := getShortest_cubic hu0 (by rw [hr]; norm_num : 0 ≤ r.dtol) (by rw [hr]; linarith) (by rw [hr]; linarith) h.short h.first
  have hS := getShortest_cubic hu0 (by rw [hr]; norm_num : 0 ≤ r.dtol) (by rw [hr]; linarith) (by rw [hr]; linarith) h.bound h.second
  have hF' : getShortestTranslationVecs r.dtol [(gridCell c M R A B).lattice.col0, (gridCell c M R A B).lattice.col1,
      (gridCell c M R A B).lattice.col2] = .ret (cubicVec u M.col0, cubicVec u M.col1, cubicVec u M.col2) := by
    rw [hL]
    exact hF
  refine clean_primitive_steps hord hcl hF' ?_
  have hp : ∀ t : Vec3 ℝ, (FTrans.pinv (gridCell c M R A B).lattice : Mat3 ℝ) * ((gridCell c M R A B).lattice * t) = t := fun t => by
    rw [← Mat3.mul_mulVec, pinv_mul hcl.svAbove, Mat3.one_mulVec]
  have c0 : cubicVec u M.col0 = (gridCell c M R A B).lattice * (⟨1, 0, 0⟩ : Vec3 ℝ) := by
    rw [hL]
    ext <;> simp [cubicLattice, Mat3.ofCols]
  have c1 : cubicVec u M.col1 = (gridCell c M R A B).lattice * (⟨0, 1, 0⟩ : Vec3 ℝ) := by
    rw [hL]
    ext <;> simp [cubicLattice, Mat3.ofCols]
  have c2 : cubicVec u M.col2 = (gridCell c M R A B).lattice * (⟨0, 0, 1⟩ : Vec3 ℝ) := by
    rw [hL]
    ext <;> simp [cubicLattice, Mat3.ofCols]
  rw [c0, c1, c2, hp, hp, hp, show Mat3.ofCols (⟨1, 0, 0⟩ : Vec3 ℝ) ⟨0, 1, 0⟩ ⟨0, 0, 1⟩ = 1 from rfl, ← c0, ← c1, ← c2, hL,
    unit_combinations, hS]

/-- the standard primitive cell, its lattice and the isometries of the lattice. -/
theorem grid_standard (hc : 3 ≤ c) (hc' : c ≤ 20) (h : GridBasis b M R S) (ho : Orbits b e A B w₀) (hlen : (groupZ e).length ≤ 48)
    {ha : HashOrders ℝ} (hv : ha.Valid) (atol : ℝ) :
    ∃ (p : Structure ℝ) (f : ℕ), (⟨1 / 20, atol⟩ : SymmetryAnalyzer ℝ).getStandardPrimitiveStructure ha f (gridCell c M R A B) = .ret p ∧
      p.lattice = cubicLattice (48 * c) (M * R) ∧
      (b ≠ .hR → ∀ sys, b.latticeSystem? = some sys → sys ≠ .Rhombohedral → InSystem (gridCell c M R A B).lattice sys) ∧
      (∀ Q, Orthogonal Q → MapsLattice Q p.lattice → ∃ c ∈ holoCodes b, Q * p.lattice = p.lattice * overK ℝ (decZ c)) ∧
      ∀ c ∈ holoCodes b, ∃ Q, Orthogonal Q ∧ Q * p.lattice = p.lattice * overK ℝ (decZ c) := by
  have hcl := grid_clean hc h ho hlen
  have hL := grid_lattice (c := c) (M := M) (R := R) (A := A) (B := B)
  obtain ⟨prim, k1, hl⟩ := grid_primitive hc h ho hlen (r := (⟨1 / 20, atol⟩ : SymmetryAnalyzer ℝ).reducer) rfl hv.minEle
  obtain ⟨e0, e1⟩ := grid_eps (c := c) (A := A) (B := B) (by linarith) h
  obtain ⟨s0, s1⟩ := grid_size (c := c) (A := A) (B := B) (by linarith) h
  have hD : (0 : ℝ) < M.det := by exact_mod_cast h.det.1
  have hvol : prim.volume = |(gridCell c M R A B).volume| := by
    rw [abs_of_pos (by rw [grid_volume]; positivity)]
    unfold Structure.volume
    rw [hl, hL]
  have hsize : 81 * cellSize (gridCell c M R A B) ≤ (200000000 * (1 / 20 : ℝ)) ^ 2 := by
    have hF : (frobZ M : ℝ) + 1 ≤ 100 := by exact_mod_cast (by have := h.num.2; omega : frobZ M + 1 ≤ 100)
    have hF0 : (0 : ℝ) ≤ frobZ M := Nat.cast_nonneg _
    have h2 : (48 * c) ^ 2 ≤ 1000000 := by nlinarith
    have h3 : (48 * c) ^ 2 * ((frobZ M : ℝ) + 1) ≤ 1000000 * 100 := mul_le_mul h2 hF (by positivity) (by norm_num)
    linarith
  have hfound : Finds (⟨1 / 20, atol⟩ : SymmetryAnalyzer ℝ).reducer ha.minEle (gridCell c M R A B) (gridCell c M R A B) :=
    clean_finds hv.minEle hcl
  set ε := eps tol1em5 |(gridCell c M R A B).volume| with hε
  have hlt : 12 * ε < (48 * c) ^ 2 := by nlinarith
  have hlt' : ε < (48 * c) ^ 2 := by linarith
  obtain ⟨w1, w2⟩ := niggliCellWeak_cubic e0 hlt' h.niggli
  obtain ⟨nig, k2, hnl⟩ := C27_niggli_returns_on_reduced_partial (⟨1 / 20, atol⟩ : SymmetryAnalyzer ℝ).reducer prim tol1em5
    (by rw [hvol]; exact abs_nonneg _) (by rw [hvol]; exact e0.le) (by rw [hvol, ← hε, hl]; exact w1) (by rw [hvol, ← hε, hl]; exact w2)
  have hnv : nig.volume = prim.volume := by unfold Structure.volume; rw [hnl]
  have k3 : getLatticeCharacter nig tol1em5 = .ret (charOfZ M) := by
    rw [getLatticeCharacter_eq (by rw [hnv, hvol]; exact abs_nonneg _), hnv, hnl, hvol, ← hε, hl]
    exact characterOf_cubic e0 hlt h.char0
  obtain ⟨N, k, conv, p, hret, -⟩ := clean_standard ⟨1 / 20, atol⟩ ha hv hcl hfound k1 k2 k3
  obtain ⟨N₁, hN₁⟩ := C35_primitive_holohedry_returns (K := ℝ)
  have hp := (hret (N + N₁) (by omega)).2
  obtain ⟨prim', nig', ch', b', g1, g2, g3, g4, key⟩ := clean_system ⟨1 / 20, atol⟩ ha hv _ _ _ p hcl hfound hsize
    (grid_clear (by linarith) hc' h) hp
  rw [k1] at g1
  cases g1
  rw [k2] at g2
  cases g2
  rw [k3] at g3
  cases g3
  have hb : b' = b := Option.some.inj (g4.symm.trans h.bravais)
  subst hb
  obtain ⟨pg, hpg⟩ := hN₁ (N + N₁) (by omega) ha hv b'
  obtain ⟨hfull, hsy⟩ := key pg hpg
  refine ⟨p, N + N₁, hp, ?_, fun hR sys hs hR' => (hsy sys hR').2 hR hs, ?_, ?_⟩
  · obtain ⟨prim', nig', conv', ch', m, P, b, j1, j2, j3, j4, j5, j6, -, j8⟩ := standardPrimitive_ret hp
    rw [k1] at j1
    cases j1
    rw [k2] at j2
    cases j2
    rw [k3] at j8
    cases j8
    obtain ⟨m', cen, q, i1, i2, i3, i4, i5⟩ := h.std
    rw [i1] at j3
    cases j3
    have hP : P = (overK ℝ q.1).divS (q.2 : ℝ) := by
      unfold primitiveTransformationMatrix at j5
      rw [g4, Outcome.ofOption, Outcome.ret_bind, i2, Outcome.ofOption, Outcome.ret_bind, i3, Outcome.ofOption, Outcome.ret_bind] at j5
      rw [← primMatrix_eq]
      exact (Prod.mk.inj (Outcome.ret.inj j5)).1.symm
    have hq : (q.2 : ℝ) ≠ 0 := by exact_mod_cast i4
    rw [applyTransformation_lattice j6, applyTransformation_lattice j4, hnl, hl, hP, cubicLattice_mul, mul_assoc]
    congr 1
    have e2 := congrArg (overK ℝ) i5
    rw [overK_mul] at e2
    have e3 : (castRot m).transpose = overK ℝ (intRot m).transpose := by
      rw [castRot_overK]
      rfl
    have e4 : ∀ X Y : Mat3 ℝ, X * Y.divS (q.2 : ℝ) = (X * Y).divS (q.2 : ℝ) := by
      intro X Y
      ext <;> simp [Mat3.divS, Mat3.map] <;> ring
    rw [e3, e4, e2]
    ext <;> simp [Mat3.divS, Mat3.map, overK] <;> field_simp
  · intro Q hQ hm
    obtain ⟨W, hW, e⟩ := hfull.1 Q hQ hm
    obtain ⟨c, hc, rfl⟩ := List.mem_map.1 ((holo_perm hv hpg).mem_iff.1 hW)
    exact ⟨c, hc, by rw [e, intRot_dec8]⟩
  · intro c hc
    obtain ⟨Q, hQ, -, e⟩ := hfull.2 (dec8 c) ((holo_perm hv hpg).mem_iff.2 (List.mem_map.2 ⟨c, hc, rfl⟩))
    exact ⟨Q, hQ, by rw [e, intRot_dec8]⟩

/-! ## The symmetries -/

/-- the isometries of the lattice have codes of the holohedry. -/
def GridCodes (b : BravaisType) (N : Mat3 ℤ) (c : ℝ) : Prop :=
  (∀ Q, Orthogonal Q → MapsLattice Q (cubicLattice (48 * c) N) →
    ∃ k ∈ holoCodes b, Q * cubicLattice (48 * c) N = cubicLattice (48 * c) N * overK ℝ (decZ k)) ∧
  ∀ k ∈ holoCodes b, ∃ Q, Orthogonal Q ∧ Q * cubicLattice (48 * c) N = cubicLattice (48 * c) N * overK ℝ (decZ k)

theorem grid_same (h : GridBasis b M R S) : SameLattice (gridCell c M R A B).lattice (cubicLattice (48 * c) (M * R)) := by
  intro v
  rw [grid_lattice]
  constructor
  · rintro ⟨n, hn, rfl⟩
    obtain ⟨k, rfl⟩ := intVec_cubic.1 hn
    exact ⟨cubicVec 1 (S * k), intVec_cubic.2 ⟨_, rfl⟩, by rw [cubicLattice_mulVec, cubicLattice_mulVec, h.back]⟩
  · rintro ⟨n, hn, rfl⟩
    obtain ⟨k, rfl⟩ := intVec_cubic.1 hn
    exact ⟨cubicVec 1 (R * k), intVec_cubic.2 ⟨_, rfl⟩, by rw [cubicLattice_mulVec, cubicLattice_mulVec, Mat3.mul_mulVec]⟩

theorem grid_small (h : GridBasis b M R S) (hg : GridCodes b (M * R) c) : SmallMatrices (gridCell c M R A B).lattice := by
  intro Q hQ hm
  obtain ⟨k, hk, e⟩ := hg.1 Q hQ (mapsLattice_congr (grid_same h) hm)
  refine ⟨R * decZ k * S, (h.holo k hk).2.1, ?_, (h.holo k hk).2.2⟩
  rw [grid_lattice]
  rw [cubicLattice_mul] at e
  have e1 : overK ℝ R * overK ℝ S = 1 := by rw [← overK_mul, h.inv.1, overK_one]
  have e2 := congrArg (fun X => X * overK ℝ S) e
  simp only [mul_assoc, e1, mul_one] at e2
  rw [e2, overK_mul, overK_mul, mul_assoc (overK ℝ R)]

/-- a motion of the lattice that moves the points of the grid by less than half the distance of neighbours is a symmetry after a small shift. -/
theorem grid_resolved {d : ℝ} (hd : 0 < d) (hdc : 4 * d < c) (h : GridBasis b M R S) (ho : Orbits b e A B w₀) (hg : GridCodes b (M * R) c) :
    Resolved (gridCell c M R A B) d := by
  rintro Q t ⟨hQ, hm, hnear⟩
  obtain ⟨k, hk, hQW⟩ := hg.1 Q hQ (mapsLattice_congr (grid_same h) hm)
  have at_ : ∀ {e x}, AtomAt (gridCell c M R A B) e x ↔ ∃ w, AtW A B e w ∧ x = cubicVec c (M * R * w) := grid_atomAt h ho.valid
  obtain ⟨y, hy, hle⟩ := hnear "Na" (cubicVec c (M * R * w₀)) (at_.2 ⟨w₀, atW_iff.2 (.inl ⟨rfl, ho.start⟩), rfl⟩)
  obtain ⟨w₁, hw₁, rfl⟩ := at_.1 hy
  rw [grid_motion hQW] at hle
  have hsum : cubicVec c (M * R * (w₁ - decZ k * w₀)) = cubicVec c (M * R * w₁) - cubicVec c (M * R * (decZ k * w₀)) := by
    rw [Mat3.mulVec_sub, cubicVec_sub]
  refine ⟨cubicVec c (M * R * (w₁ - decZ k * w₀)), grid_symmetry_of h ho.nodup ho.valid (h.holo k hk).1 hQ hQW ?_, ?_⟩
  · intro e w hw
    obtain ⟨y, hy, hle'⟩ := hnear e (cubicVec c (M * R * w)) (at_.2 ⟨w, hw, rfl⟩)
    obtain ⟨w₂, hw₂, rfl⟩ := at_.1 hy
    rw [grid_motion hQW] at hle'
    have e1 : decZ k * w + (w₁ - decZ k * w₀) = w₂ := by
      by_contra hne
      have h1 := grid_separate (c := c) h hne
      rw [Mat3.mulVec_add, ← cubicVec_add, hsum] at h1
      set a := cubicVec c (M * R * (decZ k * w))
      set a' := cubicVec c (M * R * w₁)
      set a₀ := cubicVec c (M * R * (decZ k * w₀))
      set a₂ := cubicVec c (M * R * w₂)
      have h2 : lenSq (a + (a' - a₀) - a₂) ≤ (4 * d) ^ 2 := by
        unfold lenSq at *
        simp only [Vec3.add_x, Vec3.add_y, Vec3.add_z, Vec3.sub_x, Vec3.sub_y, Vec3.sub_z] at *
        nlinarith [sq_nonneg (a.x + t.x - a₂.x + (a₀.x + t.x - a'.x)), sq_nonneg (a.y + t.y - a₂.y + (a₀.y + t.y - a'.y)),
          sq_nonneg (a.z + t.z - a₂.z + (a₀.z + t.z - a'.z))]
      nlinarith
    rw [e1]
    exact hw₂
  · rw [hsum, show t - (cubicVec c (M * R * w₁) - cubicVec c (M * R * (decZ k * w₀))) =
      cubicVec c (M * R * (decZ k * w₀)) + t - cubicVec c (M * R * w₁) by abel]
    nlinarith

/-- the symmetries in 48ths of the standard primitive basis. -/
theorem grid_symmetry (hc0 : 0 < c) (h : GridBasis b M R S) (ho : Orbits b e A B w₀) (hg : GridCodes b (M * R) c)
    (hp : PrimitiveCell (gridCell c M R A B)) {Q : Mat3 ℝ} {t : Vec3 ℝ} (hs : CrystalSymmetry (gridCell c M R A B) Q t) :
    ∃ a ∈ groupZ e, ∃ n : Vec3 ℤ, Q * cubicLattice (48 * c) (M * R) = cubicLattice (48 * c) (M * R) * overK ℝ a.1 ∧
      t = cubicVec c (M * R * (fourZ a.2 + Vec3.scale 48 n)) := by
  obtain ⟨k, hk, hQW⟩ := hg.1 Q hs.1 (mapsLattice_congr (grid_same h) (symmetry_mapsLattice hp hs))
  have at_ : ∀ {e x}, AtomAt (gridCell c M R A B) e x ↔ ∃ w, AtW A B e w ∧ x = cubicVec c (M * R * w) := grid_atomAt h ho.valid
  obtain ⟨w₁, hw₁, e1⟩ := at_.1 ((hs.2 "Na" (cubicVec c (M * R * w₀))).1 (at_.2 ⟨w₀, atW_iff.2 (.inl ⟨rfl, ho.start⟩), rfl⟩))
  rw [grid_motion hQW] at e1
  have ht : t = cubicVec c (M * R * (w₁ - decZ k * w₀)) := by
    rw [Mat3.mulVec_sub, ← cubicVec_sub, ← e1]
    abel
  have hm : ∀ e w, AtW A B e w → AtW A B e (decZ k * w + (w₁ - decZ k * w₀)) := by
    intro e w hw
    obtain ⟨w₂, hw₂, e2⟩ := at_.1 ((hs.2 e (cubicVec c (M * R * w))).1 (at_.2 ⟨w, hw, rfl⟩))
    rw [grid_motion hQW, ht, cubicVec_add, ← Mat3.mulVec_add] at e2
    have e3 : decZ k * w + (w₁ - decZ k * w₀) = w₂ := by
      by_contra hne
      have h1 := grid_separate (c := c) h hne
      rw [e2, sub_self] at h1
      have h00 : lenSq (0 : Vec3 ℝ) = 0 := by simp [lenSq]
      rw [h00] at h1
      nlinarith
    rw [e3]
    exact hw₂
  obtain ⟨a, ha, e2, e3⟩ := ho.only k hk (w₁ - decZ k * w₀)
    (fun w hw => by simpa using atW_iff.1 (hm "Na" w (atW_iff.2 (.inl ⟨rfl, hw⟩))))
    (fun w hw => by simpa using atW_iff.1 (hm "Cl" w (atW_iff.2 (.inr ⟨rfl, hw⟩))))
  obtain ⟨n, hn⟩ := keyW_eq e3
  exact ⟨a, ha, n, by rw [e2]; exact hQW, by rw [ht, hn]⟩

theorem grid_twelfth (c : ℝ) (N : Mat3 ℤ) (t n : Vec3 ℤ) : cubicVec c (N * (fourZ t + Vec3.scale 48 n)) =
    cubicLattice (48 * c) N * ((⟨(t.x : ℝ) / 12, (t.y : ℝ) / 12, (t.z : ℝ) / 12⟩ : Vec3 ℝ) + cubicVec 1 n) := by
  rw [grid_pos]
  congr 1
  ext <;> simp [cubicVec, fourZ, Vec3.scale] <;> ring

theorem grid_origin (hc0 : 0 < c) (h : GridBasis b M R S) (ho : Orbits b e A B w₀) (hg : GridCodes b (M * R) c)
    (hp : PrimitiveCell (gridCell c M R A B)) : GridOrigin (gridCell c M R A B) := by
  intro Q t hs
  obtain ⟨a, ha, n, -, rfl⟩ := grid_symmetry hc0 h ho hg hp hs
  obtain ⟨k, hk, e1⟩ := (grid_same (c := c) (A := A) (B := B) h _).2 ⟨cubicVec 1 (a.2 + Vec3.scale 12 n), intVec_cubic.2 ⟨_, rfl⟩, rfl⟩
  refine ⟨k, hk, ?_⟩
  rw [← e1, grid_pos]
  rw [show ∀ (L : Mat3 ℝ) (v : Vec3 ℝ), Vec3.scale 12 (L * v) = L * Vec3.scale 12 v from fun L v => by
    ext <;> simp [Vec3.scale] <;> ring]
  congr 1
  ext <;> simp [cubicVec, fourZ, Vec3.scale] <;> ring

/-- the group of the crystal is the table. -/
theorem grid_group (hc0 : 0 < c) (h : GridBasis b M R S) (ho : Orbits b e A B w₀) (hg : GridCodes b (M * R) c)
    (hp : PrimitiveCell (gridCell c M R A B)) (hrot : ∀ a ∈ groupZ e, ∃ k ∈ holoCodes b, a.1 = decZ k) :
    GroupIs (gridCell c M R A B) (cubicLattice (48 * c) (M * R)) ((groupZ e).map (opK ℝ)) := by
  have hdet : (cubicLattice (48 * c) (M * R)).det ≠ 0 := by
    rw [cubicLattice_det]
    have := h.detMR
    have h2 : ((M * R).det : ℝ) ≠ 0 := by exact_mod_cast this
    positivity
  have hcast : ∀ a ∈ groupZ e, castRot (K := ℝ) (opK ℝ a).rotation = overK ℝ a.1 := by
    intro a ha
    rw [castRot_overK, show (opK ℝ a).rotation = rotZ a from rfl, intRot_rotZ (groupZ_range _ ha)]
  intro Q x
  constructor
  · intro hs
    obtain ⟨a, ha, n, e1, e2⟩ := grid_symmetry hc0 h ho hg hp hs
    refine ⟨opK ℝ a, List.mem_map.2 ⟨a, ha, rfl⟩, by rw [hcast a ha]; exact e1, ?_⟩
    rw [grid_twelfth] at e2
    rw [mulVec_injective hdet e2]
    refine intVec_cubic.2 ⟨n, ?_⟩
    unfold opK
    simp
  · rintro ⟨o, ho', hQ, hx⟩
    obtain ⟨a, ha, rfl⟩ := List.mem_map.1 ho'
    rw [hcast a ha] at hQ
    obtain ⟨k, hk, e1⟩ := hrot a ha
    obtain ⟨Q', hQ', e2⟩ := hg.2 k hk
    have e3 : Q = Q' := by
      have e4 : Q * cubicLattice (48 * c) (M * R) = Q' * cubicLattice (48 * c) (M * R) := by rw [hQ, e2, e1]
      have := congrArg (fun X => X * (cubicLattice (48 * c) (M * R)).adjDiv (cubicLattice (48 * c) (M * R)).det) e4
      simpa only [mul_assoc, Mat3.mul_adjDiv hdet, mul_one] using this
    subst e3
    obtain ⟨n, hn⟩ := intVec_cubic.1 hx
    have e4 : x = (⟨(a.2.x : ℝ) / 12, (a.2.y : ℝ) / 12, (a.2.z : ℝ) / 12⟩ : Vec3 ℝ) + cubicVec 1 n := by
      rw [← hn]
      unfold opK
      simp
    rw [e4, ← grid_twelfth]
    refine grid_symmetry_of h ho.nodup ho.valid (by rw [e1]; exact (h.holo k hk).1) hQ' hQ ?_
    intro s w hw
    rw [atW_iff] at hw ⊢
    rw [← add_assoc, keyW_add]
    rcases hw with ⟨rfl, hw⟩ | ⟨rfl, hw⟩
    · exact .inl ⟨rfl, (ho.keeps a ha).1 w hw⟩
    · exact .inr ⟨rfl, (ho.keeps a ha).2 w hw⟩

theorem fitting_rot {b : BravaisType} {l : List (ℕ × List ℕ)} {e : ℕ × List ℕ} (h : e ∈ fitting b l) {a : ZOp} (ha : a ∈ groupZ e) :
    ∃ k ∈ holoCodes b, a.1 = decZ k := by
  unfold fitting at h
  rw [List.mem_filter, allR_iff] at h
  have h1 := h.2 (toN a) (by rw [groupN_eq]; exact List.mem_map.2 ⟨a, ha, rfl⟩)
  rw [memN_iff, List.mem_map] at h1
  obtain ⟨k, hk, e1⟩ := h1
  refine ⟨k, hk, ?_⟩
  have e2 : decZ (Nat.mod (Nat.mod k 19683) 19683) = decZ k := by
    show decZ (k % 19683 % 19683) = decZ k
    unfold decZ digZ
    ext <;> simp only [] <;> omega
  have e4 : (opZ false (Nat.mod k 19683)).1 = decZ k := by
    rw [← e2]
    rfl
  rw [opN_eq] at e1
  have e5 : ∀ a : ZOp, ({ toN a with x := 0, y := 0, z := 0 } : NOp) = toN (a.1, 0) := by
    intro a
    unfold toN
    congr 1
  have e1 : keyN ({ toN (opZ false (Nat.mod k 19683)) with x := 0, y := 0, z := 0 } : NOp) =
    keyN ({ toN a with x := 0, y := 0, z := 0 } : NOp) := e1
  rw [e5, e5, e4] at e1
  have hk' := keyN_toN e1
  have hE := groupZ_entries ha
  have hE' := decZ_entries k
  have m48 : ∀ {x y : ℤ}, remN 48 x = remN 48 y → x ≡ y [ZMOD 48] := fun h => modEq_of_remN (by norm_num) h
  obtain ⟨⟨e1, e2, e3⟩, ⟨e4, e5, e6⟩, e7, e8, e9⟩ := hE'
  obtain ⟨⟨f1, f2, f3⟩, ⟨f4, f5, f6⟩, f7, f8, f9⟩ := hE
  unfold toN at hk'
  injection hk' with k1 k2 k3 k4 k5 k6 k7 k8 k9 k10 k11 k12
  refine Mat3.ext ?_ ?_ ?_ ?_ ?_ ?_ ?_ ?_ ?_
  · exact eq_of_mod (m48 k1).symm (f1.trans (by norm_num)) e1
  · exact eq_of_mod (m48 k2).symm (f2.trans (by norm_num)) e2
  · exact eq_of_mod (m48 k3).symm (f3.trans (by norm_num)) e3
  · exact eq_of_mod (m48 k4).symm (f4.trans (by norm_num)) e4
  · exact eq_of_mod (m48 k5).symm (f5.trans (by norm_num)) e5
  · exact eq_of_mod (m48 k6).symm (f6.trans (by norm_num)) e6
  · exact eq_of_mod (m48 k7).symm (f7.trans (by norm_num)) e7
  · exact eq_of_mod (m48 k8).symm (f8.trans (by norm_num)) e8
  · exact eq_of_mod (m48 k9).symm (f9.trans (by norm_num)) e9

theorem systemR {b : BravaisType} (h : b.latticeSystem? = some .Rhombohedral) : b = .hR := by
  cases b
  all_goals first
    | rfl
    | exact absurd h (by decide)

/-- the crystal satisfies the assumptions, and its table is found. -/
theorem grid_answer (hc : 3 ≤ c) (hc' : c ≤ 20) (h : GridBasis b M R S) (hR : b ≠ .hR) (ho : Orbits b e A B w₀)
    (hlen : (groupZ e).length ≤ 48) (he : e ∈ entriesOf b) {ha : HashOrders ℝ} (hv : ha.Valid) (atol : ℝ) :
    CleanCrystal ⟨1 / 20, atol⟩ ha (gridCell c M R A B) (gridCell c M R A B) ∧
      ∃ sym ops N, amapGet? sgNumToSymbol e.1 = some sym ∧ ∀ fuel ≥ N,
        (⟨1 / 20, atol⟩ : SymmetryAnalyzer ℝ).getSpaceGroupInfo ha fuel (gridCell c M R A B) = .ret (e.1, sym, ops) := by
  have hcl := grid_clean hc h ho hlen
  obtain ⟨p, f, hp, hl, hsys, hcode, hcode'⟩ := grid_standard hc hc' h ho hlen hv atol
  rw [hl] at hcode hcode'
  have hg : GridCodes b (M * R) c := ⟨hcode, hcode'⟩
  have hprim := clean_primitiveCell hcl
  have hsize : 81 * cellSize (gridCell c M R A B) ≤ (200000000 * (1 / 20 : ℝ)) ^ 2 := by
    obtain ⟨s0, s1⟩ := grid_size (c := c) (A := A) (B := B) (by linarith) h
    have hF : (frobZ M : ℝ) + 1 ≤ 100 := by exact_mod_cast (by have := h.num.2; omega : frobZ M + 1 ≤ 100)
    have hF0 : (0 : ℝ) ≤ frobZ M := Nat.cast_nonneg _
    have h2 : (48 * c) ^ 2 ≤ 1000000 := by nlinarith
    have h3 : (48 * c) ^ 2 * ((frobZ M : ℝ) + 1) ≤ 1000000 * 100 := mul_le_mul h2 hF (by positivity) (by norm_num)
    linarith
  have hC : CleanCrystal ⟨1 / 20, atol⟩ ha (gridCell c M R A B) (gridCell c M R A B) :=
    .of_input hv hcl hsize (grid_clear (by linarith) hc' h) (grid_resolved (by norm_num) (by norm_num; linarith) h ho hg)
      (grid_origin (by linarith) h ho hg hprim) (grid_long (by linarith) h) (grid_small h hg)
  refine ⟨hC, ?_⟩
  unfold entriesOf at he
  split at he
  · rename_i groups hgr
    obtain ⟨sys, t1, t2⟩ := Option.bind_eq_some_iff.1 hgr
    obtain ⟨q, hq, hmem⟩ := List.mem_flatMap.1 he
    rw [List.mem_filter] at hmem
    obtain ⟨hfit, hbad⟩ := hmem
    have hgood : e.1 ∉ crateBad := by
      intro hin
      rw [← memN_iff] at hin
      rw [hin] at hbad
      cases hbad
    have hent : IsTableEntry sys q.1 e.1 e.2 := ⟨groups, q.2, amapGet?_mem t2, hq, (List.mem_filter.1 (by unfold fitting at hfit; exact hfit)).1⟩
    have hsR : sys ≠ .Rhombohedral := by
      rintro rfl
      exact hR (systemR t1)
    obtain ⟨table, htab, -⟩ := C39_tables_are_groups (K := ℝ) _ _ _ _ hent
    have hG := grid_group (c := c) (by linarith) h ho hg hprim fun a ha => fitting_rot hfit ha
    rw [← hl, ← tableOps_eq htab] at hG
    exact found_of_cell _ ha hv f _ _ p hC.clean hC.found hC.same hC.nonsing hC.index hC.size hC.clear hC.resolved hC.long
      hC.small hp sys q.1 e.1 e.2 table hsR (hsys hR sys t1 hsR) hent htab hgood hG
  · cases he

end CrystSymm
