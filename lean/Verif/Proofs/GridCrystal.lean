import Verif.Props.Diamond
import Verif.Proofs.GridLattice
import Verif.Proofs.Orbits

/-! # Crystals on a grid

Two species on the points of a grid, in a lattice of integer vectors: cell `M`, standard primitive cell `M * R`, positions in 48ths of
the standard primitive basis. -/

set_option autoImplicit false
set_option linter.unusedSectionVars false

namespace CrystSymm

open Spec Reducer SymmetryAnalyzer PointGroup NiggliCert

/-- the facts about the basis, in integers. -/
structure GridBasis (b : BravaisType) (M R S : Mat3 ℤ) : Prop where
  det : 0 < M.det ∧ M.det ≤ 64
  niggli : NiggliBasis M
  first : shortestZ 100 [M.col0, M.col1, M.col2] = some (M.col0, M.col1, M.col2)
  short : ∀ k ∈ [M.col0, M.col1, M.col2], normZ k < 100
  bound : ∀ k ∈ combZ M, normZ k < 200
  second : shortestZ 200 (combZ M) = some (M.col0, M.col1, M.col2)
  char0 : charOfZ M ≠ 0
  bravais : amapGet? latticeCharToBravais (charOfZ M) = some b
  std : ∃ m c p, amapGet? latticeCharToConvTrans (charOfZ M) = some m ∧ b.centering? = some c ∧ amapGet? centeringToPrimTrans c = some p ∧
    p.2 ≠ 0 ∧ (intRot m).transpose * p.1 = R.map fun x => p.2 * x
  inv : R * S = 1 ∧ S * R = 1
  holo : ∀ c ∈ holoCodes b, ((decZ c).det = 1 ∨ (decZ c).det = -1) ∧ FitsI8 (R * decZ c * S) ∧
    ∃ e ∈ (R * decZ c * S).toListCM, e = 0 ∨ e = 1 ∨ e = -1
  one : ∃ c ∈ holoCodes b, decZ c = 1
  num : 27 * (frobZ M + 1) ^ 3 < 3600 * M.det.natAbs ^ 2 ∧ frobZ M ≤ 99

/-- a point with a given number. -/
def wOf (k : ℕ) : Vec3 ℤ := ⟨(k / 2304 : ℕ), (k / 48 % 48 : ℕ), (k % 48 : ℕ)⟩

theorem wOf_mod (w : Vec3 ℤ) : ∃ n : Vec3 ℤ, w = wOf (keyW w) + Vec3.scale 48 n := by
  obtain ⟨h1, h2, h3⟩ := keyW_parts w
  have h1 : keyW w / 2304 = remN 48 w.x := h1
  have h2 : keyW w / 48 % 48 = remN 48 w.y := h2
  have h3 : keyW w % 48 = remN 48 w.z := h3
  refine ⟨⟨w.x / 48, w.y / 48, w.z / 48⟩, ?_⟩
  unfold wOf
  rw [h1, h2, h3]
  have key : ∀ x : ℤ, x = (remN 48 x : ℤ) + 48 * (x / 48) := by
    intro x
    rw [remN_cast (by norm_num)]
    exact (Int.emod_add_mul_ediv x 48).symm
  ext <;> simp only [Vec3.add_x, Vec3.add_y, Vec3.add_z, Vec3.scale] <;> exact key _

theorem keyW_add (w n : Vec3 ℤ) : keyW (w + Vec3.scale 48 n) = keyW w := by
  rw [keyW_iff]
  have key : ∀ x y : ℤ, x + 48 * y ≡ x [ZMOD 48] := fun x y => by
    show (x + 48 * y) % 48 = x % 48
    omega
  exact ⟨key _ _, key _ _, key _ _⟩

theorem keyW_wOf (w : Vec3 ℤ) : keyW (wOf (keyW w)) = keyW w := by
  obtain ⟨n, hn⟩ := wOf_mod w
  conv_rhs => rw [hn]
  rw [keyW_add]

theorem keyW_eq {w w' : Vec3 ℤ} (h : keyW w = keyW w') : ∃ n : Vec3 ℤ, w = w' + Vec3.scale 48 n := by
  obtain ⟨n, hn⟩ := wOf_mod w
  obtain ⟨n', hn'⟩ := wOf_mod w'
  refine ⟨n - n', ?_⟩
  rw [hn, hn', h]
  ext <;> simp [Vec3.scale] <;> ring

theorem keyW_sub {w w' : Vec3 ℤ} (h : keyW w = keyW w') (t : Vec3 ℤ) : keyW (w + t) = keyW (w' + t) := by
  obtain ⟨n, rfl⟩ := keyW_eq h
  rw [show w' + Vec3.scale 48 n + t = w' + t + Vec3.scale 48 n by abel, keyW_add]

theorem keyW_mul {w w' : Vec3 ℤ} (W : Mat3 ℤ) (h : keyW w = keyW w') : keyW (W * w) = keyW (W * w') := by
  obtain ⟨n, rfl⟩ := keyW_eq h
  rw [Mat3.mulVec_add, show W * Vec3.scale 48 n = Vec3.scale 48 (W * n) by ext <;> simp [Vec3.scale] <;> ring, keyW_add]

/-- the species and the numbers of the sites. -/
def gridTags (A B : List ℕ) : List (String × ℕ) := A.map (fun k => ("Na", k)) ++ B.map fun k => ("Cl", k)

/-- the sites in units of `c`. -/
def gridAtoms (N : Mat3 ℤ) (A B : List ℕ) : List (String × Vec3 ℤ) := (gridTags A B).map fun q => (q.1, N * wOf q.2)

/-- the crystal. -/
noncomputable def gridCell (c : ℝ) (M R : Mat3 ℤ) (A B : List ℕ) : Structure ℝ :=
  refCell c (M.map fun x => 48 * x) (gridAtoms (M * R) A B)

/-- the sites in 48ths of the standard primitive basis. -/
def AtW (A B : List ℕ) (e : String) (w : Vec3 ℤ) : Prop := (e, keyW w) ∈ gridTags A B

theorem atW_iff {A B : List ℕ} {e : String} {w : Vec3 ℤ} : AtW A B e w ↔ (e = "Na" ∧ keyW w ∈ A) ∨ (e = "Cl" ∧ keyW w ∈ B) := by
  unfold AtW gridTags
  simp only [List.mem_append, List.mem_map, Prod.mk.injEq]
  constructor
  · rintro (⟨k, hk, rfl, rfl⟩ | ⟨k, hk, rfl, rfl⟩)
    · exact .inl ⟨rfl, hk⟩
    · exact .inr ⟨rfl, hk⟩
  · rintro (⟨rfl, h⟩ | ⟨rfl, h⟩)
    · exact .inl ⟨_, h, rfl, rfl⟩
    · exact .inr ⟨_, h, rfl, rfl⟩

variable {b : BravaisType} {e : ℕ × List ℕ} {M R S : Mat3 ℤ} {A B : List ℕ} {w₀ : Vec3 ℤ} {c : ℝ}

theorem scale48_det (M : Mat3 ℤ) : (M.map fun x => 48 * x).det = 48 ^ 3 * M.det := by
  simp only [Mat3.det, Mat3.map]
  ring

theorem GridBasis.det48 (h : GridBasis b M R S) : 0 < (M.map fun x => 48 * x).det := by
  rw [scale48_det]
  have := h.det.1
  positivity

theorem scale48_mulVec (M : Mat3 ℤ) (n : Vec3 ℤ) : (M.map fun x => 48 * x) * n = M * Vec3.scale 48 n := by
  ext <;> simp [Mat3.map, Vec3.scale] <;> ring

theorem GridBasis.back (h : GridBasis b M R S) (n : Vec3 ℤ) : M * n = M * R * (S * n) := by
  rw [← Mat3.mul_mulVec, mul_assoc, h.inv.1, mul_one]

theorem grid_atomAt (h : GridBasis b M R S) (hv : ∀ k ∈ A ++ B, ∃ w, k = keyW w) {e : String} {x : Vec3 ℝ} :
    AtomAt (gridCell c M R A B) e x ↔ ∃ w, AtW A B e w ∧ x = cubicVec c (M * R * w) := by
  have hv' : ∀ q ∈ gridTags A B, keyW (wOf q.2) = q.2 := by
    intro q hq
    have : q.2 ∈ A ++ B := by
      unfold gridTags at hq
      rcases List.mem_append.1 hq with hq | hq
      all_goals
        obtain ⟨k, hk, rfl⟩ := List.mem_map.1 hq
        simp [hk]
    obtain ⟨w, hw⟩ := hv _ this
    rw [hw, keyW_wOf]
  unfold gridCell
  rw [refCell_atomAt h.det48]
  constructor
  · rintro ⟨m, ⟨p, hp, rfl, n, rfl⟩, rfl⟩
    obtain ⟨q, hq, rfl⟩ := List.mem_map.1 hp
    refine ⟨wOf q.2 + Vec3.scale 48 (S * n), ?_, ?_⟩
    · unfold AtW
      rw [keyW_add, hv' q hq]
      exact hq
    · rw [scale48_mulVec, h.back, Mat3.mulVec_add]
      congr 3
      ext <;> simp [Vec3.scale] <;> ring
  · rintro ⟨w, hw, rfl⟩
    obtain ⟨n, hn⟩ := wOf_mod w
    refine ⟨_, ⟨_, List.mem_map.2 ⟨_, hw, rfl⟩, rfl, R * n, ?_⟩, rfl⟩
    conv_lhs => rw [hn]
    rw [scale48_mulVec, Mat3.mulVec_add]
    congr 1
    rw [Mat3.mul_mulVec]
    congr 1
    ext <;> simp [Vec3.scale] <;> ring

theorem GridBasis.detMR (h : GridBasis b M R S) : (M * R).det ≠ 0 := by
  have e1 : (R * S).det = 1 := by rw [h.inv.1]; rfl
  have e2 : ∀ X Y : Mat3 ℤ, (X * Y).det = X.det * Y.det := by
    intro X Y
    simp only [Mat3.det, Mat3.mul_m11, Mat3.mul_m12, Mat3.mul_m13, Mat3.mul_m21, Mat3.mul_m22, Mat3.mul_m23, Mat3.mul_m31, Mat3.mul_m32,
      Mat3.mul_m33]
    ring
  rw [e2] at e1 ⊢
  have h1 : R.det ≠ 0 := by
    intro h0
    rw [h0] at e1
    simp at e1
  exact mul_ne_zero h.det.1.ne' h1

/-- different points of the grid are at least `c` apart. -/
theorem grid_separate (h : GridBasis b M R S) {w w' : Vec3 ℤ} (hne : w ≠ w') :
    c ^ 2 ≤ lenSq (cubicVec c (M * R * w) - cubicVec c (M * R * w')) := by
  rw [cubicVec_sub, lenSq_cubicVec]
  have h0 : M * R * w - M * R * w' ≠ 0 := by
    intro h0
    have hd : (cubicLattice 1 (M * R)).det ≠ 0 := by
      rw [cubicLattice_det]
      simpa using h.detMR
    have e1 : cubicLattice 1 (M * R) * cubicVec 1 w = cubicLattice 1 (M * R) * cubicVec 1 w' := by
      rw [cubicLattice_mulVec, cubicLattice_mulVec, sub_eq_zero.1 h0]
    exact hne (cubicVec_injective one_ne_zero (mulVec_injective hd e1))
  have h1 : (1 : ℝ) ≤ normZ (M * R * w - M * R * w') := by exact_mod_cast one_le_normZ h0
  nlinarith [sq_nonneg c]

/-- the standard primitive lattice. -/
theorem grid_pos (c : ℝ) (N : Mat3 ℤ) (w : Vec3 ℤ) : cubicVec c (N * w) = cubicLattice (48 * c) N * cubicVec (1 / 48) w := by
  ext <;> simp [cubicVec, cubicLattice, Mat3.ofCols, Mat3.col0, Mat3.col1, Mat3.col2] <;> ring

/-- a motion that maps the sites to sites is a symmetry. -/
theorem grid_forward (hn : (A ++ B).Nodup) (hv : ∀ k ∈ A ++ B, ∃ w, k = keyW w) {W : Mat3 ℤ}
    (hW : W.det = 1 ∨ W.det = -1) {t : Vec3 ℤ} (h : ∀ e w, AtW A B e w → AtW A B e (W * w + t)) (e : String) (w : Vec3 ℤ) :
    AtW A B e w ↔ AtW A B e (W * w + t) := by
  refine ⟨h e w, fun hw => ?_⟩
  obtain ⟨V, -, hV, -⟩ := unimodular_inverse hW
  have hinj : ∀ {w w' : Vec3 ℤ}, keyW (W * w + t) = keyW (W * w' + t) → keyW w = keyW w' := by
    intro w w' h
    have h1 := keyW_sub h (-t)
    rw [add_neg_cancel_right, add_neg_cancel_right] at h1
    have h2 := keyW_mul V h1
    rwa [← Mat3.mul_mulVec, ← Mat3.mul_mulVec, hV, Mat3.one_mulVec, Mat3.one_mulVec] at h2
  have key : ∀ L : List ℕ, L.Nodup → (∀ k ∈ L, ∃ w, k = keyW w) → (∀ w, keyW w ∈ L → keyW (W * w + t) ∈ L) →
      keyW (W * w + t) ∈ L → keyW w ∈ L := by
    intro L hL hvL hm hw
    have hnd : (L.map fun k => keyW (W * wOf k + t)).Nodup := by
      refine List.Nodup.map_on ?_ hL
      intro x hx y hy hxy
      obtain ⟨w, rfl⟩ := hvL x hx
      obtain ⟨w', rfl⟩ := hvL y hy
      have := hinj hxy
      rwa [keyW_wOf, keyW_wOf] at this
    have hsub : (L.map fun k => keyW (W * wOf k + t)) ⊆ L := by
      intro k hk
      obtain ⟨k', hk', rfl⟩ := List.mem_map.1 hk
      apply hm
      obtain ⟨w, rfl⟩ := hvL k' hk'
      rwa [keyW_wOf]
    have hperm := (hnd.subperm hsub).perm_of_length_le (by simp)
    obtain ⟨k, hk, e1⟩ := List.mem_map.1 (hperm.mem_iff.2 hw)
    have e1 := hinj e1
    obtain ⟨w', rfl⟩ := hvL k hk
    rw [keyW_wOf] at e1
    rwa [← e1]
  obtain ⟨hA, hB, -⟩ := List.nodup_append.1 hn
  rw [atW_iff] at hw ⊢
  rcases hw with ⟨rfl, hw⟩ | ⟨rfl, hw⟩
  · refine .inl ⟨rfl, key A hA (fun k hk => hv k (List.mem_append_left _ hk)) (fun w hw => ?_) hw⟩
    have := atW_iff.1 (h "Na" w (atW_iff.2 (.inl ⟨rfl, hw⟩)))
    simpa using this
  · refine .inr ⟨rfl, key B hB (fun k hk => hv k (List.mem_append_right _ hk)) (fun w hw => ?_) hw⟩
    have := atW_iff.1 (h "Cl" w (atW_iff.2 (.inr ⟨rfl, hw⟩)))
    simpa using this

/-- the motion in the standard primitive basis. -/
theorem grid_motion {N : Mat3 ℤ} {Q : Mat3 ℝ} {W : Mat3 ℤ} (hQ : Q * cubicLattice (48 * c) N = cubicLattice (48 * c) N * overK ℝ W)
    (w : Vec3 ℤ) : Q * cubicVec c (N * w) = cubicVec c (N * (W * w)) := by
  rw [grid_pos, grid_pos, ← Mat3.mul_mulVec, hQ, Mat3.mul_mulVec, overK_cubicVec]

theorem grid_symmetry_of (hb : GridBasis b M R S) (hn : (A ++ B).Nodup) (hv : ∀ k ∈ A ++ B, ∃ w, k = keyW w) {W : Mat3 ℤ}
    (hW : W.det = 1 ∨ W.det = -1) {Q : Mat3 ℝ} (hQ : Orthogonal Q)
    (hQW : Q * cubicLattice (48 * c) (M * R) = cubicLattice (48 * c) (M * R) * overK ℝ W) {t : Vec3 ℤ}
    (h : ∀ e w, AtW A B e w → AtW A B e (W * w + t)) : CrystalSymmetry (gridCell c M R A B) Q (cubicVec c (M * R * t)) := by
  have hf := grid_forward hn hv hW h
  refine ⟨hQ, fun e x => ?_⟩
  rw [grid_atomAt hb hv, grid_atomAt hb hv]
  constructor
  · rintro ⟨w, hw, rfl⟩
    exact ⟨W * w + t, (hf e w).1 hw, by rw [grid_motion hQW, cubicVec_add, Mat3.mulVec_add]⟩
  · rintro ⟨w, hw, e1⟩
    obtain ⟨V, hV, -, -⟩ := unimodular_inverse hW
    refine ⟨V * (w - t), (hf e _).2 ?_, ?_⟩
    · rw [← Mat3.mul_mulVec, hV, Mat3.one_mulVec, sub_add_cancel]
      exact hw
    · have e2 : Q * x = Q * cubicVec c (M * R * (V * (w - t))) := by
        rw [grid_motion hQW, ← Mat3.mul_mulVec, ← Mat3.mul_mulVec, mul_assoc, hV, mul_one, Mat3.mulVec_sub, ← cubicVec_sub, ← e1]
        abel
      have := congrArg (fun v : Vec3 ℝ => Q.transpose * v) e2
      simp only [← Mat3.mul_mulVec, show Q.transpose * Q = 1 from hQ, Mat3.one_mulVec] at this
      rw [show M * R * (V * (w - t)) = M * R * V * (w - t) from (Mat3.mul_mulVec _ _ _).symm, ← this]

/-! ## The assumptions of the theorems on clean crystals -/

theorem grid_lattice : (gridCell c M R A B).lattice = cubicLattice (48 * c) M := by
  show cubicLattice c _ = _
  ext <;> simp [cubicLattice, Mat3.ofCols, cubicVec, Mat3.map, Mat3.col0, Mat3.col1, Mat3.col2] <;> ring

theorem grid_volume : (gridCell c M R A B).volume = (48 * c) ^ 3 * M.det := by
  unfold Structure.volume
  rw [grid_lattice, cubicLattice_det]

theorem grid_eps (hc : 0 < c) (h : GridBasis b M R S) :
    0 < eps tol1em5 |(gridCell c M R A B).volume| ∧ eps tol1em5 |(gridCell c M R A B).volume| ≤ c / 500 := by
  have h1 : (0 : ℝ) < M.det := by exact_mod_cast h.det.1
  have h2 : (M.det : ℝ) ≤ 64 := by exact_mod_cast h.det.2
  have h3 : (0 : ℝ) < (48 * c) ^ 3 * M.det := by positivity
  rw [grid_volume, abs_of_pos h3]
  unfold eps
  rw [tol1em5_real]
  constructor
  · have := Real.rpow_pos_of_pos h3 (1 / 3)
    positivity
  · have h4 : ((48 * c) ^ 3 * (M.det : ℝ)) ^ (1 / 3 : ℝ) ≤ ((192 * c) ^ 3) ^ (1 / 3 : ℝ) := by
      apply Real.rpow_le_rpow h3.le _ (by norm_num)
      nlinarith [pow_pos hc 3]
    have h5 : ((192 * c) ^ 3) ^ (1 / 3 : ℝ) = 192 * c := by
      rw [← Real.rpow_natCast, ← Real.rpow_mul (by positivity)]
      norm_num
    rw [h5] at h4
    linarith

theorem grid_size (hc : 1 ≤ c) (h : GridBasis b M R S) :
    0 ≤ cellSize (gridCell c M R A B) ∧ cellSize (gridCell c M R A B) ≤ (48 * c) ^ 2 * (frobZ M + 1) := by
  obtain ⟨e0, e1⟩ := grid_eps (c := c) (A := A) (B := B) (by linarith) h
  have h1 : cellSize (gridCell c M R A B) = frob (gridCell c M R A B).lattice + 100 * |eps tol1em5 (|(gridCell c M R A B).volume|)| := rfl
  rw [h1, grid_lattice, cubicLattice_frob, abs_of_pos e0]
  constructor
  · positivity
  · nlinarith

theorem gridTags_pairwise (hn : (A ++ B).Nodup) : (gridTags A B).Pairwise fun p q => p.2 ≠ q.2 := by
  have e : (gridTags A B).map Prod.snd = A ++ B := by
    simp [gridTags, Function.comp_def]
  rw [← e] at hn
  exact List.pairwise_map.1 hn

theorem tag_key (hv : ∀ k ∈ A ++ B, ∃ w, k = keyW w) {q : String × ℕ} (hq : q ∈ gridTags A B) : keyW (wOf q.2) = q.2 := by
  have : q.2 ∈ A ++ B := by
    unfold gridTags at hq
    rcases List.mem_append.1 hq with hq | hq
    all_goals
      obtain ⟨k, hk, rfl⟩ := List.mem_map.1 hq
      simp [hk]
  obtain ⟨w, hw⟩ := hv _ this
  rw [hw, keyW_wOf]

/-- the fractional coordinates of a site. -/
noncomputable def gridFrac (M R : Mat3 ℤ) (k : ℕ) : Vec3 ℝ :=
  (cubicLattice 1 (M.map fun x => 48 * x)).adjDiv (cubicLattice 1 (M.map fun x => 48 * x)).det * cubicVec 1 (M * R * wOf k)

theorem gridCell_sites : sites (gridCell c M R A B) = (gridTags A B).map fun q => (q.1, gridFrac M R q.2) := by
  unfold gridCell gridAtoms
  rw [refCell_sites, List.map_map]
  rfl

theorem gridFrac_mul (h : GridBasis b M R S) (k : ℕ) : (gridCell c M R A B).lattice * gridFrac M R k = cubicVec c (M * R * wOf k) :=
  refCell_mulVec h.det48 _ _

/-- lattice vectors in 48ths of the standard primitive basis. -/
theorem grid_intVec (h : GridBasis b M R S) {n : Vec3 ℝ} (hn : IntVec n) :
    ∃ v : Vec3 ℤ, (gridCell c M R A B).lattice * n = cubicVec c (M * R * Vec3.scale 48 v) := by
  obtain ⟨v, rfl⟩ := intVec_cubic.1 hn
  refine ⟨S * v, ?_⟩
  rw [show (gridCell c M R A B).lattice = cubicLattice c (M.map fun x => 48 * x) from rfl, cubicLattice_mulVec, scale48_mulVec, h.back]
  congr 2
  ext <;> simp [Vec3.scale] <;> ring

theorem grid_noTranslation (hc : 0 < c) (hb : GridBasis b M R S) (ho : Orbits b e A B w₀) {δ : ℝ} (hδ : 0 ≤ δ) (hδc : δ < c) :
    NoTranslation (gridCell c M R A B) δ := by
  have hv := ho.valid
  refine ⟨?_, ?_⟩
  · have : keyW w₀ ∈ A := ho.start
    have hne : gridTags A B ≠ [] := by
      unfold gridTags
      intro h0
      rw [List.append_eq_nil_iff, List.map_eq_nil_iff] at h0
      rw [h0.1] at this
      cases this
    show (gridAtoms (M * R) A B).map Prod.fst ≠ []
    unfold gridAtoms
    simpa using hne
  -- a translation of the sites
  have key : ∀ q q' : String × ℕ, q ∈ gridTags A B → q' ∈ gridTags A B →
      TranslationWithin (gridCell c M R A B) δ (gridFrac M R q'.2 - gridFrac M R q.2) → q.2 = q'.2 := by
    intro q q' hq hq' ht
    have hm : ∀ e w, AtW A B e w → AtW A B e ((1 : Mat3 ℤ) * w + (wOf q'.2 - wOf q.2)) := by
      intro e w hw
      obtain ⟨y, hy, e1, d, hd, hle⟩ := ht (e, gridFrac M R (keyW w)) (by
        rw [gridCell_sites]
        exact List.mem_map.2 ⟨_, hw, rfl⟩)
      rw [gridCell_sites] at hy
      obtain ⟨r, hr, rfl⟩ := List.mem_map.1 hy
      simp only at e1 hd hle
      rw [samePoint_iff_intVec] at hd
      obtain ⟨v, hv'⟩ := grid_intVec (c := c) (A := A) (B := B) hb hd
      simp only [Mat3.mulVec_sub, Mat3.mulVec_add, gridFrac_mul hb] at hv'
      have e2 : (gridCell c M R A B).lattice * d =
          cubicVec c (M * R * (wOf (keyW w) + (wOf q'.2 - wOf q.2) + Vec3.scale 48 v)) - cubicVec c (M * R * wOf r.2) := by
        rw [sub_eq_iff_eq_add] at hv'
        rw [hv', cubicVec_sub, cubicVec_add, cubicVec_sub, cubicVec_add, cubicVec_sub, Mat3.mulVec_add, Mat3.mulVec_add, Mat3.mulVec_sub]
        congr 1
        abel
      have e3 : wOf (keyW w) + (wOf q'.2 - wOf q.2) + Vec3.scale 48 v = wOf r.2 := by
        by_contra hne
        have := grid_separate (c := c) hb hne
        rw [← e2] at this
        nlinarith
      have e4 : keyW (w + (wOf q'.2 - wOf q.2)) = r.2 := by
        rw [keyW_sub (keyW_wOf w).symm, ← keyW_add _ v, e3, tag_key hv hr]
      unfold AtW
      rw [Mat3.one_mulVec, e4, ← e1]
      exact hr
    obtain ⟨c1, hc1, h1⟩ := hb.one
    obtain ⟨a, ha, e1, e2⟩ := ho.only c1 hc1 (wOf q'.2 - wOf q.2)
      (fun w hw => by
        have := atW_iff.1 (hm "Na" w (atW_iff.2 (.inl ⟨rfl, hw⟩)))
        rw [h1]
        simpa using this)
      (fun w hw => by
        have := atW_iff.1 (hm "Cl" w (atW_iff.2 (.inr ⟨rfl, hw⟩)))
        rw [h1]
        simpa using this)
    obtain ⟨p1, p2, p3⟩ := ho.primitive a ha (e1.trans h1)
    have e3 : keyW (fourZ a.2) = keyW 0 := by
      rw [keyW_iff]
      have l : ∀ {x : ℤ}, x ≡ 0 [ZMOD 12] → 4 * x ≡ 0 [ZMOD 48] := by
        intro x h
        have h : x % 12 = 0 % 12 := h
        show 4 * x % 48 = 0 % 48
        omega
      exact ⟨l p1, l p2, l p3⟩
    have e4 := keyW_sub (e2.trans e3) (wOf q.2)
    rw [sub_add_cancel, zero_add, tag_key hv hq', tag_key hv hq] at e4
    exact e4.symm
  rw [gridCell_sites, List.pairwise_map]
  refine (gridTags_pairwise ho.nodup).imp_of_mem ?_
  intro q q' hq hq' hne _ _
  exact ⟨fun ht => hne (key q q' hq hq' ht), fun ht => hne (key q' q hq' hq ht).symm⟩

theorem grid_clean (hc : 3 ≤ c) (hb : GridBasis b M R S) (ho : Orbits b e A B w₀) (hlen : (groupZ e).length ≤ 48) :
    CleanInput (gridCell c M R A B) (1 / 20) := by
  have hc0 : 0 < c := by linarith
  obtain ⟨s0, s1⟩ := grid_size (c := c) (A := A) (B := B) (by linarith) hb
  have hV : (gridCell c M R A B).volume = (48 * c) ^ 3 * M.det := grid_volume
  have hD : (1 : ℝ) ≤ M.det := by exact_mod_cast hb.det.1
  have hF : (frobZ M : ℝ) + 1 ≤ 100 := by exact_mod_cast (by have := hb.num.2; omega : frobZ M + 1 ≤ 100)
  have hF0 : (0 : ℝ) ≤ frobZ M := Nat.cast_nonneg _
  set u := 48 * c with hu
  have hu1 : 144 ≤ u := by linarith
  have u2 : 1 ≤ u ^ 2 := one_le_pow₀ (by linarith)
  have u3 : 1 ≤ u ^ 3 := one_le_pow₀ (by linarith)
  have u4 : 100000 ≤ u ^ 4 := le_trans (by norm_num) (pow_le_pow_left₀ (by norm_num) hu1 4)
  have e6 : u ^ 6 = u ^ 2 * u ^ 4 := by ring
  have hV2 : u ^ 6 ≤ (gridCell c M R A B).volume ^ 2 := by
    have h1 : (1 : ℝ) ≤ (M.det : ℝ) ^ 2 := one_le_pow₀ hD
    have h2 : (u ^ 3 * (M.det : ℝ)) ^ 2 = u ^ 6 * (M.det : ℝ) ^ 2 := by ring
    rw [hV, h2]
    nlinarith [pow_pos (by linarith : (0 : ℝ) < u) 6]
  have hS1 : cellSize (gridCell c M R A B) ≤ u ^ 2 * 100 := le_trans s1 (mul_le_mul_of_nonneg_left hF (by linarith))
  refine ⟨⟨?_, ?_⟩, ?_, ?_, grid_noTranslation hc0 hb ho (by norm_num) (by linarith), by norm_num, ?_, ?_, ?_, ?_⟩
  · simp [gridCell, refCell, Structure.new]
  · simp [gridCell, refCell, Structure.new, Structure.getCartCoords]
  · have h1 : (gridCell c M R A B).numSites = 2 * (groupZ e).length := by
      rw [← ho.size]
      simp [gridCell, refCell, Structure.new, Structure.numSites, gridAtoms, gridTags]
    omega
  · unfold DistinctSites
    rw [gridCell_sites, List.pairwise_map]
    refine (gridTags_pairwise ho.nodup).imp_of_mem ?_
    intro q q' hq hq' hne hsame
    rw [samePoint_iff_intVec] at hsame
    obtain ⟨v, hv'⟩ := grid_intVec (c := c) (A := A) (B := B) hb hsame
    simp only [Mat3.mulVec_sub, gridFrac_mul hb] at hv'
    have e3 : wOf q.2 = wOf q'.2 + Vec3.scale 48 v := by
      by_contra hn
      have := grid_separate (c := c) hb hn
      rw [Mat3.mulVec_add, ← cubicVec_add, ← hv'] at this
      have h0 : cubicVec c (M * R * wOf q.2) - (cubicVec c (M * R * wOf q'.2) + (cubicVec c (M * R * wOf q.2) - cubicVec c (M * R * wOf q'.2))) = 0 := by
        abel
      rw [h0] at this
      have h00 : lenSq (0 : Vec3 ℝ) = 0 := by simp [lenSq]
      rw [h00] at this
      nlinarith
    apply hne
    rw [← tag_key ho.valid hq, e3, keyW_add, tag_key ho.valid hq']
  · rw [hV, abs_of_pos (by positivity)]
    nlinarith
  · refine lt_of_lt_of_le ?_ hV2
    rw [e6]
    nlinarith
  · have h1 : cellSize (gridCell c M R A B) ^ 2 ≤ (u ^ 2 * 100) ^ 2 := pow_le_pow_left₀ s0 hS1 2
    refine lt_of_le_of_lt h1 (lt_of_lt_of_le ?_ (mul_le_mul_of_nonneg_left hV2 (by norm_num)))
    rw [e6]
    have : (u ^ 2 * 100) ^ 2 = 10000 * u ^ 4 := by ring
    rw [this]
    nlinarith
  · intro e e' x y hx hy
    obtain ⟨w, hw, rfl⟩ := (grid_atomAt hb ho.valid).1 hx
    obtain ⟨w', hw', rfl⟩ := (grid_atomAt hb ho.valid).1 hy
    by_cases hww : w = w'
    · left
      subst hww
      refine ⟨?_, rfl⟩
      have hd := (List.nodup_append.1 ho.nodup).2.2
      rcases atW_iff.1 hw with ⟨rfl, h1⟩ | ⟨rfl, h1⟩ <;> rcases atW_iff.1 hw' with ⟨rfl, h2⟩ | ⟨rfl, h2⟩
      · rfl
      · exact absurd rfl (hd _ h1 _ h2)
      · exact absurd rfl (hd _ h2 _ h1)
      · rfl
    · right
      refine lt_of_lt_of_le ?_ (grid_separate hb hww)
      have hS3 : cellSize (gridCell c M R A B) ^ 3 ≤ (u ^ 2 * (frobZ M + 1)) ^ 3 := pow_le_pow_left₀ s0 s1 3
      rw [hV]
      have hd0 : (0 : ℝ) < M.det := by linarith
      have hu0 : (0 : ℝ) < u := by linarith
      have e1 : 27 * (cellSize (gridCell c M R A B) ^ 3 / (u ^ 3 * (M.det : ℝ)) ^ 2 * (1 / 20) ^ 2) ≤
          27 * ((u ^ 2 * (frobZ M + 1)) ^ 3 / (u ^ 3 * (M.det : ℝ)) ^ 2 * (1 / 20) ^ 2) := by gcongr
      refine lt_of_le_of_lt e1 ?_
      have e2 : 27 * ((u ^ 2 * ((frobZ M : ℝ) + 1)) ^ 3 / (u ^ 3 * (M.det : ℝ)) ^ 2 * (1 / 20) ^ 2) =
          27 * ((frobZ M : ℝ) + 1) ^ 3 / (400 * (M.det : ℝ) ^ 2) := by
        field_simp
        ring
      rw [e2, div_lt_iff₀ (by positivity)]
      have hn : (27 * ((frobZ M : ℝ) + 1) ^ 3) < 3600 * (M.det : ℝ) ^ 2 := by
        have h1 : (27 * ((frobZ M : ℝ) + 1) ^ 3) < 3600 * ((M.det.natAbs : ℕ) : ℝ) ^ 2 := by exact_mod_cast hb.num.1
        have h2 : ((M.det.natAbs : ℕ) : ℝ) = M.det := by
          rw [Nat.cast_natAbs, abs_of_pos hb.det.1]
        rwa [h2] at h1
      have : 3600 * (M.det : ℝ) ^ 2 ≤ c ^ 2 * (400 * (M.det : ℝ) ^ 2) := by
        have h9 : (9 : ℝ) ≤ c ^ 2 := by nlinarith
        nlinarith [pow_pos hd0 2]
      linarith

theorem grid_clear (hc : 1 ≤ c) (hc' : c ≤ 20) (hb : GridBasis b M R S) :
    ClearLattice (gridCell c M R A B).lattice (eps tol1em5 |(gridCell c M R A B).volume|) := by
  obtain ⟨e0, e1⟩ := grid_eps (c := c) (A := A) (B := B) (by linarith) hb
  have hD : (0 : ℝ) < M.det := by exact_mod_cast hb.det.1
  refine clearLattice_integral (g := (48 * c) ^ 2) ?_ e0 (by linarith) (by nlinarith) (M.transpose * M) ?_
  · rw [show (gridCell c M R A B).lattice.det = _ from grid_volume]
    positivity
  · rw [grid_lattice]
    ext <;> simp [cubicLattice, cubicVec, Mat3.ofCols, Mat3.transpose, Mat3.scale, Mat3.map, overK, Mat3.col0, Mat3.col1, Mat3.col2] <;> ring

theorem grid_long (hc : 1 ≤ c) (hb : GridBasis b M R S) : LongVectors (gridCell c M R A B).lattice (48 * (1 / 20)) := by
  intro n hn h0
  obtain ⟨v, rfl⟩ := intVec_cubic.1 hn
  have hv : v ≠ 0 := by
    rintro rfl
    exact h0 (cubicVec_zero 1)
  rw [grid_lattice, cubicLattice_mulVec, lenSq_cubicVec]
  have hMv : M * v ≠ 0 := by
    intro h0
    have hd : (cubicLattice 1 M).det ≠ 0 := by
      rw [cubicLattice_det]
      simpa using hb.det.1.ne'
    have e1 : cubicLattice 1 M * cubicVec 1 v = cubicLattice 1 M * cubicVec 1 0 := by
      rw [cubicLattice_mulVec, cubicLattice_mulVec, h0, Mat3.mulVec_zero]
    exact hv (cubicVec_injective one_ne_zero (mulVec_injective hd e1))
  have h1 : (1 : ℝ) ≤ normZ (M * v) := by exact_mod_cast one_le_normZ hMv
  nlinarith

end CrystSymm
