import Verif.Proofs.Selection
import Verif.Props.Conventional

set_option autoImplicit false
set_option linter.unusedSectionVars false

/-! # The search for the primitive cell of a centred cell -/

namespace CrystSymm

open Spec Reducer

/-- the centring vectors, in units of `1 / N`: different from each other and from zero, with coordinates from `0` to `N - 1`. -/
def GridVecs (N : ℕ) (hs : List (Vec3 ℤ)) : Prop :=
  0 < N ∧ hs.Nodup ∧ ∀ k ∈ hs, k ≠ 0 ∧ (0 ≤ k.x ∧ k.x < N) ∧ (0 ≤ k.y ∧ k.y < N) ∧ (0 ≤ k.z ∧ k.z < N)

/-- a right-handed cell whose translations are the lattice vectors and the centring vectors `hs` (in units of `1 / N`), without
pseudotranslations at the distance tolerance `d`, which is small compared with the cell. -/
structure CentredCell (s : Structure ℝ) (N : ℕ) (hs : List (Vec3 ℤ)) (d : ℝ) : Prop where
  grid : GridVecs N hs
  consistent : Consistent s
  small : s.numSites < 65536
  sites : s.species ≠ []
  distinct : DistinctSites s
  exact : ExactTranslations s (d * 2)
  translations : ∀ t, TranslationWithin s 0 t ↔ ∃ k ∈ 0 :: hs, IntVec (t - gridPoint N k)
  tol : 0 < d
  cols : N * d < s.a ∧ N * d < s.b ∧ N * d < s.c
  flat : frob s.lattice ^ 2 < 10 ^ 12 * s.lattice.det ^ 2
  area : (d * N ^ 2) ^ 2 * frob s.lattice < s.lattice.det ^ 2
  volume : d * N ^ 3 < s.lattice.det

/-- the three unit vectors in units of `1 / N`. -/
def unitsZ (N : ℕ) : List (Vec3 ℤ) := [⟨N, 0, 0⟩, ⟨0, N, 0⟩, ⟨0, 0, N⟩]

variable {s : Structure ℝ} {N : ℕ} {hs : List (Vec3 ℤ)} {d : ℝ}

theorem normComp_grid {tol x : ℝ} (h0 : 0 < tol) (h1 : tol * N < 1) (hN : 0 < N) {k : ℤ} (hk : 0 ≤ k ∧ k < N)
    (h : ∃ m : ℤ, x - (k : ℝ) / N = m) : normComp tol x = (k : ℝ) / N := by
  have hn : (0 : ℝ) < N := by exact_mod_cast hN
  have hn1 : (1 : ℝ) ≤ N := by exact_mod_cast hN
  have ht1 : tol ≤ 1 := by nlinarith
  obtain ⟨m, hm⟩ := h
  obtain ⟨lo, hi⟩ := normComp_mem h0.le ht1 x
  obtain ⟨j, hj⟩ := normComp_sameMod1 tol x
  have e : normComp tol x * N = k + ((m + j : ℤ) : ℝ) * N := by
    have : normComp tol x = x + j := by linarith
    rw [this, show x = k / N + m by linarith]
    push_cast
    field_simp
    ring
  have h2 : -1 < normComp tol x * N := by nlinarith
  have h3 : normComp tol x * N < N := by nlinarith
  rw [e] at h2 h3
  have h4 : (-1 : ℤ) < k + (m + j) * N := by exact_mod_cast h2
  have h5 : k + (m + j) * N < (N : ℤ) := by exact_mod_cast h3
  have h6 : m + j = 0 := by
    have hNz : (1 : ℤ) ≤ N := by exact_mod_cast hN
    rcases lt_trichotomy (m + j) 0 with h | h | h
    · nlinarith
    · exact h
    · nlinarith
  rw [h6] at e
  rw [eq_div_iff hn.ne', e]
  simp

theorem normFrac_grid {tols x : Vec3 ℝ} (hx : 0 < tols.x ∧ tols.x * N < 1) (hy : 0 < tols.y ∧ tols.y * N < 1)
    (hz : 0 < tols.z ∧ tols.z * N < 1) (hN : 0 < N) {k : Vec3 ℤ} (h1 : 0 ≤ k.x ∧ k.x < N) (h2 : 0 ≤ k.y ∧ k.y < N)
    (h3 : 0 ≤ k.z ∧ k.z < N) (h : IntVec (x - gridPoint N k)) : normFracVec tols x = gridPoint N k := by
  obtain ⟨a, b, c, e⟩ := h
  have ex : x.x - (k.x : ℝ) / N = a := congrArg Vec3.x e
  have ey : x.y - (k.y : ℝ) / N = b := congrArg Vec3.y e
  have ez : x.z - (k.z : ℝ) / N = c := congrArg Vec3.z e
  unfold normFracVec gridPoint
  rw [normComp_grid hx.1 hx.2 hN h1 ⟨a, ex⟩, normComp_grid hy.1 hy.2 hN h2 ⟨b, ey⟩, normComp_grid hz.1 hz.2 hN h3 ⟨c, ez⟩]

theorem gridPoint_injective (hN : 0 < N) {u v : Vec3 ℤ} (h : gridPoint N u = gridPoint N v) : u = v := by
  have hn : (N : ℝ) ≠ 0 := by positivity
  have hx := congrArg Vec3.x h
  have hy := congrArg Vec3.y h
  have hz := congrArg Vec3.z h
  simp only [gridPoint, div_left_inj' hn, Int.cast_inj] at hx hy hz
  ext <;> assumption

theorem gridPoint_zero (N : ℕ) : gridPoint N 0 = 0 := by ext <;> simp [gridPoint]

theorem gridPoint_units (hN : 0 < N) : (unitsZ N).map (gridPoint N) = unitVecs := by
  have hn : (N : ℝ) ≠ 0 := by positivity
  simp [unitsZ, unitVecs, gridPoint, hn]

/-- an exact translation passes the test. -/
theorem isTranslation_of_exact {tols : Vec3 ℝ} (hdet : s.lattice.det ≠ 0) (hd : 0 ≤ d) (hx : 0 ≤ tols.x ∧ tols.x < 1)
    (hy : 0 ≤ tols.y ∧ tols.y < 1) (hz : 0 ≤ tols.z ∧ tols.z < 1) {t : Vec3 ℝ} (h : TranslationWithin s 0 t) :
    isTranslation s.lattice tols d ((s.normalizeCoords d).fracCoords.zip (s.normalizeCoords d).species) t = true := by
  obtain ⟨m, hm, hf⟩ := normalizeCoords_sameSites s d
  unfold isTranslation
  rw [List.all_eq_true]
  intro p hp
  obtain ⟨p', hp', e3, e4⟩ := forall₂_mem_left hf (mem_sites_iff.1 hp)
  obtain ⟨q, hq, e1, w, h1, h2⟩ := h _ (hm.mem_iff.1 hp')
  obtain ⟨q', hq', e5, e6⟩ := forall₂_mem_right hf (hm.mem_iff.2 hq)
  rw [List.any_eq_true]
  refine ⟨(q'.2, q'.1), mem_sites_iff.2 hq', ?_⟩
  rw [Bool.and_eq_true, decide_eq_true_eq]
  refine ⟨by simp only at e3 e5 ⊢; rw [e3, e5, e1], sitesCoincide_of_int hd hx hy hz ?_⟩
  have h3 : s.lattice * w = 0 := vec_zero_of_lenSq (le_antisymm (by simpa using h2) (lenSq_nonneg _))
  have h4 : w = 0 := mulVec_injective hdet (by rw [h3, Mat3.mulVec_zero])
  rw [h4, samePoint_iff_intVec] at h1
  rw [samePoint_iff_intVec] at e4 e6
  have h5 := intVec_add (intVec_subV e4 e6) (intVec_neg h1)
  convert h5 using 1
  show p.1 + t - q'.2 = p.1 - p'.2 - (q'.2 - q.2) + -(0 - (p'.2 + t - q.2))
  abel

theorem CentredCell.tols (h : CentredCell s N hs d) : let t := Structure.fracTols s.lattice d
    (0 < t.x ∧ t.x * N < 1) ∧ (0 < t.y ∧ t.y * N < 1) ∧ (0 < t.z ∧ t.z * N < 1) := by
  have hn : (0 : ℝ) < N := by exact_mod_cast h.grid.1
  have key : ∀ m : ℝ, N * d < m → 0 < d / m ∧ d / m * N < 1 := by
    intro m hm
    have h0 : 0 < m := lt_trans (mul_pos hn h.tol) hm
    refine ⟨div_pos h.tol h0, ?_⟩
    rw [div_mul_eq_mul_div, div_lt_one h0]
    linarith
  exact ⟨key _ h.cols.1, key _ h.cols.2.1, key _ h.cols.2.2⟩

/-- the candidates that pass the test: the unit vectors and the centring vectors. -/
theorem centred_candidates (h : CentredCell s N hs d) {e : String} {i : ℕ} {base : Vec3 ℝ} (hr : Rarest s e)
    (hi : (s.normalizeCoords d).species[i]? = some e) (hb : (s.normalizeCoords d).fracCoords[i]? = some base) :
    ∃ l, l.Perm hs ∧ (candidateVecs (Structure.fracTols s.lattice d) e i base (s.normalizeCoords d).species
      (s.normalizeCoords d).fracCoords).filter (isTranslation s.lattice (Structure.fracTols s.lattice d) d
        ((s.normalizeCoords d).fracCoords.zip (s.normalizeCoords d).species)) = (unitsZ N ++ l).map (gridPoint N) := by
  obtain ⟨hN, hnd, hk⟩ := h.grid
  have hn1 : (1 : ℝ) ≤ N := by exact_mod_cast hN
  set temp := s.normalizeCoords d with htemp
  set tols := Structure.fracTols s.lattice d with htols
  obtain ⟨tx, ty, tz⟩ := h.tols
  rw [← htols] at tx ty tz
  have lt1 : ∀ {t : ℝ}, 0 < t ∧ t * N < 1 → 0 ≤ t ∧ t < 1 := by
    rintro t ⟨h1, h2⟩
    exact ⟨h1.le, by nlinarith⟩
  have hdet : s.lattice.det ≠ 0 := by
    have := h.volume
    have h0 : 0 ≤ d * N ^ 3 := mul_nonneg h.tol.le (by positivity)
    linarith
  -- sites after normalisation
  obtain ⟨m, hm, hf⟩ := normalizeCoords_sameSites s d
  have hdist : (sites temp).Pairwise fun p q => ¬ SamePoint p.2 q.2 := by
    rw [htemp, normalizeCoords_sites, (List.mergeSort_perm _ _).pairwise_iff (by
      intro x y h h1
      exact h h1.symm)]
    have hmap : s.species.zip (normedFrac s d) =
        (sites s).map fun x => (x.1, normFracVec (Structure.fracTols s.lattice d) x.2) := by
      unfold sites normedFrac normalizeFracVectors
      rw [List.zip_map_right]
      rfl
    rw [hmap, List.pairwise_map]
    refine h.distinct.imp ?_
    intro x y hxy h1
    exact hxy (((samePoint_normFracVec _ _).symm.trans h1).trans (samePoint_normFracVec _ _))
  have hxi : (sites temp)[i]? = some (e, base) := by
    unfold sites
    rw [List.getElem?_zip_eq_some]
    exact ⟨hi, hb⟩
  obtain ⟨li, gi⟩ := List.getElem?_eq_some_iff.1 hxi
  -- what passes is a centring vector
  have hpass : ∀ (j : ℕ) (x : Vec3 ℝ), (sites temp)[j]? = some (e, x) → j ≠ i → isTranslation s.lattice tols d
      (temp.fracCoords.zip temp.species) (normFracVec tols (x - base)) = true →
      ∃ k ∈ hs, normFracVec tols (x - base) = gridPoint N k ∧ IntVec (x - base - gridPoint N k) := by
    intro j x hxj hji htr
    obtain ⟨lj, gj⟩ := List.getElem?_eq_some_iff.1 hxj
    have htw := translationWithin_congr (isTranslation_sound s d tols _ htr) (samePoint_normFracVec _ _)
    have hmj : (e, x) ∈ sites temp := List.mem_of_getElem? hxj
    have hmi : (e, base) ∈ sites temp := List.mem_of_getElem? hxi
    obtain ⟨q, hq, q1, q2⟩ := forall₂_mem_left hf hmj
    obtain ⟨p, hp, p1, p2⟩ := forall₂_mem_left hf hmi
    simp only at q1 q2 p1 p2
    have hsp : SamePoint (x - base) (q.2 - p.2) := samePoint_add_sub q2 p2 rfl rfl
    have hex := h.exact p (hm.mem_iff.1 hp) q (hm.mem_iff.1 hq) (by rw [← p1, ← q1]) (by rw [← p1]; exact hr)
      (translationWithin_congr htw hsp)
    obtain ⟨k, hkm, hkint⟩ := (h.translations _).1 (translationWithin_congr hex hsp.symm)
    rcases List.mem_cons.1 hkm with rfl | hkm
    · exfalso
      rw [gridPoint_zero, sub_zero] at hkint
      have hsame : SamePoint x base := by rw [samePoint_iff_intVec]; exact hkint
      rw [List.pairwise_iff_getElem] at hdist
      rcases lt_or_gt_of_ne hji with hlt | hlt
      · have := hdist j i lj li hlt
        rw [gi, gj] at this
        exact this hsame
      · have := hdist i j li lj hlt
        rw [gi, gj] at this
        exact this hsame.symm
    · obtain ⟨-, b1, b2, b3⟩ := hk k hkm
      exact ⟨k, hkm, normFrac_grid tx ty tz hN b1 b2 b3 hkint, hkint⟩
  -- the second part of the candidates
  set cand := (temp.fracCoords.zip temp.species).zipIdx.filterMap (fun p =>
    if p.1.2 = e ∧ p.2 ≠ i then some (normFracVec tols (p.1.1 - base)) else none) with hcand
  set pass := cand.filter (isTranslation s.lattice tols d (temp.fracCoords.zip temp.species)) with hpassdef
  have hsite : ∀ {p : (Vec3 ℝ × String) × ℕ}, p ∈ (temp.fracCoords.zip temp.species).zipIdx → (sites temp)[p.2]? = some (p.1.2, p.1.1) := by
    intro p hp
    have hj := List.mem_zipIdx_iff_getElem?.1 hp
    rw [List.getElem?_zip_eq_some] at hj
    unfold sites
    rw [List.getElem?_zip_eq_some]
    exact ⟨hj.2, hj.1⟩
  have hmem : ∀ v ∈ pass, ∃ k ∈ hs, v = gridPoint N k := by
    intro v hv
    obtain ⟨hv, htr⟩ := List.mem_filter.1 hv
    obtain ⟨p, hp, hpv⟩ := List.mem_filterMap.1 hv
    split_ifs at hpv with hc
    cases hpv
    have hs := hsite hp
    rw [hc.1] at hs
    obtain ⟨k, hk1, hk2, -⟩ := hpass _ _ hs hc.2 htr
    exact ⟨k, hk1, hk2⟩
  have hall : ∀ k ∈ hs, gridPoint N k ∈ pass := by
    intro k hkm
    obtain ⟨hk0, b1, b2, b3⟩ := hk k hkm
    have ht := (h.translations (gridPoint N k)).2 ⟨k, List.mem_cons_of_mem _ hkm, by rw [sub_self]; exact intVec_zero⟩
    have hmi : (e, base) ∈ sites temp := List.mem_of_getElem? hxi
    obtain ⟨p, hp, p1, p2⟩ := forall₂_mem_left hf hmi
    obtain ⟨q, hq, q1, w, h1, h2⟩ := ht p (hm.mem_iff.1 hp)
    obtain ⟨q', hq', e5, e6⟩ := forall₂_mem_right hf (hm.mem_iff.2 hq)
    have h3 : s.lattice * w = 0 := vec_zero_of_lenSq (le_antisymm (by simpa using h2) (lenSq_nonneg _))
    have h4 : w = 0 := mulVec_injective hdet (by rw [h3, Mat3.mulVec_zero])
    rw [h4, samePoint_iff_intVec] at h1
    simp only at p1 p2
    rw [samePoint_iff_intVec] at p2 e6
    have hint : IntVec (q'.2 - base - gridPoint N k) := by
      have h5 := intVec_add (intVec_subV e6 p2) h1
      convert h5 using 1
      show q'.2 - base - gridPoint N k = q'.2 - q.2 - (base - p.2) + (0 - (p.2 + gridPoint N k - q.2))
      abel
    have heq := normFrac_grid tx ty tz hN b1 b2 b3 hint
    obtain ⟨j, lj, gj⟩ := List.getElem_of_mem hq'
    have he' : q'.1 = e := by rw [e5, q1, ← p1]
    have hji : j ≠ i := by
      rintro rfl
      have : q' = (e, base) := by rw [← gj, gi]
      rw [this] at hint
      simp only [sub_self, zero_sub] at hint
      apply hk0
      have h6 := normFrac_grid (x := 0) tx ty tz hN b1 b2 b3 (by rw [zero_sub]; exact hint)
      have h7 : normFracVec tols (0 : Vec3 ℝ) = 0 := normFracVec_int (lt1 tx) (lt1 ty) (lt1 tz) intVec_zero
      rw [h7] at h6
      exact (gridPoint_injective hN ((gridPoint_zero N).trans h6)).symm
    refine List.mem_filter.2 ⟨List.mem_filterMap.2 ⟨((q'.2, q'.1), j), ?_, ?_⟩, ?_⟩
    · rw [List.mem_zipIdx_iff_getElem?]
      have : (sites temp)[j]? = some q' := by rw [List.getElem?_eq_getElem lj, gj]
      unfold sites at this
      rw [List.getElem?_zip_eq_some] at this
      rw [List.getElem?_zip_eq_some]
      exact ⟨this.2, this.1⟩
    · rw [if_pos ⟨he', hji⟩, heq]
    · exact isTranslation_of_exact hdet h.tol.le (lt1 tx) (lt1 ty) (lt1 tz) ht
  have hnodup : pass.Nodup := by
    rw [hpassdef, hcand, List.filter_filterMap]
    refine List.Pairwise.filterMap (R := fun p q => p ∈ (temp.fracCoords.zip temp.species).zipIdx ∧
      q ∈ (temp.fracCoords.zip temp.species).zipIdx ∧ p.2 < q.2) _ ?_ ?_
    · rintro p q ⟨hp, hq, hlt⟩ v hv w hw
      rw [Option.filter_eq_some_iff] at hv hw
      obtain ⟨hv, tv⟩ := hv
      obtain ⟨hw, tw⟩ := hw
      split_ifs at hv hw with c1 c2
      cases hv
      cases hw
      have s1 := hsite hp
      have s2 := hsite hq
      obtain ⟨l1, g1⟩ := List.getElem?_eq_some_iff.1 s1
      obtain ⟨l2, g2⟩ := List.getElem?_eq_some_iff.1 s2
      rw [c1.1] at s1
      rw [c2.1] at s2
      obtain ⟨k1, -, k2, k3⟩ := hpass _ _ s1 c1.2 tv
      obtain ⟨j1, -, j2, j3⟩ := hpass _ _ s2 c2.2 tw
      intro heq
      rw [k2, j2] at heq
      rw [← heq] at j3
      rw [List.pairwise_iff_getElem] at hdist
      have := hdist p.2 q.2 l1 l2 hlt
      rw [g1, g2] at this
      apply this
      rw [samePoint_iff_intVec]
      have h5 := intVec_subV k3 j3
      convert h5 using 1
      show p.1.1 - q.1.1 = p.1.1 - base - gridPoint N k1 - (q.1.1 - base - gridPoint N k1)
      abel
    · rw [List.pairwise_iff_getElem]
      intro a b ha hb hab
      refine ⟨List.getElem_mem _, List.getElem_mem _, ?_⟩
      rw [List.getElem_zipIdx, List.getElem_zipIdx]
      simp only
      omega
  -- the list of the centring vectors in the order of the sites
  obtain ⟨l, hl⟩ : ∃ l : List (Vec3 ℤ), pass = l.map (gridPoint N) := by
    clear_value pass
    clear hnodup hall hpassdef
    induction pass with
    | nil => exact ⟨[], rfl⟩
    | cons v vs ih =>
      obtain ⟨k, -, rfl⟩ := hmem v (by simp)
      obtain ⟨l, rfl⟩ := ih fun w hw => hmem w (List.mem_cons_of_mem _ hw)
      exact ⟨k :: l, rfl⟩
  refine ⟨l, ?_, ?_⟩
  · rw [hl] at hnodup hmem hall
    rw [List.perm_ext_iff_of_nodup (List.Nodup.of_map _ hnodup) hnd]
    intro k
    constructor
    · intro hkl
      obtain ⟨k', h1, h2⟩ := hmem _ (List.mem_map.2 ⟨k, hkl, rfl⟩)
      rw [gridPoint_injective hN h2]
      exact h1
    · intro hkm
      obtain ⟨k', h1, h2⟩ := List.mem_map.1 (hall k hkm)
      rw [← gridPoint_injective hN h2]
      exact h1
  · unfold candidateVecs
    rw [List.filter_append, List.map_append, ← hl, gridPoint_units hN]
    congr 1
    rw [List.filter_eq_self]
    intro v hv
    exact unit_isTranslation h.tol.le (lt1 tx) (lt1 ty) (lt1 tz) _ hv

/-- a matrix of integers in units of `1 / N`. -/
noncomputable def gridMat (N : ℕ) (m : Mat3 ℤ) : Mat3 ℝ := Mat3.ofCols (gridPoint N m.col0) (gridPoint N m.col1) (gridPoint N m.col2)

theorem gridMat_mulVec (N : ℕ) (m : Mat3 ℤ) (v : Vec3 ℤ) : gridMat N m * (⟨v.x, v.y, v.z⟩ : Vec3 ℝ) = gridPoint N (m * v) := by
  ext <;> simp [gridMat, gridPoint, Mat3.ofCols, Mat3.col0, Mat3.col1, Mat3.col2] <;> ring

theorem gridMat_mul (N : ℕ) (m n : Mat3 ℤ) : gridMat N m * (n.map fun k : ℤ => (k : ℝ)) = gridMat N (m * n) := by
  ext <;> simp [gridMat, gridPoint, Mat3.ofCols, Mat3.col0, Mat3.col1, Mat3.col2, Mat3.map] <;> ring

theorem gridMat_det (N : ℕ) (m : Mat3 ℤ) : (gridMat N m).det = (m.det : ℝ) / N ^ 3 := by
  rcases Nat.eq_zero_or_pos N with rfl | hN
  · simp [gridMat, gridPoint, Mat3.ofCols, Mat3.det]
  · have hn : (N : ℝ) ≠ 0 := by positivity
    simp [gridMat, gridPoint, Mat3.ofCols, Mat3.col0, Mat3.col1, Mat3.col2, Mat3.det]
    field_simp

/-- vectors that are combinations of the columns of a singular matrix. -/
theorem combination_form {F : Mat3 ℝ} {v : Vec3 ℝ} (h : v ∈ combinationVecs F) : ∃ w : Vec3 ℝ, v = F * w := by
  unfold combinationVecs at h
  obtain ⟨comb, -, hv⟩ := List.mem_flatMap.1 h
  simp only at hv
  have h2 : v = F * comb ∨ v = Vec3.scale (-1) (F * comb) := by
    rcases List.mem_append.1 hv with hv | hv
    · simpa using hv
    · split_ifs at hv
      · right; simpa using hv
      · simp at hv
  rcases h2 with rfl | rfl
  · exact ⟨comb, rfl⟩
  · refine ⟨Vec3.scale (-1) comb, ?_⟩
    ext <;> simp [Vec3.scale] <;> ring

theorem singular_combinations {L F : Mat3 ℝ} (h : F.det = 0) {d : ℝ} {f1 f2 f3 : Vec3 ℝ}
    (hs : getShortestTranslationVecs d (Structure.getCartCoords L (combinationVecs F)) = .ret (f1, f2, f3)) :
    (Mat3.ofCols f1 f2 f3).det = 0 := by
  obtain ⟨h1, h2, h3⟩ := getShortest_mem hs
  unfold Structure.getCartCoords at h1 h2 h3
  obtain ⟨v1, m1, rfl⟩ := List.mem_map.1 h1
  obtain ⟨v2, m2, rfl⟩ := List.mem_map.1 h2
  obtain ⟨v3, m3, rfl⟩ := List.mem_map.1 h3
  obtain ⟨w1, rfl⟩ := combination_form m1
  obtain ⟨w2, rfl⟩ := combination_form m2
  obtain ⟨w3, rfl⟩ := combination_form m3
  have : Mat3.ofCols (L * (F * w1)) (L * (F * w2)) (L * (F * w3)) = L * (F * Mat3.ofCols w1 w2 w3) := by
    ext <;> simp [Mat3.ofCols]
  rw [this, Mat3.det_mul, Mat3.det_mul, h]
  ring

/-- `l` are the centring vectors in the order in which the search finds them. -/
def CandidateList (s : Structure ℝ) (N : ℕ) (d : ℝ) (l : List (Vec3 ℤ)) : Prop :=
  ∃ e base, e ∈ (s.normalizeCoords d).species ∧ (s.normalizeCoords d).fracCoords[(s.normalizeCoords d).species.idxOf e]? = some base ∧
    (candidateVecs (Structure.fracTols s.lattice d) e ((s.normalizeCoords d).species.idxOf e) base (s.normalizeCoords d).species
      (s.normalizeCoords d).fracCoords).filter (isTranslation s.lattice (Structure.fracTols s.lattice d) d
        ((s.normalizeCoords d).fracCoords.zip (s.normalizeCoords d).species)) = (unitsZ N ++ l).map (gridPoint N)

/-- **the search on a centred cell.** The first selection is the selection in integers, on the unit vectors and the centring vectors
sorted by length; the second one keeps the lattice. -/
theorem centred_search_list (r : Reducer ℝ) (ord : List (String × ℕ) → List (String × ℕ)) (ho : ∀ l, (ord l).Perm l)
    (h : CentredCell s N hs r.dtol) : ∃ l, l.Perm hs ∧ CandidateList s N r.dtol l ∧ ∀ x y z, pickZ (gridSort s.lattice N (unitsZ N ++ l)) = some (x, y, z) →
      ∃ s', r.findPrimitiveCell ord s = .ret s' ∧ ((Mat3.ofCols x y z).det = 0 → s'.volume = 0) ∧
        ((Mat3.ofCols x y z).det ≠ 0 → s'.volume = s.volume * |((Mat3.ofCols x y z).det : ℝ)| / N ^ 3 ∧
          ∃ n : Mat3 ℤ, n.det.natAbs = 1 ∧ s'.lattice = s.lattice * gridMat N (Mat3.ofCols x y z * n)) := by
  obtain ⟨hN, -⟩ := h.grid
  have hn : (0 : ℝ) < N := by exact_mod_cast hN
  have hn1 : (1 : ℝ) ≤ N := by exact_mod_cast hN
  have hd := h.tol
  have hdpos : 0 < s.lattice.det := lt_of_le_of_lt (mul_nonneg hd.le (by positivity)) h.volume
  have hsv : SvAbove s.lattice := svAbove_of_size h.flat
  set temp := s.normalizeCoords r.dtol with htemp
  set tols := Structure.fracTols s.lattice r.dtol with htols
  have hlat : temp.lattice = s.lattice := rfl
  have hperm : temp.species.Perm s.species := by
    have h1 := normalizeCoords_sites s r.dtol
    have h2 : temp.species = (sites temp).map Prod.fst :=
      species_eq_of_sites (normalizeCoords_consistent s r.dtol).1
    rw [h2, h1]
    refine ((List.mergeSort_perm _ _).map _).trans ?_
    rw [List.map_fst_zip]
    simp [normedFrac, normalizeFracVectors, h.consistent.1]
  have hne : temp.species ≠ [] := by
    intro h0
    rw [h0] at hperm
    exact h.sites hperm.nil_eq.symm
  obtain ⟨⟨minEle, inds, counts⟩, hmin⟩ := (C19_get_min_element_panics_iff temp ord ho).2 hne
  have hn' : temp.numSites < 65536 := by
    have := h.small
    unfold Structure.numSites at this ⊢; rw [hperm.length_eq]; exact this
  obtain ⟨⟨hmem, hleast⟩, hinds, -⟩ := C19_get_min_element temp ord ho hn' minEle inds counts hmin
  have hrare : Rarest s minEle := by
    refine ⟨hperm.mem_iff.1 hmem, fun e he => ?_⟩
    have := hleast e (hperm.mem_iff.2 he)
    rw [hperm.count_eq, hperm.count_eq] at this
    rcases this with h | h
    · exact h.le
    · exact h.1.le
  have hind : amapGet? inds minEle = some (temp.species.idxOf minEle) := by rw [hinds, if_pos hmem]
  set i := temp.species.idxOf minEle with hi
  have hilt : i < temp.species.length := List.idxOf_lt_length_of_mem hmem
  have hi' : temp.species[i]? = some minEle := by
    rw [List.getElem?_eq_getElem hilt, List.getElem_idxOf]
  have hilt' : i < temp.fracCoords.length := by
    rw [← (normalizeCoords_consistent s r.dtol).1]; exact hilt
  obtain ⟨l, hl, hfilter⟩ := centred_candidates h hrare hi' (List.getElem?_eq_getElem hilt')
  refine ⟨l, hl, ⟨minEle, _, hmem, List.getElem?_eq_getElem hilt', hfilter⟩, ?_⟩
  intro x y z hpick
  have hfirst := getShortest_grid hN hd.le h.area h.volume hpick
  have hcart : Structure.getCartCoords temp.lattice ((unitsZ N ++ l).map (gridPoint N)) =
      (unitsZ N ++ l).map fun v => s.lattice * gridPoint N v := by
    rw [hlat]
    unfold Structure.getCartCoords
    rw [List.map_map]
    rfl
  set M := s.lattice * gridMat N (Mat3.ofCols x y z) with hM
  have c0 : s.lattice * gridPoint N x = M.col0 := by
    ext <;> simp [hM, gridMat, Mat3.ofCols, Mat3.col0, gridPoint]
  have c1 : s.lattice * gridPoint N y = M.col1 := by
    ext <;> simp [hM, gridMat, Mat3.ofCols, Mat3.col1, gridPoint]
  have c2 : s.lattice * gridPoint N z = M.col2 := by
    ext <;> simp [hM, gridMat, Mat3.ofCols, Mat3.col2, gridPoint]
  have hMdet : M.det = s.lattice.det * ((Mat3.ofCols x y z).det : ℝ) / N ^ 3 := by
    rw [hM, Mat3.det_mul, gridMat_det]
    ring
  obtain ⟨f1, f2, f3, hsecond⟩ := getShortest_ret r.dtol (l := Structure.getCartCoords s.lattice (combinationVecs
        (Mat3.ofCols (FTrans.pinv s.lattice * M.col0) (FTrans.pinv s.lattice * M.col1)
          (FTrans.pinv s.lattice * M.col2)))) (by
      unfold Structure.getCartCoords
      rw [List.length_map]; exact combinationVecs_length _)
  have hret : ∃ s', r.findPrimitiveCell ord s = .ret s' ∧ s'.lattice = Mat3.ofCols f1 f2 f3 := by
    unfold findPrimitiveCell
    simp only
    rw [← htemp, ← htols, hmin]
    simp only [Outcome.bind, hind, Outcome.ofOption]
    rw [List.getElem?_eq_getElem hilt']
    simp only
    rw [hlat, hfilter, ← hlat, hcart, hfirst]
    simp only
    rw [hlat, c0, c1, c2, hsecond]
    exact ⟨_, rfl, rfl⟩
  obtain ⟨s', hs', hl'⟩ := hret
  refine ⟨s', hs', ?_, ?_⟩
  · intro h0
    unfold Structure.volume
    rw [hl']
    refine singular_combinations ?_ hsecond
    have : Mat3.ofCols (FTrans.pinv s.lattice * M.col0) (FTrans.pinv s.lattice * M.col1) (FTrans.pinv s.lattice * M.col2) =
        FTrans.pinv s.lattice * M := by
      ext <;> simp [Mat3.ofCols, Mat3.col0, Mat3.col1, Mat3.col2]
    rw [this, Mat3.det_mul, hMdet, h0]
    simp
  · intro h0
    have hz : (1 : ℝ) ≤ |((Mat3.ofCols x y z).det : ℝ)| := by
      rw [← Int.cast_abs]
      exact_mod_cast Int.one_le_abs h0
    have habs : |M.det| = s.lattice.det * |((Mat3.ofCols x y z).det : ℝ)| / N ^ 3 := by
      rw [hMdet, abs_div, abs_mul, abs_of_pos hdpos, abs_of_pos (by positivity : (0 : ℝ) < N ^ 3)]
    have hlt : r.dtol < |M.det| := by
      rw [habs, lt_div_iff₀ (by positivity)]
      nlinarith [h.volume]
    have hM0 : M.det ≠ 0 := abs_pos.1 (lt_trans hd hlt)
    have hcross : ∀ u v : Vec3 ℝ, IntVec u → IntVec v → ((M * u).cross (M * v)).mag ≤ r.dtol → (M * u).cross (M * v) = 0 := by
      rintro u v ⟨a, b, c, rfl⟩ ⟨a', b', c', rfl⟩ hle
      have e1 : M * (⟨(a : ℝ), b, c⟩ : Vec3 ℝ) = s.lattice * gridPoint N (Mat3.ofCols x y z * (⟨a, b, c⟩ : Vec3 ℤ)) := by
        rw [hM, Mat3.mul_mulVec, gridMat_mulVec N _ ⟨a, b, c⟩]
      have e2 : M * (⟨(a' : ℝ), b', c'⟩ : Vec3 ℝ) = s.lattice * gridPoint N (Mat3.ofCols x y z * (⟨a', b', c'⟩ : Vec3 ℤ)) := by
        rw [hM, Mat3.mul_mulVec, gridMat_mulVec N _ ⟨a', b', c'⟩]
      rw [e1, e2, gridPoint_cross hN] at hle ⊢
      by_contra hne
      refine absurd (gridCross_mag hN hd.le h.area (w := _) ?_) (not_lt.2 hle)
      intro hw
      apply hne
      rw [hw]
      ext <;> simp [gridCross]
    obtain ⟨hv, n, hn1, -, -, -, hn2⟩ := second_index hsv hd.le hM0 hcross hlt hsecond
    refine ⟨?_, n, hn1, ?_⟩
    · unfold Structure.volume
      rw [hl', hv, habs]
    · rw [hl', hn2, hM, mul_assoc, gridMat_mul]

theorem centred_search (r : Reducer ℝ) (ord : List (String × ℕ) → List (String × ℕ)) (ho : ∀ l, (ord l).Perm l)
    (h : CentredCell s N hs r.dtol) : ∃ l, l.Perm hs ∧ ∀ x y z, pickZ (gridSort s.lattice N (unitsZ N ++ l)) = some (x, y, z) →
      ∃ s', r.findPrimitiveCell ord s = .ret s' ∧ ((Mat3.ofCols x y z).det = 0 → s'.volume = 0) ∧
        ((Mat3.ofCols x y z).det ≠ 0 → s'.volume = s.volume * |((Mat3.ofCols x y z).det : ℝ)| / N ^ 3 ∧
          ∃ n : Mat3 ℤ, n.det.natAbs = 1 ∧ s'.lattice = s.lattice * gridMat N (Mat3.ofCols x y z * n)) := by
  obtain ⟨l, hl, -, k⟩ := centred_search_list r ord ho h
  exact ⟨l, hl, k⟩

end CrystSymm
