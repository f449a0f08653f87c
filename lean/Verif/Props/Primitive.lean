import Verif.Proofs.Primitive
import Verif.Proofs.Index
import Verif.Props.Species
import Verif.Props.Niggli

set_option autoImplicit false

/-! # C28, C29: `find_primitive_cell` -/

set_option linter.unusedSectionVars false

namespace CrystSymm

open Spec Reducer

/-! ## C29 -/

theorem primitive_col {r : Reducer ℝ} {s : Structure ℝ} (hsv : SvAbove s.lattice)
    {l : List (Vec3 ℝ)} {s1 s2 s3 f : Vec3 ℝ} {tols : Vec3 ℝ}
    (h1 : s1 ∈ Structure.getCartCoords s.lattice (l.filter (isTranslation s.lattice tols r.dtol
      ((s.normalizeCoords r.dtol).fracCoords.zip (s.normalizeCoords r.dtol).species))))
    (h2 : s2 ∈ Structure.getCartCoords s.lattice (l.filter (isTranslation s.lattice tols r.dtol
      ((s.normalizeCoords r.dtol).fracCoords.zip (s.normalizeCoords r.dtol).species))))
    (h3 : s3 ∈ Structure.getCartCoords s.lattice (l.filter (isTranslation s.lattice tols r.dtol
      ((s.normalizeCoords r.dtol).fracCoords.zip (s.normalizeCoords r.dtol).species))))
    (hf : f ∈ Structure.getCartCoords s.lattice (combinationVecs (Mat3.ofCols (FTrans.pinv s.lattice * s1)
      (FTrans.pinv s.lattice * s2) (FTrans.pinv s.lattice * s3)))) :
    ∃ u, IntCombOf (TranslationWithin s (r.dtol * 2)) u ∧ f = s.lattice * u := by
  unfold Structure.getCartCoords at h1 h2 h3 hf
  obtain ⟨t1, k1, rfl⟩ := List.mem_map.1 h1
  obtain ⟨t2, k2, rfl⟩ := List.mem_map.1 h2
  obtain ⟨t3, k3, rfl⟩ := List.mem_map.1 h3
  obtain ⟨u, hu, rfl⟩ := List.mem_map.1 hf
  have hp : ∀ t : Vec3 ℝ, (FTrans.pinv s.lattice : Mat3 ℝ) * (s.lattice * t) = t := fun t => by
    rw [← Mat3.mul_mulVec, pinv_mul hsv, Mat3.one_mulVec]
  rw [hp, hp, hp] at hu
  obtain ⟨n1, n2, n3, rfl⟩ := mem_combinationVecs hu
  refine ⟨_, ⟨t1, t2, t3, isTranslation_sound s _ _ _ (List.mem_filter.1 k1).2,
    isTranslation_sound s _ _ _ (List.mem_filter.1 k2).2, isTranslation_sound s _ _ _ (List.mem_filter.1 k3).2,
    n1, n2, n3, rfl⟩, ?_⟩
  congr 1
  ext <;> simp [Mat3.ofCols] <;> ring

/-- **C29 (vectors).** For every structure with a lattice above the pseudo-inverse cut-off, every tolerance
and every hash order: each lattice vector of the returned cell is an integer combination of vectors that map
every site of the input onto a site of the same species, up to lattice vectors and within `2 dtol`. -/
theorem C29_primitive_vectors_are_translations (r : Reducer ℝ) (ord : List (String × ℕ) → List (String × ℕ))
    (s s' : Structure ℝ) (hsv : SvAbove s.lattice) (h : r.findPrimitiveCell ord s = .ret s') :
    ∃ u₁ u₂ u₃ : Vec3 ℝ, s'.lattice = s.lattice * Mat3.ofCols u₁ u₂ u₃ ∧
      IntCombOf (TranslationWithin s (r.dtol * 2)) u₁ ∧ IntCombOf (TranslationWithin s (r.dtol * 2)) u₂ ∧
      IntCombOf (TranslationWithin s (r.dtol * 2)) u₃ := by
  obtain ⟨minEle, inds, counts, baseInd, baseSite, s1, s2, s3, f1, f2, f3, -, -, -, h1, h2, rfl⟩ :=
    findPrimitiveCell_ret h
  obtain ⟨a1, a2, a3⟩ := getShortest_mem h1
  obtain ⟨b1, b2, b3⟩ := getShortest_mem h2
  obtain ⟨u1, c1, rfl⟩ := primitive_col hsv a1 a2 a3 b1
  obtain ⟨u2, c2, rfl⟩ := primitive_col hsv a1 a2 a3 b2
  obtain ⟨u3, c3, rfl⟩ := primitive_col hsv a1 a2 a3 b3
  refine ⟨u1, u2, u3, ?_, c1, c2, c3⟩
  rw [normalizeCoords_lattice]
  show Mat3.ofCols _ _ _ = _
  ext <;> simp [Mat3.ofCols]

/-- the sites of the returned cell, in terms of the normalised input. -/
theorem primitive_sites {r : Reducer ℝ} {ord : List (String × ℕ) → List (String × ℕ)}
    {s s' : Structure ℝ} (h : r.findPrimitiveCell ord s = .ret s') (hsv' : SvAbove s'.lattice) :
    ∀ p ∈ sites s', ∃ q ∈ sites (s.normalizeCoords r.dtol), q.1 = p.1 ∧
      ∃ n : Vec3 ℝ, IntVec n ∧ s'.lattice * p.2 = s.lattice * q.2 + s'.lattice * n := by
  obtain ⟨minEle, inds, counts, baseInd, baseSite, s1, s2, s3, f1, f2, f3, -, -, -, h1, h2, e⟩ :=
    findPrimitiveCell_ret h
  set M := Mat3.ofCols f1 f2 f3 with hM
  have hlat : s'.lattice = M := by rw [e, normalizeCoords_lattice]; rfl
  rw [hlat] at hsv' ⊢
  intro p hp
  rw [e] at hp
  obtain ⟨m, hm, hf⟩ := normalizeCoords_sameSites (Structure.new M
    ((foldSites (s.normalizeCoords r.dtol).lattice (Structure.fracTols s.lattice r.dtol) r.dtol
      ((Structure.getFracCoords M (s.normalizeCoords r.dtol).coords).zip
      (s.normalizeCoords r.dtol).species)).map Prod.snd)
    ((foldSites (s.normalizeCoords r.dtol).lattice (Structure.fracTols s.lattice r.dtol) r.dtol
      ((Structure.getFracCoords M (s.normalizeCoords r.dtol).coords).zip
      (s.normalizeCoords r.dtol).species)).map Prod.fst) false) r.dtol
  obtain ⟨q, hq, e1, e2⟩ := forall₂_mem_left hf hp
  rw [hm.mem_iff] at hq
  have hq' : (q.2, q.1) ∈ foldSites (s.normalizeCoords r.dtol).lattice (Structure.fracTols s.lattice r.dtol)
      r.dtol ((Structure.getFracCoords M (s.normalizeCoords r.dtol).coords).zip
      (s.normalizeCoords r.dtol).species) := by
    unfold sites at hq
    simp only [Structure.new] at hq
    simp only [Bool.false_eq_true, if_false] at hq
    rw [List.zip_map'] at hq
    obtain ⟨x, hx, rfl⟩ := List.mem_map.1 hq
    exact hx
  have hq'' := foldSites_mem hq'
  unfold Structure.getFracCoords at hq''
  rw [(normalizeCoords_consistent s r.dtol).2, List.map_map, List.zip_map_left] at hq''
  obtain ⟨w, hw, hw'⟩ := List.mem_map.1 hq''
  simp only [Prod.map, Prod.mk.injEq, Function.comp, id] at hw'
  refine ⟨(w.2, w.1), mem_sites_iff.1 hw, ?_, p.2 - q.2, samePoint_iff_intVec.1 e2, ?_⟩
  · rw [e1]; exact hw'.2
  · have : M * q.2 = s.lattice * w.1 := by
      rw [← hw'.1, normalizeCoords_lattice, ← Mat3.mul_mulVec, mul_pinv hsv', Mat3.one_mulVec]
    rw [Mat3.mulVec_sub, this]
    abel

/-- **C29 (sites), partial.** Every returned site is an input site with the same species, displaced by a
vector of the new lattice plus a vector of the old lattice; if the input positions are already in the cell
(normalising leaves them alone) the old lattice vector is zero.  Missing from the full claim: cells for which
the new lattice is below the pseudo-inverse cut-off (C28 shows it can even be singular). -/
theorem C29_primitive_sites_partial (r : Reducer ℝ) (ord : List (String × ℕ) → List (String × ℕ))
    (s s' : Structure ℝ) (h : r.findPrimitiveCell ord s = .ret s') (hsv' : SvAbove s'.lattice) :
    (∀ p ∈ sites s', ∃ q ∈ sites s, q.1 = p.1 ∧ ∃ n m : Vec3 ℝ, IntVec n ∧ IntVec m ∧
      s'.lattice * p.2 = s.lattice * q.2 + s.lattice * m + s'.lattice * n) ∧
    ((s.fracCoords.map (normFracVec (Structure.fracTols s.lattice r.dtol)) = s.fracCoords) →
      ∀ p ∈ sites s', ∃ q ∈ sites s, q.1 = p.1 ∧ ∃ n : Vec3 ℝ, IntVec n ∧
        s'.lattice * p.2 = s.lattice * q.2 + s'.lattice * n) := by
  constructor
  · intro p hp
    obtain ⟨q, hq, e1, n, hn, e2⟩ := primitive_sites h hsv' p hp
    obtain ⟨m, hm, hf⟩ := normalizeCoords_sameSites s r.dtol
    obtain ⟨q', hq', e3, e4⟩ := forall₂_mem_left hf hq
    refine ⟨q', hm.mem_iff.1 hq', e3.symm.trans e1, n, q.2 - q'.2, hn, samePoint_iff_intVec.1 e4, ?_⟩
    rw [e2, Mat3.mulVec_sub]
    abel
  · intro hn p hp
    obtain ⟨q, hq, e1, n, hn', e2⟩ := primitive_sites h hsv' p hp
    rw [normalizeCoords_sites, List.mem_mergeSort] at hq
    refine ⟨q, ?_, e1, n, hn', e2⟩
    unfold sites
    unfold normedFrac normalizeFracVectors at hq
    rwa [hn] at hq

/-! ## C28 -/

/-- `sortByMag` is determined by its being a sorted rearrangement. -/
theorem sortByMag_eq {l l' : List (Vec3 ℝ)} (hp : l'.Perm l) (hs : l'.Pairwise fun u v => u.mag < v.mag) :
    sortByMag l = l' := by
  have h1 : (sortByMag l).Pairwise fun u v : Vec3 ℝ => u.mag ≤ v.mag := by
    unfold sortByMag
    refine (List.pairwise_mergeSort ?_ ?_ l).imp (fun h => of_decide_eq_true h)
    · intro a b c hab hbc
      exact decide_eq_true (le_trans (of_decide_eq_true hab) (of_decide_eq_true hbc))
    · intro a b
      rcases le_total a.mag b.mag with h | h
      · simp [h]
      · simp [h]
  have hperm : (sortByMag l).Perm l' := (sortByMag_perm l).trans hp.symm
  have h2 : (sortByMag l).Pairwise fun u v : Vec3 ℝ => u.mag < v.mag := by
    have hmap : ((sortByMag l).map Vec3.mag).Perm (l'.map Vec3.mag) := hperm.map _
    have h3 : (l'.map Vec3.mag).Nodup := by
      rw [List.nodup_iff_pairwise_ne, List.pairwise_map]
      exact hs.imp fun h => ne_of_lt h
    have h4 := (hmap.nodup_iff.2 h3)
    rw [List.nodup_iff_pairwise_ne, List.pairwise_map] at h4
    exact (h1.and h4).imp fun h => lt_of_le_of_ne h.1 h.2
  exact hperm.eq_of_pairwise (fun a b _ _ hab hba => absurd (hab.trans hba) (lt_irrefl _)) h2 hs

theorem normFracVec_int {tols v : Vec3 ℝ} (hx : 0 ≤ tols.x ∧ tols.x < 1) (hy : 0 ≤ tols.y ∧ tols.y < 1)
    (hz : 0 ≤ tols.z ∧ tols.z < 1) (hv : IntVec v) : normFracVec tols v = 0 := by
  obtain ⟨i, j, k, rfl⟩ := hv
  have key : ∀ (t : ℝ) (n : ℤ), 0 ≤ t ∧ t < 1 → normComp t (n : ℝ) = 0 := by
    intro t n ht
    have hf : (FRound.fmod1 (n : ℝ) : ℝ) = 0 := by
      rw [fmod1_eq, truncZ]
      split <;> simp
    unfold normComp
    simp only [hf]
    rw [if_neg (by linarith), if_neg (by linarith)]
  ext <;> simp only [normFracVec] <;> apply key <;> assumption

theorem sitesCoincide_of_int {L : Mat3 ℝ} {tols u v : Vec3 ℝ} {dtol : ℝ} (hd : 0 ≤ dtol)
    (hx : 0 ≤ tols.x ∧ tols.x < 1) (hy : 0 ≤ tols.y ∧ tols.y < 1)
    (hz : 0 ≤ tols.z ∧ tols.z < 1) (hv : IntVec (u - v)) :
    Structure.sitesCoincide L tols dtol u v = true := by
  rw [sitesCoincide_iff, normFracVec_int hx hy hz hv, Mat3.mulVec_zero,
    show (0 : Vec3 ℝ).mag = 0 from mag_zero]
  linarith

/-- the unit vectors are always translations. -/
theorem unit_isTranslation {L : Mat3 ℝ} {tols : Vec3 ℝ} {dtol : ℝ} (hd : 0 ≤ dtol)
    (hx : 0 ≤ tols.x ∧ tols.x < 1) (hy : 0 ≤ tols.y ∧ tols.y < 1)
    (hz : 0 ≤ tols.z ∧ tols.z < 1) (l : List (Vec3 ℝ × String)) {e : Vec3 ℝ}
    (he : e ∈ (unitVecs : List (Vec3 ℝ))) : isTranslation L tols dtol l e = true := by
  unfold isTranslation
  rw [List.all_eq_true]
  intro p hp
  rw [List.any_eq_true]
  refine ⟨p, hp, ?_⟩
  rw [Bool.and_eq_true, decide_eq_true_eq]
  refine ⟨rfl, sitesCoincide_of_int hd hx hy hz ?_⟩
  have : p.1 + e - p.1 = e := by abel
  rw [this]
  simp only [unitVecs, List.mem_cons, List.not_mem_nil, or_false] at he
  rcases he with rfl | rfl | rfl
  · exact ⟨1, 0, 0, by simp⟩
  · exact ⟨0, 1, 0, by simp⟩
  · exact ⟨0, 0, 1, by simp⟩

theorem getShortest_three {dtol : ℝ} {a b c x y z : Vec3 ℝ} (hs : sortByMag [a, b, c] = [x, y, z])
    (hxy : dtol < (x.cross y).mag) : getShortestTranslationVecs dtol [a, b, c] = .ret (x, y, z) := by
  have habs : (FRound.abs (x.cross y).mag : ℝ) = (x.cross y).mag := abs_of_nonneg (mag_nonneg _)
  unfold getShortestTranslationVecs
  simp only [hs, List.getElem?_cons_zero, Outcome.ofOption, Outcome.bind, List.drop_succ_cons, List.drop_zero,
    secondScan, habs, if_pos hxy, thirdScan]
  split_ifs <;> simp_all

/-- rearranging the columns is a unimodular change of basis. -/
theorem perm_cols {L : Mat3 ℝ} {x y z : Vec3 ℝ} (hp : [x, y, z].Perm [L.col0, L.col1, L.col2]) :
    ∃ n : Mat3 ℤ, (n.det = 1 ∨ n.det = -1) ∧ (∀ v, SmallVec v → SmallVec (n * v)) ∧
      (∃ m : Mat3 ℤ, n * m = 1 ∧ ∀ v : Vec3 ℤ, SmallVec v → SmallVec (m * v)) ∧
      Mat3.ofCols x y z = L * n.map fun k : ℤ => (k : ℝ) := by
  have h := List.mem_permutations'.2 hp
  simp only [List.permutations', List.permutations'Aux, List.flatMap_cons, List.flatMap_nil, List.map_cons,
    List.map_nil, List.append_nil, List.mem_append, List.mem_cons, List.not_mem_nil, or_false,
    List.cons.injEq, and_true, List.cons_append, List.nil_append] at h
  rcases h with h | h | h | h | h | h <;> obtain ⟨rfl, rfl, rfl⟩ := h
  · exact ⟨⟨1, 0, 0, 0, 1, 0, 0, 0, 1⟩, by decide,
      by rintro v ⟨h1, h2, h3⟩; simp [SmallVec, h1, h2, h3],
      ⟨⟨1, 0, 0, 0, 1, 0, 0, 0, 1⟩, by decide, by rintro v ⟨h1, h2, h3⟩; simp [SmallVec, h1, h2, h3]⟩,
      by ext <;> simp [Mat3.ofCols, Mat3.map, Mat3.col0, Mat3.col1, Mat3.col2]⟩
  · exact ⟨⟨0, 1, 0, 1, 0, 0, 0, 0, 1⟩, by decide,
      by rintro v ⟨h1, h2, h3⟩; simp [SmallVec, h1, h2, h3],
      ⟨⟨0, 1, 0, 1, 0, 0, 0, 0, 1⟩, by decide, by rintro v ⟨h1, h2, h3⟩; simp [SmallVec, h1, h2, h3]⟩,
      by ext <;> simp [Mat3.ofCols, Mat3.map, Mat3.col0, Mat3.col1, Mat3.col2]⟩
  · exact ⟨⟨0, 0, 1, 1, 0, 0, 0, 1, 0⟩, by decide,
      by rintro v ⟨h1, h2, h3⟩; simp [SmallVec, h1, h2, h3],
      ⟨⟨0, 1, 0, 0, 0, 1, 1, 0, 0⟩, by decide, by rintro v ⟨h1, h2, h3⟩; simp [SmallVec, h1, h2, h3]⟩,
      by ext <;> simp [Mat3.ofCols, Mat3.map, Mat3.col0, Mat3.col1, Mat3.col2]⟩
  · exact ⟨⟨1, 0, 0, 0, 0, 1, 0, 1, 0⟩, by decide,
      by rintro v ⟨h1, h2, h3⟩; simp [SmallVec, h1, h2, h3],
      ⟨⟨1, 0, 0, 0, 0, 1, 0, 1, 0⟩, by decide, by rintro v ⟨h1, h2, h3⟩; simp [SmallVec, h1, h2, h3]⟩,
      by ext <;> simp [Mat3.ofCols, Mat3.map, Mat3.col0, Mat3.col1, Mat3.col2]⟩
  · exact ⟨⟨0, 1, 0, 0, 0, 1, 1, 0, 0⟩, by decide,
      by rintro v ⟨h1, h2, h3⟩; simp [SmallVec, h1, h2, h3],
      ⟨⟨0, 0, 1, 1, 0, 0, 0, 1, 0⟩, by decide, by rintro v ⟨h1, h2, h3⟩; simp [SmallVec, h1, h2, h3]⟩,
      by ext <;> simp [Mat3.ofCols, Mat3.map, Mat3.col0, Mat3.col1, Mat3.col2]⟩
  · exact ⟨⟨0, 0, 1, 0, 1, 0, 1, 0, 0⟩, by decide,
      by rintro v ⟨h1, h2, h3⟩; simp [SmallVec, h1, h2, h3],
      ⟨⟨0, 0, 1, 0, 1, 0, 1, 0, 0⟩, by decide, by rintro v ⟨h1, h2, h3⟩; simp [SmallVec, h1, h2, h3]⟩,
      by ext <;> simp [Mat3.ofCols, Mat3.map, Mat3.col0, Mat3.col1, Mat3.col2]⟩

theorem translationWithin_congr {s : Structure ℝ} {δ : ℝ} {t t' : Vec3 ℝ} (h : TranslationWithin s δ t)
    (ht : SamePoint t t') : TranslationWithin s δ t' := by
  intro p hp
  obtain ⟨q, hq, e, d, h1, h2⟩ := h p hp
  refine ⟨q, hq, e, d, h1.trans ?_, h2⟩
  rw [samePoint_iff_intVec] at ht ⊢
  have : p.2 + t - q.2 - (p.2 + t' - q.2) = t - t' := by abel
  rw [this]; exact ht

/-- an element that occurs once: there is no second site of a rarest element. -/
theorem noTranslation_of_once {s : Structure ℝ} (δ : ℝ) (h : ∃ e, s.species.count e = 1) : NoTranslation s δ := by
  obtain ⟨e0, he0⟩ := h
  have hm0 : e0 ∈ s.species := List.count_pos_iff.1 (by rw [he0]; exact one_pos)
  refine ⟨List.ne_nil_of_mem hm0, ?_⟩
  rw [List.pairwise_iff_getElem]
  intro i j hi hj hij h1 ⟨hr1, hr2⟩
  exfalso
  have hc : s.species.count (sites s)[i].1 = 1 := by
    have := hr2 e0 hm0
    have h2 := List.count_pos_iff.2 hr1
    omega
  have hli : i < s.species.length := by simp [sites] at hi; omega
  have hlj : j < s.species.length := by simp [sites] at hj; omega
  have ei : (sites s)[i].1 = s.species[i] := by simp [sites]
  have ej : (sites s)[j].1 = s.species[j] := by simp [sites]
  have : List.Duplicate s.species[i] s.species := by
    rw [List.duplicate_iff_exists_distinct_get]
    exact ⟨⟨i, hli⟩, ⟨j, hlj⟩, hij, rfl, by rw [← ei, h1, ej]; rfl⟩
  rw [List.duplicate_iff_two_le_count, ← ei] at this
  omega

/-- none of the candidates is a translation of the crystal, apart from the unit vectors. -/
theorem candidates_filtered {s : Structure ℝ} {dtol : ℝ} {tols base : Vec3 ℝ} (hno : NoTranslation s (dtol * 2))
    {e : String} {i : ℕ} (hr : Rarest s e) (hi : (s.normalizeCoords dtol).species[i]? = some e)
    (hb : (s.normalizeCoords dtol).fracCoords[i]? = some base) :
    (candidateVecs tols e i base (s.normalizeCoords dtol).species (s.normalizeCoords dtol).fracCoords).filter
      (isTranslation s.lattice tols dtol ((s.normalizeCoords dtol).fracCoords.zip (s.normalizeCoords dtol).species))
      = unitVecs.filter (isTranslation s.lattice tols dtol
        ((s.normalizeCoords dtol).fracCoords.zip (s.normalizeCoords dtol).species)) := by
  set temp := s.normalizeCoords dtol with htemp
  -- the pairs of sites after normalisation
  have hpw : (sites temp).Pairwise fun x y => x.1 = y.1 → Rarest s x.1 →
      ¬ TranslationWithin s (dtol * 2) (y.2 - x.2) ∧ ¬ TranslationWithin s (dtol * 2) (x.2 - y.2) := by
    rw [htemp, normalizeCoords_sites, (List.mergeSort_perm _ _).pairwise_iff (by
      intro x y h h1 h2
      exact (h h1.symm (h1 ▸ h2)).symm)]
    have hmap : s.species.zip (normedFrac s dtol) =
        (sites s).map fun x => (x.1, normFracVec (Structure.fracTols s.lattice dtol) x.2) := by
      unfold sites normedFrac normalizeFracVectors
      rw [List.zip_map_right]
      rfl
    rw [hmap, List.pairwise_map]
    refine hno.2.imp ?_
    intro x y h h1 h2
    obtain ⟨g1, g2⟩ := h h1 h2
    have hn := fun v : Vec3 ℝ => samePoint_normFracVec (K := ℝ) (Structure.fracTols s.lattice dtol) v
    exact ⟨fun h3 => g1 (translationWithin_congr h3 (samePoint_add_sub (hn _) (hn _) rfl rfl)),
      fun h3 => g2 (translationWithin_congr h3 (samePoint_add_sub (hn _) (hn _) rfl rfl))⟩
  unfold candidateVecs
  rw [List.filter_append]
  convert List.append_nil _
  rw [List.filter_eq_nil_iff]
  intro v hv htr
  obtain ⟨p, hp, hpv⟩ := List.mem_filterMap.1 hv
  split_ifs at hpv with hc
  cases hpv
  have htw := translationWithin_congr (isTranslation_sound s dtol tols _ htr) (samePoint_normFracVec _ _)
  obtain ⟨⟨x, e'⟩, j⟩ := p
  obtain ⟨h1, h2⟩ := hc
  simp only at h1 h2 htw
  subst h1
  have hj := List.mem_zipIdx_iff_getElem?.1 hp
  simp only at hj
  rw [List.getElem?_zip_eq_some] at hj
  have hxj : (sites temp)[j]? = some (e', x) := by
    unfold sites
    rw [List.getElem?_zip_eq_some]
    exact ⟨hj.2, hj.1⟩
  have hxi : (sites temp)[i]? = some (e', base) := by
    unfold sites
    rw [List.getElem?_zip_eq_some]
    exact ⟨hi, hb⟩
  obtain ⟨li, gi⟩ := List.getElem?_eq_some_iff.1 hxi
  obtain ⟨lj, gj⟩ := List.getElem?_eq_some_iff.1 hxj
  rw [List.pairwise_iff_getElem] at hpw
  rcases lt_or_gt_of_ne h2 with hlt | hlt
  · have := (hpw j i lj li hlt (by rw [gi, gj]) (by rw [gj]; exact hr)).2
    rw [gi, gj] at this
    exact this htw
  · have := (hpw i j li lj hlt (by rw [gi, gj]) (by rw [gi]; exact hr)).1
    rw [gi, gj] at this
    exact this htw

/-- what happens when the cell is primitive: the first selection gives the cell vectors in another order
(the columns of `M`), the second one runs over their combinations with coefficients `-1`, `0`, `1`. -/
theorem primitive_once (r : Reducer ℝ) (ord : List (String × ℕ) → List (String × ℕ))
    (ho : ∀ l, (ord l).Perm l) (s : Structure ℝ) (hn : s.numSites < 65536)
    (hlen : s.species.length = s.fracCoords.length) (hsv : SvAbove s.lattice)
    (hno : NoTranslation s (r.dtol * 2)) (hd : 0 < r.dtol)
    (hcols : r.dtol < s.a ∧ r.dtol < s.b ∧ r.dtol < s.c) (hvol : r.dtol < |s.volume|)
    (harea : ∀ u v : Vec3 ℝ, IntVec u → IntVec v → (s.lattice * u).cross (s.lattice * v) ≠ 0 →
      r.dtol < ((s.lattice * u).cross (s.lattice * v)).mag) :
    ∃ (s' : Structure ℝ) (M : Mat3 ℝ) (n : Mat3 ℤ) (f1 f2 f3 : Vec3 ℝ), r.findPrimitiveCell ord s = .ret s' ∧
      s'.lattice = Mat3.ofCols f1 f2 f3 ∧ M = s.lattice * n.map (fun k : ℤ => (k : ℝ)) ∧ (n.det = 1 ∨ n.det = -1) ∧
      (∀ v : Vec3 ℤ, SmallVec v → SmallVec (n * v)) ∧
      (∃ m : Mat3 ℤ, n * m = 1 ∧ ∀ v : Vec3 ℤ, SmallVec v → SmallVec (m * v)) ∧
      (∀ u v : Vec3 ℝ, IntVec u → IntVec v →
        ((M * u).cross (M * v)).mag ≤ r.dtol → (M * u).cross (M * v) = 0) ∧ M.det ≠ 0 ∧ |M.det| = |s.lattice.det| ∧
      getShortestTranslationVecs r.dtol (Structure.getCartCoords s.lattice (combinationVecs
        (Mat3.ofCols (FTrans.pinv s.lattice * M.col0) (FTrans.pinv s.lattice * M.col1)
          (FTrans.pinv s.lattice * M.col2)))) = .ret (f1, f2, f3) := by
  set temp := s.normalizeCoords r.dtol with htemp
  set tols := Structure.fracTols s.lattice r.dtol with htols
  have hlat : temp.lattice = s.lattice := rfl
  have hperm : temp.species.Perm s.species := by
    have h1 := normalizeCoords_sites s r.dtol
    have h2 : temp.species = (sites temp).map Prod.fst :=
      species_eq_of_sites (normalizeCoords_consistent s r.dtol).1
    rw [h2, h1]
    refine ((List.mergeSort_perm _ _).map _).trans ?_
    rw [List.map_fst_zip]
    simp [normedFrac, normalizeFracVectors, hlen]
  have hne : temp.species ≠ [] := by
    intro h0
    rw [h0] at hperm
    exact hno.1 hperm.nil_eq.symm
  obtain ⟨⟨minEle, inds, counts⟩, hmin⟩ := (C19_get_min_element_panics_iff temp ord ho).2 hne
  have hn' : temp.numSites < 65536 := by
    unfold Structure.numSites at hn ⊢; rw [hperm.length_eq]; exact hn
  obtain ⟨⟨hmem, hleast⟩, hinds, -⟩ := C19_get_min_element temp ord ho hn' minEle inds counts hmin
  have hrare : Rarest s minEle := by
    refine ⟨hperm.mem_iff.1 hmem, fun e he => ?_⟩
    have := hleast e (hperm.mem_iff.2 he)
    rw [hperm.count_eq, hperm.count_eq] at this
    rcases this with h | h
    · exact h.le
    · exact h.1.le
  have hind : amapGet? inds minEle = some (temp.species.idxOf minEle) := by rw [hinds, if_pos hmem]
  set i := temp.species.idxOf minEle with hi
  have hilt : i < temp.species.length := List.idxOf_lt_length_of_mem hmem
  have hi' : temp.species[i]? = some minEle := by
    rw [List.getElem?_eq_getElem hilt, List.getElem_idxOf]
  have hilt' : i < temp.fracCoords.length := by
    rw [← (normalizeCoords_consistent s r.dtol).1]; exact hilt
  have htol : ∀ m : ℝ, r.dtol < m → 0 ≤ r.dtol / m ∧ r.dtol / m < 1 := by
    intro m hm
    have : 0 < m := lt_trans hd hm
    exact ⟨by positivity, by rw [div_lt_one this]; exact hm⟩
  have htx : 0 ≤ tols.x ∧ tols.x < 1 := htol _ hcols.1
  have hty : 0 ≤ tols.y ∧ tols.y < 1 := htol _ hcols.2.1
  have htz : 0 ≤ tols.z ∧ tols.z < 1 := htol _ hcols.2.2
  have hfilter : (candidateVecs tols minEle i (temp.fracCoords[i]'hilt') temp.species temp.fracCoords).filter
        (isTranslation temp.lattice tols r.dtol (temp.fracCoords.zip temp.species)) = unitVecs := by
    refine (candidates_filtered hno hrare hi' (List.getElem?_eq_getElem hilt')).trans ?_
    rw [List.filter_eq_self]
    intro e he
    exact unit_isTranslation hd.le htx hty htz _ he
  have hcart : Structure.getCartCoords temp.lattice unitVecs
      = [s.lattice.col0, s.lattice.col1, s.lattice.col2] := by
    rw [hlat]
    simp only [Structure.getCartCoords, unitVecs, List.map_cons, List.map_nil, List.cons.injEq, and_true]
    refine ⟨?_, ?_, ?_⟩ <;> ext <;> simp [Mat3.col0, Mat3.col1, Mat3.col2]
  -- the first selection
  obtain ⟨x, y, z, hxyz⟩ : ∃ x y z, sortByMag [s.lattice.col0, s.lattice.col1, s.lattice.col2] = [x, y, z] := by
    have := (sortByMag_perm [s.lattice.col0, s.lattice.col1, s.lattice.col2]).length_eq
    exact List.length_eq_three.1 this
  have hp3 : [x, y, z].Perm [s.lattice.col0, s.lattice.col1, s.lattice.col2] := hxyz ▸ sortByMag_perm _
  obtain ⟨n, hndet, hsmall, hninv, hM⟩ := perm_cols hp3
  set M := Mat3.ofCols x y z with hMdef
  have hMdet : |M.det| = |s.lattice.det| := by
    rw [hM, Mat3.det_mul, intCast_det, abs_mul]
    rcases hndet with h | h <;> rw [h] <;> simp
  have hM0 : M.det ≠ 0 := by
    rw [← abs_pos, hMdet]
    exact lt_trans hd hvol
  have hMarea : ∀ u v : Vec3 ℝ, IntVec u → IntVec v →
      ((M * u).cross (M * v)).mag ≤ r.dtol → (M * u).cross (M * v) = 0 := by
    intro u v hu hv hle
    rw [hM, Mat3.mul_mulVec, Mat3.mul_mulVec] at hle ⊢
    by_contra hne
    exact absurd (harea _ _ (intVec_mulVec hu) (intVec_mulVec hv) hne) (not_lt.2 hle)
  have hxy : r.dtol < (x.cross y).mag := by
    have hx : M * (⟨1, 0, 0⟩ : Vec3 ℝ) = x := by ext <;> simp [hMdef, Mat3.ofCols]
    have hy : M * (⟨0, 1, 0⟩ : Vec3 ℝ) = y := by ext <;> simp [hMdef, Mat3.ofCols]
    by_contra hle
    have h0 := hMarea ⟨1, 0, 0⟩ ⟨0, 1, 0⟩ ⟨1, 0, 0, by simp⟩ ⟨0, 1, 0, by simp⟩ (by rw [hx, hy]; exact not_lt.1 hle)
    rw [hx, hy] at h0
    apply hM0
    have h1 := congrArg Vec3.x h0
    have h2 := congrArg Vec3.y h0
    have h3 := congrArg Vec3.z h0
    simp only [Vec3.cross, Vec3.zero_x, Vec3.zero_y, Vec3.zero_z] at h1 h2 h3
    simp only [hMdef, Mat3.det, Mat3.ofCols]
    linear_combination z.x * h1 + z.y * h2 + z.z * h3
  have hfirst := getShortest_three hxyz hxy
  -- the second selection
  obtain ⟨f1, f2, f3, hsecond⟩ := getShortest_ret r.dtol (l := Structure.getCartCoords s.lattice (combinationVecs
        (Mat3.ofCols (FTrans.pinv s.lattice * M.col0) (FTrans.pinv s.lattice * M.col1)
          (FTrans.pinv s.lattice * M.col2)))) (by
      unfold Structure.getCartCoords
      rw [List.length_map]; exact combinationVecs_length _)
  have hret : ∃ s', r.findPrimitiveCell ord s = .ret s' ∧ s'.lattice = Mat3.ofCols f1 f2 f3 := by
    unfold findPrimitiveCell
    simp only
    rw [← htemp, ← htols, hmin]
    simp only [Outcome.bind, hind, Outcome.ofOption]
    rw [List.getElem?_eq_getElem hilt']
    simp only
    rw [hfilter, hcart, hfirst]
    simp only
    rw [hlat, show x = M.col0 from rfl, show y = M.col1 from rfl, show z = M.col2 from rfl, hsecond]
    exact ⟨_, rfl, rfl⟩
  obtain ⟨s', hs', hl'⟩ := hret
  exact ⟨s', M, n, f1, f2, f3, hs', hl', hM, hndet, hsmall, hninv, hMarea, hM0, hMdet, hsecond⟩

/-- **C28, partial.** Let the cell be primitive already (`NoTranslation`; for instance because some element occurs exactly
once, `noTranslation_of_once`), let the tolerance be positive and smaller than the three lattice vectors, the volume, and the area spanned by any
two independent lattice vectors.  Then `find_primitive_cell` returns, and the returned lattice is positively
oriented and not singular, whatever the handedness of the input; its vectors are combinations of the old
ones with coefficients `-1`, `0`, `1`, they form a basis of the old lattice, and the volume is kept.  Missing from the full
claim: cells that are not primitive, for which it is false (below), and larger tolerances. -/
theorem C28_primitive_right_handed_partial (r : Reducer ℝ) (ord : List (String × ℕ) → List (String × ℕ))
    (ho : ∀ l, (ord l).Perm l) (s : Structure ℝ) (hn : s.numSites < 65536)
    (hlen : s.species.length = s.fracCoords.length) (hsv : SvAbove s.lattice)
    (hno : NoTranslation s (r.dtol * 2)) (hd : 0 < r.dtol)
    (hcols : r.dtol < s.a ∧ r.dtol < s.b ∧ r.dtol < s.c) (hvol : r.dtol < |s.volume|)
    (harea : ∀ u v : Vec3 ℝ, IntVec u → IntVec v → (s.lattice * u).cross (s.lattice * v) ≠ 0 →
      r.dtol < ((s.lattice * u).cross (s.lattice * v)).mag) :
    ∃ s', r.findPrimitiveCell ord s = .ret s' ∧ r.dtol < s'.volume ∧
      ∃ a b c : Vec3 ℤ, SmallVec a ∧ SmallVec b ∧ SmallVec c ∧
        s'.lattice = s.lattice * (Mat3.ofCols a b c).map (fun k : ℤ => (k : ℝ)) ∧
        (Mat3.ofCols a b c).det.natAbs = 1 ∧ s'.volume = |s.volume| := by
  obtain ⟨s', M, n, f1, f2, f3, hs', hl', hM, hndet, hsmall, -, hMarea, hM0, hMdet, hsecond⟩ :=
    primitive_once r ord ho s hn hlen hsv hno hd hcols hvol harea
  have hpos := second_pos hsv hd.le hM0 hMarea (by rw [hMdet]; exact hvol) hsecond
  obtain ⟨hvol', m, hm1, s0, s1, s2, hm⟩ := second_index hsv hd.le hM0 hMarea (by rw [hMdet]; exact hvol) hsecond
  have hnm : Mat3.ofCols (n * m.col0) (n * m.col1) (n * m.col2) = n * m := by
    ext <;> simp [Mat3.ofCols, Mat3.col0, Mat3.col1, Mat3.col2]
  refine ⟨s', hs', ?_, n * m.col0, n * m.col1, n * m.col2, hsmall _ s0, hsmall _ s1, hsmall _ s2, ?_, ?_, ?_⟩
  · unfold Structure.volume
    rw [hl']
    exact hpos
  · rw [hl', hm, hM, hnm, mul_assoc]
    congr 1
    ext <;> simp [Mat3.map]
  · rw [hnm, Mat3.det_mul, Int.natAbs_mul, hm1]
    rcases hndet with h | h <;> rw [h] <;> rfl
  · unfold Structure.volume
    rw [hl', hvol', hMdet]

/-- the unit cell with one site. -/
noncomputable def oneSite : Structure ℝ := Structure.new 1 ["X"] [⟨1 / 4, 1 / 4, 1 / 4⟩] false

/-- the hypotheses of C28 (partial), C29 and C29 (sites) are met by `oneSite`, with the default tolerances. -/
example : ∃ s', (Reducer.default : Reducer ℝ).findPrimitiveCell id oneSite = .ret s' ∧ 0 < s'.volume ∧
    SvAbove oneSite.lattice ∧ SvAbove s'.lattice := by
  have hd : (Reducer.default : Reducer ℝ).dtol = 1 / 20 := by norm_num [Reducer.default, lit]
  have hl : oneSite.lattice = 1 := rfl
  have hsv : SvAbove oneSite.lattice := svAbove_diag (by norm_num) (by norm_num) (by norm_num)
  have hone : Real.sqrt 1 = 1 := Real.sqrt_one
  obtain ⟨s', h1, h2, a, b, c, ⟨a1, a2, a3⟩, ⟨b1, b2, b3⟩, ⟨c1, c2, c3⟩, h3, -⟩ :=
    C28_primitive_right_handed_partial (Reducer.default : Reducer ℝ) id (fun _ => List.Perm.refl _) oneSite
      (by decide) rfl hsv (noTranslation_of_once _ ⟨"X", by decide⟩) (by rw [hd]; norm_num)
      (by rw [hd]; norm_num [Structure.a, Structure.b, Structure.c, hl, Mat3.col0, Mat3.col1, Mat3.col2, mag_eq,
        lenSq])
      (by rw [hd]; norm_num [Structure.volume, hl, Mat3.det])
      (by
        rintro u v ⟨i, j, k, rfl⟩ ⟨i', j', k', rfl⟩
        rw [hd, hl, Mat3.one_mulVec, Mat3.one_mulVec]
        intro hne
        have e : (⟨i, j, k⟩ : Vec3 ℝ).cross ⟨i', j', k'⟩ = (⟨((j * k' - k * j' : ℤ) : ℝ),
            ((k * i' - i * k' : ℤ) : ℝ), ((i * j' - j * i' : ℤ) : ℝ)⟩ : Vec3 ℝ) := by
          simp [Vec3.cross]
        rw [e] at hne ⊢
        rw [mag_eq]
        refine lt_of_lt_of_le (b := 1) (by norm_num) ?_
        rw [Real.one_le_sqrt]
        unfold lenSq
        simp only
        generalize j * k' - k * j' = p at *
        generalize k * i' - i * k' = q at *
        generalize i * j' - j * i' = t at *
        have : (1 : ℤ) ≤ p * p + q * q + t * t := by
          by_contra hlt
          have hp : p = 0 := by nlinarith [mul_self_nonneg p, mul_self_nonneg q, mul_self_nonneg t]
          have hq : q = 0 := by nlinarith [mul_self_nonneg p, mul_self_nonneg q, mul_self_nonneg t]
          have ht : t = 0 := by nlinarith [mul_self_nonneg p, mul_self_nonneg q, mul_self_nonneg t]
          apply hne
          rw [hp, hq, ht]
          ext <;> simp
        exact_mod_cast this)
  have hpos : 0 < s'.volume := by rw [hd] at h2; linarith
  refine ⟨s', h1, hpos, hsv, svAbove_of_size ?_⟩
  rw [hl, one_mul] at h3
  have hdet : (1 : ℝ) ≤ s'.lattice.det := by
    unfold Structure.volume at hpos
    rw [h3, intCast_det] at hpos ⊢
    have : 0 < (Mat3.ofCols a b c).det := by exact_mod_cast hpos
    exact_mod_cast this
  have sq1 : ∀ x : ℤ, |x| ≤ 1 → (x : ℝ) * x ≤ 1 := by
    intro x hx
    have : x * x ≤ 1 := by
      obtain ⟨h1, h2⟩ := abs_le.1 hx
      nlinarith
    exact_mod_cast this
  have hsize : lenSq s'.lattice.col0 + lenSq s'.lattice.col1 + lenSq s'.lattice.col2 ≤ 9 := by
    rw [h3]
    simp only [lenSq, Mat3.col0, Mat3.col1, Mat3.col2, Mat3.map, Mat3.ofCols]
    linarith [sq1 _ a1, sq1 _ a2, sq1 _ a3, sq1 _ b1, sq1 _ b2, sq1 _ b3, sq1 _ c1, sq1 _ c2, sq1 _ c3]
  have h0 : 0 ≤ lenSq s'.lattice.col0 + lenSq s'.lattice.col1 + lenSq s'.lattice.col2 := by
    linarith [lenSq_nonneg s'.lattice.col0, lenSq_nonneg s'.lattice.col1, lenSq_nonneg s'.lattice.col2]
  nlinarith

/-! ### C28 is false of the code -/

/-- two sites of the same element in a right-handed `2 × 4 × 3` cell, half a cell apart along the first axis. -/
noncomputable def halfCell : Structure ℝ :=
  Structure.new ⟨2, 0, 0, 0, 4, 0, 0, 0, 3⟩ ["X", "X"] [⟨0, 0, 0⟩, ⟨1 / 2, 0, 0⟩] false

theorem mag_axis_x {x : ℝ} (h : 0 ≤ x) : (⟨x, 0, 0⟩ : Vec3 ℝ).mag = x := by
  rw [mag_eq, lenSq, show x * x + 0 * 0 + 0 * 0 = x * x by ring, Real.sqrt_mul_self h]
theorem mag_axis_y {x : ℝ} (h : 0 ≤ x) : (⟨0, x, 0⟩ : Vec3 ℝ).mag = x := by
  rw [mag_eq, lenSq, show 0 * 0 + x * x + 0 * 0 = x * x by ring, Real.sqrt_mul_self h]
theorem mag_axis_z {x : ℝ} (h : 0 ≤ x) : (⟨0, 0, x⟩ : Vec3 ℝ).mag = x := by
  rw [mag_eq, lenSq, show 0 * 0 + 0 * 0 + x * x = x * x by ring, Real.sqrt_mul_self h]

theorem halfCell_tols : Structure.fracTols halfCell.lattice (Reducer.default : Reducer ℝ).dtol
    = ⟨1 / 40, 1 / 80, 1 / 60⟩ := by
  unfold Structure.fracTols
  simp only [halfCell, Structure.new, Mat3.col0, Mat3.col1, Mat3.col2, Reducer.default, lit, Bool.false_eq_true,
    if_false]
  rw [mag_axis_x (by norm_num), mag_axis_y (by norm_num), mag_axis_z (by norm_num)]
  norm_num

theorem halfCell_norm : normFracVec (⟨1 / 40, 1 / 80, 1 / 60⟩ : Vec3 ℝ) ⟨0, 0, 0⟩ = ⟨0, 0, 0⟩ ∧
    normFracVec (⟨1 / 40, 1 / 80, 1 / 60⟩ : Vec3 ℝ) ⟨1 / 2, 0, 0⟩ = ⟨1 / 2, 0, 0⟩ := by
  constructor <;> simp only [normFracVec, Vec3.mk.injEq] <;> refine ⟨?_, ?_, ?_⟩ <;>
    exact normComp_of_mem (by norm_num) (by norm_num) (by norm_num) (by norm_num)

theorem halfCell_normalize : halfCell.normalizeCoords (Reducer.default : Reducer ℝ).dtol = halfCell := by
  have hsort : ∀ p q : Vec3 ℝ × Vec3 ℝ, Structure.sortBySpecies [("X", p), ("X", q)] = [("X", p), ("X", q)] :=
    fun p q => mergeSort_key_of_sorted Prod.fst (by simp)
  unfold Structure.normalizeCoords
  simp only [halfCell_tols]
  simp only [halfCell, Structure.new, Bool.false_eq_true, if_false, normalizeFracVectors, List.map_cons,
    List.map_nil, halfCell_norm.1, halfCell_norm.2, Structure.getCartCoords, List.zip_cons_cons, List.zip_nil_left,
    hsort]

/-- **C28 is false.** With the default tolerances, for every hash order, the primitive cell found for
`halfCell` has a singular lattice: three vectors in one plane. -/
theorem C28_false_singular (ord : List (String × ℕ) → List (String × ℕ)) (ho : ∀ l, (ord l).Perm l) :
    0 < halfCell.volume ∧ SvAbove halfCell.lattice ∧ Consistent halfCell ∧
    ∃ s', (Reducer.default : Reducer ℝ).findPrimitiveCell ord halfCell = .ret s' ∧ s'.volume = 0 := by
  have hsv : SvAbove halfCell.lattice := svAbove_diag (by norm_num) (by norm_num) (by norm_num)
  refine ⟨by norm_num [halfCell, Structure.new, Structure.volume, Mat3.det], hsv, ⟨rfl, rfl⟩, ?_⟩
  obtain ⟨⟨minEle, inds, counts⟩, hmin⟩ := (C19_get_min_element_panics_iff halfCell ord ho).2 (by
    simp [halfCell, Structure.new])
  obtain ⟨⟨hmem, -⟩, hinds, -⟩ := C19_get_min_element halfCell ord ho (by
    simp [halfCell, Structure.new, Structure.numSites]) minEle inds counts hmin
  have hX : minEle = "X" := by simpa [halfCell, Structure.new] using hmem
  subst hX
  have hind : amapGet? inds "X" = some 0 := by
    rw [hinds, if_pos hmem]
    simp [halfCell, Structure.new]
  have hbase : halfCell.fracCoords[0]? = some (⟨0, 0, 0⟩ : Vec3 ℝ) := rfl
  set tols : Vec3 ℝ := ⟨1 / 40, 1 / 80, 1 / 60⟩ with htols
  set d : ℝ := (Reducer.default : Reducer ℝ).dtol with hd
  have hdv : d = 1 / 20 := by rw [hd]; norm_num [Reducer.default, lit]
  have hd0 : 0 ≤ d := by rw [hdv]; norm_num
  have hcand : candidateVecs tols "X" 0 ⟨0, 0, 0⟩ halfCell.species halfCell.fracCoords
      = unitVecs ++ [⟨1 / 2, 0, 0⟩] := by
    unfold candidateVecs
    congr 1
    simp only [halfCell, Structure.new, Bool.false_eq_true, if_false, List.zip_cons_cons, List.zip_nil_left,
      List.zipIdx_cons, List.zipIdx_nil, List.filterMap_cons, List.filterMap_nil]
    have : (⟨1 / 2, 0, 0⟩ : Vec3 ℝ) - ⟨0, 0, 0⟩ = ⟨1 / 2, 0, 0⟩ := by ext <;> simp
    have hn2 : normFracVec tols (⟨1 / 2, 0, 0⟩ : Vec3 ℝ) = ⟨1 / 2, 0, 0⟩ := halfCell_norm.2
    simp only [this, hn2]
    simp
  have hfilter : (unitVecs ++ [(⟨1 / 2, 0, 0⟩ : Vec3 ℝ)]).filter
      (isTranslation halfCell.lattice tols d (halfCell.fracCoords.zip halfCell.species))
      = unitVecs ++ [⟨1 / 2, 0, 0⟩] := by
    rw [List.filter_eq_self]
    intro e he
    have t1 : 0 ≤ tols.x ∧ tols.x < 1 := by norm_num [htols]
    have t2 : 0 ≤ tols.y ∧ tols.y < 1 := by norm_num [htols]
    have t3 : 0 ≤ tols.z ∧ tols.z < 1 := by norm_num [htols]
    rcases List.mem_append.1 he with he | he
    · exact unit_isTranslation hd0 t1 t2 t3 _ he
    · rw [List.mem_singleton] at he
      subst he
      unfold isTranslation
      rw [List.all_eq_true]
      intro p hp
      rw [List.any_eq_true]
      have hp' : p = ((⟨0, 0, 0⟩ : Vec3 ℝ), "X") ∨ p = ((⟨1 / 2, 0, 0⟩ : Vec3 ℝ), "X") := by
        simpa [halfCell, Structure.new] using hp
      rcases hp' with rfl | rfl
      · refine ⟨((⟨1 / 2, 0, 0⟩ : Vec3 ℝ), "X"), by simp [halfCell, Structure.new], ?_⟩
        rw [Bool.and_eq_true]
        exact ⟨by simp, sitesCoincide_of_int hd0 t1 t2 t3 ⟨0, 0, 0, by ext <;> simp⟩⟩
      · refine ⟨((⟨0, 0, 0⟩ : Vec3 ℝ), "X"), by simp [halfCell, Structure.new], ?_⟩
        rw [Bool.and_eq_true]
        exact ⟨by simp, sitesCoincide_of_int hd0 t1 t2 t3 ⟨1, 0, 0, by ext <;> simp; norm_num⟩⟩
  have hcart : Structure.getCartCoords halfCell.lattice (unitVecs ++ [⟨1 / 2, 0, 0⟩])
      = [⟨2, 0, 0⟩, ⟨0, 4, 0⟩, ⟨0, 0, 3⟩, ⟨1, 0, 0⟩] := by
    simp only [Structure.getCartCoords, unitVecs, List.cons_append, List.nil_append, List.map_cons, List.map_nil,
      List.cons.injEq, and_true]
    refine ⟨?_, ?_, ?_, ?_⟩ <;> ext <;> simp [halfCell, Structure.new]
  have hsort : sortByMag [(⟨2, 0, 0⟩ : Vec3 ℝ), ⟨0, 4, 0⟩, ⟨0, 0, 3⟩, ⟨1, 0, 0⟩]
      = [⟨1, 0, 0⟩, ⟨2, 0, 0⟩, ⟨0, 0, 3⟩, ⟨0, 4, 0⟩] := by
    apply sortByMag_eq
    · refine List.Perm.trans (l₂ := [⟨1, 0, 0⟩, ⟨2, 0, 0⟩, ⟨0, 4, 0⟩, ⟨0, 0, 3⟩]) ?_ ?_
      · exact (List.Perm.swap _ _ _).cons _ |>.cons _
      · exact (List.perm_append_singleton (⟨1, 0, 0⟩ : Vec3 ℝ) [⟨2, 0, 0⟩, ⟨0, 4, 0⟩, ⟨0, 0, 3⟩]).symm
    · simp only [List.pairwise_cons, List.mem_cons, List.not_mem_nil, or_false, forall_eq_or_imp, forall_eq,
        IsEmpty.forall_iff, implies_true, List.Pairwise.nil, and_true]
      rw [mag_axis_x (by norm_num), mag_axis_x (by norm_num), mag_axis_y (by norm_num), mag_axis_z (by norm_num)]
      norm_num
  have hfirst : getShortestTranslationVecs d [(⟨2, 0, 0⟩ : Vec3 ℝ), ⟨0, 4, 0⟩, ⟨0, 0, 3⟩, ⟨1, 0, 0⟩]
      = .ret (⟨1, 0, 0⟩, ⟨0, 0, 3⟩, ⟨0, 0, 3⟩) := by
    have c1 : (⟨1, 0, 0⟩ : Vec3 ℝ).cross ⟨2, 0, 0⟩ = ⟨0, 0, 0⟩ := by ext <;> simp [Vec3.cross]
    have c2 : (⟨1, 0, 0⟩ : Vec3 ℝ).cross ⟨0, 0, 3⟩ = ⟨0, -3, 0⟩ := by ext <;> simp [Vec3.cross]
    have m1 : (FRound.abs (⟨0, 0, 0⟩ : Vec3 ℝ).mag : ℝ) = 0 := by rw [mag_zero]; exact abs_zero
    have m2 : (FRound.abs (⟨0, -3, 0⟩ : Vec3 ℝ).mag : ℝ) = 3 := by
      rw [mag_eq, lenSq, show (0 * 0 + -3 * -3 + 0 * 0 : ℝ) = 3 * 3 by norm_num, Real.sqrt_mul_self (by norm_num)]
      exact abs_of_nonneg (by norm_num)
    have d1 : (⟨0, -3, 0⟩ : Vec3 ℝ).dot ⟨0, 4, 0⟩ = -12 := by norm_num [Vec3.dot]
    unfold getShortestTranslationVecs
    simp only [hsort, List.getElem?_cons_zero, Outcome.ofOption, Outcome.bind, List.drop_succ_cons,
      List.drop_zero, secondScan, c1, m1, c2, m2, hdv]
    norm_num
    simp only [thirdScan, d1]
    norm_num
  obtain ⟨f1, f2, f3, hsecond⟩ := getShortest_ret d (l := Structure.getCartCoords halfCell.lattice (combinationVecs
        (Mat3.ofCols (FTrans.pinv halfCell.lattice * (⟨1, 0, 0⟩ : Vec3 ℝ))
          (FTrans.pinv halfCell.lattice * (⟨0, 0, 3⟩ : Vec3 ℝ))
          (FTrans.pinv halfCell.lattice * (⟨0, 0, 3⟩ : Vec3 ℝ))))) (by
      unfold Structure.getCartCoords
      rw [List.length_map]; exact combinationVecs_length _)
  -- every combination lies in the plane `y = 0`
  have hplane : ∀ v ∈ Structure.getCartCoords halfCell.lattice (combinationVecs
        (Mat3.ofCols (FTrans.pinv halfCell.lattice * (⟨1, 0, 0⟩ : Vec3 ℝ))
          (FTrans.pinv halfCell.lattice * (⟨0, 0, 3⟩ : Vec3 ℝ))
          (FTrans.pinv halfCell.lattice * (⟨0, 0, 3⟩ : Vec3 ℝ)))), v.y = 0 := by
    intro v hv
    unfold Structure.getCartCoords at hv
    obtain ⟨u, hu, rfl⟩ := List.mem_map.1 hv
    obtain ⟨a, b, c, rfl⟩ := mem_combinationVecs hu
    have e : Mat3.ofCols (FTrans.pinv halfCell.lattice * (⟨1, 0, 0⟩ : Vec3 ℝ))
          (FTrans.pinv halfCell.lattice * (⟨0, 0, 3⟩ : Vec3 ℝ))
          (FTrans.pinv halfCell.lattice * (⟨0, 0, 3⟩ : Vec3 ℝ))
        = FTrans.pinv halfCell.lattice * (⟨1, 0, 0, 0, 0, 0, 0, 3, 3⟩ : Mat3 ℝ) := by
      ext <;> simp [Mat3.ofCols]
    rw [e, ← Mat3.mul_mulVec, ← mul_assoc, mul_pinv hsv, one_mul]
    simp
  obtain ⟨g1, g2, g3⟩ := getShortest_mem hsecond
  have hret : ∃ s', (Reducer.default : Reducer ℝ).findPrimitiveCell ord halfCell = .ret s' ∧
      s'.lattice = Mat3.ofCols f1 f2 f3 := by
    unfold findPrimitiveCell
    simp only
    rw [halfCell_normalize, halfCell_tols, hmin]
    simp only [Outcome.bind, hind, Outcome.ofOption, hbase]
    rw [← htols, hcand, ← hd, hfilter, hcart, hfirst]
    simp only
    rw [hsecond]
    exact ⟨_, rfl, rfl⟩
  obtain ⟨s', hs', hl'⟩ := hret
  refine ⟨s', hs', ?_⟩
  unfold Structure.volume
  rw [hl']
  simp [Mat3.det, Mat3.ofCols, hplane f1 g1, hplane f2 g2, hplane f3 g3]

end CrystSymm
