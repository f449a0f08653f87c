import Verif.Props.Iff

set_option autoImplicit false
set_option linter.unusedSectionVars false

/-! # C77: crystals given in a cell that is not primitive -/

namespace CrystSymm

open Spec Reducer SymmetryAnalyzer NiggliCert PointGroup

/-- no pseudotranslations: if the vector between two sites of a rarest element maps the crystal onto itself within `δ`, it does so
exactly. -/
def ExactTranslations (s : Structure ℝ) (δ : ℝ) : Prop :=
  ∀ x ∈ sites s, ∀ y ∈ sites s, x.1 = y.1 → Rarest s x.1 → TranslationWithin s δ (y.2 - x.2) → TranslationWithin s 0 (y.2 - x.2)

/-- conditions on a cell `s` of the crystal described by the primitive cell `ref`: at most `24` times as large, with edges longer
than the distance tolerance `d`, not too flat, atoms far apart compared with the tolerance, and no pseudotranslations. -/
structure CleanCell (s ref : Structure ℝ) (d : ℝ) : Prop where
  consistent : Consistent s
  small : s.numSites < 65536
  same : SameAtoms s ref
  nonsing : s.lattice.det ≠ 0
  index : |s.volume| ≤ 24 * |ref.volume|
  flat : frob s.lattice ^ 2 < 10 ^ 12 * s.volume ^ 2
  cols : d < s.a ∧ d < s.b ∧ d < s.c
  exact : ExactTranslations s (d * 2)
  apart : AtomsApart s (4 / 3 * (frob ref.lattice * frob s.lattice ^ 2 / s.volume ^ 2 * d ^ 2))

/-- an exact translation in the sense of sites is a translation of the atoms. -/
theorem exact_atoms {s : Structure ℝ} (hdet : s.lattice.det ≠ 0) {t : Vec3 ℝ} (h : TranslationWithin s 0 t) (e : String)
    (x : Vec3 ℝ) (hx : AtomAt s e x) : AtomAt s e (x + s.lattice * t) := by
  obtain ⟨p, hp, n, hn, rfl⟩ := hx
  obtain ⟨q, hq, e1, d, h1, h2⟩ := h _ hp
  have h3 : s.lattice * d = 0 := vec_zero_of_lenSq (le_antisymm (by simpa using h2) (lenSq_nonneg _))
  have h4 : d = 0 := mulVec_injective hdet (by rw [h3, Mat3.mulVec_zero])
  rw [h4, samePoint_iff_intVec] at h1
  have h5 := atomAt_add (atomAt_add (atomAt_site hq) hn) (intVec_neg h1)
  rw [e1] at h5
  convert h5 using 1
  rw [← Mat3.mulVec_add, ← Mat3.mulVec_add, ← Mat3.mulVec_add]
  congr 1
  show p + n + t = q.2 + n + -(0 - (p + t - q.2))
  abel

theorem unit_exact (s : Structure ℝ) {t : Vec3 ℝ} (ht : IntVec t) : TranslationWithin s 0 t := by
  intro p hp
  refine ⟨p, hp, rfl, 0, ?_, ?_⟩
  · rw [samePoint_iff_intVec]
    have := intVec_neg ht
    convert this using 1
    show 0 - (p.2 + t - p.2) = -t
    abel
  · rw [Mat3.mulVec_zero]; simp [lenSq]

/-- without pseudotranslations every vector that the search accepts is an exact translation. -/
theorem candidate_exact {s : Structure ℝ} {dtol : ℝ} {tols base : Vec3 ℝ} (hex : ExactTranslations s (dtol * 2))
    {e : String} {i : ℕ} (hr : Rarest s e) (hi : (s.normalizeCoords dtol).species[i]? = some e)
    (hb : (s.normalizeCoords dtol).fracCoords[i]? = some base) (t : Vec3 ℝ)
    (ht : t ∈ (candidateVecs tols e i base (s.normalizeCoords dtol).species (s.normalizeCoords dtol).fracCoords).filter
      (isTranslation s.lattice tols dtol ((s.normalizeCoords dtol).fracCoords.zip (s.normalizeCoords dtol).species))) :
    TranslationWithin s 0 t := by
  set temp := s.normalizeCoords dtol with htemp
  obtain ⟨ht, htr⟩ := List.mem_filter.1 ht
  rcases List.mem_append.1 ht with hu | hv
  · apply unit_exact
    unfold unitVecs at hu
    simp only [List.mem_cons, List.not_mem_nil, or_false] at hu
    rcases hu with rfl | rfl | rfl
    · exact ⟨1, 0, 0, by simp⟩
    · exact ⟨0, 1, 0, by simp⟩
    · exact ⟨0, 0, 1, by simp⟩
  · obtain ⟨p, hp, hpv⟩ := List.mem_filterMap.1 hv
    split_ifs at hpv with hc
    cases hpv
    have htw := translationWithin_congr (isTranslation_sound s dtol tols _ htr) (samePoint_normFracVec _ _)
    obtain ⟨⟨x, e'⟩, j⟩ := p
    obtain ⟨h1, h2⟩ := hc
    simp only at h1 h2 htw
    subst h1
    have hj := List.mem_zipIdx_iff_getElem?.1 hp
    simp only at hj
    rw [List.getElem?_zip_eq_some] at hj
    have hxj : (e', x) ∈ sites temp := by
      apply List.mem_of_getElem? (i := j)
      unfold sites
      rw [List.getElem?_zip_eq_some]
      exact ⟨hj.2, hj.1⟩
    have hxi : (e', base) ∈ sites temp := by
      apply List.mem_of_getElem? (i := i)
      unfold sites
      rw [List.getElem?_zip_eq_some]
      exact ⟨hi, hb⟩
    obtain ⟨m, hm, hf⟩ := normalizeCoords_sameSites s dtol
    obtain ⟨q1, hq1, a1, a2⟩ := forall₂_mem_left hf hxi
    obtain ⟨q2, hq2, b1, b2⟩ := forall₂_mem_left hf hxj
    simp only at a1 a2 b1 b2 ⊢
    have hsame : SamePoint (x - base) (q2.2 - q1.2) := samePoint_add_sub b2 a2 rfl rfl
    have := hex q1 (hm.mem_iff.1 hq1) q2 (hm.mem_iff.1 hq2) (by rw [← a1, ← b1]) (by rw [← a1]; exact hr)
      (translationWithin_congr htw hsame)
    exact translationWithin_congr (translationWithin_congr this (samePoint_symm hsame)) (samePoint_symm (samePoint_normFracVec _ _))

theorem CleanCell.svAbove {s ref : Structure ℝ} {d : ℝ} (hs : CleanCell s ref d) : SvAbove s.lattice :=
  svAbove_of_size hs.flat

/-- the element that the search starts from is a rarest one. -/
theorem minElement_rarest {s : Structure ℝ} {d : ℝ} {ord : List (String × ℕ) → List (String × ℕ)} (ho : ∀ l, (ord l).Perm l)
    (hcons : Consistent s) (hn : s.numSites < 65536) {e : String} {inds counts : List (String × ℕ)}
    (h : (s.normalizeCoords d).getMinElement ord = .ret (e, inds, counts)) :
    Rarest s e ∧ ∀ i, amapGet? inds e = some i → (s.normalizeCoords d).species[i]? = some e := by
  set temp := s.normalizeCoords d with htemp
  have hperm : temp.species.Perm s.species := by
    have h2 : temp.species = (sites temp).map Prod.fst := species_eq_of_sites (normalizeCoords_consistent s d).1
    rw [h2, normalizeCoords_sites s d]
    refine ((List.mergeSort_perm _ _).map _).trans ?_
    rw [List.map_fst_zip]
    simp [normedFrac, normalizeFracVectors, hcons.1]
  have hn' : temp.numSites < 65536 := by
    unfold Structure.numSites at hn ⊢; rw [hperm.length_eq]; exact hn
  obtain ⟨⟨hmem, hleast⟩, hinds, -⟩ := C19_get_min_element temp ord ho hn' e inds counts h
  refine ⟨⟨hperm.mem_iff.1 hmem, fun e' he => ?_⟩, fun i hi => ?_⟩
  · have := hleast e' (hperm.mem_iff.2 he)
    rw [hperm.count_eq, hperm.count_eq] at this
    rcases this with h | h
    · exact h.le
    · exact h.1.le
  · rw [hinds, if_pos hmem] at hi
    cases hi
    rw [List.getElem?_eq_getElem (List.idxOf_lt_length_of_mem hmem), List.getElem_idxOf]

/-- the vectors of the cell that is returned are exact translations. -/
theorem primitive_exact {r : Reducer ℝ} {ord : List (String × ℕ) → List (String × ℕ)} (ho : ∀ l, (ord l).Perm l)
    {s prim : Structure ℝ} (hcons : Consistent s) (hn : s.numSites < 65536) (hsv : SvAbove s.lattice)
    (hex : ExactTranslations s (r.dtol * 2)) (h : r.findPrimitiveCell ord s = .ret prim) :
    ∃ u₁ u₂ u₃ : Vec3 ℝ, prim.lattice = s.lattice * Mat3.ofCols u₁ u₂ u₃ ∧ IntCombOf (TranslationWithin s 0) u₁ ∧
      IntCombOf (TranslationWithin s 0) u₂ ∧ IntCombOf (TranslationWithin s 0) u₃ := by
  obtain ⟨minEle, inds, counts, baseInd, baseSite, s1, s2, s3, f1, f2, f3, g1, g2, g3, h1, h2, rfl⟩ := findPrimitiveCell_ret h
  obtain ⟨a1, a2, a3⟩ := getShortest_mem h1
  obtain ⟨b1, b2, b3⟩ := getShortest_mem h2
  obtain ⟨hr, hi⟩ := minElement_rarest ho hcons hn g1
  have hcand := fun t => candidate_exact (tols := Structure.fracTols s.lattice r.dtol) hex hr (hi _ g2) g3 t
  have hp : ∀ t : Vec3 ℝ, (FTrans.pinv s.lattice : Mat3 ℝ) * (s.lattice * t) = t := fun t => by
    rw [← Mat3.mul_mulVec, pinv_mul hsv, Mat3.one_mulVec]
  have key : ∀ f ∈ Structure.getCartCoords s.lattice (combinationVecs (Mat3.ofCols (FTrans.pinv s.lattice * s1)
      (FTrans.pinv s.lattice * s2) (FTrans.pinv s.lattice * s3))), ∃ u, IntCombOf (TranslationWithin s 0) u ∧ f = s.lattice * u := by
    intro f hf
    unfold Structure.getCartCoords at a1 a2 a3 hf
    obtain ⟨t1, k1, rfl⟩ := List.mem_map.1 a1
    obtain ⟨t2, k2, rfl⟩ := List.mem_map.1 a2
    obtain ⟨t3, k3, rfl⟩ := List.mem_map.1 a3
    obtain ⟨u, hu, rfl⟩ := List.mem_map.1 hf
    rw [normalizeCoords_lattice, hp, hp, hp] at hu
    obtain ⟨n1, n2, n3, rfl⟩ := mem_combinationVecs hu
    refine ⟨_, ⟨t1, t2, t3, hcand _ k1, hcand _ k2, hcand _ k3, n1, n2, n3, rfl⟩, ?_⟩
    congr 1
    ext <;> simp [Mat3.ofCols] <;> ring
  obtain ⟨u1, c1, rfl⟩ := key _ b1
  obtain ⟨u2, c2, rfl⟩ := key _ b2
  obtain ⟨u3, c3, rfl⟩ := key _ b3
  refine ⟨u1, u2, u3, ?_, c1, c2, c3⟩
  rw [normalizeCoords_lattice]
  show Mat3.ofCols _ _ _ = _
  ext <;> simp [Mat3.ofCols]

/-- the lattice of the returned cell lies in the lattice of all translations of the crystal. -/
theorem primitive_sublattice {r : Reducer ℝ} {ord : List (String × ℕ) → List (String × ℕ)} (ho : ∀ l, (ord l).Perm l)
    {s ref prim : Structure ℝ} (hs : CleanCell s ref r.dtol) (hp : PrimitiveCell ref) (h : r.findPrimitiveCell ord s = .ret prim)
    (v : Vec3 ℝ) (hv : ∃ n : Vec3 ℝ, IntVec n ∧ v = prim.lattice * n) : ∃ n : Vec3 ℝ, IntVec n ∧ v = ref.lattice * n := by
  obtain ⟨u1, u2, u3, hl, c1, c2, c3⟩ := primitive_exact ho hs.consistent hs.small hs.svAbove hs.exact h
  have hone : ∀ t, TranslationWithin s 0 t → ∃ n : Vec3 ℝ, IntVec n ∧ s.lattice * t = ref.lattice * n := fun t ht =>
    hp _ fun e x hx => (hs.same _ _).1 (exact_atoms hs.nonsing ht e x ((hs.same _ _).2 hx))
  have hsc : ∀ (k : ℤ) (w : Vec3 ℝ), (∃ n : Vec3 ℝ, IntVec n ∧ w = ref.lattice * n) →
      ∃ n : Vec3 ℝ, IntVec n ∧ Vec3.scale (k : ℝ) w = ref.lattice * n := by
    rintro k w ⟨n, ⟨a, b, c, rfl⟩, rfl⟩
    exact ⟨_, ⟨k * a, k * b, k * c, rfl⟩, by ext <;> simp [Vec3.scale] <;> ring⟩
  have hadd : ∀ w w' : Vec3 ℝ, (∃ n : Vec3 ℝ, IntVec n ∧ w = ref.lattice * n) → (∃ n : Vec3 ℝ, IntVec n ∧ w' = ref.lattice * n) →
      ∃ n : Vec3 ℝ, IntVec n ∧ w + w' = ref.lattice * n := by
    rintro _ _ ⟨n, hn, rfl⟩ ⟨m, hm, rfl⟩
    exact ⟨n + m, intVec_add hn hm, by rw [Mat3.mulVec_add]⟩
  have hcomb : ∀ u, IntCombOf (TranslationWithin s 0) u → ∃ n : Vec3 ℝ, IntVec n ∧ s.lattice * u = ref.lattice * n := by
    rintro u ⟨t1, t2, t3, k1, k2, k3, n1, n2, n3, rfl⟩
    have := hadd _ _ (hadd _ _ (hsc n1 _ (hone _ k1)) (hsc n2 _ (hone _ k2))) (hsc n3 _ (hone _ k3))
    obtain ⟨n, hn, e⟩ := this
    refine ⟨n, hn, ?_⟩
    rw [← e]
    ext <;> simp [Vec3.scale] <;> ring
  obtain ⟨n, ⟨a, b, c, rfl⟩, rfl⟩ := hv
  have := hadd _ _ (hadd _ _ (hsc a _ (hcomb _ c1)) (hsc b _ (hcomb _ c2))) (hsc c _ (hcomb _ c3))
  obtain ⟨n, hn, e⟩ := this
  refine ⟨n, hn, ?_⟩
  rw [← e, hl]
  ext <;> simp [Vec3.scale, Mat3.ofCols] <;> ring

/-- the atoms of the returned cell. -/
theorem primitive_atoms {r : Reducer ℝ} {ord : List (String × ℕ) → List (String × ℕ)} {s ref s' : Structure ℝ} {D : ℝ}
    (hd : 0 ≤ r.dtol) (h : r.findPrimitiveCell ord s = .ret s') (hsv' : SvAbove s'.lattice) {n : Mat3 ℤ}
    (hn : n.det = 1 ∨ n.det = -1) (hl : s'.lattice = ref.lattice * overK ℝ n) (hsr : SameAtoms s ref)
    (hsub : ∀ v : Vec3 ℝ, (∃ n : Vec3 ℝ, IntVec n ∧ v = s.lattice * n) → ∃ n : Vec3 ℝ, IntVec n ∧ v = ref.lattice * n)
    (hD : ∀ d : Vec3 ℝ, (s.lattice * d).mag ≤ 2 * r.dtol → lenSq (s'.lattice * d) ≤ D) (ha : AtomsApart s D) :
    SameAtoms ref s' := by
  obtain ⟨l1, l2⟩ := lattice_vectors hn hl
  have l3 : ∀ m : Vec3 ℝ, IntVec m → ∃ k : Vec3 ℝ, IntVec k ∧ s.lattice * m = s'.lattice * k := by
    intro m hm
    obtain ⟨k, hk, e⟩ := hsub _ ⟨m, hm, rfl⟩
    obtain ⟨k', hk', e'⟩ := l2 k hk
    exact ⟨k', hk', by rw [e, e']⟩
  have h1 : ∀ p ∈ sites s', AtomAt ref p.1 (s'.lattice * p.2) := by
    intro p hp
    obtain ⟨q, hq, e1, n', m, hn', hm, e2⟩ := (C29_primitive_sites_partial r ord s s' h hsv').1 p hp
    obtain ⟨k, hk, e3⟩ := l1 n' hn'
    rw [e2, e3, ← e1]
    exact atomAt_add ((hsr _ _).1 (atomAt_add (atomAt_site hq) hm)) hk
  refine sameAtoms_of_basis hn hl h1 fun q' hq' => ?_
  obtain ⟨q, hq, m₀, hm₀, e₀⟩ := (hsr _ _).2 (atomAt_site hq')
  obtain ⟨p, hp, d, n', m, hn', hm, e, hle⟩ := (C52_sites_represented_partial r ord s s' hd h hsv').1 _ hq
  simp only at e
  obtain ⟨k, hk, e3⟩ := l1 n' hn'
  obtain ⟨j, hj, e4⟩ := l3 m hm
  obtain ⟨j₀, hj₀, e5⟩ := l3 m₀ hm₀
  have hx : AtomAt s q'.1 (s.lattice * q + s.lattice * m) := atomAt_add (atomAt_site hq) hm
  have hy : AtomAt s p.1 (s'.lattice * p.2 + s'.lattice * n') := by
    rw [e3]; exact (hsr _ _).2 (atomAt_add (h1 p hp) hk)
  rcases ha _ _ _ _ hx hy with ⟨e6, e7⟩ | hlt
  · have hz := atomAt_add (atomAt_add (atomAt_add (atomAt_site hp) hn') (intVec_neg hj)) hj₀
    rw [← e7, ← e6] at hz
    convert hz using 1
    rw [e₀, Mat3.mulVec_add, e4, e5, add_assoc (s.lattice * q), ← Mat3.mulVec_add, add_neg_cancel, Mat3.mulVec_zero, add_zero]
  · exfalso
    have e8 : s.lattice * q + s.lattice * m - (s'.lattice * p.2 + s'.lattice * n') = s'.lattice * d := by
      rw [e, Mat3.mulVec_add, Mat3.mulVec_add]; abel
    rw [e8] at hlt
    exact absurd (hD d hle) (not_le.2 hlt)

/-- **C77 (the primitive cell).** Let `ref` be a clean primitive cell of a crystal and `s` any clean cell of it.  If
`find_primitive_cell` returns for `s` a right-handed cell that is as large as `ref` and no longer, the returned cell describes the same
crystal: its vectors are a basis of the lattice of all translations, and it puts the same species at the same points of space, each
once. -/
theorem C77_primitive_cell {r : Reducer ℝ} {ord : List (String × ℕ) → List (String × ℕ)} (ho : ∀ l, (ord l).Perm l)
    {s ref prim : Structure ℝ} (hc : CleanInput ref r.dtol) (hs : CleanCell s ref r.dtol)
    (h : r.findPrimitiveCell ord s = .ret prim) (hvol : prim.volume = |ref.volume|) (hfrob : frob prim.lattice ≤ frob ref.lattice) :
    FoundPrim ref prim := by
  have hp := clean_primitiveCell hc
  have hX : ref.lattice * (ref.lattice.adjDiv ref.lattice.det * prim.lattice) = prim.lattice := by
    rw [← mul_assoc, Mat3.mul_adjDiv hc.det_ne, one_mul]
  obtain ⟨n, hn⟩ := sublattice_change (primitive_sublattice ho hs hp h) hc.det_ne hX
  have hl : prim.lattice = ref.lattice * overK ℝ n := by rw [← hn, hX]
  have hV : ref.volume ≠ 0 := hc.det_ne
  have hn1 : n.det = 1 ∨ n.det = -1 := by
    have e1 : prim.volume = ref.volume * (n.det : ℝ) := by
      unfold Structure.volume; rw [hl, Mat3.det_mul, overK_det]
    rw [hvol] at e1
    rcases abs_choice ref.volume with e | e
    · left
      rw [e] at e1
      have : (n.det : ℝ) = 1 := by
        apply mul_left_cancel₀ hV; linarith
      exact_mod_cast this
    · right
      rw [e] at e1
      have : (n.det : ℝ) = -1 := by
        apply mul_left_cancel₀ hV; linarith
      exact_mod_cast this
  have hcons : Consistent prim := by
    obtain ⟨_, _, _, _, _, _, _, _, _, _, _, -, -, -, -, -, e⟩ := findPrimitiveCell_ret h
    rw [e]
    exact normalizeCoords_consistent _ _
  have hpd : prim.lattice.det ^ 2 = ref.volume ^ 2 := by
    have : prim.lattice.det = |ref.volume| := hvol
    rw [this, sq_abs]
  have hsv : SvAbove prim.lattice := by
    apply svAbove_of_size
    rw [hpd]
    refine lt_of_le_of_lt (pow_le_pow_left₀ (frob_nonneg prim.lattice) (le_trans hfrob hc.size_ge) 2) hc.flat
  have hsame : SameAtoms ref prim := by
    refine primitive_atoms hc.tol.le h hsv hn1 hl hs.same (cell_sublattice hs.same hp) (fun w hw => ?_) hs.apart
    have hV2 : 0 < s.volume ^ 2 := by have := hs.nonsing; unfold Structure.volume; positivity
    have hw' := (mag_le_iff (by linarith [hc.tol])).1 hw
    have h1 : s.volume ^ 2 * lenSq w ≤ frob s.lattice ^ 2 / 3 * (2 * r.dtol) ^ 2 := by
      have a1 := lenSq_adj s.lattice w
      have a2 := frob_adj_le s.lattice
      refine le_trans a1 ?_
      apply mul_le_mul _ hw' (lenSq_nonneg _) (by positivity)
      linarith
    have h2 : lenSq (prim.lattice * w) ≤ frob ref.lattice * lenSq w :=
      le_trans (CrystSymm.lenSq_mulVec_le _ w) (mul_le_mul_of_nonneg_right hfrob (lenSq_nonneg _))
    have h3 : lenSq w ≤ frob s.lattice ^ 2 / 3 * (2 * r.dtol) ^ 2 / s.volume ^ 2 := by
      rw [le_div_iff₀ hV2]; linarith
    refine le_trans h2 (le_trans (mul_le_mul_of_nonneg_left h3 (frob_nonneg _)) (le_of_eq ?_))
    field_simp
    ring
  have hds : DistinctSites prim := C52_no_duplicate_sites r ord s prim hc.tol hs.cols h
  refine ⟨⟨n, hn1, hl⟩, hvol, hfrob, hcons, hsame, hds, hsv, ?_, card_sameAtoms hc.consistent hcons hc.det_ne hn1 hl hsame hc.distinct hds⟩
  intro t ht
  obtain ⟨k, hk, rfl⟩ := hp t fun e x hx => (hsame _ _).2 (ht _ _ ((hsame _ _).1 hx))
  obtain ⟨k', hk', e⟩ := (lattice_vectors hn1 hl).2 k hk
  exact ⟨k', hk', e⟩

theorem cell_finds {r : Reducer ℝ} {ord : List (String × ℕ) → List (String × ℕ)} (ho : ∀ l, (ord l).Perm l)
    {s ref prim : Structure ℝ} (hc : CleanInput ref r.dtol) (hs : CleanCell s ref r.dtol)
    (h : r.findPrimitiveCell ord s = .ret prim) (hvol : prim.volume = |ref.volume|) (hfrob : frob prim.lattice ≤ frob ref.lattice) :
    Finds r ord s ref := by
  intro prim' h'
  rw [h] at h'
  cases h'
  exact C77_primitive_cell ho hc hs h hvol hfrob

/-- **C77 (the group).** The crystal in a clean cell `s`, not necessarily primitive, with a clean primitive cell `ref` without
pseudosymmetry, whose origin is a position of the tables and whose lattice has a clear-cut shape.  Whenever `get_space_group_info`
returns, the operations in the table of the reported group, read in the basis of the standard primitive cell, are exactly the motions
of space that map the crystal onto itself. -/
theorem C77_reported_group (sa : SymmetryAnalyzer ℝ) (h : HashOrders ℝ) (hv : h.Valid) (fuel : ℕ) (s ref prim : Structure ℝ)
    (hc : CleanInput ref sa.dtol) (hs : CleanCell s ref sa.dtol) (hprim : sa.reducer.findPrimitiveCell h.minEle s = .ret prim)
    (hvol : prim.volume = |ref.volume|) (hfrob : frob prim.lattice ≤ frob ref.lattice)
    (hsize : 81 * cellSize ref ≤ (200000000 * sa.dtol) ^ 2) (hcl : ClearLattice ref.lattice (eps tol1em5 |ref.volume|))
    (hres : Resolved ref sa.dtol) (hgrid : GridOrigin ref)
    (num : ℕ) (sym : String) (ops : List (SymmOp ℝ)) (hr : sa.getSpaceGroupInfo h fuel s = .ret (num, sym, ops)) :
    ∃ (p : Structure ℝ) (sys : LatticeSystem) (n : ℕ) (codes : List ℕ) (table : List (SymmOp ℝ)),
      sa.getStandardPrimitiveStructure h fuel s = .ret p ∧ SameAtoms s p ∧ SameLattice ref.lattice p.lattice ∧
      amapGet? sgNumToSymbol num = some sym ∧ IsTableEntry sys n num codes ∧ TableOps num codes table ∧
      ∀ (Q : Mat3 ℝ) (u : Vec3 ℝ), CrystalSymmetry s Q (p.lattice * u) ↔ ∃ o ∈ table,
        Q * p.lattice = p.lattice * castRot o.rotation ∧ IntVec (u - o.translation) := by
  have hf := cell_finds (r := sa.reducer) hv.minEle hc hs hprim hvol hfrob
  obtain ⟨p, sys, n, codes, table, h1, h2, h3, h4, h5, h6, h7⟩ := group_of_cell sa h hv fuel s ref hc hf hsize hcl hres hgrid num sym ops hr
  refine ⟨p, sys, n, codes, table, h1, sameAtoms_trans hs.same h2, h3, h4, h5, h6, fun Q u => ?_⟩
  rw [← h7]
  exact ⟨crystalSymmetry_congr hs.same, crystalSymmetry_congr (sameAtoms_symm hs.same)⟩

/-- **C77 (the operations).** Under the same assumptions, if the symmetries of the crystal have small integer matrices in the basis of
the cell `s`: the operations returned are, in this basis, exactly the symmetries of the crystal, no two of them with the same rotation
and translations that agree up to a vector of the lattice of `s`. -/
theorem C77_operations (sa : SymmetryAnalyzer ℝ) (h : HashOrders ℝ) (hv : h.Valid) (fuel : ℕ) (s ref prim : Structure ℝ)
    (hc : CleanInput ref sa.dtol) (hs : CleanCell s ref sa.dtol) (hprim : sa.reducer.findPrimitiveCell h.minEle s = .ret prim)
    (hvol : prim.volume = |ref.volume|) (hfrob : frob prim.lattice ≤ frob ref.lattice)
    (hsize : 81 * cellSize ref ≤ (200000000 * sa.dtol) ^ 2) (hcl : ClearLattice ref.lattice (eps tol1em5 |ref.volume|))
    (hres : Resolved ref sa.dtol) (hgrid : GridOrigin ref) (hsm : SmallSymmetries s)
    (num : ℕ) (sym : String) (ops : List (SymmOp ℝ)) (hr : sa.getSpaceGroupInfo h fuel s = .ret (num, sym, ops)) :
    (∀ o ∈ ops, ∃ (Q : Mat3 ℝ) (t : Vec3 ℝ), CrystalSymmetry s Q t ∧ Q * s.lattice = s.lattice * castRot o.rotation ∧
      lenSq (s.lattice * o.translation - t) ≤ sa.dtol ^ 2) ∧
    (∀ (Q : Mat3 ℝ) (t : Vec3 ℝ), CrystalSymmetry s Q t → ∃ o ∈ ops, Q * s.lattice = s.lattice * castRot o.rotation ∧
      ∃ w : Vec3 ℝ, IntVec w ∧ lenSq (s.lattice * o.translation - t - s.lattice * w) ≤ sa.dtol ^ 2) ∧
    (ops.Pairwise fun o o' => o.rotation = o'.rotation → ¬ SamePoint o.translation o'.translation) := by
  have hf := cell_finds (r := sa.reducer) hv.minEle hc hs hprim hvol hfrob
  obtain ⟨h1, h2, h3, -⟩ := operations_of_cell sa h hv fuel s ref hc hf hsize hcl hres hgrid hs.same hs.nonsing hs.index hsm num sym ops hr
  exact ⟨h1, h2, h3⟩

/-- **C77 (the complete answer).** Under the same assumptions, with lattice vectors at least `48` tolerances long, and once the
standard primitive structure is returned: a group is reported if and only if it is the group in the tables of the system of the lattice
whose operations are exactly the symmetries of the crystal, and the product of operations of the crate is right for this group. -/
theorem C77_reported_iff (sa : SymmetryAnalyzer ℝ) (h : HashOrders ℝ) (hv : h.Valid) (f₀ : ℕ) (s ref prim p : Structure ℝ)
    (hc : CleanInput ref sa.dtol) (hs : CleanCell s ref sa.dtol) (hprim : sa.reducer.findPrimitiveCell h.minEle s = .ret prim)
    (hvol : prim.volume = |ref.volume|) (hfrob : frob prim.lattice ≤ frob ref.lattice)
    (hsize : 81 * cellSize ref ≤ (200000000 * sa.dtol) ^ 2) (hcl : ClearLattice ref.lattice (eps tol1em5 |ref.volume|))
    (hres : Resolved ref sa.dtol) (hgrid : GridOrigin ref) (hlong : LongVectors ref.lattice (48 * sa.dtol)) (hsm : SmallSymmetries s)
    (hp : sa.getStandardPrimitiveStructure h f₀ s = .ret p) (num : ℕ) :
    (∃ fuel sym ops, sa.getSpaceGroupInfo h fuel s = .ret (num, sym, ops)) ↔
      num ∉ crateBad ∧ ∃ (sys : LatticeSystem) (n : ℕ) (codes : List ℕ) (table : List (SymmOp ℝ)),
        sys ≠ .Rhombohedral ∧ InSystem ref.lattice sys ∧ IsTableEntry sys n num codes ∧ TableOps num codes table ∧
        ∀ (Q : Mat3 ℝ) (u : Vec3 ℝ), CrystalSymmetry s Q (p.lattice * u) ↔ ∃ o ∈ table,
          Q * p.lattice = p.lattice * castRot o.rotation ∧ IntVec (u - o.translation) :=
  reported_iff_of_cell sa h hv f₀ s ref p hc (cell_finds (r := sa.reducer) hv.minEle hc hs hprim hvol hfrob) hs.same hs.nonsing hs.index
    hsize hcl hres hgrid hlong hsm hp num

/-- **C77 (holohedral crystals).** A crystal in a clean cell `s` on which every isometry of its lattice of translations acts: when the
steps up to the lattice character return, `get_space_group_info` returns the number of the lattice type (the character decides it), for
all lattice types but `mI` and `hR`. -/
theorem C77_holohedral (sa : SymmetryAnalyzer ℝ) (h : HashOrders ℝ) (hv : h.Valid) (s ref : Structure ℝ)
    (hc : CleanInput ref sa.dtol) (hs : CleanCell s ref sa.dtol) (prim nig : Structure ℝ)
    (hprim : sa.reducer.findPrimitiveCell h.minEle s = .ret prim)
    (hvol : prim.volume = |ref.volume|) (hfrob : frob prim.lattice ≤ frob ref.lattice)
    (hsize : 81 * cellSize ref ≤ (200000000 * sa.dtol) ^ 2) (hcl : ClearLattice ref.lattice (eps tol1em5 |ref.volume|))
    (hres : Resolved ref sa.dtol) (hlong : LongVectors ref.lattice (48 * sa.dtol)) (hsm : SmallSymmetries s)
    (hholo : ∀ Q, Orthogonal Q → MapsLattice Q ref.lattice → CrystalSymmetry s Q 0) (ch : ℕ) (b : BravaisType)
    (k2 : sa.reducer.niggliReduce prim tol1em5 = .ret nig)
    (k3 : getLatticeCharacter nig tol1em5 = .ret ch) (k4 : amapGet? latticeCharToBravais ch = some b) (hb1 : b ≠ .mI) (hb2 : b ≠ .hR) :
    ∃ sym ops N, amapGet? sgNumToSymbol (latticeGroup b) = some sym ∧
      ∀ fuel ≥ N, sa.getSpaceGroupInfo h fuel s = .ret (latticeGroup b, sym, ops) :=
  holohedral_of_cell sa h hv s ref hc (cell_finds (r := sa.reducer) hv.minEle hc hs hprim hvol hfrob) hs.same hs.nonsing hs.index
    hsize hcl hres hlong hsm hholo prim nig ch b hprim k2 k3 k4 hb1 hb2

end CrystSymm
