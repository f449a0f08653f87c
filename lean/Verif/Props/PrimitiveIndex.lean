import Verif.Props.Primitive
import Verif.Proofs.Index
import Verif.Spec.Centring

set_option autoImplicit false
set_option linter.unusedSectionVars false

/-! # C57: is the cell found by `find_primitive_cell` primitive? -/

namespace CrystSymm

open Spec Reducer

/-- two sites of an element that occurs once are the same site. -/
theorem sites_once {s : Structure ℝ} {e : String} (hc : s.species.count e = 1) {p q : String × Vec3 ℝ}
    (hp : p ∈ sites s) (hq : q ∈ sites s) (h1 : p.1 = e) (h2 : q.1 = e) : p = q := by
  unfold sites at hp hq
  obtain ⟨i, hi⟩ := List.mem_iff_getElem?.1 hp
  obtain ⟨j, hj⟩ := List.mem_iff_getElem?.1 hq
  rw [List.getElem?_zip_eq_some] at hi hj
  have hij : i = j := by
    obtain ⟨hi1, hi2⟩ := List.getElem?_eq_some_iff.1 hi.1
    obtain ⟨hj1, hj2⟩ := List.getElem?_eq_some_iff.1 hj.1
    by_contra hne
    have h5 : List.Duplicate e s.species := by
      rw [List.duplicate_iff_exists_distinct_get]
      rcases lt_or_gt_of_ne hne with hlt | hlt
      · exact ⟨⟨i, hi1⟩, ⟨j, hj1⟩, hlt, by simp [hi2, h1], by simp [hj2, h2]⟩
      · exact ⟨⟨j, hj1⟩, ⟨i, hi1⟩, hlt, by simp [hj2, h2], by simp [hi2, h1]⟩
    rw [List.duplicate_iff_two_le_count] at h5
    omega
  subst hij
  have ha := hi.1.symm.trans hj.1
  have hb := hi.2.symm.trans hj.2
  simp only [Option.some.injEq] at ha hb
  exact Prod.ext ha hb

/-- unimodular integer matrices do not change the lattice. -/
theorem sameLattice_of_unimodular {L : Mat3 ℝ} {n : Mat3 ℤ} (hn : n.det.natAbs = 1) :
    SameLattice L (L * n.map fun k : ℤ => (k : ℝ)) := by
  have hdet : n.det = 1 ∨ n.det = -1 := by omega
  obtain ⟨m, hm⟩ : ∃ m : Mat3 ℤ, n * m = 1 := by
    refine ⟨n.adj.map fun k => n.det * k, ?_⟩
    have e : n * (n.adj.map fun k => n.det * k) = ⟨n.det * n.det, 0, 0, 0, n.det * n.det, 0, 0, 0, n.det * n.det⟩ := by
      ext <;> simp only [Mat3.map, Mat3.adj, Mat3.det, Mat3.mul_m11, Mat3.mul_m12, Mat3.mul_m13, Mat3.mul_m21,
        Mat3.mul_m22, Mat3.mul_m23, Mat3.mul_m31, Mat3.mul_m32, Mat3.mul_m33] <;> ring
    rw [e]
    rcases hdet with hd | hd <;> rw [hd] <;> rfl
  intro v
  constructor
  · rintro ⟨w, hw, rfl⟩
    refine ⟨(m.map fun k : ℤ => (k : ℝ)) * w, intVec_mulVec hw, ?_⟩
    rw [Mat3.mul_mulVec, ← Mat3.mul_mulVec (n.map fun k : ℤ => (k : ℝ))]
    have : (n.map fun k : ℤ => (k : ℝ)) * (m.map fun k : ℤ => (k : ℝ)) = 1 := by
      have h1 : (n.map fun k : ℤ => (k : ℝ)) * (m.map fun k : ℤ => (k : ℝ)) = (n * m).map fun k : ℤ => (k : ℝ) := by
        ext <;> simp [Mat3.map]
      rw [h1, hm]
      ext <;> simp [Mat3.map]
    rw [this, Mat3.one_mulVec]
  · rintro ⟨w, hw, rfl⟩
    exact ⟨(n.map fun k : ℤ => (k : ℝ)) * w, intVec_mulVec hw, by rw [Mat3.mul_mulVec]⟩

theorem exists_rarest {s : Structure ℝ} (h : s.species ≠ []) : ∃ e, Rarest s e := by
  classical
  obtain ⟨e0, he0⟩ := List.exists_mem_of_ne_nil _ h
  have hex : ∃ n, ∃ e ∈ s.species, s.species.count e = n := ⟨_, e0, he0, rfl⟩
  obtain ⟨e, he, hc⟩ := Nat.find_spec hex
  exact ⟨e, he, fun e' he' => by rw [hc]; exact Nat.find_min' hex ⟨e', he', rfl⟩⟩

/-- **C57, partial.** Under the hypotheses of C28 (a primitive cell, tolerance below lengths, areas and
volume) the returned cell spans the input lattice and is primitive: every vector that maps the structure exactly onto
itself is a vector of the returned lattice.  Missing from the full claim: input cells that are not primitive, for which it
is false (below). -/
theorem C57_primitive_partial (r : Reducer ℝ) (ord : List (String × ℕ) → List (String × ℕ))
    (ho : ∀ l, (ord l).Perm l) (s : Structure ℝ) (hn : s.numSites < 65536)
    (hlen : s.species.length = s.fracCoords.length) (hsv : SvAbove s.lattice)
    (hno : NoTranslation s (r.dtol * 2)) (hd : 0 < r.dtol)
    (hcols : r.dtol < s.a ∧ r.dtol < s.b ∧ r.dtol < s.c) (hvol : r.dtol < |s.volume|)
    (harea : ∀ u v : Vec3 ℝ, IntVec u → IntVec v → (s.lattice * u).cross (s.lattice * v) ≠ 0 →
      r.dtol < ((s.lattice * u).cross (s.lattice * v)).mag) :
    ∃ s', r.findPrimitiveCell ord s = .ret s' ∧ SameLattice s.lattice s'.lattice ∧ s'.volume = |s.volume| ∧
      ∀ t, TranslationWithin s 0 t → ∃ n : Vec3 ℝ, IntVec n ∧ s.lattice * t = s'.lattice * n := by
  obtain ⟨s', h1, -, a, b, c, -, -, -, h2, h3, h4⟩ :=
    C28_primitive_right_handed_partial r ord ho s hn hlen hsv hno hd hcols hvol harea
  have hsame : SameLattice s.lattice s'.lattice := by rw [h2]; exact sameLattice_of_unimodular h3
  refine ⟨s', h1, hsame, h4, ?_⟩
  intro t ht
  obtain ⟨e, hr⟩ := exists_rarest hno.1
  obtain ⟨x, hx⟩ : ∃ x, (e, x) ∈ sites s := by
    have hm := hr.1
    obtain ⟨i, hi, hie⟩ := List.mem_iff_getElem.1 hm
    refine ⟨s.fracCoords[i]'(hlen ▸ hi), ?_⟩
    unfold sites
    rw [List.mem_iff_getElem?]
    refine ⟨i, ?_⟩
    rw [List.getElem?_zip_eq_some]
    exact ⟨by rw [List.getElem?_eq_getElem hi, hie], List.getElem?_eq_getElem _⟩
  obtain ⟨q, hq, hqe, d, hd1, hd2⟩ := ht _ hx
  have hd0 : d = 0 := by
    by_contra hne
    have h5 := hsv d hne
    have h6 : 0 ≤ (1 / 1000000 : ℝ) ^ 2 * lenSq d := mul_nonneg (by positivity) (lenSq_nonneg d)
    linarith
  subst hd0
  have hqx : q = (e, x) := by
    by_contra hne
    have htw : TranslationWithin s (r.dtol * 2) (q.2 - x) := by
      refine translationWithin_congr (t := t) (fun p hp => ?_) ?_
      · obtain ⟨q', g1, g2, d', g3, g4⟩ := ht p hp
        exact ⟨q', g1, g2, d', g3, le_trans g4 (by nlinarith)⟩
      · rw [samePoint_iff_intVec] at hd1 ⊢
        obtain ⟨i, j, k, hijk⟩ := hd1
        refine ⟨-i, -j, -k, ?_⟩
        have e3 : t - (q.2 - x) = -(0 - (x + t - q.2)) := by abel
        rw [e3, hijk]
        ext <;> simp
    obtain ⟨i, hi⟩ := List.mem_iff_getElem.1 hq
    obtain ⟨j, hj⟩ := List.mem_iff_getElem.1 hx
    obtain ⟨hi, gi⟩ := hi
    obtain ⟨hj, gj⟩ := hj
    have hpw := List.pairwise_iff_getElem.1 hno.2
    rcases lt_trichotomy i j with hlt | heq | hlt
    · have := (hpw i j hi hj hlt (by rw [gi, gj]; exact hqe) (by rw [gi, hqe]; exact hr)).2
      rw [gi, gj] at this
      exact this htw
    · subst heq
      exact hne (gi.symm.trans gj)
    · have := (hpw j i hj hi hlt (by rw [gi, gj]; exact hqe.symm) (by rw [gj]; exact hr)).1
      rw [gi, gj] at this
      exact this htw
  subst hqx
  have hti : IntVec t := by
    obtain ⟨i, j, k, hijk⟩ := samePoint_iff_intVec.1 hd1
    refine ⟨-i, -j, -k, ?_⟩
    have e1 := congrArg Vec3.x hijk
    have e2 := congrArg Vec3.y hijk
    have e3 := congrArg Vec3.z hijk
    simp at e1 e2 e3
    ext
    · simp; linarith
    · simp; linarith
    · simp; linarith
  obtain ⟨n, hn1, hn2⟩ := (hsame (s.lattice * t)).1 ⟨t, hti, rfl⟩
  exact ⟨n, hn1, hn2⟩

/-! ### C57 is false of the code -/

/-- three sites of one element in a `4 × 3 × 3.01` cell, related by the translation `(1/3, 2/3, 2/3)`. -/
noncomputable def tripleCell : Structure ℝ :=
  Structure.new ⟨4, 0, 0, 0, 3, 0, 0, 0, 301 / 100⟩ ["X", "X", "X"]
    [⟨0, 0, 0⟩, ⟨1 / 3, 2 / 3, 2 / 3⟩, ⟨2 / 3, 1 / 3, 1 / 3⟩] false

theorem tripleCell_tols : Structure.fracTols tripleCell.lattice (Reducer.default : Reducer ℝ).dtol
    = ⟨1 / 80, 1 / 60, 5 / 301⟩ := by
  unfold Structure.fracTols
  simp only [tripleCell, Structure.new, Mat3.col0, Mat3.col1, Mat3.col2, Reducer.default, lit, Bool.false_eq_true,
    if_false]
  rw [mag_axis_x (by norm_num), mag_axis_y (by norm_num), mag_axis_z (by norm_num)]
  norm_num

theorem tripleCell_norm : ∀ v ∈ [(⟨0, 0, 0⟩ : Vec3 ℝ), ⟨1 / 3, 2 / 3, 2 / 3⟩, ⟨2 / 3, 1 / 3, 1 / 3⟩],
    normFracVec (⟨1 / 80, 1 / 60, 5 / 301⟩ : Vec3 ℝ) v = v := by
  intro v hv
  simp only [List.mem_cons, List.not_mem_nil, or_false] at hv
  rcases hv with rfl | rfl | rfl <;> simp only [normFracVec, Vec3.mk.injEq] <;> refine ⟨?_, ?_, ?_⟩ <;>
    exact normComp_of_mem (by norm_num) (by norm_num) (by norm_num) (by norm_num)

theorem tripleCell_normalize : tripleCell.normalizeCoords (Reducer.default : Reducer ℝ).dtol = tripleCell := by
  have hsort : ∀ p q r : Vec3 ℝ × Vec3 ℝ, Structure.sortBySpecies [("X", p), ("X", q), ("X", r)]
      = [("X", p), ("X", q), ("X", r)] :=
    fun p q r => mergeSort_key_of_sorted Prod.fst (by simp)
  have h1 := tripleCell_norm ⟨0, 0, 0⟩ (by simp)
  have h2 := tripleCell_norm ⟨1 / 3, 2 / 3, 2 / 3⟩ (by simp)
  have h3 := tripleCell_norm ⟨2 / 3, 1 / 3, 1 / 3⟩ (by simp)
  unfold Structure.normalizeCoords
  simp only [tripleCell_tols]
  simp only [tripleCell, Structure.new, Bool.false_eq_true, if_false, normalizeFracVectors, List.map_cons,
    List.map_nil, h1, h2, h3, Structure.getCartCoords, List.zip_cons_cons, List.zip_nil_left, hsort]

/-- the translation maps every site exactly onto a site. -/
theorem tripleCell_translation : TranslationWithin tripleCell 0 ⟨1 / 3, 2 / 3, 2 / 3⟩ := by
  have hz : lenSq (tripleCell.lattice * (0 : Vec3 ℝ)) ≤ 0 * 0 := by simp [lenSq]
  intro p hp
  have hp' : p = ("X", (⟨0, 0, 0⟩ : Vec3 ℝ)) ∨ p = ("X", (⟨1 / 3, 2 / 3, 2 / 3⟩ : Vec3 ℝ)) ∨
      p = ("X", (⟨2 / 3, 1 / 3, 1 / 3⟩ : Vec3 ℝ)) := by
    simpa [sites, tripleCell, Structure.new] using hp
  rcases hp' with rfl | rfl | rfl
  · refine ⟨("X", ⟨1 / 3, 2 / 3, 2 / 3⟩), by simp [sites, tripleCell, Structure.new], rfl, 0, ?_, hz⟩
    rw [samePoint_iff_intVec]
    exact ⟨0, 0, 0, by ext <;> simp⟩
  · refine ⟨("X", ⟨2 / 3, 1 / 3, 1 / 3⟩), by simp [sites, tripleCell, Structure.new], rfl, 0, ?_, hz⟩
    rw [samePoint_iff_intVec]
    exact ⟨0, -1, -1, by ext <;> simp <;> norm_num⟩
  · refine ⟨("X", ⟨0, 0, 0⟩), by simp [sites, tripleCell, Structure.new], rfl, 0, ?_, hz⟩
    rw [samePoint_iff_intVec]
    exact ⟨-1, -1, -1, by ext <;> simp <;> norm_num⟩

/-- **C57 is false.** With the default tolerances, for every hash order, the cell returned for `tripleCell` is not
primitive: the translation `(1/3, 2/3, 2/3)` maps the structure exactly onto itself, and is not a vector of the returned
lattice. -/
theorem C57_false_not_primitive (ord : List (String × ℕ) → List (String × ℕ)) (ho : ∀ l, (ord l).Perm l) :
    SvAbove tripleCell.lattice ∧ Consistent tripleCell ∧ TranslationWithin tripleCell 0 ⟨1 / 3, 2 / 3, 2 / 3⟩ ∧
    ∃ s', (Reducer.default : Reducer ℝ).findPrimitiveCell ord tripleCell = .ret s' ∧
      ¬ ∃ n : Vec3 ℝ, IntVec n ∧ tripleCell.lattice * (⟨1 / 3, 2 / 3, 2 / 3⟩ : Vec3 ℝ) = s'.lattice * n := by
  have hsv : SvAbove tripleCell.lattice := svAbove_diag (by norm_num) (by norm_num) (by norm_num)
  refine ⟨hsv, ⟨rfl, rfl⟩, tripleCell_translation, ?_⟩
  obtain ⟨⟨minEle, inds, counts⟩, hmin⟩ := (C19_get_min_element_panics_iff tripleCell ord ho).2 (by
    simp [tripleCell, Structure.new])
  obtain ⟨⟨hmem, -⟩, hinds, -⟩ := C19_get_min_element tripleCell ord ho (by
    simp [tripleCell, Structure.new, Structure.numSites]) minEle inds counts hmin
  have hX : minEle = "X" := by simpa [tripleCell, Structure.new] using hmem
  subst hX
  have hind : amapGet? inds "X" = some 0 := by
    rw [hinds, if_pos hmem]
    simp [tripleCell, Structure.new]
  have hbase : tripleCell.fracCoords[0]? = some (⟨0, 0, 0⟩ : Vec3 ℝ) := rfl
  set tols : Vec3 ℝ := ⟨1 / 80, 1 / 60, 5 / 301⟩ with htols
  set d : ℝ := (Reducer.default : Reducer ℝ).dtol with hd
  have hdv : d = 1 / 20 := by rw [hd]; norm_num [Reducer.default, lit]
  have hd0 : 0 ≤ d := by rw [hdv]; norm_num
  have n2 : normFracVec tols ⟨1 / 3, 2 / 3, 2 / 3⟩ = ⟨1 / 3, 2 / 3, 2 / 3⟩ := tripleCell_norm _ (by simp)
  have n3 : normFracVec tols ⟨2 / 3, 1 / 3, 1 / 3⟩ = ⟨2 / 3, 1 / 3, 1 / 3⟩ := tripleCell_norm _ (by simp)
  have hcand : candidateVecs tols "X" 0 ⟨0, 0, 0⟩ tripleCell.species tripleCell.fracCoords
      = unitVecs ++ [⟨1 / 3, 2 / 3, 2 / 3⟩, ⟨2 / 3, 1 / 3, 1 / 3⟩] := by
    unfold candidateVecs
    congr 1
    simp only [tripleCell, Structure.new, Bool.false_eq_true, if_false, List.zip_cons_cons, List.zip_nil_left,
      List.zipIdx_cons, List.zipIdx_nil, List.filterMap_cons, List.filterMap_nil]
    have e1 : (⟨1 / 3, 2 / 3, 2 / 3⟩ : Vec3 ℝ) - ⟨0, 0, 0⟩ = ⟨1 / 3, 2 / 3, 2 / 3⟩ := by ext <;> simp
    have e2 : (⟨2 / 3, 1 / 3, 1 / 3⟩ : Vec3 ℝ) - ⟨0, 0, 0⟩ = ⟨2 / 3, 1 / 3, 1 / 3⟩ := by ext <;> simp
    simp only [e1, e2, n2, n3]
    simp
  have t1 : 0 ≤ tols.x ∧ tols.x < 1 := by norm_num [htols]
  have t2 : 0 ≤ tols.y ∧ tols.y < 1 := by norm_num [htols]
  have t3 : 0 ≤ tols.z ∧ tols.z < 1 := by norm_num [htols]
  have m1 : ((⟨0, 0, 0⟩ : Vec3 ℝ), "X") ∈ tripleCell.fracCoords.zip tripleCell.species := by
    simp [tripleCell, Structure.new]
  have m2 : ((⟨1 / 3, 2 / 3, 2 / 3⟩ : Vec3 ℝ), "X") ∈ tripleCell.fracCoords.zip tripleCell.species := by
    simp [tripleCell, Structure.new]
  have m3 : ((⟨2 / 3, 1 / 3, 1 / 3⟩ : Vec3 ℝ), "X") ∈ tripleCell.fracCoords.zip tripleCell.species := by
    simp [tripleCell, Structure.new]
  have htr : ∀ e : Vec3 ℝ, e = ⟨1 / 3, 2 / 3, 2 / 3⟩ ∨ e = ⟨2 / 3, 1 / 3, 1 / 3⟩ →
      isTranslation tripleCell.lattice tols d (tripleCell.fracCoords.zip tripleCell.species) e = true := by
    intro e he
    unfold isTranslation
    rw [List.all_eq_true]
    intro p hp
    rw [List.any_eq_true]
    have hp' : p = ((⟨0, 0, 0⟩ : Vec3 ℝ), "X") ∨ p = ((⟨1 / 3, 2 / 3, 2 / 3⟩ : Vec3 ℝ), "X") ∨
        p = ((⟨2 / 3, 1 / 3, 1 / 3⟩ : Vec3 ℝ), "X") := by
      simpa [tripleCell, Structure.new] using hp
    have fin : ∀ (x y : Vec3 ℝ), IntVec (x - y) →
        (decide (("X" : String) = "X") && Structure.sitesCoincide tripleCell.lattice tols d x y) = true := by
      intro x y h
      rw [Bool.and_eq_true]
      exact ⟨by simp, sitesCoincide_of_int hd0 t1 t2 t3 h⟩
    rcases he with rfl | rfl <;> rcases hp' with rfl | rfl | rfl
    · exact ⟨_, m2, fin _ _ ⟨0, 0, 0, by ext <;> simp⟩⟩
    · exact ⟨_, m3, fin _ _ ⟨0, 1, 1, by ext <;> simp <;> norm_num⟩⟩
    · exact ⟨_, m1, fin _ _ ⟨1, 1, 1, by ext <;> simp <;> norm_num⟩⟩
    · exact ⟨_, m3, fin _ _ ⟨0, 0, 0, by ext <;> simp⟩⟩
    · exact ⟨_, m1, fin _ _ ⟨1, 1, 1, by ext <;> simp <;> norm_num⟩⟩
    · exact ⟨_, m2, fin _ _ ⟨1, 0, 0, by ext <;> simp <;> norm_num⟩⟩
  have hfilter : (unitVecs ++ [(⟨1 / 3, 2 / 3, 2 / 3⟩ : Vec3 ℝ), ⟨2 / 3, 1 / 3, 1 / 3⟩]).filter
      (isTranslation tripleCell.lattice tols d (tripleCell.fracCoords.zip tripleCell.species))
      = unitVecs ++ [⟨1 / 3, 2 / 3, 2 / 3⟩, ⟨2 / 3, 1 / 3, 1 / 3⟩] := by
    rw [List.filter_eq_self]
    intro e he
    rcases List.mem_append.1 he with he | he
    · exact unit_isTranslation hd0 t1 t2 t3 _ he
    · exact htr e (by simpa using he)
  have hcart : Structure.getCartCoords tripleCell.lattice (unitVecs ++ [⟨1 / 3, 2 / 3, 2 / 3⟩, ⟨2 / 3, 1 / 3, 1 / 3⟩])
      = [⟨4, 0, 0⟩, ⟨0, 3, 0⟩, ⟨0, 0, 301 / 100⟩, ⟨4 / 3, 2, 301 / 150⟩, ⟨8 / 3, 1, 301 / 300⟩] := by
    simp only [Structure.getCartCoords, unitVecs, List.cons_append, List.nil_append, List.map_cons, List.map_nil,
      List.cons.injEq, and_true]
    refine ⟨?_, ?_, ?_, ?_, ?_⟩ <;> ext <;> simp [tripleCell, Structure.new] <;> norm_num
  have hperm : ∀ a b c e f : Vec3 ℝ, [b, c, f, e, a].Perm [a, b, c, e, f] := by
    intro a b c e f
    refine List.Perm.trans (l₂ := [b, c, e, f, a]) ?_ ?_
    · exact ((List.Perm.swap _ _ _).cons _).cons _
    · exact List.perm_append_comm (l₁ := [b, c, e, f]) (l₂ := [a])
  have hmag : ∀ u v : Vec3 ℝ, lenSq u < lenSq v → u.mag < v.mag := by
    intro u v huv
    rw [mag_eq, mag_eq]
    exact Real.sqrt_lt_sqrt (lenSq_nonneg u) huv
  have hsort : sortByMag [(⟨4, 0, 0⟩ : Vec3 ℝ), ⟨0, 3, 0⟩, ⟨0, 0, 301 / 100⟩, ⟨4 / 3, 2, 301 / 150⟩,
      ⟨8 / 3, 1, 301 / 300⟩]
      = [⟨0, 3, 0⟩, ⟨0, 0, 301 / 100⟩, ⟨8 / 3, 1, 301 / 300⟩, ⟨4 / 3, 2, 301 / 150⟩, ⟨4, 0, 0⟩] := by
    apply sortByMag_eq
    · exact hperm _ _ _ _ _
    · simp only [List.pairwise_cons, List.mem_cons, List.not_mem_nil, or_false, forall_eq_or_imp, forall_eq,
        IsEmpty.forall_iff, implies_true, List.Pairwise.nil, and_true]
      refine ⟨⟨?_, ?_, ?_, ?_⟩, ⟨?_, ?_, ?_⟩, ⟨?_, ?_⟩, ?_⟩ <;> apply hmag <;> norm_num [lenSq]
  have hfirst : getShortestTranslationVecs d [(⟨4, 0, 0⟩ : Vec3 ℝ), ⟨0, 3, 0⟩, ⟨0, 0, 301 / 100⟩,
      ⟨4 / 3, 2, 301 / 150⟩, ⟨8 / 3, 1, 301 / 300⟩]
      = .ret (⟨0, 3, 0⟩, ⟨0, 0, 301 / 100⟩, ⟨8 / 3, 1, 301 / 300⟩) := by
    have c1 : (⟨0, 3, 0⟩ : Vec3 ℝ).cross ⟨0, 0, 301 / 100⟩ = ⟨903 / 100, 0, 0⟩ := by
      ext <;> simp [Vec3.cross]; norm_num
    have k1 : (FRound.abs (⟨903 / 100, 0, 0⟩ : Vec3 ℝ).mag : ℝ) = 903 / 100 := by
      rw [mag_axis_x (by norm_num)]
      exact abs_of_nonneg (by norm_num)
    have d1 : (⟨903 / 100, 0, 0⟩ : Vec3 ℝ).dot ⟨8 / 3, 1, 301 / 300⟩ = 602 / 25 := by norm_num [Vec3.dot]
    unfold getShortestTranslationVecs
    simp only [hsort, List.getElem?_cons_zero, Outcome.ofOption, Outcome.bind, List.drop_succ_cons,
      List.drop_zero, secondScan, c1, k1, hdv]
    norm_num
    simp only [thirdScan, d1]
    norm_num
  obtain ⟨f1, f2, f3, hsecond⟩ := getShortest_ret d (l := Structure.getCartCoords tripleCell.lattice (combinationVecs
        (Mat3.ofCols (FTrans.pinv tripleCell.lattice * (⟨0, 3, 0⟩ : Vec3 ℝ))
          (FTrans.pinv tripleCell.lattice * (⟨0, 0, 301 / 100⟩ : Vec3 ℝ))
          (FTrans.pinv tripleCell.lattice * (⟨8 / 3, 1, 301 / 300⟩ : Vec3 ℝ))))) (by
      unfold Structure.getCartCoords
      rw [List.length_map]; exact combinationVecs_length _)
  -- the first components are multiples of `8/3`
  have hplane : ∀ v ∈ Structure.getCartCoords tripleCell.lattice (combinationVecs
        (Mat3.ofCols (FTrans.pinv tripleCell.lattice * (⟨0, 3, 0⟩ : Vec3 ℝ))
          (FTrans.pinv tripleCell.lattice * (⟨0, 0, 301 / 100⟩ : Vec3 ℝ))
          (FTrans.pinv tripleCell.lattice * (⟨8 / 3, 1, 301 / 300⟩ : Vec3 ℝ)))), ∃ k : ℤ, v.x = 8 / 3 * k := by
    intro v hv
    unfold Structure.getCartCoords at hv
    obtain ⟨u, hu, rfl⟩ := List.mem_map.1 hv
    obtain ⟨a, b, c, rfl⟩ := mem_combinationVecs hu
    have e : Mat3.ofCols (FTrans.pinv tripleCell.lattice * (⟨0, 3, 0⟩ : Vec3 ℝ))
          (FTrans.pinv tripleCell.lattice * (⟨0, 0, 301 / 100⟩ : Vec3 ℝ))
          (FTrans.pinv tripleCell.lattice * (⟨8 / 3, 1, 301 / 300⟩ : Vec3 ℝ))
        = FTrans.pinv tripleCell.lattice * (Mat3.ofCols ⟨0, 3, 0⟩ ⟨0, 0, 301 / 100⟩ ⟨8 / 3, 1, 301 / 300⟩) := by
      ext <;> simp [Mat3.ofCols]
    rw [e, ← Mat3.mul_mulVec, ← mul_assoc, mul_pinv hsv, one_mul]
    exact ⟨c, by simp [Mat3.ofCols]⟩
  obtain ⟨g1, g2, g3⟩ := getShortest_mem hsecond
  have hret : ∃ s', (Reducer.default : Reducer ℝ).findPrimitiveCell ord tripleCell = .ret s' ∧
      s'.lattice = Mat3.ofCols f1 f2 f3 := by
    unfold findPrimitiveCell
    simp only
    rw [tripleCell_normalize, tripleCell_tols, hmin]
    simp only [Outcome.bind, hind, Outcome.ofOption, hbase]
    rw [← htols, hcand, ← hd, hfilter, hcart, hfirst]
    simp only
    rw [hsecond]
    exact ⟨_, rfl, rfl⟩
  obtain ⟨s', hs', hl'⟩ := hret
  refine ⟨s', hs', ?_⟩
  rintro ⟨n, ⟨i, j, k, rfl⟩, hn⟩
  obtain ⟨k1, h1⟩ := hplane f1 g1
  obtain ⟨k2, h2⟩ := hplane f2 g2
  obtain ⟨k3, h3⟩ := hplane f3 g3
  have hx := congrArg Vec3.x hn
  rw [hl', show tripleCell.lattice = (⟨4, 0, 0, 0, 3, 0, 0, 0, 301 / 100⟩ : Mat3 ℝ) from rfl] at hx
  simp only [Mat3.mulVec_x, Mat3.ofCols, h1, h2, h3] at hx
  have h9 : (1 : ℝ) = 2 * ((k1 * i + k2 * j + k3 * k : ℤ) : ℝ) := by
    push_cast
    linear_combination 3 / 4 * hx
  have : (1 : ℤ) = 2 * (k1 * i + k2 * j + k3 * k) := by exact_mod_cast h9
  omega

end CrystSymm
