import Verif.Proofs.DyadicCell

set_option autoImplicit false
set_option linter.unusedSectionVars false

/-! # The same search in exact arithmetic, and the search in integers always succeeds -/

namespace CrystSymm

open Spec Reducer

theorem normComp_halves {t : ℝ} (h0 : 0 ≤ t) (h1 : t < 1 / 2) (k : ℤ) (hk : -1 ≤ k ∧ k ≤ 3) :
    normComp t ((k : ℝ) / 2) = ((k % 2 : ℤ) : ℝ) / 2 := by
  by_cases hk1 : k ≤ 1
  · exact normComp_half h0 h1 k ⟨hk.1, hk1⟩
  · have : k = 2 ∨ k = 3 := by omega
    rcases this with rfl | rfl
    · have := normComp_intCast h0 (by linarith) 1 (K := ℝ)
      rw [show ((2 : ℤ) : ℝ) / 2 = ((1 : ℤ) : ℝ) by norm_num, this]
      norm_num
    · have e : (FRound.fmod1 (((3 : ℤ) : ℝ) / 2) : ℝ) = 1 / 2 := by
        rw [fmod1_eq]
        have : truncZ (((3 : ℤ) : ℝ) / 2) = 1 := by
          unfold truncZ
          rw [if_pos (by norm_num), Int.floor_eq_iff]
          norm_num
        rw [this]
        norm_num
      unfold normComp
      simp only [e]
      rw [if_neg (by linarith), if_neg (by linarith)]
      norm_num

theorem normFrac_halves {t : ℝ} (h0 : 0 ≤ t) (h1 : t < 1 / 2) {v : Vec3 ℤ} (hx : -1 ≤ v.x ∧ v.x ≤ 3) (hy : -1 ≤ v.y ∧ v.y ≤ 3)
    (hz : -1 ≤ v.z ∧ v.z ≤ 3) : normFracVec ⟨t, t, t⟩ (halfVec v) = halfVec (mod2 v) := by
  unfold normFracVec halfVec mod2
  simp only [normComp_halves h0 h1 _ hx, normComp_halves h0 h1 _ hy, normComp_halves h0 h1 _ hz]

section
variable {c : ℝ}

theorem coincide_cubic (hc : 1 ≤ c) {d : ℝ} (hd : 0 ≤ d) (hd1 : d ≤ 1 / 4) (l : List (String × Vec3 ℤ)) {p k q : Vec3 ℤ} (hp : UnitCoords p)
    (hk : (0 ≤ k.x ∧ k.x ≤ 2) ∧ (0 ≤ k.y ∧ k.y ≤ 2) ∧ (0 ≤ k.z ∧ k.z ≤ 2)) (hq : UnitCoords q) :
    Structure.sitesCoincide (cubicCell c l).lattice (Structure.fracTols (cubicCell c l).lattice d) d (halfVec p + halfVec k) (halfVec q) =
      decide (mod2 (p + k - q) = 0) := by
  have hc0 : 0 < c := by linarith
  have ht0 : 0 ≤ d / (2 * c) := by positivity
  have ht1 : d / (2 * c) < 1 / 2 := by rw [div_lt_div_iff₀ (by positivity) (by norm_num)]; linarith
  have hadd : halfVec p + halfVec k = halfVec (p + k) := by ext <;> simp [halfVec] <;> ring
  unfold Structure.sitesCoincide
  simp only
  rw [decide_eq_decide, cubic_tols hc0, hadd, halfVec_sub]
  obtain ⟨a1, a2, a3⟩ := hp
  obtain ⟨b1, b2, b3⟩ := hq
  rw [normFrac_halves ht0 ht1 (by simp only [Vec3.add_x, Vec3.sub_x]; omega) (by simp only [Vec3.add_y, Vec3.sub_y]; omega)
    (by simp only [Vec3.add_z, Vec3.sub_z]; omega), cubicCell_mulVec]
  generalize mod2 (p + k - q) = w
  show |(cubicVec c w).mag| ≤ d * lit 2 ↔ _
  rw [abs_of_nonneg (mag_nonneg _), mag_eq, lenSq_cubicVec, Real.sqrt_mul (sq_nonneg _), Real.sqrt_sq (by linarith),
    show (lit 2 : ℝ) = 2 by simp [lit]]
  constructor
  · intro hle
    by_contra hne
    have n1 : (1 : ℝ) ≤ √(normZ w) := by
      rw [Real.one_le_sqrt]
      exact_mod_cast one_le_normZ hne
    nlinarith
  · rintro rfl
    rw [show normZ 0 = 0 from rfl, Nat.cast_zero, Real.sqrt_zero, mul_zero]
    linarith

theorem cubic_combs (l : List (String × Vec3 ℤ)) (x y z : Vec3 ℤ) :
    Structure.getCartCoords (cubicCell c l).lattice (combinationVecs (Mat3.ofCols (halfVec x) (halfVec y) (halfVec z))) =
      (combs (Mat3.ofCols x y z)).map (cubicVec c) := by
  have hbase : (baseCombVecs : List (Vec3 ℝ)) = ([⟨1, 0, 0⟩, ⟨0, 1, 0⟩, ⟨0, 0, 1⟩, ⟨1, 1, 0⟩, ⟨1, 0, 1⟩, ⟨0, 1, 1⟩, ⟨-1, 1, 0⟩,
      ⟨-1, 0, 1⟩, ⟨0, -1, 1⟩, ⟨1, 1, 1⟩, ⟨-1, 1, 1⟩, ⟨1, -1, 1⟩, ⟨1, 1, -1⟩] : List (Vec3 ℤ)).map (cubicVec 1) := by
    simp [baseCombVecs, cubicVec]
  unfold Structure.getCartCoords combinationVecs combs
  rw [hbase, List.flatMap_map, List.map_flatMap, List.map_flatMap]
  apply List.flatMap_congr
  intro v hv
  have e1 : Mat3.ofCols (halfVec x) (halfVec y) (halfVec z) * (cubicVec 1 v) = halfVec (Mat3.ofCols x y z * v) := by
    ext <;> simp [halfVec, cubicVec, Mat3.ofCols] <;> ring
  have e2 : ∀ w : Vec3 ℤ, Vec3.scale (-1) (halfVec w) = halfVec (-w) := by
    intro w
    ext <;> simp [halfVec, Vec3.scale] <;> ring
  simp only [e1, e2]
  generalize Mat3.ofCols x y z * v = w
  have hm : zeroTol < (FRound.abs (halfVec (-w)).mag : ℝ) ↔ w ≠ 0 := by
    show _ < |_| ↔ _
    rw [abs_of_nonneg (mag_nonneg _), mag_eq]
    have e3 : lenSq (halfVec (-w)) = normZ w / 4 := by
      rw [normZ_cast]
      simp only [halfVec, lenSq, Vec3.neg_x, Vec3.neg_y, Vec3.neg_z]
      push_cast
      ring
    have e4 : (zeroTol : ℝ) = 1 / 1000000 := by simp [zeroTol, lit]
    rw [e3, e4]
    constructor
    · rintro hlt rfl
      rw [show normZ 0 = 0 from rfl, Nat.cast_zero, zero_div, Real.sqrt_zero] at hlt
      norm_num at hlt
    · intro hne
      have h1 : (1 : ℝ) ≤ normZ w := by exact_mod_cast one_le_normZ hne
      apply Real.lt_sqrt_of_sq_lt
      linarith
  by_cases h0 : w = 0
  · rw [if_neg (by rw [hm]; simpa using h0), if_pos h0]
    simp only [List.append_nil, List.map_cons, List.map_nil, cubicCell_mulVec]
  · rw [if_pos (hm.2 h0), if_neg h0]
    simp only [List.cons_append, List.nil_append, List.map_cons, List.map_nil, cubicCell_mulVec]

/-- the search in exact arithmetic follows the search in integers. -/
theorem cubic_search (hc : 1 ≤ c) {r : Reducer ℝ} {ord : List (String × ℕ) → List (String × ℕ)} (ho : ∀ l, (ord l).Perm l)
    {l : List (String × Vec3 ℤ)} (hd : 0 ≤ r.dtol) (hd1 : r.dtol ≤ 1 / 4) (hl : ∀ p ∈ l, UnitCoords p.2)
    (hs : l.Pairwise fun p q => p.1 ≤ q.1) (hlen : l.length < 65536) (e : String) (i : ℕ) (base : Vec3 ℤ)
    (he : ∀ e' ∈ l.map Prod.fst, (∀ k ∈ l.map Prod.fst, (l.map Prod.fst).count e' < (l.map Prod.fst).count k ∨
      ((l.map Prod.fst).count e' = (l.map Prod.fst).count k ∧ e' ≤ k)) → e' = e)
    (hi : (l.map Prod.fst).idxOf e = i) (hb : l[i]? = some (e, base)) {f g k : Vec3 ℤ} (hprim : primZ e i base l = some (f, g, k)) :
    ∃ prim, r.findPrimitiveCell ord (cubicCell c l) = .ret prim ∧
      prim.lattice = Mat3.ofCols (cubicVec c f) (cubicVec c g) (cubicVec c k) := by
  have hc0 : 0 < c := by linarith
  have hdc : r.dtol < c := by linarith
  set s := cubicCell c l with hsdef
  have hsv : SvAbove s.lattice := by
    rw [cubicCell_lattice]
    exact svAbove_diag (by linarith) (by linarith) (by linarith)
  have hp : ∀ t : Vec3 ℝ, (FTrans.pinv s.lattice : Mat3 ℝ) * (s.lattice * t) = t := fun t => by
    rw [← Mat3.mul_mulVec, pinv_mul hsv, Mat3.one_mulVec]
  have hnorm : s.normalizeCoords r.dtol = s := cubic_normalize hc0 hd hdc hl hs
  have hmemb : e ∈ l.map Prod.fst := List.mem_map.2 ⟨_, List.mem_of_getElem? hb, rfl⟩
  obtain ⟨⟨minEle, inds, counts⟩, hmin⟩ := (C19_get_min_element_panics_iff s ord ho).2 (by
    rw [cubicCell_species]; exact List.ne_nil_of_mem hmemb)
  obtain ⟨⟨hmem, hleast⟩, hinds, -⟩ := C19_get_min_element s ord ho (by
    unfold Structure.numSites; rw [cubicCell_species, List.length_map]; exact hlen) minEle inds counts hmin
  have hE : minEle = e := he _ hmem hleast
  subst hE
  have hind : amapGet? inds minEle = some i := by
    rw [hinds, if_pos hmem, cubicCell_species, hi]
  have hbase : s.fracCoords[i]? = some (halfVec base) := by
    rw [cubicCell_frac, List.getElem?_map, hb]; rfl
  have hub : UnitCoords base := hl _ (List.mem_of_getElem? hb)
  have hcand := cubic_candidates hc0 hd hdc hl minEle i hub
  have hfilter : ((candZ minEle i base l).map halfVec).filter
      (isTranslation s.lattice (Structure.fracTols s.lattice r.dtol) r.dtol (s.fracCoords.zip s.species)) =
      ((candZ minEle i base l).filter (repeatsZ l)).map halfVec := by
    rw [List.filter_map]
    congr 1
    apply List.filter_congr
    intro k hk
    have hzip : s.fracCoords.zip s.species = l.map fun p => (halfVec p.2, p.1) := by
      rw [cubicCell_species, cubicCell_frac, List.zip_map']
    show isTranslation _ _ _ _ _ = _
    unfold isTranslation repeatsZ
    rw [hzip, List.all_map]
    rw [Bool.eq_iff_iff, List.all_eq_true, List.all_eq_true]
    refine forall₂_congr fun p hp => ?_
    show (List.any _ _ = true) ↔ _
    rw [List.any_map, List.any_eq_true, List.any_eq_true]
    refine exists_congr fun q => and_congr_right fun hq => ?_
    show (decide (p.1 = q.1) && Structure.sitesCoincide _ _ _ (halfVec p.2 + halfVec k) (halfVec q.2)) = true ↔ _
    rw [coincide_cubic hc hd hd1 l (hl p hp) (candZ_bound hk) (hl q hq)]
  have hcb : ∀ k ∈ (candZ minEle i base l).filter (repeatsZ l), (0 ≤ k.x ∧ k.x ≤ 2) ∧ (0 ≤ k.y ∧ k.y ≤ 2) ∧ (0 ≤ k.z ∧ k.z ≤ 2) :=
    fun k hk => candZ_bound (List.mem_of_mem_filter hk)
  have hcart : Structure.getCartCoords s.lattice (((candZ minEle i base l).filter (repeatsZ l)).map halfVec) =
      ((candZ minEle i base l).filter (repeatsZ l)).map (cubicVec c) := by
    unfold Structure.getCartCoords
    rw [List.map_map]
    exact List.map_congr_left fun k _ => cubicCell_mulVec c l k
  have norm_lt : ∀ {w : Vec3 ℤ}, Fits w → normZ w < 200 := by
    rintro w ⟨a1, a2, a3⟩
    have m1 := abs_mul_le' a1 a1
    have m2 := abs_mul_le' a2 a2
    have m3 := abs_mul_le' a3 a3
    unfold normZ
    rw [abs_le] at m1 m2 m3
    omega
  unfold primZ at hprim
  obtain ⟨⟨x, y, z⟩, hfirst, hsecond⟩ := Option.bind_eq_some_iff.1 hprim
  simp only at hsecond
  obtain ⟨mx, my, mz⟩ := shortestZ_mem hfirst
  have h2 : r.dtol < c ^ 2 := by nlinarith
  have h3 : r.dtol < c ^ 3 := by nlinarith [one_le_pow₀ (n := 3) hc]
  have hF := getShortest_cubic hc0 hd h2 h3 (fun v hv => norm_lt (by
    have := hcb v hv
    unfold Fits; simp only [abs_le]; omega)) hfirst
  have hS := getShortest_cubic hc0 hd h2 h3 (fun v hv => norm_lt (combs_bound (hcb x mx) (hcb y my) (hcb z mz) hv)) hsecond
  unfold findPrimitiveCell
  simp only
  rw [hnorm, hmin]
  simp only [Outcome.bind, hind, Outcome.ofOption, hbase]
  rw [hcand, hfilter, hcart, hF]
  simp only
  rw [← cubicCell_mulVec c l x, ← cubicCell_mulVec c l y, ← cubicCell_mulVec c l z, hp, hp, hp, cubic_combs l x y z, hS]
  exact ⟨_, rfl, rfl⟩

end

/-! ## The search in integers succeeds -/

theorem secondZ_index (first : Vec3 ℤ) (l : List (Vec3 ℤ)) (n : ℕ) (w : Vec3 ℤ) :
    (secondZ first l n w).1 = 1 ∨ (n < (secondZ first l n w).1 ∧ (secondZ first l n w).1 ≤ n + l.length) := by
  induction l generalizing n w with
  | nil => left; rfl
  | cons v vs ih =>
    unfold secondZ
    split_ifs
    · rcases ih (n + 1) (first.cross v) with h | h
      · exact Or.inl h
      · right; simp only [List.length_cons]; omega
    · right; simp only [List.length_cons]; omega

theorem thirdZ_index (w : Vec3 ℤ) (k : ℕ) (l : List (Vec3 ℤ)) (n : ℕ) : thirdZ w k l n = 2 ∨ thirdZ w k l n ≤ n + k + l.length := by
  induction l generalizing n with
  | nil => left; rfl
  | cons v vs ih =>
    unfold thirdZ
    split_ifs
    · right; simp only [List.length_cons]; omega
    · rcases ih (n + 1) with h | h
      · exact Or.inl h
      · right; simp only [List.length_cons]; omega

theorem shortestZ_some {N : ℕ} {l : List (Vec3 ℤ)} (hN : ∀ v ∈ l, normZ v < N) (hl : 3 ≤ l.length) : ∃ f, shortestZ N l = some f := by
  have hlen : (bucketSort normZ N l).length = l.length := by
    rw [← mergeSort_eq_buckets normZ hN, List.length_mergeSort]
  unfold shortestZ
  simp only
  set m := bucketSort normZ N l
  rw [List.getElem?_eq_getElem (by omega : 0 < m.length), Option.bind_some]
  have h1 := secondZ_index m[0] (m.drop 1) 0 0
  rw [List.length_drop] at h1
  set sec := secondZ m[0] (m.drop 1) 0 0
  rw [if_neg (by omega)]
  have h2 := thirdZ_index sec.2 sec.1 (m.drop (sec.1 + 1)) 0
  rw [List.length_drop] at h2
  rw [List.getElem?_eq_getElem (by omega : sec.1 < m.length), Option.bind_some,
    List.getElem?_eq_getElem (by omega : thirdZ sec.2 sec.1 (m.drop (sec.1 + 1)) 0 < m.length), Option.bind_some]
  exact ⟨_, rfl⟩

theorem combs_length (M : Mat3 ℤ) : 3 ≤ (combs M).length := by
  unfold combs
  simp only [List.flatMap_cons, List.length_append, List.length_cons]
  omega

theorem primZ_some (e : String) (i : ℕ) (base : Vec3 ℤ) {l : List (String × Vec3 ℤ)} (hl : ∀ p ∈ l, UnitCoords p.2) : ∃ f, primZ e i base l = some f := by
  have norm_lt : ∀ {w : Vec3 ℤ}, Fits w → normZ w < 200 := by
    rintro w ⟨a1, a2, a3⟩
    have m1 := abs_mul_le' a1 a1
    have m2 := abs_mul_le' a2 a2
    have m3 := abs_mul_le' a3 a3
    unfold normZ
    rw [abs_le] at m1 m2 m3
    omega
  have hcb : ∀ k ∈ (candZ e i base l).filter (repeatsZ l), (0 ≤ k.x ∧ k.x ≤ 2) ∧ (0 ≤ k.y ∧ k.y ≤ 2) ∧ (0 ≤ k.z ∧ k.z ≤ 2) :=
    fun k hk => candZ_bound (List.mem_of_mem_filter hk)
  have hunit : ∀ k ∈ ([⟨2, 0, 0⟩, ⟨0, 2, 0⟩, ⟨0, 0, 2⟩] : List (Vec3 ℤ)), repeatsZ l k = true := by
    intro k hk
    unfold repeatsZ
    rw [List.all_eq_true]
    intro p hp
    rw [List.any_eq_true]
    refine ⟨p, hp, ?_⟩
    rw [decide_eq_true rfl, Bool.true_and, decide_eq_true_eq]
    have : mod2 (p.2 + k - p.2) = mod2 k := by
      congr 1
      ext <;> simp
    rw [this]
    simp only [List.mem_cons, List.not_mem_nil, or_false] at hk
    rcases hk with rfl | rfl | rfl <;> decide
  have hlen : 3 ≤ ((candZ e i base l).filter (repeatsZ l)).length := by
    unfold candZ
    rw [List.filter_append, List.filter_eq_self.2 hunit, List.length_append]
    simp only [List.length_cons]
    omega
  obtain ⟨⟨x, y, z⟩, hf⟩ := shortestZ_some (N := 200) (fun v hv => norm_lt (by
    have := hcb v hv
    unfold Fits; simp only [abs_le]; omega)) hlen
  obtain ⟨mx, my, mz⟩ := shortestZ_mem hf
  obtain ⟨g, hg⟩ := shortestZ_some (N := 200) (fun v hv => norm_lt (combs_bound (hcb x mx) (hcb y my) (hcb z mz) hv))
    (combs_length (Mat3.ofCols x y z))
  exact ⟨g, by unfold primZ; rw [hf]; exact hg⟩

end CrystSymm
