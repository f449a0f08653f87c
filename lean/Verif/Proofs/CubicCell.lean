import Verif.Proofs.BucketSort
import Verif.Props.PrimitiveIndex
import Verif.Props.NiggliIdem

set_option autoImplicit false
set_option linter.unusedSectionVars false

/-! # The primitive cell of a crystal in a cubic cell with sites at halves of the edges -/

namespace CrystSymm

open Spec Reducer

noncomputable def halfVec (v : Vec3 ℤ) : Vec3 ℝ := ⟨(v.x : ℝ) / 2, (v.y : ℝ) / 2, (v.z : ℝ) / 2⟩

/-- a cube with edge `2 c`; the sites are given in units of half the edge. -/
noncomputable def cubicCell (c : ℝ) (l : List (String × Vec3 ℤ)) : Structure ℝ :=
  Structure.new ⟨2 * c, 0, 0, 0, 2 * c, 0, 0, 0, 2 * c⟩ (l.map Prod.fst) (l.map fun p => halfVec p.2) false

theorem cubicCell_lattice (c : ℝ) (l : List (String × Vec3 ℤ)) :
    (cubicCell c l).lattice = ⟨2 * c, 0, 0, 0, 2 * c, 0, 0, 0, 2 * c⟩ := rfl

theorem cubicCell_species (c : ℝ) (l : List (String × Vec3 ℤ)) : (cubicCell c l).species = l.map Prod.fst := rfl

theorem cubicCell_frac (c : ℝ) (l : List (String × Vec3 ℤ)) : (cubicCell c l).fracCoords = l.map fun p => halfVec p.2 := by
  simp [cubicCell, Structure.new]

theorem cubicCell_sites (c : ℝ) (l : List (String × Vec3 ℤ)) : sites (cubicCell c l) = l.map fun p => (p.1, halfVec p.2) := by
  unfold sites
  rw [cubicCell_species, cubicCell_frac, List.zip_map']

theorem cubicCell_mulVec (c : ℝ) (l : List (String × Vec3 ℤ)) (v : Vec3 ℤ) : (cubicCell c l).lattice * halfVec v = cubicVec c v := by
  rw [cubicCell_lattice]
  ext <;> simp [halfVec, cubicVec] <;> ring

/-- coordinates `0` or `1`. -/
def UnitCoords (v : Vec3 ℤ) : Prop := (0 ≤ v.x ∧ v.x ≤ 1) ∧ (0 ≤ v.y ∧ v.y ≤ 1) ∧ (0 ≤ v.z ∧ v.z ≤ 1)

instance (v : Vec3 ℤ) : Decidable (UnitCoords v) := by unfold UnitCoords; infer_instance

theorem cubic_tols {c d : ℝ} (hc : 0 < c) (l : List (String × Vec3 ℤ)) :
    Structure.fracTols (cubicCell c l).lattice d = ⟨d / (2 * c), d / (2 * c), d / (2 * c)⟩ := by
  unfold Structure.fracTols
  rw [cubicCell_lattice]
  simp only [Mat3.col0, Mat3.col1, Mat3.col2]
  rw [mag_axis_x (by positivity), mag_axis_y (by positivity), mag_axis_z (by positivity)]

/-- the remainder modulo 2. -/
def mod2 (v : Vec3 ℤ) : Vec3 ℤ := ⟨v.x % 2, v.y % 2, v.z % 2⟩

theorem normComp_half {t : ℝ} (h0 : 0 ≤ t) (h1 : t < 1 / 2) (k : ℤ) (hk : -1 ≤ k ∧ k ≤ 1) :
    normComp t ((k : ℝ) / 2) = ((k % 2 : ℤ) : ℝ) / 2 := by
  have : k = -1 ∨ k = 0 ∨ k = 1 := by omega
  rcases this with rfl | rfl | rfl
  · unfold normComp
    simp only
    rw [fmod1_of_abs_lt_one (by norm_num) (by norm_num), if_pos (by push_cast; linarith)]
    norm_num
  · rw [show ((0 : ℤ) : ℝ) / 2 = 0 by norm_num, normComp_of_mem (by linarith) (by linarith) (by linarith) (by norm_num)]
    norm_num
  · rw [normComp_of_mem (by linarith) (by norm_num; linarith) (by norm_num; linarith) (by norm_num)]
    norm_num

theorem normFrac_half {t : ℝ} (h0 : 0 ≤ t) (h1 : t < 1 / 2) (v : Vec3 ℤ) (hx : -1 ≤ v.x ∧ v.x ≤ 1) (hy : -1 ≤ v.y ∧ v.y ≤ 1)
    (hz : -1 ≤ v.z ∧ v.z ≤ 1) : normFracVec ⟨t, t, t⟩ (halfVec v) = halfVec (mod2 v) := by
  unfold normFracVec halfVec mod2
  simp only [normComp_half h0 h1 _ hx, normComp_half h0 h1 _ hy, normComp_half h0 h1 _ hz]

theorem mod2_unit {v : Vec3 ℤ} (h : UnitCoords v) : mod2 v = v := by
  obtain ⟨h1, h2, h3⟩ := h
  unfold mod2
  ext
  · show v.x % 2 = v.x; omega
  · show v.y % 2 = v.y; omega
  · show v.z % 2 = v.z; omega

theorem cubic_normalize {c d : ℝ} (hc : 0 < c) (hd : 0 ≤ d) (hdc : d < c) {l : List (String × Vec3 ℤ)} (hl : ∀ p ∈ l, UnitCoords p.2)
    (hs : l.Pairwise fun p q => p.1 ≤ q.1) : (cubicCell c l).normalizeCoords d = cubicCell c l := by
  have ht0 : 0 ≤ d / (2 * c) := by positivity
  have ht1 : d / (2 * c) < 1 / 2 := by rw [div_lt_div_iff₀ (by positivity) (by norm_num)]; linarith
  have hfrac : normalizeFracVectors (cubicCell c l).fracCoords ⟨d / (2 * c), d / (2 * c), d / (2 * c)⟩ = (cubicCell c l).fracCoords := by
    unfold normalizeFracVectors
    rw [cubicCell_frac, List.map_map]
    apply List.map_congr_left
    intro p hp
    obtain ⟨h1, h2, h3⟩ := hl p hp
    show normFracVec _ (halfVec p.2) = _
    rw [normFrac_half ht0 ht1 _ (by omega) (by omega) (by omega), mod2_unit (hl p hp)]
  have hz : (cubicCell c l).species.zip ((Structure.getCartCoords (cubicCell c l).lattice (cubicCell c l).fracCoords).zip
      (cubicCell c l).fracCoords) = l.map fun p => (p.1, (cubicCell c l).lattice * halfVec p.2, halfVec p.2) := by
    unfold Structure.getCartCoords
    rw [cubicCell_species, cubicCell_frac, List.map_map, List.zip_map', List.zip_map']
    rfl
  unfold Structure.normalizeCoords
  simp only [cubic_tols hc, hfrac, hz]
  have hsort : Structure.sortBySpecies (l.map fun p => (p.1, (cubicCell c l).lattice * halfVec p.2, halfVec p.2)) =
      l.map fun p => (p.1, (cubicCell c l).lattice * halfVec p.2, halfVec p.2) := by
    apply mergeSort_key_of_sorted Prod.fst
    rw [List.pairwise_map]
    exact hs
  rw [hsort]
  simp only [List.map_map]
  unfold cubicCell Structure.new
  simp [Structure.getCartCoords, Function.comp_def]

/-- the candidates in integer arithmetic, in units of half the edge. -/
def candZ (e : String) (i : ℕ) (base : Vec3 ℤ) (l : List (String × Vec3 ℤ)) : List (Vec3 ℤ) :=
  [⟨2, 0, 0⟩, ⟨0, 2, 0⟩, ⟨0, 0, 2⟩] ++ l.zipIdx.filterMap fun p =>
    if p.1.1 = e ∧ p.2 ≠ i then some (mod2 (p.1.2 - base)) else none

theorem halfVec_sub (u v : Vec3 ℤ) : halfVec u - halfVec v = halfVec (u - v) := by
  ext <;> simp [halfVec] <;> ring

theorem cubic_candidates {c d : ℝ} (hc : 0 < c) (hd : 0 ≤ d) (hdc : d < c) {l : List (String × Vec3 ℤ)} (hl : ∀ p ∈ l, UnitCoords p.2)
    (e : String) (i : ℕ) {base : Vec3 ℤ} (hb : UnitCoords base) :
    candidateVecs (Structure.fracTols (cubicCell c l).lattice d) e i (halfVec base) (cubicCell c l).species (cubicCell c l).fracCoords =
      (candZ e i base l).map halfVec := by
  have ht0 : 0 ≤ d / (2 * c) := by positivity
  have ht1 : d / (2 * c) < 1 / 2 := by rw [div_lt_div_iff₀ (by positivity) (by norm_num)]; linarith
  unfold candidateVecs candZ
  rw [List.map_append]
  congr 1
  · simp [unitVecs, halfVec]
  · rw [cubicCell_species, cubicCell_frac, List.zip_map', List.zipIdx_map, List.filterMap_map, List.map_filterMap]
    apply List.filterMap_congr
    rintro ⟨⟨e', v⟩, j⟩ hp
    have hv := hl (e', v) (by obtain ⟨_, _, h⟩ := List.mem_zipIdx hp; rw [h]; exact List.getElem_mem _)
    simp only [Function.comp, Prod.map]
    by_cases h : e' = e ∧ j ≠ i
    · obtain ⟨a1, a2, a3⟩ := hv
      obtain ⟨b1, b2, b3⟩ := hb
      simp only at a1 a2 a3
      simp only [id]
      rw [if_pos h, if_pos h, Option.map_some, cubic_tols hc, halfVec_sub]
      rw [normFrac_half ht0 ht1]
      · show -1 ≤ v.x - base.x ∧ v.x - base.x ≤ 1; omega
      · show -1 ≤ v.y - base.y ∧ v.y - base.y ≤ 1; omega
      · show -1 ≤ v.z - base.z ∧ v.z - base.z ≤ 1; omega
    · simp only [id]
      rw [if_neg h, if_neg h, Option.map_none]

/-- the combinations in integer arithmetic. -/
def combZ (M : Mat3 ℤ) : List (Vec3 ℤ) :=
  (([⟨1, 0, 0⟩, ⟨0, 1, 0⟩, ⟨0, 0, 1⟩, ⟨1, 1, 0⟩, ⟨1, 0, 1⟩, ⟨0, 1, 1⟩, ⟨-1, 1, 0⟩, ⟨-1, 0, 1⟩,
   ⟨0, -1, 1⟩, ⟨1, 1, 1⟩, ⟨-1, 1, 1⟩, ⟨1, -1, 1⟩, ⟨1, 1, -1⟩] : List (Vec3 ℤ)).flatMap fun v =>
    [M * v, -(M * v), -(M * v)])

theorem cubic_combinations {c : ℝ} (l : List (String × Vec3 ℤ)) (x y z : Vec3 ℤ) (h0 : (0 : Vec3 ℤ) ∉ combZ (Mat3.ofCols x y z)) :
    Structure.getCartCoords (cubicCell c l).lattice (combinationVecs (Mat3.ofCols (halfVec x) (halfVec y) (halfVec z))) =
      (combZ (Mat3.ofCols x y z)).map (cubicVec c) := by
  have hbase : (baseCombVecs : List (Vec3 ℝ)) = ([⟨1, 0, 0⟩, ⟨0, 1, 0⟩, ⟨0, 0, 1⟩, ⟨1, 1, 0⟩, ⟨1, 0, 1⟩, ⟨0, 1, 1⟩, ⟨-1, 1, 0⟩,
      ⟨-1, 0, 1⟩, ⟨0, -1, 1⟩, ⟨1, 1, 1⟩, ⟨-1, 1, 1⟩, ⟨1, -1, 1⟩, ⟨1, 1, -1⟩] : List (Vec3 ℤ)).map (cubicVec 1) := by
    simp [baseCombVecs, cubicVec]
  unfold Structure.getCartCoords combinationVecs combZ at *
  rw [hbase, List.flatMap_map, List.map_flatMap, List.map_flatMap]
  apply List.flatMap_congr
  intro v hv
  have hne : Mat3.ofCols x y z * v ≠ 0 := by
    intro h
    apply h0
    rw [List.mem_flatMap]
    exact ⟨v, hv, by rw [h]; simp⟩
  have e1 : Mat3.ofCols (halfVec x) (halfVec y) (halfVec z) * (cubicVec 1 v) = halfVec (Mat3.ofCols x y z * v) := by
    ext <;> simp [halfVec, cubicVec, Mat3.ofCols] <;> ring
  have e2 : ∀ w : Vec3 ℤ, Vec3.scale (-1) (halfVec w) = halfVec (-w) := by
    intro w
    ext <;> simp [halfVec, Vec3.scale] <;> ring
  have hm : zeroTol < (FRound.abs (halfVec (-(Mat3.ofCols x y z * v))).mag : ℝ) := by
    show _ < |_|
    rw [abs_of_nonneg (mag_nonneg _), mag_eq]
    apply Real.lt_sqrt_of_sq_lt
    have e3 : lenSq (halfVec (-(Mat3.ofCols x y z * v))) = normZ (Mat3.ofCols x y z * v) / 4 := by
      rw [normZ_cast]
      simp only [halfVec, lenSq, Vec3.neg_x, Vec3.neg_y, Vec3.neg_z]
      push_cast
      ring
    have h1 : (1 : ℝ) ≤ normZ (Mat3.ofCols x y z * v) := by exact_mod_cast one_le_normZ hne
    rw [e3]
    have : (zeroTol : ℝ) = 1 / 1000000 := by simp [zeroTol, lit]
    rw [this]
    linarith
  simp only [e1, e2, if_pos hm, List.cons_append, List.nil_append, List.map_cons, List.map_nil, cubicCell_mulVec]

/-- the primitive cell found for a crystal in a cubic cell: the computation in integers. -/
theorem cubic_primitive {c : ℝ} {r : Reducer ℝ} {ord : List (String × ℕ) → List (String × ℕ)} (ho : ∀ l, (ord l).Perm l)
    {l : List (String × Vec3 ℤ)} (hd : 0 ≤ r.dtol) (hdc : r.dtol < c) (hc : 1 ≤ c) (hl : ∀ p ∈ l, UnitCoords p.2)
    (hs : l.Pairwise fun p q => p.1 ≤ q.1) (hlen : l.length < 65536) (e : String) (i : ℕ) (base : Vec3 ℤ)
    (he : ∀ e' ∈ l.map Prod.fst, (∀ k ∈ l.map Prod.fst, (l.map Prod.fst).count e' < (l.map Prod.fst).count k ∨
      ((l.map Prod.fst).count e' = (l.map Prod.fst).count k ∧ e' ≤ k)) → e' = e)
    (hi : (l.map Prod.fst).idxOf e = i) (hb : l[i]? = some (e, base))
    (htr : ∀ k ∈ candZ e i base l, ∀ p ∈ l, ∃ q ∈ l, q.1 = p.1 ∧ mod2 (p.2 + k - q.2) = 0) {N N' : ℕ}
    (hN : ∀ k ∈ candZ e i base l, normZ k < N) {x y z : Vec3 ℤ} (hfirst : shortestZ N (candZ e i base l) = some (x, y, z))
    (h0 : (0 : Vec3 ℤ) ∉ combZ (Mat3.ofCols x y z)) (hN' : ∀ k ∈ combZ (Mat3.ofCols x y z), normZ k < N') {f g h : Vec3 ℤ}
    (hsecond : shortestZ N' (combZ (Mat3.ofCols x y z)) = some (f, g, h)) :
    ∃ prim, r.findPrimitiveCell ord (cubicCell c l) = .ret prim ∧
      prim.lattice = Mat3.ofCols (cubicVec c f) (cubicVec c g) (cubicVec c h) := by
  have hc0 : 0 < c := by linarith
  set s := cubicCell c l with hsdef
  have hsv : SvAbove s.lattice := by
    rw [cubicCell_lattice]
    exact svAbove_diag (by linarith) (by linarith) (by linarith)
  have hp : ∀ t : Vec3 ℝ, (FTrans.pinv s.lattice : Mat3 ℝ) * (s.lattice * t) = t := fun t => by
    rw [← Mat3.mul_mulVec, pinv_mul hsv, Mat3.one_mulVec]
  have hnorm : s.normalizeCoords r.dtol = s := cubic_normalize hc0 hd hdc hl hs
  have hmemb : e ∈ l.map Prod.fst := List.mem_map.2 ⟨_, List.mem_of_getElem? hb, rfl⟩
  obtain ⟨⟨minEle, inds, counts⟩, hmin⟩ := (C19_get_min_element_panics_iff s ord ho).2 (by
    rw [cubicCell_species]; exact List.ne_nil_of_mem hmemb)
  obtain ⟨⟨hmem, hleast⟩, hinds, -⟩ := C19_get_min_element s ord ho (by
    unfold Structure.numSites; rw [cubicCell_species, List.length_map]; exact hlen) minEle inds counts hmin
  have hE : minEle = e := he _ hmem hleast
  subst hE
  have hind : amapGet? inds minEle = some i := by
    rw [hinds, if_pos hmem, cubicCell_species, hi]
  have hbase : s.fracCoords[i]? = some (halfVec base) := by
    rw [cubicCell_frac, List.getElem?_map, hb]; rfl
  have hub : UnitCoords base := hl _ (List.mem_of_getElem? hb)
  have hcand := cubic_candidates hc0 hd hdc hl minEle i hub
  have ht0 : 0 ≤ r.dtol / (2 * c) := by positivity
  have ht1 : r.dtol / (2 * c) < 1 := by rw [div_lt_one (by positivity)]; linarith
  have hfilter : ((candZ minEle i base l).map halfVec).filter
      (isTranslation s.lattice (Structure.fracTols s.lattice r.dtol) r.dtol (s.fracCoords.zip s.species)) =
      (candZ minEle i base l).map halfVec := by
    rw [List.filter_eq_self]
    intro t ht
    obtain ⟨k, hk, rfl⟩ := List.mem_map.1 ht
    have hzip : s.fracCoords.zip s.species = l.map fun p => (halfVec p.2, p.1) := by
      rw [cubicCell_species, cubicCell_frac, List.zip_map']
    unfold isTranslation
    rw [List.all_eq_true, hzip]
    intro p hp
    obtain ⟨p', hp', rfl⟩ := List.mem_map.1 hp
    obtain ⟨q, hq, e1, e2⟩ := htr k hk p' hp'
    rw [List.any_eq_true]
    refine ⟨(halfVec q.2, q.1), List.mem_map.2 ⟨q, hq, rfl⟩, ?_⟩
    rw [Bool.and_eq_true, decide_eq_true_eq, cubic_tols hc0]
    refine ⟨e1.symm, sitesCoincide_of_int hd ⟨ht0, ht1⟩ ⟨ht0, ht1⟩ ⟨ht0, ht1⟩ ?_⟩
    have ex : (p'.2.x + k.x - q.2.x) % 2 = 0 := congrArg Vec3.x e2
    have ey : (p'.2.y + k.y - q.2.y) % 2 = 0 := congrArg Vec3.y e2
    have ez : (p'.2.z + k.z - q.2.z) % 2 = 0 := congrArg Vec3.z e2
    obtain ⟨a, ha⟩ := Int.dvd_of_emod_eq_zero ex
    obtain ⟨b, hb⟩ := Int.dvd_of_emod_eq_zero ey
    obtain ⟨c', hc'⟩ := Int.dvd_of_emod_eq_zero ez
    have ha' : (p'.2.x : ℝ) + k.x - q.2.x = 2 * a := by exact_mod_cast ha
    have hb' : (p'.2.y : ℝ) + k.y - q.2.y = 2 * b := by exact_mod_cast hb
    have hc'' : (p'.2.z : ℝ) + k.z - q.2.z = 2 * c' := by exact_mod_cast hc'
    refine ⟨a, b, c', ?_⟩
    ext <;> simp [halfVec] <;> linarith
  have hcart : Structure.getCartCoords s.lattice ((candZ minEle i base l).map halfVec) = (candZ minEle i base l).map (cubicVec c) := by
    unfold Structure.getCartCoords
    rw [List.map_map]
    apply List.map_congr_left
    intro k _
    exact cubicCell_mulVec c l k
  have h2 : r.dtol < c ^ 2 := by nlinarith
  have h3 : r.dtol < c ^ 3 := by nlinarith
  have hF := getShortest_cubic hc0 hd h2 h3 hN hfirst
  have hS := getShortest_cubic hc0 hd h2 h3 hN' hsecond
  unfold findPrimitiveCell
  simp only
  rw [hnorm, hmin]
  simp only [Outcome.bind, hind, Outcome.ofOption, hbase]
  rw [hcand, hfilter, hcart, hF]
  simp only
  rw [← cubicCell_mulVec c l x, ← cubicCell_mulVec c l y, ← cubicCell_mulVec c l z, hp, hp, hp, cubic_combinations l x y z h0, hS]
  exact ⟨_, rfl, rfl⟩

end CrystSymm
