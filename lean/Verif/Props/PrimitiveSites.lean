import Verif.Props.Primitive
import Verif.Proofs.SpaceGroupTables

/-! # C52: no site is lost or listed twice by `find_primitive_cell` -/

set_option autoImplicit false
set_option linter.unusedSectionVars false

namespace CrystSymm

open Spec Reducer

section Fold
variable (L : Mat3 ℝ) (tols : Vec3 ℝ) (dtol : ℝ)

theorem foldl_addSite (l acc : List (Vec3 ℝ × String)) :
    acc <+: l.foldl (init := acc) (fun acc p => Structure.addSite L tols dtol acc p.1 p.2) ∧
    (∀ p ∈ l, ∃ q ∈ l.foldl (init := acc) (fun acc p => Structure.addSite L tols dtol acc p.1 p.2),
      q = p ∨ Structure.sitesCoincide L tols dtol p.1 q.1 = true) ∧
    (acc.Pairwise (fun q p => Structure.sitesCoincide L tols dtol p.1 q.1 = false) →
      (l.foldl (init := acc) (fun acc p => Structure.addSite L tols dtol acc p.1 p.2)).Pairwise
        (fun q p => Structure.sitesCoincide L tols dtol p.1 q.1 = false)) := by
  induction l generalizing acc with
  | nil => exact ⟨List.prefix_refl _, by simp, id⟩
  | cons x l ih =>
    rw [List.foldl_cons]
    obtain ⟨h1, h2, h3⟩ := ih (Structure.addSite L tols dtol acc x.1 x.2)
    have hp : acc <+: Structure.addSite L tols dtol acc x.1 x.2 := by
      unfold Structure.addSite
      split
      · exact List.prefix_refl _
      · exact List.prefix_append _ _
    refine ⟨hp.trans h1, ?_, ?_⟩
    · intro p hm
      rcases List.mem_cons.1 hm with rfl | hm
      · by_cases hany : acc.any (fun q => Structure.sitesCoincide L tols dtol p.1 q.1) = true
        · obtain ⟨q, hq, hc⟩ := List.any_eq_true.1 hany
          exact ⟨q, (hp.trans h1).subset hq, Or.inr hc⟩
        · refine ⟨p, h1.subset ?_, Or.inl rfl⟩
          unfold Structure.addSite
          rw [if_neg hany]
          simp
      · exact h2 p hm
    · intro hpw
      apply h3
      unfold Structure.addSite
      split
      · exact hpw
      · next hany =>
        rw [List.pairwise_append]
        refine ⟨hpw, List.pairwise_singleton _ _, ?_⟩
        intro q hq p hp
        rw [List.mem_singleton.1 hp]
        by_contra hc
        exact hany (List.any_eq_true.2 ⟨q, hq, by simpa using hc⟩)

end Fold

/-- the returned cell before its positions are brought into the cell. -/
theorem primitive_folded {r : Reducer ℝ} {ord : List (String × ℕ) → List (String × ℕ)}
    {s s' : Structure ℝ} (h : r.findPrimitiveCell ord s = .ret s') :
    ∃ l : List (Vec3 ℝ × String), l = foldSites s.lattice (Structure.fracTols s.lattice r.dtol) r.dtol
        ((sites (s.normalizeCoords r.dtol)).map fun q => (FTrans.pinv s'.lattice * (s.lattice * q.2), q.1)) ∧
      (sites s').Perm (l.map fun p => (p.2, normFracVec (Structure.fracTols s'.lattice r.dtol) p.1)) := by
  obtain ⟨minEle, inds, counts, baseInd, baseSite, s1, s2, s3, f1, f2, f3, -, -, -, h1, h2, e⟩ :=
    findPrimitiveCell_ret h
  have hlat : s'.lattice = Mat3.ofCols f1 f2 f3 := by rw [e, normalizeCoords_lattice]; rfl
  set M := Mat3.ofCols f1 f2 f3 with hM
  have hin : (Structure.getFracCoords M (s.normalizeCoords r.dtol).coords).zip (s.normalizeCoords r.dtol).species
      = (sites (s.normalizeCoords r.dtol)).map fun q => ((FTrans.pinv M * (s.lattice * q.2) : Vec3 ℝ), q.1) := by
    unfold Structure.getFracCoords sites
    rw [(normalizeCoords_consistent s r.dtol).2, List.map_map, normalizeCoords_lattice, List.zip_map_left,
      ← List.zip_swap, List.map_map]
    rfl
  rw [hin, normalizeCoords_lattice] at e
  rw [hlat]
  refine ⟨_, rfl, ?_⟩
  rw [e, normalizeCoords_sites]
  refine (List.mergeSort_perm _ _).trans (List.Perm.of_eq ?_)
  unfold normedFrac normalizeFracVectors
  simp only [Structure.new, Bool.false_eq_true, if_false]
  rw [List.map_map, List.zip_map']
  rfl

/-- **C52 (partial): no site is lost.** Let the returned lattice be above the pseudo-inverse cut-off.  Every input site
differs, up to a vector of the old lattice, from some returned site by a vector of the new lattice and a vector whose
new fractional coordinates `d`, read in the old lattice, are at most `2 dtol` long.  If input sites of different species
are further apart than that, the returned site has the same species.  Missing from the full claim: lengths are measured
with the old lattice where the new one is meant, and the species is not compared (the claim is false, below). -/
theorem C52_sites_represented_partial (r : Reducer ℝ) (ord : List (String × ℕ) → List (String × ℕ))
    (s s' : Structure ℝ) (hd : 0 ≤ r.dtol) (h : r.findPrimitiveCell ord s = .ret s') (hsv' : SvAbove s'.lattice) :
    (∀ q ∈ sites s, ∃ p ∈ sites s', ∃ d n m : Vec3 ℝ, IntVec n ∧ IntVec m ∧
      s.lattice * q.2 + s.lattice * m = s'.lattice * (p.2 + d + n) ∧ (s.lattice * d).mag ≤ 2 * r.dtol) ∧
    ((∀ q ∈ sites s, ∀ q' ∈ sites s, q.1 ≠ q'.1 → ∀ d n m : Vec3 ℝ, IntVec n → IntVec m →
        s.lattice * (q.2 - q'.2) + s.lattice * m = s'.lattice * (d + n) → 2 * r.dtol < (s.lattice * d).mag) →
      ∀ q ∈ sites s, ∃ p ∈ sites s', p.1 = q.1 ∧ ∃ d n m : Vec3 ℝ, IntVec n ∧ IntVec m ∧
        s.lattice * q.2 + s.lattice * m = s'.lattice * (p.2 + d + n) ∧ (s.lattice * d).mag ≤ 2 * r.dtol) := by
  obtain ⟨l, hl, hperm⟩ := primitive_folded h
  have hpi : ∀ v : Vec3 ℝ, s'.lattice * (FTrans.pinv s'.lattice * v) = v := fun v => by
    rw [← Mat3.mul_mulVec, mul_pinv hsv', Mat3.one_mulVec]
  obtain ⟨m', hm', hf⟩ := normalizeCoords_sameSites s r.dtol
  have key : ∀ q ∈ sites s, ∃ q₀ ∈ sites s, ∃ p ∈ sites s', p.1 = q₀.1 ∧
      (∃ n m : Vec3 ℝ, IntVec n ∧ IntVec m ∧ s.lattice * q₀.2 + s.lattice * m = s'.lattice * (p.2 + n)) ∧
      ∃ d n m : Vec3 ℝ, IntVec n ∧ IntVec m ∧ s.lattice * q.2 + s.lattice * m = s'.lattice * (p.2 + d + n) ∧
        (s.lattice * d).mag ≤ 2 * r.dtol := by
    intro q hq
    obtain ⟨qn, hqn, e1, e2⟩ := forall₂_mem_right hf (hm'.mem_iff.2 hq)
    set inp := (sites (s.normalizeCoords r.dtol)).map
      fun q => ((FTrans.pinv s'.lattice * (s.lattice * q.2) : Vec3 ℝ), q.1)
      with hinp
    have hmem : (FTrans.pinv s'.lattice * (s.lattice * qn.2), qn.1) ∈ inp := List.mem_map_of_mem hqn
    obtain ⟨w, hw, hc⟩ := (foldl_addSite s.lattice (Structure.fracTols s.lattice r.dtol) r.dtol inp []).2.1 _ hmem
    have hwl : w ∈ l := by rw [hl]; exact hw
    have hwin : w ∈ inp := by rw [hl] at hwl; exact foldSites_mem hwl
    obtain ⟨z, hz, hzw⟩ := List.mem_map.1 hwin
    obtain ⟨z0, hz0, e3, e4⟩ := forall₂_mem_left hf hz
    set t' := Structure.fracTols s'.lattice r.dtol with ht'
    have hw2 := samePoint_iff_intVec.1 (samePoint_normFracVec t' w.1)
    have hzi := samePoint_iff_intVec.1 e4
    have hqi := samePoint_iff_intVec.1 e2
    have hneg : ∀ {v : Vec3 ℝ}, IntVec v → IntVec (-v) := by
      rintro v ⟨i, j, k, rfl⟩
      exact ⟨-i, -j, -k, by ext <;> simp⟩
    have hadd : ∀ {v w : Vec3 ℝ}, IntVec v → IntVec w → IntVec (v + w) := by
      rintro v w ⟨i, j, k, rfl⟩ ⟨i', j', k', rfl⟩
      exact ⟨i + i', j + j', k + k', by ext <;> simp⟩
    refine ⟨z0, hm'.mem_iff.1 hz0, (w.2, normFracVec t' w.1), hperm.mem_iff.2 (List.mem_map_of_mem hwl), ?_, ?_, ?_⟩
    · rw [← hzw]; exact e3
    · refine ⟨-(normFracVec t' w.1 - w.1), z.2 - z0.2, hneg hw2, hzi, ?_⟩
      have h1 : normFracVec t' w.1 + -(normFracVec t' w.1 - w.1) = w.1 := by abel
      rw [h1, ← hzw, hpi, ← Mat3.mulVec_add]
      congr 1
      abel
    · rcases hc with hc | hc
      · refine ⟨0, -(normFracVec t' w.1 - w.1), qn.2 - q.2, hneg hw2, hqi, ?_, ?_⟩
        · have h1 : normFracVec t' w.1 + 0 + -(normFracVec t' w.1 - w.1) = w.1 := by abel
          rw [h1, hc, hpi, ← Mat3.mulVec_add]
          congr 1
          abel
        · rw [Mat3.mulVec_zero, show (0 : Vec3 ℝ).mag = 0 from mag_zero]
          linarith
      · rw [sitesCoincide_iff] at hc
        set δ := FTrans.pinv s'.lattice * (s.lattice * qn.2) - w.1 with hδ
        set tt := Structure.fracTols s.lattice r.dtol
        have hdi := samePoint_iff_intVec.1 (samePoint_normFracVec tt δ)
        refine ⟨normFracVec tt δ, -(normFracVec tt δ - δ) + -(normFracVec t' w.1 - w.1), qn.2 - q.2,
          hadd (hneg hdi) (hneg hw2), hqi, ?_, by linarith⟩
        have h1 : normFracVec t' w.1 + normFracVec tt δ + (-(normFracVec tt δ - δ) + -(normFracVec t' w.1 - w.1))
            = w.1 + δ := by abel
        have h2 : w.1 + δ = FTrans.pinv s'.lattice * (s.lattice * qn.2) := by rw [hδ]; abel
        rw [h1, h2, hpi, ← Mat3.mulVec_add]
        congr 1
        abel
  constructor
  · intro q hq
    obtain ⟨-, -, p, hp, -, -, hh⟩ := key q hq
    exact ⟨p, hp, hh⟩
  · intro hsep q hq
    obtain ⟨q₀, hq₀, p, hp, e1, ⟨n, m, hn, hm, e2⟩, d, n', m', hn', hm', e3, hle⟩ := key q hq
    refine ⟨p, hp, ?_, d, n', m', hn', hm', e3, hle⟩
    rw [e1]
    by_contra hne
    have hsub : ∀ {v w : Vec3 ℝ}, IntVec v → IntVec w → IntVec (v - w) := by
      rintro v w ⟨i, j, k, rfl⟩ ⟨i', j', k', rfl⟩
      exact ⟨i - i', j - j', k - k', by ext <;> simp⟩
    refine absurd (hsep q hq q₀ hq₀ (fun h => hne h.symm) d (n' - n) (m' - m) (hsub hn' hn) (hsub hm' hm) ?_)
      (not_lt.2 hle)
    have : s.lattice * (q.2 - q₀.2) + s.lattice * (m' - m)
        = (s.lattice * q.2 + s.lattice * m') - (s.lattice * q₀.2 + s.lattice * m) := by
      rw [Mat3.mulVec_sub, Mat3.mulVec_sub]; abel
    rw [this, e3, e2, ← Mat3.mulVec_sub]
    congr 1
    abel

/-- **C52 (no duplicates).** If the tolerance is smaller than the lattice vectors of the input, no two returned sites
are at the same point of the returned lattice, whatever their species. -/
theorem C52_no_duplicate_sites (r : Reducer ℝ) (ord : List (String × ℕ) → List (String × ℕ))
    (s s' : Structure ℝ) (hd : 0 < r.dtol) (hcols : r.dtol < s.a ∧ r.dtol < s.b ∧ r.dtol < s.c)
    (h : r.findPrimitiveCell ord s = .ret s') :
    (sites s').Pairwise fun p q => ¬ SamePoint p.2 q.2 := by
  obtain ⟨l, hl, hperm⟩ := primitive_folded h
  have htol : ∀ m : ℝ, r.dtol < m → 0 ≤ r.dtol / m ∧ r.dtol / m < 1 := by
    intro m hm
    have : 0 < m := lt_trans hd hm
    exact ⟨by positivity, by rw [div_lt_one this]; exact hm⟩
  rw [hperm.pairwise_iff (by intro a b hab hba; exact hab (samePoint_symm hba)), List.pairwise_map]
  have h1 : l.Pairwise fun q p => Structure.sitesCoincide s.lattice (Structure.fracTols s.lattice r.dtol) r.dtol
      p.1 q.1 = false := by
    rw [hl]
    exact (foldl_addSite _ _ _ _ []).2.2 List.Pairwise.nil
  refine h1.imp ?_
  intro q p hqp hsame
  have h2 : SamePoint p.1 q.1 := samePoint_trans (samePoint_symm (samePoint_normFracVec _ p.1))
    (samePoint_trans (samePoint_symm hsame) (samePoint_normFracVec _ q.1))
  have h3 := sitesCoincide_of_int (L := s.lattice) (tols := Structure.fracTols s.lattice r.dtol) hd.le
    (htol _ hcols.1) (htol _ hcols.2.1) (htol _ hcols.2.2) (samePoint_iff_intVec.1 h2)
  rw [h3] at hqp
  exact absurd hqp (by simp)

/-! ### C52 is false of the code -/

theorem unit_area {u v : Vec3 ℝ} (hu : IntVec u) (hv : IntVec v)
    (hne : (((1 : Mat3 ℝ) * u).cross ((1 : Mat3 ℝ) * v)) ≠ 0) :
    1 / 20 < (((1 : Mat3 ℝ) * u).cross ((1 : Mat3 ℝ) * v)).mag := by
  obtain ⟨i, j, k, rfl⟩ := hu
  obtain ⟨i', j', k', rfl⟩ := hv
  rw [Mat3.one_mulVec, Mat3.one_mulVec] at hne ⊢
  have e : (⟨i, j, k⟩ : Vec3 ℝ).cross ⟨i', j', k'⟩ = (⟨((j * k' - k * j' : ℤ) : ℝ),
      ((k * i' - i * k' : ℤ) : ℝ), ((i * j' - j * i' : ℤ) : ℝ)⟩ : Vec3 ℝ) := by
    simp [Vec3.cross]
  rw [e] at hne ⊢
  rw [mag_eq]
  refine lt_of_lt_of_le (b := 1) (by norm_num) ?_
  rw [Real.one_le_sqrt]
  unfold lenSq
  simp only
  generalize j * k' - k * j' = p at *
  generalize k * i' - i * k' = q at *
  generalize i * j' - j * i' = t at *
  have : (1 : ℤ) ≤ p * p + q * q + t * t := by
    by_contra hlt
    have hp : p = 0 := by nlinarith [mul_self_nonneg p, mul_self_nonneg q, mul_self_nonneg t]
    have hq : q = 0 := by nlinarith [mul_self_nonneg p, mul_self_nonneg q, mul_self_nonneg t]
    have ht : t = 0 := by nlinarith [mul_self_nonneg p, mul_self_nonneg q, mul_self_nonneg t]
    apply hne
    rw [hp, hq, ht]
    ext <;> simp
  exact_mod_cast this

/-- a unit cell with two species on the same site. -/
noncomputable def mixedSite : Structure ℝ := Structure.new 1 ["A", "B"] [0, 0] false

theorem mixedSite_primitive (ord : List (String × ℕ) → List (String × ℕ)) (ho : ∀ l, (ord l).Perm l) :
    ∃ s', (Reducer.default : Reducer ℝ).findPrimitiveCell ord mixedSite = .ret s' := by
  have hd : (Reducer.default : Reducer ℝ).dtol = 1 / 20 := by norm_num [Reducer.default, lit]
  have hl : mixedSite.lattice = 1 := rfl
  have hsv : SvAbove mixedSite.lattice := svAbove_diag (by norm_num) (by norm_num) (by norm_num)
  obtain ⟨s', h1, -⟩ := C28_primitive_right_handed_partial (Reducer.default : Reducer ℝ) ord ho mixedSite
      (by decide) rfl hsv (noTranslation_of_once _ ⟨"A", by decide⟩) (by rw [hd]; norm_num)
      (by rw [hd]; norm_num [Structure.a, Structure.b, Structure.c, hl, Mat3.col0, Mat3.col1, Mat3.col2, mag_eq,
        lenSq])
      (by rw [hd]; norm_num [Structure.volume, hl, Mat3.det])
      (by rw [hd, hl]; exact fun u v hu hv hne => unit_area hu hv hne)
  exact ⟨s', h1⟩

/-- **C52 is false:** with the default tolerances and every hash order, the structure with species `A` and `B` on the
same site is returned with `B` removed. -/
theorem C52_false_species_lost (ord : List (String × ℕ) → List (String × ℕ)) (ho : ∀ l, (ord l).Perm l) :
    ∃ s', (Reducer.default : Reducer ℝ).findPrimitiveCell ord mixedSite = .ret s' ∧ s'.species = ["A"] := by
  have hd : (Reducer.default : Reducer ℝ).dtol = 1 / 20 := by norm_num [Reducer.default, lit]
  obtain ⟨s', h⟩ := mixedSite_primitive ord ho
  refine ⟨s', h, ?_⟩
  obtain ⟨l, hl, hperm⟩ := primitive_folded h
  have htol : Structure.fracTols mixedSite.lattice (Reducer.default : Reducer ℝ).dtol
      = (⟨1 / 20, 1 / 20, 1 / 20⟩ : Vec3 ℝ) := by
    rw [hd, show mixedSite.lattice = 1 from rfl]
    ext <;> norm_num [Structure.fracTols, Mat3.col0, Mat3.col1, Mat3.col2, mag_eq, lenSq]
  have h0 : normFracVec (⟨1 / 20, 1 / 20, 1 / 20⟩ : Vec3 ℝ) (0 : Vec3 ℝ) = 0 :=
    normFracVec_int (by norm_num) (by norm_num) (by norm_num) ⟨0, 0, 0, by ext <;> simp⟩
  have hs : sites (mixedSite.normalizeCoords (Reducer.default : Reducer ℝ).dtol) = [("A", 0), ("B", 0)] := by
    rw [normalizeCoords_sites]
    unfold normedFrac normalizeFracVectors
    rw [htol, show mixedSite.fracCoords = [0, 0] from rfl, show mixedSite.species = ["A", "B"] from rfl]
    simp only [List.map_cons, List.map_nil, h0, List.zip_cons_cons, List.zip_nil_right]
    rw [List.mergeSort_of_pairwise]
    simp [keyLe]
  have hl' : l = [(FTrans.pinv s'.lattice * (mixedSite.lattice * (0 : Vec3 ℝ)), "A")] := by
    rw [hl, hs, htol]
    unfold foldSites
    simp only [List.map_cons, List.map_nil, List.foldl_cons, List.foldl_nil, Structure.addSite, List.any_nil,
      Bool.false_eq_true, if_false, List.nil_append, List.any_cons, Bool.or_false]
    rw [if_pos]
    refine sitesCoincide_of_int (by rw [hd]; norm_num) (by norm_num) (by norm_num) (by norm_num) ?_
    rw [sub_self]
    exact ⟨0, 0, 0, by ext <;> simp⟩
  rw [hl'] at hperm
  have h2 : s'.species.length = s'.fracCoords.length := by
    obtain ⟨_, _, _, _, _, _, _, _, f1, f2, f3, -, -, -, -, -, e⟩ := findPrimitiveCell_ret h
    rw [e]
    exact (normalizeCoords_consistent _ _).1
  rw [species_eq_of_sites h2, List.perm_singleton.1 hperm]
  rfl

/-- the hypotheses of C52 (partial) and C52 (no duplicates) are met by `mixedSite`: the site of `B` is represented by
the site of `A`. -/
example : ∃ s', (Reducer.default : Reducer ℝ).findPrimitiveCell id mixedSite = .ret s' ∧ SvAbove s'.lattice ∧
    (sites s').Pairwise (fun p q => ¬ SamePoint p.2 q.2) ∧
    ∃ p ∈ sites s', ∃ d n m : Vec3 ℝ, IntVec n ∧ IntVec m ∧
      mixedSite.lattice * (0 : Vec3 ℝ) + mixedSite.lattice * m = s'.lattice * (p.2 + d + n) ∧
      (mixedSite.lattice * d).mag ≤ 2 * (Reducer.default : Reducer ℝ).dtol := by
  have hd : (Reducer.default : Reducer ℝ).dtol = 1 / 20 := by norm_num [Reducer.default, lit]
  have hl : mixedSite.lattice = 1 := rfl
  have hsv : SvAbove mixedSite.lattice := svAbove_diag (by norm_num) (by norm_num) (by norm_num)
  have hcols : (Reducer.default : Reducer ℝ).dtol < mixedSite.a ∧ (Reducer.default : Reducer ℝ).dtol < mixedSite.b ∧
      (Reducer.default : Reducer ℝ).dtol < mixedSite.c := by
    rw [hd]
    norm_num [Structure.a, Structure.b, Structure.c, hl, Mat3.col0, Mat3.col1, Mat3.col2, mag_eq, lenSq]
  have hd0 : 0 < (Reducer.default : Reducer ℝ).dtol := by rw [hd]; norm_num
  obtain ⟨s', h1, -, a, b, c, ⟨a1, a2, a3⟩, ⟨b1, b2, b3⟩, ⟨c1, c2, c3⟩, h3, h4, -⟩ :=
    C28_primitive_right_handed_partial (Reducer.default : Reducer ℝ) id (fun _ => List.Perm.refl _) mixedSite
      (by decide) rfl hsv (noTranslation_of_once _ ⟨"A", by decide⟩) hd0 hcols (by rw [hd]; norm_num [Structure.volume, hl, Mat3.det])
      (by rw [hd, hl]; exact fun u v hu hv hne => unit_area hu hv hne)
  have hsv' : SvAbove s'.lattice := by
    apply svAbove_of_size
    rw [hl, one_mul] at h3
    have hdet : (1 : ℝ) = s'.lattice.det ^ 2 := by
      rw [h3, intCast_det]
      have : (Mat3.ofCols a b c).det ^ 2 = 1 := by
        rw [← Int.natAbs_sq, h4]; rfl
      exact_mod_cast this.symm
    have sq1 : ∀ x : ℤ, |x| ≤ 1 → (x : ℝ) * x ≤ 1 := by
      intro x hx
      have : x * x ≤ 1 := by
        obtain ⟨h1, h2⟩ := abs_le.1 hx
        nlinarith
      exact_mod_cast this
    have hsize : lenSq s'.lattice.col0 + lenSq s'.lattice.col1 + lenSq s'.lattice.col2 ≤ 9 := by
      rw [h3]
      simp only [lenSq, Mat3.col0, Mat3.col1, Mat3.col2, Mat3.map, Mat3.ofCols]
      linarith [sq1 _ a1, sq1 _ a2, sq1 _ a3, sq1 _ b1, sq1 _ b2, sq1 _ b3, sq1 _ c1, sq1 _ c2, sq1 _ c3]
    have h0 : 0 ≤ lenSq s'.lattice.col0 + lenSq s'.lattice.col1 + lenSq s'.lattice.col2 := by
      linarith [lenSq_nonneg s'.lattice.col0, lenSq_nonneg s'.lattice.col1, lenSq_nonneg s'.lattice.col2]
    nlinarith
  exact ⟨s', h1, hsv', C52_no_duplicate_sites _ _ _ _ hd0 hcols h1,
    (C52_sites_represented_partial _ _ _ _ hd0.le h1 hsv').1 ("B", 0) (by simp [sites, mixedSite, Structure.new])⟩

end CrystSymm
