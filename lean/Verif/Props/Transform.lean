import Verif.Proofs.Search
import Verif.Proofs.Mag
import Verif.Proofs.Coset
import Verif.Proofs.Supercell
import Mathlib.Tactic.FieldSimp

set_option autoImplicit false

/-! # C16–C18: `Structure::apply_transformation` -/

set_option linter.unusedSectionVars false

namespace CrystSymm

open Spec

/-- per-axis tolerances `pos_tol / |column|` lie in `[0,1]`, and `pos_tol ≥ 0`. -/
def TolsInUnit (s : Structure ℝ) (posTol : ℝ) : Prop :=
  0 ≤ posTol ∧ posTol / s.lattice.col0.mag ≤ 1 ∧ posTol / s.lattice.col1.mag ≤ 1 ∧
    posTol / s.lattice.col2.mag ≤ 1

theorem TolsInUnit.tols {s : Structure ℝ} {posTol : ℝ} (h : TolsInUnit s posTol) :
    let t := Structure.fracTols s.lattice posTol
    (0 ≤ t.x ∧ t.x ≤ 1) ∧ (0 ≤ t.y ∧ t.y ≤ 1) ∧ (0 ≤ t.z ∧ t.z ≤ 1) :=
  ⟨⟨div_nonneg h.1 (mag_nonneg _), h.2.1⟩, ⟨div_nonneg h.1 (mag_nonneg _), h.2.2.1⟩,
    ⟨div_nonneg h.1 (mag_nonneg _), h.2.2.2⟩⟩

theorem coinc_iff (L : Mat3 ℝ) (tols : Vec3 ℝ) (posTol : ℝ) (c p : Vec3 ℝ × String) :
    coinc L tols posTol c p = true ↔
      (L * normFracVec tols (c.1 - p.1)).mag ≤ posTol * 2 := by
  unfold coinc Structure.sitesCoincide
  simp only [decide_eq_true_eq]
  have : (FRound.abs (L * normFracVec tols (c.1 - p.1)).mag : ℝ)
      = (L * normFracVec tols (c.1 - p.1)).mag := abs_of_nonneg (mag_nonneg _)
  rw [this]
  push_cast
  rfl

theorem coinc_of_samePoint {s : Structure ℝ} {posTol : ℝ} (h : TolsInUnit s posTol)
    {c p : Vec3 ℝ × String} (hcp : SamePoint c.1 p.1) :
    coinc s.lattice (Structure.fracTols s.lattice posTol) posTol c p = true := by
  rw [coinc_iff, normFracVec_intVec h.tols.1 h.tols.2.1 h.tols.2.2 (intVec_sub_iff_samePoint.2 hcp),
    Mat3.mulVec_zero]
  have : (0 : Vec3 ℝ).mag = 0 := mag_zero
  rw [this]
  linarith [h.1]

/-- **C16 (soundness).** Whenever the call returns: the lattice is `L T`; the structure is consistent
with sorted species; every site is an old site of the same species moved by an old lattice vector
(expressed in the new basis, up to a new lattice vector); and the number of sites is at least the volume
ratio (rounded to two decimals) times the old number. -/
theorem C16_apply_transformation_sound (fuel : ℕ) (s s' : Structure ℝ) (t : Mat3 ℝ) (posTol : ℝ)
    (hs : Consistent s) (h : s.applyTransformation fuel t posTol = .ret s') :
    s'.lattice = s.lattice * t ∧ Consistent s' ∧ s'.species.Pairwise (· ≤ ·) ∧
    (∀ p ∈ sites s', ∃ q ∈ sites s, q.1 = p.1 ∧
      ∃ x m, SamePoint p.2 x ∧ IntVec m ∧ t * x = q.2 + m) ∧
    (|t.det| - 1 / 200) * (s.numSites : ℝ) ≤ s'.numSites := by
  obtain ⟨invT, F, hi, hF, rfl⟩ := applyTransformation_ret h
  obtain ⟨h1, h2, h3⟩ := searchLoop_inv hF (by simp) List.Pairwise.nil
  rw [Mat3.tryInverse_eq_some_iff] at hi
  refine ⟨rfl, normalizeCoords_consistent _ _, normalizeCoords_species_sorted _ _, ?_, ?_⟩
  · intro p hp
    obtain ⟨m', hperm, hf⟩ := normalizeCoords_sameSites
      ⟨s.lattice * t, F.map Prod.snd, Structure.getCartCoords (s.lattice * t) (F.map Prod.fst),
        F.map Prod.fst⟩ posTol
    obtain ⟨q, hq, hpq⟩ := (List.forall₂_iff_get.1 hf |>.2 |> fun hget => by
      obtain ⟨n, hn, rfl⟩ := List.mem_iff_getElem.1 hp
      have hl := (List.forall₂_iff_get.1 hf).1
      exact ⟨m'.get ⟨n, hl ▸ hn⟩, List.get_mem _ _, hget n hn (hl ▸ hn)⟩ :
      ∃ q ∈ m', p.1 = q.1 ∧ SamePoint p.2 q.2)
    have hq' := hperm.subset hq
    simp only [sites, zip_swap_map] at hq'
    obtain ⟨r, hr, rfl⟩ := List.mem_map.1 hq'
    obtain ⟨o, ho, m, hm, rfl⟩ := (h1 r hr).exists_int
    refine ⟨(o.2, o.1), ?_, hpq.1.symm, invT * (o.1 + m), m, hpq.2, hm, ?_⟩
    · have := List.mem_map_of_mem (f := Prod.swap) ho
      rw [List.zip_swap] at this
      exact this
    · rw [← Mat3.mul_mulVec, hi, Mat3.one_mulVec]
  · have e1 : (Structure.normalizeCoords ⟨s.lattice * t, F.map Prod.snd,
        Structure.getCartCoords (s.lattice * t) (F.map Prod.fst), F.map Prod.fst⟩ posTol).numSites
        = F.length := by
      unfold Structure.numSites
      rw [species_eq_of_sites (normalizeCoords_consistent _ _).1, normalizeCoords_sites]
      simp [normedFrac, normalizeFracVectors]
    have e2 : s.coords.length = s.numSites := by
      rw [hs.2, List.length_map, ← hs.1]; rfl
    rw [e1]
    rw [e2] at h3
    unfold Structure.quotLt at h3
    split at h3
    · rename_i h0
      rw [h0]; simp
    · rename_i h0
      simp only [decide_eq_false_iff_not, not_lt, lit, Int.cast_natCast] at h3
      have hv := (abs_le.1 (abs_volumeRatio_sub_le t)).1
      have hpos : (0 : ℝ) < s.numSites := by exact_mod_cast Nat.pos_of_ne_zero h0
      rw [le_div_iff₀ hpos] at h3
      nlinarith

/-- **C16 (no duplicates).** No two returned sites are the same point of the crystal; before the final
normalisation the sites are pairwise further apart than `2 pos_tol` in the duplicate test, i.e. some
lattice-equivalent difference vector in the cell, measured with the *old* lattice, is longer than that. -/
theorem C16_apply_transformation_no_duplicates (fuel : ℕ) (s s' : Structure ℝ) (t : Mat3 ℝ) (posTol : ℝ)
    (ht : TolsInUnit s posTol) (h : s.applyTransformation fuel t posTol = .ret s') :
    (sites s').Pairwise (fun p q => ¬ SamePoint p.2 q.2) ∧
    ∃ reps, SameSites (sites s') reps ∧ reps.Pairwise fun p q =>
      ∃ d, SamePoint d (q.2 - p.2) ∧ posTol * 2 < (s.lattice * d).mag := by
  obtain ⟨invT, F, hi, hF, rfl⟩ := applyTransformation_ret h
  obtain ⟨h1, h2, h3⟩ := searchLoop_inv hF (by simp) List.Pairwise.nil
  constructor
  · rw [normalizeCoords_sites]
    have hp := List.mergeSort_perm ((F.map Prod.snd).zip (normedFrac (⟨s.lattice * t, F.map Prod.snd,
      Structure.getCartCoords (s.lattice * t) (F.map Prod.fst), F.map Prod.fst⟩ : Structure ℝ) posTol))
      (keyLe Prod.fst)
    rw [hp.pairwise_iff (fun {a b} hab hba => hab (SamePoint.symm hba))]
    unfold normedFrac normalizeFracVectors
    rw [List.zip_map_right, zip_swap_map, List.map_map, List.pairwise_map]
    refine h2.imp ?_
    intro p q hpq hsame
    have : SamePoint q.1 p.1 := by
      have a := samePoint_normFracVec (Structure.fracTols (s.lattice * t) posTol) p.1
      have b := samePoint_normFracVec (Structure.fracTols (s.lattice * t) posTol) q.1
      exact (b.symm.trans (SamePoint.symm hsame)).trans a
    rw [coinc_of_samePoint ht this] at hpq
    exact absurd hpq (by simp)
  · refine ⟨F.map Prod.swap, ?_, ?_⟩
    · have := normalizeCoords_sameSites (⟨s.lattice * t, F.map Prod.snd,
        Structure.getCartCoords (s.lattice * t) (F.map Prod.fst), F.map Prod.fst⟩ : Structure ℝ) posTol
      simpa only [sites, zip_swap_map] using this
    · rw [List.pairwise_map]
      refine h2.imp ?_
      intro p q hpq
      refine ⟨normFracVec (Structure.fracTols s.lattice posTol) (q.1 - p.1),
        samePoint_normFracVec _ _, ?_⟩
      by_contra hc
      rw [← Bool.not_eq_true, coinc_iff] at hpq
      exact hpq (not_lt.1 hc)

/-- **C16 (panic).** The call panics exactly for a singular `T`. -/
theorem C16_apply_transformation_panics_iff (fuel : ℕ) (s : Structure ℝ) (t : Mat3 ℝ) (posTol : ℝ) :
    (∃ m, s.applyTransformation fuel t posTol = .panic m) ↔ t.det = 0 := by
  have hloop : ∀ fuel mult (F : List (Vec3 ℝ × String)) (invT : Mat3 ℝ) m,
      Structure.searchLoop s.lattice (Structure.fracTols s.lattice posTol) posTol invT
        (Structure.volumeRatio t) s.coords.length (s.fracCoords.zip s.species) fuel mult F ≠ .panic m := by
    intro fuel
    induction fuel with
    | zero => intro mult F invT m; simp [Structure.searchLoop]
    | succ n ih =>
      intro mult F invT m
      rw [Structure.searchLoop]
      split
      · exact ih _ _ _ _
      · simp
  rw [← Mat3.tryInverse_eq_none_iff]
  unfold Structure.applyTransformation
  simp only
  split
  · simp_all
  · rename_i invT hi
    simp only [hi, Outcome.bind_eq_panic, reduceCtorEq, and_false, exists_false, or_false, iff_false]
    rintro ⟨m, hm⟩
    exact hloop _ _ _ _ _ hm

/-! ## C17 -/

/-- Separation hypothesis: whenever `v` is (in new coordinates) the difference of a copy of site `i` and
a copy of site `j`, either it is a difference between equivalent copies of the same site, or it is longer
than `2 pos_tol` in the metric the crate uses for the comparison. -/
def SitesApart (s : Structure ℝ) (T : Mat3 ℤ) (posTol : ℝ) : Prop :=
  ∀ (i j : ℕ) (x y : Vec3 ℝ), s.fracCoords[i]? = some x → s.fracCoords[j]? = some y →
    ∀ v : Vec3 ℝ, IntVec (realMat T * v - (x - y)) →
      (i = j ∧ IntVec v) ∨ posTol * 2 < (s.lattice * v).mag

theorem samePoint_copy {T : Mat3 ℤ} {invT : Mat3 ℝ} (hi : realMat T * invT = 1) {m m' : Fin 3 → ℤ}
    (hm : m - m' ∈ subLattice (intMatrix T)) (q : Vec3 ℝ × String) :
    SamePoint (copyOf invT q m).1 (copyOf invT q m').1 := by
  have hi' : invT * realMat T = 1 := Mat3.mul_eq_one_comm' hi
  rw [mem_subLattice] at hm
  obtain ⟨w, hw⟩ := hm
  rw [← intVec_sub_iff_samePoint, intVec_iff]
  refine ⟨w, ?_⟩
  have e1 : (copyOf invT q m).1 - (copyOf invT q m').1 = invT * realVec (m - m') := by
    simp only [copyOf]
    rw [← Mat3.mulVec_sub, realVec_sub]
    congr 1
    abel
  rw [e1, ← hw, ← realMat_mulVec, ← Mat3.mul_mulVec, hi', Mat3.one_mulVec]

theorem classTest_of_apart {s : Structure ℝ} {T : Mat3 ℤ} {posTol : ℝ} {invT : Mat3 ℝ}
    (ht : TolsInUnit s posTol) (hsep : SitesApart s T posTol)
    (hi : realMat T * invT = 1) :
    ClassTest (coinc s.lattice (Structure.fracTols s.lattice posTol) posTol) invT T
      (s.fracCoords.zip s.species) := by
  intro i j m m'
  constructor
  · intro h
    rw [coinc_iff] at h
    set d := (copyOf invT (s.fracCoords.zip s.species)[i] m).1
      - (copyOf invT (s.fracCoords.zip s.species)[j] m').1 with hd
    obtain ⟨w, hw⟩ := (intVec_iff _).1 (intVec_sub_iff_samePoint.2
      (samePoint_normFracVec (Structure.fracTols s.lattice posTol) d))
    have hil : (i : ℕ) < s.fracCoords.length := by
      have := i.2; simp only [List.length_zip] at this; omega
    have hjl : (j : ℕ) < s.fracCoords.length := by
      have := j.2; simp only [List.length_zip] at this; omega
    have hTd : realMat T * d = (s.fracCoords[(i : ℕ)] - s.fracCoords[(j : ℕ)]) + realVec (m - m') := by
      rw [hd]
      simp only [copyOf]
      rw [← Mat3.mulVec_sub, ← Mat3.mul_mulVec, hi, Mat3.one_mulVec, realVec_sub]
      simp only [Fin.getElem_fin, List.getElem_zip]
      abel
    have hint : IntVec (realMat T * normFracVec (Structure.fracTols s.lattice posTol) d
        - (s.fracCoords[(i : ℕ)] - s.fracCoords[(j : ℕ)])) := by
      have : normFracVec (Structure.fracTols s.lattice posTol) d = d + realVec w := by
        rw [← hw]; abel
      rw [this, Mat3.mulVec_add, hTd, realMat_mulVec, intVec_iff]
      refine ⟨m - m' + (intMatrix T).mulVec w, ?_⟩
      rw [realVec_add]
      abel
    rcases hsep i j _ _ (List.getElem?_eq_getElem hil) (List.getElem?_eq_getElem hjl) _ hint with
      ⟨hij, hv⟩ | hlt
    · refine ⟨Fin.ext hij, ?_⟩
      obtain ⟨u, hu⟩ := (intVec_iff _).1 hv
      rw [mem_subLattice]
      refine ⟨u - w, ?_⟩
      apply realVec_injective
      rw [← realMat_mulVec, realVec_sub, ← hu, ← hw]
      have : normFracVec (Structure.fracTols s.lattice posTol) d
          - (normFracVec (Structure.fracTols s.lattice posTol) d - d) = d := by abel
      rw [this, hTd]
      have hij' : (i : ℕ) = j := hij
      simp only [hij']
      abel
    · exact absurd h (not_le.2 hlt)
  · rintro ⟨rfl, hm⟩
    exact coinc_of_samePoint ht (samePoint_copy hi hm _)

/-- **C17.** For an invertible integer matrix `T` and sites that stay apart, the call returns (any number
of loop steps beyond some `N` gives the same answer), with exactly `|det T|` times the number of sites,
and every old site moved by any old lattice vector is present (same species) in the result. -/
theorem C17_supercell_complete (s : Structure ℝ) (T : Mat3 ℤ) (posTol : ℝ) (hd : T.det ≠ 0)
    (hs : Consistent s) (ht : TolsInUnit s posTol) (hsep : SitesApart s T posTol) :
    ∃ N s', (∀ fuel ≥ N, s.applyTransformation fuel (realMat T) posTol = .ret s') ∧
      s'.numSites = T.det.natAbs * s.numSites ∧
      ∀ q ∈ sites s, ∀ m, IntVec m → ∃ p ∈ sites s', p.1 = q.1 ∧
        ∃ x, SamePoint p.2 x ∧ realMat T * x = q.2 + m := by
  have hdet : (realMat T).det ≠ 0 := by rw [realMat_det]; exact_mod_cast hd
  obtain ⟨invT, hinv⟩ : ∃ i, (realMat T).tryInverse = some i := by
    cases h : (realMat T).tryInverse with
    | none => exact absurd (Mat3.tryInverse_eq_none_iff.1 h) hdet
    | some i => exact ⟨i, rfl⟩
  have hi := Mat3.tryInverse_eq_some_iff.1 hinv
  have hr := classTest_of_apart ht hsep hi
  have hlen : s.coords.length = (s.fracCoords.zip s.species).length := by
    rw [hs.2, List.length_map, List.length_zip, ← hs.1, min_self]
  obtain ⟨F, hF, hFl⟩ := searchLoop_complete (F := []) hd hr (T.det.natAbs + 1) 2 (by
    have := Int.natAbs_pos.2 hd; omega) (by omega) (by simp) List.Pairwise.nil (by
      intro h; have := Int.natAbs_pos.2 hd; omega)
  rw [← volumeRatio_realMat, ← hlen] at hF
  have hret : s.applyTransformation (T.det.natAbs + 1) (realMat T) posTol
      = .ret (Structure.normalizeCoords ⟨s.lattice * realMat T, F.map Prod.snd,
        Structure.getCartCoords (s.lattice * realMat T) (F.map Prod.fst), F.map Prod.fst⟩ posTol) := by
    unfold Structure.applyTransformation
    simp only [hinv, hF, Outcome.bind]
  refine ⟨T.det.natAbs + 1, Structure.normalizeCoords ⟨s.lattice * realMat T, F.map Prod.snd,
        Structure.getCartCoords (s.lattice * realMat T) (F.map Prod.fst), F.map Prod.fst⟩ posTol,
        ?_, ?_, ?_⟩
  · intro fuel hfuel
    obtain ⟨n, rfl⟩ := Nat.exists_eq_add_of_le hfuel
    exact applyTransformation_mono hret n
  · have e1 : (Structure.normalizeCoords ⟨s.lattice * realMat T, F.map Prod.snd,
        Structure.getCartCoords (s.lattice * realMat T) (F.map Prod.fst), F.map Prod.fst⟩ posTol).numSites
        = F.length := by
      unfold Structure.numSites
      rw [species_eq_of_sites (normalizeCoords_consistent _ _).1, normalizeCoords_sites]
      simp [normedFrac, normalizeFracVectors]
    rw [e1, hFl, List.length_zip, ← hs.1, min_self, Nat.mul_comm]
    rfl
  · intro q hq m hm
    obtain ⟨h1, h2, -⟩ := searchLoop_inv hF (by simp) List.Pairwise.nil
    -- all classes are covered, by counting
    have hcov : Covers (coinc s.lattice (Structure.fracTols s.lattice posTol) posTol) invT
        (s.fracCoords.zip s.species) F := covers_of_length hd hr h1 h2 hFl
    obtain ⟨m, rfl⟩ := (intVec_iff _).1 hm
    have hq' : Prod.swap q ∈ s.fracCoords.zip s.species := by
      have := List.mem_map_of_mem (f := Prod.swap) hq
      rw [sites, List.zip_swap] at this
      exact this
    obtain ⟨n, hn, hqn⟩ := List.mem_iff_getElem.1 hq'
    obtain ⟨p, hp, hcp⟩ := hcov ⟨n, hn⟩ m
    obtain ⟨k, hk, rfl⟩ := List.mem_iff_getElem.1 hp
    obtain ⟨j, m', e⟩ := exists_classes h1 ⟨k, hk⟩
    have e' : F[k] = copyOf invT (s.fracCoords.zip s.species)[j] m' := e
    rw [e', hr] at hcp
    obtain ⟨hij, hmm⟩ := hcp
    subst hij
    have hqn' : (s.fracCoords.zip s.species)[(⟨n, hn⟩ : Fin (s.fracCoords.zip s.species).length)]
        = Prod.swap q := hqn
    rw [hqn'] at e'
    obtain ⟨M, hperm, hf⟩ := normalizeCoords_sameSites
      ⟨s.lattice * realMat T, F.map Prod.snd, Structure.getCartCoords (s.lattice * realMat T)
        (F.map Prod.fst), F.map Prod.fst⟩ posTol
    have hM : Prod.swap F[k] ∈ M := by
      apply hperm.symm.subset
      simp only [sites, zip_swap_map]
      exact List.mem_map_of_mem hp
    obtain ⟨l, hl, hlM⟩ := List.mem_iff_getElem.1 hM
    have hlen2 := (List.forall₂_iff_get.1 hf).1
    have hget := (List.forall₂_iff_get.1 hf).2 l (hlen2 ▸ hl) hl
    refine ⟨_, List.getElem_mem (hlen2 ▸ hl), ?_, invT * (q.2 + realVec m), ?_, ?_⟩
    · have := hget.1
      rw [List.get_eq_getElem, List.get_eq_getElem, hlM, e'] at this
      exact this
    · have h2 := hget.2
      rw [List.get_eq_getElem, List.get_eq_getElem, hlM, e'] at h2
      refine SamePoint.trans h2 ?_
      have := samePoint_copy hi hmm (Prod.swap q)
      exact SamePoint.symm this
    · rw [← Mat3.mul_mulVec, hi, Mat3.one_mulVec]

/-! ### a non-trivial case: doubling a cubic cell -/

/-- one site in a cubic cell of edge 4. -/
noncomputable def cubicOne : Structure ℝ :=
  ⟨⟨4, 0, 0, 0, 4, 0, 0, 0, 4⟩, ["A"], [⟨0, 0, 0⟩], [⟨0, 0, 0⟩]⟩

theorem cubicOne_consistent : Consistent cubicOne := by
  refine ⟨rfl, ?_⟩
  simp only [cubicOne, List.map_cons, List.map_nil, List.cons.injEq, and_true]
  ext <;> simp

theorem cubicOne_tols : TolsInUnit cubicOne (1 / 100) := by
  have h16 : Real.sqrt 16 = 4 := by
    rw [show (16 : ℝ) = 4 ^ 2 by norm_num]; exact Real.sqrt_sq (by norm_num)
  refine ⟨by norm_num, ?_, ?_, ?_⟩ <;> rw [mag_eq] <;>
    simp [cubicOne, Mat3.col0, Mat3.col1, Mat3.col2, lenSq] <;> norm_num [h16]

theorem cubicOne_apart : SitesApart cubicOne ⟨2, 0, 0, 0, 1, 0, 0, 0, 1⟩ (1 / 100) := by
  intro i j x y hx hy v hv
  have hi : i = 0 ∧ x = ⟨0, 0, 0⟩ := by
    cases i with
    | zero => simp [cubicOne] at hx; exact ⟨rfl, hx.symm⟩
    | succ n => simp [cubicOne] at hx
  have hj : j = 0 ∧ y = ⟨0, 0, 0⟩ := by
    cases j with
    | zero => simp [cubicOne] at hy; exact ⟨rfl, hy.symm⟩
    | succ n => simp [cubicOne] at hy
  obtain ⟨rfl, rfl⟩ := hi
  obtain ⟨rfl, rfl⟩ := hj
  obtain ⟨a, b, c, h⟩ := hv
  have hh := Vec3.ext_iff.1 h
  simp [realMat, Mat3.map] at hh
  obtain ⟨ha, hb, hc⟩ := hh
  by_cases he : ∃ k : ℤ, a = 2 * k
  · obtain ⟨k, rfl⟩ := he
    refine Or.inl ⟨rfl, k, b, c, ?_⟩
    ext
    · push_cast at ha; simp only; linarith
    · exact hb
    · exact hc
  · right
    have ha0 : a ≠ 0 := fun h0 => he ⟨0, by simpa using h0⟩
    have h1 : (1 : ℝ) ≤ (a : ℝ) ^ 2 := by
      have : (1 : ℤ) ≤ a ^ 2 := by
        have := Int.one_le_abs ha0
        nlinarith [sq_abs a]
      exact_mod_cast this
    rw [mag_eq]
    apply Real.lt_sqrt_of_sq_lt
    simp [cubicOne, lenSq]
    have : v.x = a / 2 := by linarith
    rw [this]
    nlinarith [sq_nonneg v.y, sq_nonneg v.z]

/-- doubling the cubic cell really gives two sites. -/
example : ∃ N s', (∀ fuel ≥ N, cubicOne.applyTransformation fuel (realMat ⟨2, 0, 0, 0, 1, 0, 0, 0, 1⟩) (1 / 100)
    = .ret s') ∧ s'.numSites = 2 := by
  obtain ⟨N, s', h, hn, -⟩ := C17_supercell_complete cubicOne ⟨2, 0, 0, 0, 1, 0, 0, 0, 1⟩ (1 / 100) (by decide)
    cubicOne_consistent cubicOne_tols cubicOne_apart
  exact ⟨N, s', h, by rw [hn]; rfl⟩

/-! ## C18 -/

theorem searchLoop_stuck {L : Mat3 ℝ} {tols : Vec3 ℝ} {posTol : ℝ} {invT : Mat3 ℝ} {ratio : ℝ} {total : ℕ}
    {old : List (Vec3 ℝ × String)}
    (hall : ∀ p q, IsCand invT old p → IsCand invT old q → coinc L tols posTol p q = true)
    (hq : ∀ n ≤ 1, Structure.quotLt n total ratio = true) (fuel mult : ℕ) (F : List (Vec3 ℝ × String))
    (h1 : ∀ p ∈ F, IsCand invT old p) (h2 : Distinct (coinc L tols posTol) F) :
    Structure.searchLoop L tols posTol invT ratio total old fuel mult F = .running := by
  induction fuel generalizing mult F with
  | zero => rfl
  | succ fuel ih =>
    have hlen : F.length ≤ 1 := by
      by_contra hc
      have h01 : coinc L tols posTol (F[1]'(by omega)) (F[0]'(by omega)) = false :=
        (List.pairwise_iff_getElem.1 h2) 0 1 (by omega) (by omega) (by omega)
      rw [hall _ _ (h1 _ (List.getElem_mem _)) (h1 _ (List.getElem_mem _))] at h01
      exact absurd h01 (by simp)
    rw [Structure.searchLoop, if_pos (hq _ hlen), searchPass_eq]
    refine ih _ _ ?_ (greedy_distinct _ h2)
    intro p hp
    rcases mem_greedy hp with hp | hp
    · exact h1 p hp
    · exact isCand_of_mem_passCands hp

/-- if every copy of every site is a new lattice point, at most one site is ever found. -/
theorem applyTransformation_stuck {s : Structure ℝ} {t invT : Mat3 ℝ} {posTol : ℝ} (hi : t * invT = 1)
    (ht : TolsInUnit s posTol) (hint : ∀ q ∈ s.fracCoords, ∀ m, IntVec m → IntVec (invT * (q + m)))
    (hq : ∀ n ≤ 1, Structure.quotLt n s.coords.length (Structure.volumeRatio t) = true) (fuel : ℕ) :
    s.applyTransformation fuel t posTol = .running := by
  have hinv : t.tryInverse = some invT := Mat3.tryInverse_eq_some_iff.2 hi
  unfold Structure.applyTransformation
  simp only [hinv]
  rw [searchLoop_stuck _ hq fuel 2 [] (by simp) List.Pairwise.nil]
  · rfl
  · intro p q hp hq
    obtain ⟨o, ho, m, hm, rfl⟩ := hp.exists_int
    obtain ⟨o', ho', m', hm', rfl⟩ := hq.exists_int
    apply coinc_of_samePoint ht
    rw [← intVec_sub_iff_samePoint]
    obtain ⟨a, b, c, e⟩ := hint o.1 (List.of_mem_zip ho).1 m hm
    obtain ⟨a', b', c', e'⟩ := hint o'.1 (List.of_mem_zip ho').1 m' hm'
    simp only at e e' ⊢
    rw [e, e']
    exact ⟨a - a', b - b', c - c', by ext <;> simp⟩

/-- a 6-fold supercell of a one-site crystal with lattice vectors of length 1. -/
noncomputable def sixfold : Structure ℝ :=
  ⟨⟨6, 0, 0, 0, 1, 0, 0, 0, 1⟩, List.replicate 6 "A",
    [⟨0, 0, 0⟩, ⟨1, 0, 0⟩, ⟨2, 0, 0⟩, ⟨3, 0, 0⟩, ⟨4, 0, 0⟩, ⟨5, 0, 0⟩],
    [⟨0, 0, 0⟩, ⟨1 / 6, 0, 0⟩, ⟨1 / 3, 0, 0⟩, ⟨1 / 2, 0, 0⟩, ⟨2 / 3, 0, 0⟩, ⟨5 / 6, 0, 0⟩]⟩

theorem sixfold_consistent : Consistent sixfold := by
  refine ⟨rfl, ?_⟩
  simp [sixfold]
  refine ⟨?_, ?_, ?_, ?_, ?_, ?_⟩ <;> (ext <;> simp <;> norm_num)

theorem sixfold_tols : TolsInUnit sixfold (1 / 100) := by
  have h36 : Real.sqrt 36 = 6 := by
    rw [show (36 : ℝ) = 6 ^ 2 by norm_num]; exact Real.sqrt_sq (by norm_num)
  refine ⟨by norm_num, ?_, ?_, ?_⟩ <;> rw [mag_eq] <;>
    simp [sixfold, Mat3.col0, Mat3.col1, Mat3.col2, lenSq] <;> norm_num [h36]

/-- **C18 is false (1).** Going from a perfectly regular 6-fold supercell back to the small cell
(`T = diag(1/6,1,1)`): one site is found, `1/6 < 0.17 = round(100/6)/100`, and the search never ends. -/
theorem C18_false_sixfold_reduction (fuel : ℕ) :
    sixfold.applyTransformation fuel ⟨1 / 6, 0, 0, 0, 1, 0, 0, 0, 1⟩ (1 / 100) = .running := by
  refine applyTransformation_stuck (invT := ⟨6, 0, 0, 0, 1, 0, 0, 0, 1⟩) ?_ sixfold_tols ?_ ?_ fuel
  · ext <;> simp
  · intro q hq m hm
    obtain ⟨a, b, c, rfl⟩ := hm
    have hq' : ∃ k : ℤ, q = ⟨(k : ℝ) / 6, 0, 0⟩ := by
      simp only [sixfold, List.mem_cons, List.not_mem_nil, or_false] at hq
      rcases hq with rfl | rfl | rfl | rfl | rfl | rfl
      exacts [⟨0, by norm_num⟩, ⟨1, by norm_num⟩, ⟨2, by norm_num⟩, ⟨3, by norm_num⟩, ⟨4, by norm_num⟩,
        ⟨5, by norm_num⟩]
    obtain ⟨k, rfl⟩ := hq'
    refine ⟨k + 6 * a, b, c, ?_⟩
    ext <;> simp
    ring
  · have hr : Structure.volumeRatio (⟨1 / 6, 0, 0, 0, 1, 0, 0, 0, 1⟩ : Mat3 ℝ) = 17 / 100 := by
      unfold Structure.volumeRatio
      have hd : (⟨1 / 6, 0, 0, 0, 1, 0, 0, 0, 1⟩ : Mat3 ℝ).det = 1 / 6 := by simp [Mat3.det]
      rw [hd]
      show ((roundZ (|(1 / 6 : ℝ)| * ((100 : ℤ) : ℝ)) : ℤ) : ℝ) / ((100 : ℤ) : ℝ) = _
      have : roundZ (|(1 / 6 : ℝ)| * ((100 : ℤ) : ℝ)) = 17 := by
        rw [abs_of_pos (by norm_num), roundZ, if_pos (by norm_num), Int.floor_eq_iff]
        norm_num
      rw [this]; norm_num
    intro n hn
    rw [hr]
    have : n = 0 ∨ n = 1 := by omega
    rcases this with rfl | rfl <;> simp [Structure.quotLt, sixfold, lit] <;> norm_num

/-- two sites at the same place. -/
noncomputable def twin : Structure ℝ :=
  ⟨⟨4, 0, 0, 0, 4, 0, 0, 0, 4⟩, ["A", "A"], [⟨0, 0, 0⟩, ⟨0, 0, 0⟩], [⟨0, 0, 0⟩, ⟨0, 0, 0⟩]⟩

/-- **C18 is false (2).** With two coinciding sites even the identity transformation never returns. -/
theorem C18_false_coinciding_sites (fuel : ℕ) :
    twin.applyTransformation fuel 1 (1 / 100) = .running := by
  have htols : TolsInUnit twin (1 / 100) := cubicOne_tols
  refine applyTransformation_stuck (invT := 1) (one_mul _) htols ?_ ?_ fuel
  · intro q hq m hm
    simp only [twin, List.mem_cons, List.not_mem_nil, or_false, or_self] at hq
    subst hq
    obtain ⟨a, b, c, rfl⟩ := hm
    exact ⟨a, b, c, by ext <;> simp⟩
  · have hr : Structure.volumeRatio (1 : Mat3 ℝ) = 1 := by
      have h := volumeRatio_realMat (1 : Mat3 ℤ)
      have e : realMat 1 = 1 := by ext <;> simp [realMat, Mat3.map]
      rw [e] at h
      rw [h, Mat3.det_one]; norm_num
    intro n hn
    rw [hr]
    have : n = 0 ∨ n = 1 := by omega
    rcases this with rfl | rfl <;> simp [Structure.quotLt, twin, lit] <;> norm_num

/-- For a transformation to a finer lattice (`T⁻¹` an integer matrix `N`): differences between copies of
sites are new lattice vectors or longer than `2 pos_tol`. -/
def SitesApartFine (s : Structure ℝ) (N : Mat3 ℤ) (posTol : ℝ) : Prop :=
  ∀ x ∈ s.fracCoords, ∀ y ∈ s.fracCoords, ∀ v : Vec3 ℝ, SamePoint v (realMat N * (x - y)) →
    IntVec v ∨ posTol * 2 < (s.lattice * v).mag

theorem coinc_iff_of_apartFine {s : Structure ℝ} {N : Mat3 ℤ} {posTol : ℝ}
    (ht : TolsInUnit s posTol) (hsep : SitesApartFine s N posTol) {p q : Vec3 ℝ × String}
    (hp : IsCand (realMat N) (s.fracCoords.zip s.species) p)
    (hq : IsCand (realMat N) (s.fracCoords.zip s.species) q) :
    coinc s.lattice (Structure.fracTols s.lattice posTol) posTol p q = true ↔ SamePoint p.1 q.1 := by
  refine ⟨fun h => ?_, coinc_of_samePoint ht⟩
  rw [coinc_iff] at h
  obtain ⟨o, ho, m, hm, rfl⟩ := hp.exists_int
  obtain ⟨o', ho', m', hm', rfl⟩ := hq.exists_int
  obtain ⟨a, rfl⟩ := (intVec_iff _).1 hm
  obtain ⟨b, rfl⟩ := (intVec_iff _).1 hm'
  have e := samePoint_normFracVec (Structure.fracTols s.lattice posTol)
    (realMat N * (o.1 + realVec a) - realMat N * (o'.1 + realVec b))
  have hv : SamePoint (normFracVec (Structure.fracTols s.lattice posTol)
      (realMat N * (o.1 + realVec a) - realMat N * (o'.1 + realVec b))) (realMat N * (o.1 - o'.1)) := by
    refine e.trans ?_
    rw [← intVec_sub_iff_samePoint, intVec_iff]
    refine ⟨(intMatrix N).mulVec (a - b), ?_⟩
    rw [← realMat_mulVec, realVec_sub, ← Mat3.mulVec_sub, ← Mat3.mulVec_sub]
    congr 1
    abel
  rcases hsep _ (List.of_mem_zip ho).1 _ (List.of_mem_zip ho').1 _ hv with h' | h'
  · rw [← intVec_sub_iff_samePoint]
    obtain ⟨u, hu⟩ := (intVec_iff _).1 h'
    obtain ⟨w, hw⟩ := (intVec_iff _).1 (intVec_sub_iff_samePoint.2 e)
    rw [intVec_iff]
    refine ⟨u - w, ?_⟩
    rw [realVec_sub, ← hu, ← hw]
    abel
  · exact absurd h (not_le.2 h')

/-- the first pass of a reduction decides; it fails only if one site would not be enough. -/
theorem reduction_dichotomy (s : Structure ℝ) (t : Mat3 ℝ) (N : Mat3 ℤ) (posTol : ℝ)
    (hi : t * realMat N = 1) (ht : TolsInUnit s posTol) (hsep : SitesApartFine s N posTol) :
    (∃ s', ∀ fuel ≥ 2, s.applyTransformation fuel t posTol = .ret s') ∨
      ((∀ fuel, s.applyTransformation fuel t posTol = .running) ∧
        (s.fracCoords.zip s.species ≠ [] → Structure.quotLt 1 s.coords.length (Structure.volumeRatio t) = true)) := by
  have hinv : t.tryInverse = some (realMat N) := Mat3.tryInverse_eq_some_iff.2 hi
  set old := s.fracCoords.zip s.species with hold
  set r := coinc s.lattice (Structure.fracTols s.lattice posTol) posTol with hr
  set F := greedy r [] (passCands (realMat N) 2 old) with hFdef
  have hFc : ∀ p ∈ F, IsCand (realMat N) old p := by
    intro p hp
    rcases mem_greedy hp with hp | hp
    · simp at hp
    · exact isCand_of_mem_passCands hp
  -- every later candidate is already represented
  have hcov : ∀ c, IsCand (realMat N) old c → ∃ p ∈ F, r c p = true := by
    intro c hc
    obtain ⟨o, ho, m, hm, rfl⟩ := hc.exists_int
    have hc0 : (realMat N * (o.1 + Vec3.scale (lit (2 : ℕ)) ⟨((0 : ℕ) : ℝ), ((0 : ℕ) : ℝ), ((0 : ℕ) : ℝ)⟩), o.2)
        ∈ passCands (realMat N) 2 old := by
      unfold passCands
      rw [List.mem_flatMap]
      refine ⟨o, ho, List.mem_map.2 ⟨_, mem_translationVecs.2 ⟨0, 0, 0, by omega, by omega, by omega, rfl⟩, rfl⟩⟩
    obtain ⟨p, hp, hpc⟩ := greedy_covers (r := r) (acc := []) hc0
    refine ⟨p, hp, ?_⟩
    rw [coinc_iff_of_apartFine ht hsep hc (hFc p hp)]
    have h0 : SamePoint (realMat N * (o.1 + Vec3.scale (lit (2 : ℕ)) ⟨((0 : ℕ) : ℝ), ((0 : ℕ) : ℝ), ((0 : ℕ) : ℝ)⟩)) p.1 := by
      rcases hpc with h | h
      · rw [h]; exact SamePoint.refl _
      · exact (coinc_iff_of_apartFine ht hsep (isCand_of_mem_passCands hc0) (hFc p hp)).1 h
    refine SamePoint.trans ?_ h0
    obtain ⟨m, rfl⟩ := (intVec_iff _).1 hm
    rw [← intVec_sub_iff_samePoint, intVec_iff]
    refine ⟨(intMatrix N).mulVec m, ?_⟩
    rw [← realMat_mulVec, ← Mat3.mulVec_sub]
    congr 1
    ext <;> simp [Vec3.scale]
  have hstay : ∀ mult, greedy r F (passCands (realMat N) mult old) = F := by
    intro mult
    apply greedy_eq_self
    intro c hc
    exact hcov c (isCand_of_mem_passCands hc)
  by_cases hq0 : Structure.quotLt 0 s.coords.length (Structure.volumeRatio t) = true
  · by_cases hq : Structure.quotLt F.length s.coords.length (Structure.volumeRatio t) = true
    · right
      refine ⟨?_, fun hne => ?_⟩
      swap
      · obtain ⟨o, ho⟩ := List.exists_mem_of_ne_nil _ hne
        obtain ⟨p, hp, -⟩ := hcov _ ⟨o, ho, 2, ⟨((0 : ℕ) : ℝ), ((0 : ℕ) : ℝ), ((0 : ℕ) : ℝ)⟩,
          mem_translationVecs.2 ⟨0, 0, 0, by omega, by omega, by omega, rfl⟩, rfl⟩
        have hl : 1 ≤ F.length := List.length_pos_of_mem hp
        unfold Structure.quotLt at hq ⊢
        split at hq
        · exact absurd hq (by simp)
        · rename_i h0
          rw [if_neg h0]
          simp only [decide_eq_true_eq] at hq ⊢
          refine lt_of_le_of_lt ?_ hq
          have : ((1 : ℕ) : ℝ) ≤ (F.length : ℝ) := by exact_mod_cast hl
          simp only [lit, Int.cast_natCast]
          gcongr
      have hrun : ∀ fuel mult, Structure.searchLoop s.lattice (Structure.fracTols s.lattice posTol) posTol
          (realMat N) (Structure.volumeRatio t) s.coords.length old fuel mult F = .running := by
        intro fuel
        induction fuel with
        | zero => intro mult; rfl
        | succ n ih =>
          intro mult
          rw [Structure.searchLoop, if_pos hq, searchPass_eq, ← hr, hstay]
          exact ih _
      intro fuel
      unfold Structure.applyTransformation
      simp only [hinv]
      cases fuel with
      | zero => rfl
      | succ n =>
        rw [Structure.searchLoop, List.length_nil, if_pos hq0, searchPass_eq, ← hr, ← hold, ← hFdef, hrun]
        rfl
    · left
      have : ∃ s', s.applyTransformation 2 t posTol = .ret s' := by
        unfold Structure.applyTransformation
        simp only [hinv]
        rw [Structure.searchLoop, List.length_nil, if_pos hq0, searchPass_eq, ← hr, ← hold, ← hFdef,
          Structure.searchLoop, if_neg hq]
        exact ⟨_, rfl⟩
      obtain ⟨s', hs'⟩ := this
      refine ⟨s', fun fuel hf => ?_⟩
      obtain ⟨n, rfl⟩ := Nat.exists_eq_add_of_le hf
      exact applyTransformation_mono hs' n
  · left
    have : ∃ s', s.applyTransformation 2 t posTol = .ret s' := by
      unfold Structure.applyTransformation
      simp only [hinv]
      rw [Structure.searchLoop, List.length_nil, if_neg hq0]
      exact ⟨_, rfl⟩
    obtain ⟨s', hs'⟩ := this
    refine ⟨s', fun fuel hf => ?_⟩
    obtain ⟨n, rfl⟩ := Nat.exists_eq_add_of_le hf
    exact applyTransformation_mono hs' n

/-- **C18, partial.** For `T` with integer inverse (reduction to a finer lattice) and clean separation:
the first pass decides; the call returns after it, or never. -/
theorem C18_reduction_dichotomy_partial (s : Structure ℝ) (t : Mat3 ℝ) (N : Mat3 ℤ) (posTol : ℝ)
    (hi : t * realMat N = 1) (ht : TolsInUnit s posTol) (hsep : SitesApartFine s N posTol) :
    (∃ s', ∀ fuel ≥ 2, s.applyTransformation fuel t posTol = .ret s') ∨
      ∀ fuel, s.applyTransformation fuel t posTol = .running :=
  (reduction_dichotomy s t N posTol hi ht hsep).imp id fun h => h.1

/-- the hypotheses hold for `twin` and the identity (where the second alternative happens). -/
example : SitesApartFine twin 1 (1 / 100) ∧ (1 : Mat3 ℝ) * realMat 1 = 1 := by
  constructor
  · intro x hx y hy v hv
    simp only [twin, List.mem_cons, List.not_mem_nil, or_false, or_self] at hx hy
    subst hx; subst hy
    left
    obtain ⟨⟨i, hi⟩, ⟨j, hj⟩, ⟨k, hk⟩⟩ := hv
    simp at hi hj hk
    exact ⟨i, j, k, by ext <;> assumption⟩
  · ext <;> simp [realMat, Mat3.map]

/-- **C18, partial.** For integer `T` and separated sites the call terminates (from C17); the full
statement, for every structure and every invertible `T`, is refuted above. -/
theorem C18_supercell_terminates_partial (s : Structure ℝ) (T : Mat3 ℤ) (posTol : ℝ) (hd : T.det ≠ 0)
    (hs : Consistent s) (ht : TolsInUnit s posTol) (hsep : SitesApart s T posTol) :
    ∃ N, ∀ fuel ≥ N, s.applyTransformation fuel (realMat T) posTol ≠ .running := by
  obtain ⟨N, s', h, -⟩ := C17_supercell_complete s T posTol hd hs ht hsep
  exact ⟨N, fun fuel hf => by rw [h fuel hf]; simp⟩

end CrystSymm
