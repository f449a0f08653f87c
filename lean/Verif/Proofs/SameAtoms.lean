import Verif.Spec.Isometry
import Verif.Props.PrimitiveSites
import Verif.Props.ShortestCell
import Verif.Props.Transform
import Verif.Props.OneAtom
import Verif.Props.Niggli
import Verif.Props.LatticeTables

set_option autoImplicit false
set_option linter.unusedSectionVars false

/-! # Structures with the same atoms -/

namespace CrystSymm

open Spec Reducer SymmetryAnalyzer

/-! ### integer vectors -/

theorem intVec_neg {u : Vec3 ℝ} (hu : IntVec u) : IntVec (-u) := by
  obtain ⟨i, j, k, rfl⟩ := hu
  exact ⟨-i, -j, -k, by ext <;> simp⟩

/-! ### atoms -/

theorem atomAt_site {s : Structure ℝ} {p : String × Vec3 ℝ} (hp : p ∈ sites s) : AtomAt s p.1 (s.lattice * p.2) :=
  ⟨p.2, hp, 0, intVec_zero, by rw [add_zero]⟩

theorem atomAt_add {s : Structure ℝ} {e : String} {x n : Vec3 ℝ} (h : AtomAt s e x) (hn : IntVec n) :
    AtomAt s e (x + s.lattice * n) := by
  obtain ⟨p, hp, m, hm, rfl⟩ := h
  exact ⟨p, hp, m + n, intVec_add hm hn, by rw [← Mat3.mulVec_add, add_assoc]⟩

theorem sameAtoms_refl (s : Structure ℝ) : SameAtoms s s := fun _ _ => Iff.rfl

theorem sameAtoms_trans {a b c : Structure ℝ} (h : SameAtoms a b) (h' : SameAtoms b c) : SameAtoms a c :=
  fun e x => (h e x).trans (h' e x)

theorem sameAtoms_symm {a b : Structure ℝ} (h : SameAtoms a b) : SameAtoms b a := fun e x => (h e x).symm

theorem atomsApart_congr {s s' : Structure ℝ} {D : ℝ} (h : SameAtoms s s') (ha : AtomsApart s D) : AtomsApart s' D :=
  fun e e' x y hx hy => ha e e' x y ((h e x).2 hx) ((h e' y).2 hy)

theorem sameAtoms_of {s s' : Structure ℝ} (h1 : ∀ p ∈ sites s', AtomAt s p.1 (s'.lattice * p.2))
    (h2 : ∀ q ∈ sites s, ∀ m : Vec3 ℝ, IntVec m → AtomAt s' q.1 (s.lattice * (q.2 + m)))
    (hl : ∀ n : Vec3 ℝ, IntVec n → ∃ k : Vec3 ℝ, IntVec k ∧ s'.lattice * n = s.lattice * k) : SameAtoms s s' := by
  intro e x
  constructor
  · rintro ⟨p, hp, n, hn, rfl⟩
    exact h2 _ hp n hn
  · rintro ⟨p, hp, n, hn, rfl⟩
    obtain ⟨k, hk, e1⟩ := hl n hn
    rw [Mat3.mulVec_add, e1]
    exact atomAt_add (h1 _ hp) hk

theorem lattice_vectors {L L' : Mat3 ℝ} {n : Mat3 ℤ} (h : n.det = 1 ∨ n.det = -1) (hl : L' = L * overK ℝ n) :
    (∀ u : Vec3 ℝ, IntVec u → ∃ k : Vec3 ℝ, IntVec k ∧ L' * u = L * k) ∧
    (∀ u : Vec3 ℝ, IntVec u → ∃ k : Vec3 ℝ, IntVec k ∧ L * u = L' * k) := by
  obtain ⟨m, hm, -, -⟩ := unimodular_inverse h
  constructor
  · intro u hu
    exact ⟨_, intVec_overK (m := n) hu, by rw [hl, Mat3.mul_mulVec]⟩
  · intro u hu
    refine ⟨_, intVec_overK (m := m) hu, ?_⟩
    rw [hl, Mat3.mul_mulVec, ← Mat3.mul_mulVec (overK ℝ n), ← overK_mul, hm, overK_one, Mat3.one_mulVec]

theorem sameAtoms_of_basis {s s' : Structure ℝ} {n : Mat3 ℤ} (h : n.det = 1 ∨ n.det = -1)
    (hl : s'.lattice = s.lattice * overK ℝ n) (h1 : ∀ p ∈ sites s', AtomAt s p.1 (s'.lattice * p.2))
    (h2 : ∀ q ∈ sites s, AtomAt s' q.1 (s.lattice * q.2)) : SameAtoms s s' := by
  obtain ⟨l1, l2⟩ := lattice_vectors h hl
  refine sameAtoms_of h1 (fun q hq m hm => ?_) l1
  obtain ⟨k, hk, e⟩ := l2 m hm
  rw [Mat3.mulVec_add, e]
  exact atomAt_add (h2 q hq) hk

/-- the same crystal in another basis. -/
theorem sameAtoms_of_sameCrystal {s s' : Structure ℝ} (h : SameCrystal s s') :
    SameAtoms s s' ∧ (DistinctSites s → DistinctSites s') := by
  obtain ⟨U, ⟨n, hn, rfl⟩, hl, m, hm, hf⟩ := h
  have hl' : s'.lattice = s.lattice * overK ℝ n := hl
  obtain ⟨k, hk, -, -⟩ := unimodular_inverse hn
  constructor
  · refine sameAtoms_of_basis hn hl' ?_ ?_
    · intro p hp
      obtain ⟨q, hq, e1, e2⟩ := forall₂_mem_left hf hp
      have := samePoint_iff_intVec.1 e2
      refine ⟨q.2, ?_, _, this, ?_⟩
      · rw [e1]; exact hm.mem_iff.1 hq
      · rw [hl, Mat3.mul_mulVec]
        congr 1
        abel
    · intro q hq
      obtain ⟨p, hp, e1, e2⟩ := forall₂_mem_right hf (hm.mem_iff.2 hq)
      have := samePoint_iff_intVec.1 e2
      have ha := atomAt_add (atomAt_site hp) (intVec_overK (m := k) (intVec_neg this))
      rw [e1] at ha
      convert ha using 1
      rw [hl', ← Mat3.mulVec_add, Mat3.mul_mulVec, Mat3.mulVec_add, ← Mat3.mul_mulVec (overK ℝ n), ← overK_mul, hk,
        overK_one, Mat3.one_mulVec]
      congr 1
      show q.2 = overK ℝ n * p.2 + -(overK ℝ n * p.2 - q.2)
      abel
  · intro hd
    have hd' : m.Pairwise fun p q => ¬ SamePoint p.2 q.2 := by
      rw [hm.pairwise_iff (by intro a b hab hba; exact hab (samePoint_symm hba))]
      exact hd
    unfold DistinctSites
    rw [List.pairwise_iff_getElem] at hd' ⊢
    intro i j hi hj hij hsame
    have hlen := hf.length_eq
    have fi := (List.forall₂_iff_get.1 hf).2 i hi (hlen ▸ hi)
    have fj := (List.forall₂_iff_get.1 hf).2 j hj (hlen ▸ hj)
    refine hd' i j (hlen ▸ hi) (hlen ▸ hj) hij ?_
    have h3 : SamePoint (overK ℝ n * (sites s')[i].2 : Vec3 ℝ) (overK ℝ n * (sites s')[j].2 : Vec3 ℝ) := samePoint_mulVec hsame
    exact (samePoint_symm fi.2).trans (h3.trans fj.2)

/-! ### the primitive cell -/

theorem primitive_sameAtoms {r : Reducer ℝ} {ord : List (String × ℕ) → List (String × ℕ)} {s s' : Structure ℝ} {D : ℝ}
    (hd : 0 ≤ r.dtol) (h : r.findPrimitiveCell ord s = .ret s') (hsv' : SvAbove s'.lattice) {n : Mat3 ℤ}
    (hn : n.det = 1 ∨ n.det = -1) (hl : s'.lattice = s.lattice * overK ℝ n)
    (hD : ∀ d : Vec3 ℝ, (s.lattice * d).mag ≤ 2 * r.dtol → lenSq (s'.lattice * d) ≤ D) (ha : AtomsApart s D) :
    SameAtoms s s' := by
  obtain ⟨l1, l2⟩ := lattice_vectors hn hl
  have h1 : ∀ p ∈ sites s', AtomAt s p.1 (s'.lattice * p.2) := by
    intro p hp
    obtain ⟨q, hq, e1, n', m, hn', hm, e2⟩ := (C29_primitive_sites_partial r ord s s' h hsv').1 p hp
    obtain ⟨k, hk, e3⟩ := l1 n' hn'
    rw [e2, e3, ← e1]
    exact atomAt_add (atomAt_add (atomAt_site hq) hm) hk
  refine sameAtoms_of_basis hn hl h1 fun q hq => ?_
  obtain ⟨p, hp, d, n', m, hn', hm, e, hle⟩ := (C52_sites_represented_partial r ord s s' hd h hsv').1 q hq
  obtain ⟨k, hk, e3⟩ := l1 n' hn'
  obtain ⟨j, hj, e4⟩ := l2 m hm
  have hx : AtomAt s q.1 (s.lattice * q.2 + s.lattice * m) := atomAt_add (atomAt_site hq) hm
  have hy : AtomAt s p.1 (s'.lattice * p.2 + s'.lattice * n') := by
    rw [e3]; exact atomAt_add (h1 p hp) hk
  rcases ha _ _ _ _ hx hy with ⟨e5, e6⟩ | hlt
  · have hz := atomAt_add (atomAt_add (atomAt_site hp) hn') (intVec_neg hj)
    rw [← e6, ← e5] at hz
    convert hz using 1
    rw [e4, add_assoc, ← Mat3.mulVec_add, add_neg_cancel, Mat3.mulVec_zero, add_zero]
  · exfalso
    have e7 : s.lattice * q.2 + s.lattice * m - (s'.lattice * p.2 + s'.lattice * n') = s'.lattice * d := by
      rw [e, Mat3.mulVec_add, Mat3.mulVec_add]; abel
    rw [e7] at hlt
    exact absurd (hD d hle) (not_le.2 hlt)

/-! ### the supercell -/

theorem sites_index {s : Structure ℝ} (hc : s.species.length = s.fracCoords.length) {i : ℕ} {x : Vec3 ℝ}
    (h : s.fracCoords[i]? = some x) : ∃ e, (sites s)[i]? = some (e, x) := by
  obtain ⟨hi, -⟩ := List.getElem?_eq_some_iff.1 h
  refine ⟨s.species[i], ?_⟩
  unfold sites
  rw [List.getElem?_zip_eq_some]
  exact ⟨List.getElem?_eq_getElem _, h⟩

theorem distinct_index {s : Structure ℝ} (hds : DistinctSites s) {i j : ℕ} {p q : String × Vec3 ℝ}
    (hi : (sites s)[i]? = some p) (hj : (sites s)[j]? = some q) (h : SamePoint p.2 q.2) : i = j := by
  obtain ⟨hi', rfl⟩ := List.getElem?_eq_some_iff.1 hi
  obtain ⟨hj', rfl⟩ := List.getElem?_eq_some_iff.1 hj
  have := List.pairwise_iff_getElem.1 hds
  by_contra hne
  rcases lt_or_gt_of_ne hne with hlt | hlt
  · exact this i j hi' hj' hlt h
  · exact this j i hj' hi' hlt (samePoint_symm h)

theorem sitesApart_of_atoms {s : Structure ℝ} (hs : Consistent s) (hdet : s.lattice.det ≠ 0) (hds : DistinctSites s)
    {T : Mat3 ℤ} (hT : T.det ≠ 0) {d D : ℝ}
    (hD : ∀ v : Vec3 ℝ, (s.lattice * v).mag ≤ d * 2 → lenSq (s.lattice * (realMat T * v)) ≤ D) (ha : AtomsApart s D) :
    SitesApart s T d := by
  intro i j x y hi hj v hv
  by_contra hc
  rw [not_or] at hc
  obtain ⟨hc1, hc2⟩ := hc
  obtain ⟨e, he⟩ := sites_index hs.1 hi
  obtain ⟨e', he'⟩ := sites_index hs.1 hj
  have hx : AtomAt s e (s.lattice * x + s.lattice * (realMat T * v - (x - y))) :=
    atomAt_add (atomAt_site (List.mem_of_getElem? he)) hv
  have hy : AtomAt s e' (s.lattice * y) := atomAt_site (List.mem_of_getElem? he')
  have e1 : s.lattice * x + s.lattice * (realMat T * v - (x - y)) - s.lattice * y = s.lattice * (realMat T * v) := by
    rw [← Mat3.mulVec_add, ← Mat3.mulVec_sub]
    congr 1
    abel
  rcases ha _ _ _ _ hx hy with ⟨-, e2⟩ | hlt
  · rw [e2, sub_self] at e1
    have hTv : realMat T * v = 0 := mulVec_injective hdet (by rw [← e1, Mat3.mulVec_zero])
    have hTd : (realMat T).det ≠ 0 := by rw [realMat_det]; exact_mod_cast hT
    have hv0 : v = 0 := mulVec_injective hTd (by rw [hTv, Mat3.mulVec_zero])
    refine hc1 ⟨distinct_index hds he he' ?_, by rw [hv0]; exact intVec_zero⟩
    rw [hTv] at hv
    rw [samePoint_iff_intVec]
    have := intVec_neg hv
    convert this using 1
    show x - y = -(0 - (x - y))
    abel
  · rw [e1] at hlt
    exact absurd (hD v (not_lt.1 hc2)) (not_le.2 hlt)

theorem supercell_sameAtoms {s : Structure ℝ} (hs : Consistent s) (hdet : s.lattice.det ≠ 0) (hds : DistinctSites s)
    {T : Mat3 ℤ} (hT : T.det ≠ 0) {d D : ℝ} (ht : TolsInUnit s d)
    (hD : ∀ v : Vec3 ℝ, (s.lattice * v).mag ≤ d * 2 → lenSq (s.lattice * (realMat T * v)) ≤ D) (ha : AtomsApart s D) :
    ∃ (N : ℕ) (s' : Structure ℝ), (∀ fuel ≥ N, s.applyTransformation fuel (realMat T) d = .ret s') ∧
      s'.numSites = T.det.natAbs * s.numSites ∧ Consistent s' ∧ s'.lattice = s.lattice * realMat T ∧
      SameAtoms s s' ∧ DistinctSites s' := by
  obtain ⟨N, s', h1, h2, h3⟩ := C17_supercell_complete s T d hT hs ht (sitesApart_of_atoms hs hdet hds hT hD ha)
  obtain ⟨g1, g2, -, g4, -⟩ := C16_apply_transformation_sound N s s' (realMat T) d hs (h1 N le_rfl)
  have hr : realMat T = overK ℝ T := rfl
  refine ⟨N, s', h1, h2, g2, g1, sameAtoms_of ?_ ?_ ?_,
    (C16_apply_transformation_no_duplicates N s s' (realMat T) d ht (h1 N le_rfl)).1⟩
  · intro p hp
    obtain ⟨q, hq, e1, x, m, hx, hm, e2⟩ := g4 p hp
    have hk := samePoint_iff_intVec.1 hx
    have := atomAt_add (atomAt_add (atomAt_site hq) hm) (intVec_overK (m := T) hk)
    rw [e1] at this
    convert this using 1
    rw [g1, ← Mat3.mulVec_add, ← e2, Mat3.mul_mulVec, hr, ← Mat3.mulVec_add, ← Mat3.mulVec_add]
    congr 2
    abel
  · intro q hq m hm
    obtain ⟨p, hp, e1, x, hx, e2⟩ := h3 q hq m hm
    have hk := samePoint_iff_intVec.1 hx
    have := atomAt_add (atomAt_site hp) (intVec_neg hk)
    rw [e1] at this
    convert this using 1
    rw [g1, ← e2, ← Mat3.mulVec_add, Mat3.mul_mulVec]
    congr 2
    abel
  · intro u hu
    exact ⟨_, intVec_overK (m := T) hu, by rw [g1, Mat3.mul_mulVec, hr]⟩

/-! ### the reduction to a finer lattice -/

theorem sitesApartFine_of_atoms {s : Structure ℝ} (hs : Consistent s) (hdet : s.lattice.det ≠ 0) {t : Mat3 ℝ} {N : Mat3 ℤ}
    (hi : t * realMat N = 1) {d D : ℝ}
    (htr : ∀ e x (k : Vec3 ℝ), IntVec k → AtomAt s e x → AtomAt s e (x + s.lattice * (t * k)))
    (hD : ∀ v : Vec3 ℝ, (s.lattice * v).mag ≤ d * 2 → lenSq (s.lattice * (t * v)) ≤ D) (ha : AtomsApart s D) :
    SitesApartFine s N d := by
  intro x hx y hy v hv
  by_contra hc
  rw [not_or] at hc
  obtain ⟨hc1, hc2⟩ := hc
  obtain ⟨i, hi1⟩ := List.mem_iff_getElem?.1 hx
  obtain ⟨j, hj1⟩ := List.mem_iff_getElem?.1 hy
  obtain ⟨e, he⟩ := sites_index hs.1 hi1
  obtain ⟨e', he'⟩ := sites_index hs.1 hj1
  have hk := samePoint_iff_intVec.1 hv
  have ax := htr e _ _ hk (atomAt_site (List.mem_of_getElem? he))
  have ay : AtomAt s e' (s.lattice * y) := atomAt_site (List.mem_of_getElem? he')
  have e1 : s.lattice * x + s.lattice * (t * (v - realMat N * (x - y))) - s.lattice * y = s.lattice * (t * v) := by
    rw [← Mat3.mulVec_add, ← Mat3.mulVec_sub, Mat3.mulVec_sub t, ← Mat3.mul_mulVec t, hi, Mat3.one_mulVec]
    congr 1
    abel
  rcases ha _ _ _ _ ax ay with ⟨-, e2⟩ | hlt
  · simp only at e2
    rw [e2, sub_self] at e1
    have htv : t * v = 0 := mulVec_injective hdet (by rw [← e1, Mat3.mulVec_zero])
    have hi' : realMat N * t = 1 := Mat3.mul_eq_one_comm' hi
    have hv0 : v = 0 := by
      have := congrArg (fun w : Vec3 ℝ => realMat N * w) htv
      simpa only [← Mat3.mul_mulVec, hi', Mat3.one_mulVec, Mat3.mulVec_zero] using this
    exact hc1 (by rw [hv0]; exact intVec_zero)
  · simp only at hlt
    rw [e1] at hlt
    exact absurd (hD v (not_lt.1 hc2)) (not_le.2 hlt)

theorem reduction_result (s : Structure ℝ) (t : Mat3 ℝ) (N : Mat3 ℤ) (posTol : ℝ) (hi : t * realMat N = 1)
    (ht : TolsInUnit s posTol) (hsep : SitesApartFine s N posTol)
    (hq0 : Structure.quotLt 0 s.coords.length (Structure.volumeRatio t) = true)
    (hcount : ∀ F : List (Vec3 ℝ × String), (∀ q ∈ sites s, ∃ p ∈ F, SamePoint p.1 (realMat N * q.2)) →
      Structure.quotLt F.length s.coords.length (Structure.volumeRatio t) = false) :
    ∃ s', (∀ fuel ≥ 2, s.applyTransformation fuel t posTol = .ret s') ∧
      ∀ q ∈ sites s, ∃ p ∈ sites s', SamePoint p.2 (realMat N * q.2) := by
  have hinv : t.tryInverse = some (realMat N) := Mat3.tryInverse_eq_some_iff.2 hi
  set old := s.fracCoords.zip s.species with hold
  set r := coinc s.lattice (Structure.fracTols s.lattice posTol) posTol with hr
  set F := greedy r [] (passCands (realMat N) 2 old) with hFdef
  have hFc : ∀ p ∈ F, IsCand (realMat N) old p := by
    intro p hp
    rcases mem_greedy hp with hp | hp
    · simp at hp
    · exact isCand_of_mem_passCands hp
  have hcov : ∀ q ∈ sites s, ∃ p ∈ F, SamePoint p.1 (realMat N * q.2) := by
    intro q hq
    have ho : (q.2, q.1) ∈ old := mem_sites_iff.2 hq
    have hc0 : (realMat N * (q.2 + Vec3.scale (lit (2 : ℕ)) ⟨((0 : ℕ) : ℝ), ((0 : ℕ) : ℝ), ((0 : ℕ) : ℝ)⟩), q.1)
        ∈ passCands (realMat N) 2 old := by
      unfold passCands
      rw [List.mem_flatMap]
      refine ⟨_, ho, List.mem_map.2 ⟨_, mem_translationVecs.2 ⟨0, 0, 0, by omega, by omega, by omega, rfl⟩, rfl⟩⟩
    have hz : q.2 + Vec3.scale (lit (2 : ℕ)) ⟨((0 : ℕ) : ℝ), ((0 : ℕ) : ℝ), ((0 : ℕ) : ℝ)⟩ = q.2 := by
      ext <;> simp [Vec3.scale]
    rw [hz] at hc0
    obtain ⟨p, hp, hpc⟩ := greedy_covers (r := r) (acc := []) hc0
    refine ⟨p, hp, ?_⟩
    rcases hpc with h | h
    · rw [h]; exact SamePoint.refl _
    · exact SamePoint.symm ((coinc_iff_of_apartFine ht hsep (isCand_of_mem_passCands hc0) (hFc p hp)).1 h)
  have hq := hcount F hcov
  have hret : s.applyTransformation 2 t posTol = .ret (Structure.normalizeCoords ⟨s.lattice * t, F.map Prod.snd,
        Structure.getCartCoords (s.lattice * t) (F.map Prod.fst), F.map Prod.fst⟩ posTol) := by
    unfold Structure.applyTransformation
    simp only [hinv]
    rw [Structure.searchLoop, List.length_nil, if_pos hq0, searchPass_eq, ← hr, ← hold, ← hFdef,
      Structure.searchLoop, if_neg (by rw [hq]; simp)]
    rfl
  refine ⟨Structure.normalizeCoords ⟨s.lattice * t, F.map Prod.snd,
        Structure.getCartCoords (s.lattice * t) (F.map Prod.fst), F.map Prod.fst⟩ posTol, fun fuel hf => ?_, ?_⟩
  · obtain ⟨n, rfl⟩ := Nat.exists_eq_add_of_le hf
    exact applyTransformation_mono hret n
  · intro q hq
    obtain ⟨p, hp, hpq⟩ := hcov q hq
    obtain ⟨M, hperm, hf⟩ := normalizeCoords_sameSites
      ⟨s.lattice * t, F.map Prod.snd, Structure.getCartCoords (s.lattice * t)
        (F.map Prod.fst), F.map Prod.fst⟩ posTol
    have hM : Prod.swap p ∈ M := by
      apply hperm.symm.subset
      simp only [sites, zip_swap_map]
      exact List.mem_map_of_mem hp
    obtain ⟨w, hw, -, e⟩ := forall₂_mem_right hf hM
    exact ⟨w, hw, e.trans hpq⟩

/-- enough inequivalent atoms to stop the search. -/
theorem covers_card {s ref : Structure ℝ} {t : Mat3 ℝ} {N : Mat3 ℤ} (hi : t * realMat N = 1)
    (hdr : ref.lattice.det ≠ 0) (href : SameAtoms ref s) (hds : DistinctSites ref)
    (hlat : ∀ k : Vec3 ℝ, IntVec k → ∃ j : Vec3 ℝ, IntVec j ∧ s.lattice * (t * k) = ref.lattice * j)
    {F : List (Vec3 ℝ × String)} (hF : ∀ q ∈ sites s, ∃ p ∈ F, SamePoint p.1 (realMat N * q.2)) :
    (sites ref).length ≤ F.length := by
  have key : ∀ i : Fin (sites ref).length, ∃ k : Fin F.length, ∃ w : Vec3 ℝ, IntVec w ∧
      ref.lattice * (sites ref)[i].2 = s.lattice * (t * (F[k].1 + w)) := by
    intro i
    obtain ⟨q, hq, m, hm, e⟩ := (href _ _).1 (atomAt_site (List.getElem_mem i.2))
    obtain ⟨p, hp, hpq⟩ := hF _ hq
    obtain ⟨k, hk, rfl⟩ := List.mem_iff_getElem.1 hp
    refine ⟨⟨k, hk⟩, -(F[k].1 - realMat N * q) + realMat N * m, ?_, ?_⟩
    · exact intVec_add (intVec_neg (samePoint_iff_intVec.1 hpq)) (intVec_overK (m := N) hm)
    · show ref.lattice * (sites ref)[i].2 = s.lattice * (t * (F[k].1 + (-(F[k].1 - realMat N * q) + realMat N * m)))
      have e1 : F[k].1 + (-(F[k].1 - realMat N * q) + realMat N * m) = realMat N * (q + m) := by
        rw [Mat3.mulVec_add]; abel
      rw [e1, ← Mat3.mul_mulVec t, hi, Mat3.one_mulVec, ← e]
      rfl
  choose f w hw hf using key
  have hinj : Function.Injective f := by
    intro i i' h
    have h1 := hf i
    have h2 := hf i'
    rw [h] at h1
    obtain ⟨j, hj, e⟩ := hlat _ (intVec_add (hw i) (intVec_neg (hw i')))
    have h3 : ref.lattice * ((sites ref)[i].2 - (sites ref)[i'].2) = ref.lattice * j := by
      rw [← e, Mat3.mulVec_sub, h1, h2, ← Mat3.mulVec_sub, ← Mat3.mulVec_sub]
      congr 2
      abel
    have h4 := mulVec_injective hdr h3
    apply Fin.ext
    refine distinct_index hds (List.getElem?_eq_getElem i.2) (List.getElem?_eq_getElem i'.2) ?_
    rw [samePoint_iff_intVec]
    show IntVec ((sites ref)[i].2 - (sites ref)[i'].2)
    rw [h4]
    exact hj
  have := Fintype.card_le_of_injective f hinj
  simpa using this

theorem reduction_sameAtoms {s ref : Structure ℝ} {t : Mat3 ℝ} {N : Mat3 ℤ} {d D : ℝ} {c : ℕ} (hs : Consistent s)
    (hdet : s.lattice.det ≠ 0) (hi : t * realMat N = 1) (ht : TolsInUnit s d)
    (hrc : Consistent ref) (hdr : ref.lattice.det ≠ 0)
    (href : SameAtoms ref s) (hds : DistinctSites ref) (hne : ref.numSites ≠ 0)
    (hlat : ∀ k : Vec3 ℝ, IntVec k → ∃ j : Vec3 ℝ, IntVec j ∧ s.lattice * (t * k) = ref.lattice * j)
    (hc : 0 < c) (hnum : s.numSites = c * ref.numSites) (hv0 : 0 < Structure.volumeRatio t)
    (hv : Structure.volumeRatio t ≤ 1 / (c : ℝ))
    (hD : ∀ v : Vec3 ℝ, (s.lattice * v).mag ≤ d * 2 → lenSq (s.lattice * (t * v)) ≤ D) (ha : AtomsApart s D) :
    ∃ s', (∀ fuel ≥ 2, s.applyTransformation fuel t d = .ret s') ∧ Consistent s' ∧ s'.lattice = s.lattice * t ∧
      s'.species.Pairwise (· ≤ ·) ∧ SameAtoms s s' ∧ DistinctSites s' := by
  have htr : ∀ e x (k : Vec3 ℝ), IntVec k → AtomAt s e x → AtomAt s e (x + s.lattice * (t * k)) := by
    intro e x k hk hx
    obtain ⟨j, hj, e1⟩ := hlat k hk
    rw [e1]
    exact (href _ _).1 (atomAt_add ((href _ _).2 hx) hj)
  have hlen : s.coords.length = c * ref.numSites := by
    rw [hs.2, List.length_map, ← hs.1]; exact hnum
  have hpos : 0 < c * ref.numSites := Nat.mul_pos hc (Nat.pos_of_ne_zero hne)
  have hposR : (0 : ℝ) < ref.numSites := by exact_mod_cast Nat.pos_of_ne_zero hne
  have hcR : (0 : ℝ) < c := by exact_mod_cast hc
  obtain ⟨s', h1, h2⟩ := reduction_result s t N d hi ht (sitesApartFine_of_atoms hs hdet hi htr hD ha) (by
      unfold Structure.quotLt
      rw [if_neg (by omega)]
      simpa [lit] using hv0) (by
      intro F hF
      have hF' := covers_card hi hdr href hds hlat hF
      rw [sites_length hrc] at hF'
      unfold Structure.quotLt
      rw [if_neg (by omega), hlen]
      simp only [decide_eq_false_iff_not, not_lt, lit, Int.cast_natCast]
      refine le_trans hv ?_
      rw [div_le_div_iff₀ hcR (by exact_mod_cast hpos)]
      have : (ref.numSites : ℝ) ≤ F.length := by exact_mod_cast hF'
      push_cast
      nlinarith)
  obtain ⟨g1, g2, g3, g4, -⟩ := C16_apply_transformation_sound 2 s s' t d hs (h1 2 le_rfl)
  have hi' : realMat N * t = 1 := Mat3.mul_eq_one_comm' hi
  have hp : ∀ p ∈ sites s', AtomAt s p.1 (s'.lattice * p.2) := by
    intro p hp
    obtain ⟨q, hq, e1, x, m, hx, hm, e2⟩ := g4 p hp
    have := htr _ _ _ (samePoint_iff_intVec.1 hx) (atomAt_add (atomAt_site hq) hm)
    rw [e1] at this
    convert this using 1
    rw [g1, ← Mat3.mulVec_add, ← e2, Mat3.mul_mulVec, ← Mat3.mulVec_add, ← Mat3.mulVec_add]
    congr 2
    abel
  refine ⟨s', h1, g2, g1, g3, ?_, (C16_apply_transformation_no_duplicates 2 s s' t d ht (h1 2 le_rfl)).1⟩
  intro e x
  constructor
  · rintro ⟨q, hq, m, hm, rfl⟩
    obtain ⟨p, hp1, hpq⟩ := h2 _ hq
    have hk := samePoint_iff_intVec.1 hpq
    have hw : IntVec (-(p.2 - realMat N * q) + realMat N * m) := intVec_add (intVec_neg hk) (intVec_overK (m := N) hm)
    have e1 : s'.lattice * p.2 + s'.lattice * (-(p.2 - realMat N * q) + realMat N * m) = s.lattice * (q + m) := by
      have e0 : p.2 + (-(p.2 - realMat N * q) + realMat N * m) = realMat N * (q + m) := by
        rw [Mat3.mulVec_add]; abel
      rw [← Mat3.mulVec_add, e0, g1, Mat3.mul_mulVec, ← Mat3.mul_mulVec t, hi, Mat3.one_mulVec]
    have a1 : AtomAt s p.1 (s.lattice * (q + m)) := by
      rw [← e1]
      have := htr _ _ _ hw (hp p hp1)
      convert this using 1
      rw [g1, Mat3.mul_mulVec, Mat3.mul_mulVec]
    have a2 : AtomAt s e (s.lattice * (q + m)) := by
      rw [Mat3.mulVec_add]; exact atomAt_add (atomAt_site hq) hm
    have hep : e = p.1 := by
      rcases ha _ _ _ _ a2 a1 with ⟨h, -⟩ | hlt
      · exact h
      · exfalso
        have h0 := hD 0 (by rw [Mat3.mulVec_zero, show (0 : Vec3 ℝ).mag = 0 from mag_zero]; linarith [ht.1])
        rw [Mat3.mulVec_zero, Mat3.mulVec_zero] at h0
        rw [sub_self] at hlt
        linarith
    rw [hep, ← e1]
    exact atomAt_add (atomAt_site hp1) hw
  · rintro ⟨q, hq, m, hm, rfl⟩
    have := htr _ _ _ hm (hp _ hq)
    convert this using 1
    rw [g1, Mat3.mulVec_add, Mat3.mul_mulVec, Mat3.mul_mulVec]

theorem volumeRatio_recip {P : Mat3 ℝ} {k : ℕ} (hk : 1 ≤ k ∧ k ≤ 4) (hP : |P.det| = 1 / (k : ℝ)) :
    0 < Structure.volumeRatio P ∧ Structure.volumeRatio P ≤ 1 / (k : ℝ) := by
  unfold Structure.volumeRatio
  show 0 < ((roundZ (|P.det| * ((100 : ℤ) : ℝ)) : ℤ) : ℝ) / ((100 : ℤ) : ℝ) ∧
    ((roundZ (|P.det| * ((100 : ℤ) : ℝ)) : ℤ) : ℝ) / ((100 : ℤ) : ℝ) ≤ _
  rw [hP]
  have h100 : ∀ (x : ℝ) (r : ℤ), (r : ℝ) ≤ x + 1 / 2 → x + 1 / 2 < r + 1 → 0 ≤ x → roundZ x = r := by
    intro x r h1 h2 h3
    unfold roundZ
    rw [if_pos h3, Int.floor_eq_iff]
    exact ⟨h1, h2⟩
  obtain ⟨k1, k2⟩ := hk
  interval_cases k
  · rw [h100 _ 100 (by norm_num) (by norm_num) (by norm_num)]; norm_num
  · rw [h100 _ 50 (by norm_num) (by norm_num) (by norm_num)]; norm_num
  · rw [h100 _ 33 (by norm_num) (by norm_num) (by norm_num)]; norm_num
  · rw [h100 _ 25 (by norm_num) (by norm_num) (by norm_num)]; norm_num

/-- cells of one lattice with the same atoms have equally many sites. -/
theorem card_sameAtoms {s s' : Structure ℝ} (hc : Consistent s) (hc' : Consistent s') (hd : s.lattice.det ≠ 0) {n : Mat3 ℤ}
    (hn : n.det = 1 ∨ n.det = -1) (hl : s'.lattice = s.lattice * overK ℝ n) (ha : SameAtoms s s') (hds : DistinctSites s)
    (hds' : DistinctSites s') : s'.numSites = s.numSites := by
  have h1 : (1 : Mat3 ℝ) * realMat 1 = 1 := by ext <;> simp [realMat, Mat3.map]
  obtain ⟨l1, l2⟩ := lattice_vectors hn hl
  have hd' : s'.lattice.det ≠ 0 := by
    rw [hl, Mat3.det_mul, overK_det]
    refine mul_ne_zero hd ?_
    rcases hn with h | h <;> rw [h] <;> norm_num
  have cov : ∀ a : Structure ℝ, ∀ q ∈ sites a, ∃ p ∈ (sites a).map Prod.swap, SamePoint p.1 (realMat 1 * q.2) := by
    intro a q hq
    refine ⟨_, List.mem_map_of_mem hq, ?_⟩
    have : realMat 1 * q.2 = q.2 := by ext <;> simp [realMat, Mat3.map]
    rw [this]
    exact SamePoint.refl _
  have i1 := covers_card h1 hd ha hds (fun k hk => by
    obtain ⟨j, hj, e⟩ := l1 k hk
    exact ⟨j, hj, by rw [Mat3.one_mulVec, e]⟩) (cov s')
  have i2 := covers_card h1 hd' (sameAtoms_symm ha) hds' (fun k hk => by
    obtain ⟨j, hj, e⟩ := l2 k hk
    exact ⟨j, hj, by rw [Mat3.one_mulVec, e]⟩) (cov s)
  rw [List.length_map, sites_length hc, sites_length hc'] at i1
  rw [List.length_map, sites_length hc, sites_length hc'] at i2
  unfold Structure.numSites
  omega

theorem standard_sameAtoms {nig : Structure ℝ} {d D : ℝ} {ch : ℕ} {m : Mat3 Int8} {P : Mat3 ℝ} {b : BravaisType}
    (hc : Consistent nig) (hds : DistinctSites nig) (hne : nig.numSites ≠ 0) (hd : 0 < d)
    (hL : LongVectors nig.lattice (24 * d)) (hdet : nig.lattice.det ≠ 0)
    (hm : amapGet? latticeCharToConvTrans ch = some m) (hP : primitiveTransformationMatrix ch = .ret (P, b))
    (hD1 : ∀ v : Vec3 ℝ, (nig.lattice * v).mag ≤ d * 2 → lenSq (nig.lattice * (realMat (intRot m).transpose * v)) ≤ D)
    (hD2 : ∀ (n : Mat3 ℤ) (v : Vec3 ℝ), realMat (intRot m).transpose * P = overK ℝ n →
      (nig.lattice * (realMat (intRot m).transpose * v)).mag ≤ d * 2 → lenSq (nig.lattice * (overK ℝ n * v)) ≤ D)
    (ha : AtomsApart nig D) :
    ∃ (N : ℕ) (conv p : Structure ℝ), (∀ fuel ≥ N, nig.applyTransformation fuel (castRot m).transpose d = .ret conv ∧
        conv.applyTransformation fuel P d = .ret p) ∧
      Consistent conv ∧ DistinctSites conv ∧ SameAtoms nig conv ∧ conv.lattice = nig.lattice * realMat (intRot m).transpose ∧
      conv.numSites = (intRot m).transpose.det.natAbs * nig.numSites ∧
      Consistent p ∧ DistinctSites p ∧ SameAtoms nig p ∧ p.species.Pairwise (· ≤ ·) ∧ p.numSites = nig.numSites ∧
      ∃ n : Mat3 ℤ, (n.det = 1 ∨ n.det = -1) ∧ p.lattice = nig.lattice * overK ℝ n := by
  obtain ⟨r1, r2⟩ := char_range hm
  obtain ⟨m', P', b', c, n, e1, e2, e3, e4, e5, e6, e7⟩ := C32_tables_consistent (K := ℝ) ch r1 r2
  rw [hm] at e1
  rw [hP] at e2
  simp only [Option.some.injEq, Outcome.ret.injEq, Prod.mk.injEq] at e1 e2
  obtain ⟨rfl, rfl⟩ := e2
  subst e1
  set T : Mat3 ℤ := (intRot m).transpose with hT
  have hTe : (castRot m : Mat3 ℝ).transpose = realMat T := by rw [castRot_overK]; rfl
  rw [hTe] at e5 e7 ⊢
  have hnr := overK_det n
  set k := (centringVectors c).2.length with hk
  have hk4 : 1 ≤ k ∧ k ≤ 4 := by rw [hk]; cases c <;> decide
  have hn1 : |(n.det : ℝ)| = 1 := by rcases e6 with h | h <;> rw [h] <;> norm_num
  have hTk : T.det.natAbs = k := by
    have := e7 1
    rw [one_mul, e5, hnr, realMat_det] at this
    rw [hn1, mul_one] at this
    have h2 : ((T.det.natAbs : ℤ) : ℝ) = ((k : ℤ) : ℝ) := by rw [Int.natCast_natAbs]; push_cast; exact this
    exact_mod_cast h2
  have hT0 : T.det ≠ 0 := by intro h0; rw [h0] at hTk; simp at hTk; omega
  obtain ⟨N0, conv, hret, hnum, c1, l1, sa1, ds1⟩ := supercell_sameAtoms hc hdet hds hT0 (hL.tolsInUnit hd) hD1 ha
  obtain ⟨ni, -, hni, -⟩ := unimodular_inverse e6
  have rm : ∀ a b : Mat3 ℤ, realMat (a * b) = realMat a * realMat b := by
    intro a b
    ext <;> simp [realMat, Mat3.map]
  have hN : P * realMat (ni * T) = 1 := by
    apply Mat3.mul_eq_one_comm'
    rw [rm, mul_assoc, e5]
    have : overK ℝ n = realMat n := rfl
    rw [this, ← rm, hni]
    ext <;> simp [realMat, Mat3.map]
  have hPdet : |P.det| = 1 / (k : ℝ) := by
    have h1 := congrArg (fun M : Mat3 ℝ => |M.det|) e5
    simp only [Mat3.det_mul, abs_mul, realMat_det, hnr] at h1
    have h3 : |(T.det : ℝ)| = k := by
      rw [← Int.cast_abs, ← Int.natCast_natAbs, hTk]; simp
    rw [hn1, h3] at h1
    have hk0 : (k : ℝ) ≠ 0 := by have := hk4.1; positivity
    field_simp
    linarith
  have hLc : LongVectors conv.lattice (24 * d) := by rw [l1]; exact hL.mul hT0
  have hcdet : conv.lattice.det ≠ 0 := by
    rw [l1, Mat3.det_mul, realMat_det]
    exact mul_ne_zero hdet (by exact_mod_cast hT0)
  have lp : ∀ v : Vec3 ℝ, conv.lattice * (P * v) = nig.lattice * (overK ℝ n * v) := by
    intro v
    rw [l1, ← Mat3.mul_mulVec, mul_assoc, e5, Mat3.mul_mulVec]
  obtain ⟨v0, v1⟩ := volumeRatio_recip hk4 hPdet
  obtain ⟨p, hp, c2, l2, so2, sa2, ds2⟩ := reduction_sameAtoms (ref := nig) (c := k) (D := D) c1 hcdet hN (hLc.tolsInUnit hd) hc hdet
    sa1 hds hne (fun u hu => ⟨_, intVec_overK (m := n) hu, lp u⟩) (by omega) (by rw [hnum, hTk]) v0 v1 (by
      intro v hv
      rw [lp]
      refine hD2 n v e5 ?_
      rwa [l1, Mat3.mul_mulVec] at hv) (atomsApart_congr sa1 ha)
  have hlp : p.lattice = nig.lattice * overK ℝ n := by rw [l2, l1, mul_assoc, e5]
  have hsa := sameAtoms_trans sa1 sa2
  refine ⟨max N0 2, conv, p, fun fuel hf => ⟨hret fuel (le_trans (le_max_left _ _) hf), hp fuel (le_trans (le_max_right _ _) hf)⟩,
    c1, ds1, sa1, l1, hnum, c2, ds2, hsa, so2, ?_, n, e6, hlp⟩
  exact card_sameAtoms hc c2 hdet e6 hlp hsa hds ds2

end CrystSymm
