import Verif.Props.SameCrystal
import Verif.Props.Complete
import Verif.Spec.Resolved
import Verif.Spec.Clear
import Verif.Props.NiggliTerm

set_option autoImplicit false
set_option linter.unusedSectionVars false

/-! # C74: the reported group is exactly the symmetry group of the crystal -/

namespace CrystSymm

open Spec SymmetryAnalyzer PointGroup

theorem crystalSymmetry_congr {s s' : Structure ℝ} (h : SameAtoms s s') {Q : Mat3 ℝ} {t : Vec3 ℝ}
    (hs : CrystalSymmetry s Q t) : CrystalSymmetry s' Q t :=
  ⟨hs.1, fun e x => by rw [← h, ← h]; exact hs.2 e x⟩

theorem mapsLattice_congr {L L' Q : Mat3 ℝ} (h : SameLattice L L') (hm : MapsLattice Q L) : MapsLattice Q L' := by
  intro n hn
  obtain ⟨k, hk, e⟩ := (h (L' * n)).2 ⟨n, hn, rfl⟩
  obtain ⟨m, hm', e'⟩ := hm k hk
  rw [← e] at e'
  obtain ⟨j, hj, e''⟩ := (h _).1 ⟨m, hm', e'⟩
  exact ⟨j, hj, e''⟩

theorem resolved_congr {s s' : Structure ℝ} {d : ℝ} (h : SameAtoms s s') (hl : SameLattice s.lattice s'.lattice)
    (hr : Resolved s d) : Resolved s' d := by
  intro Q t ⟨h1, h2, h3⟩
  obtain ⟨t', ht, hle⟩ := hr Q t ⟨h1, mapsLattice_congr (fun v => (hl v).symm) h2, fun e x hx => by
    obtain ⟨y, hy, hle⟩ := h3 e x ((h e x).1 hx)
    exact ⟨y, (h e y).2 hy, hle⟩⟩
  exact ⟨t', crystalSymmetry_congr h ht, hle⟩

theorem gridOrigin_congr {s s' : Structure ℝ} (h : SameAtoms s s') (hl : SameLattice s.lattice s'.lattice)
    (hr : GridOrigin s) : GridOrigin s' := by
  intro Q t hs
  obtain ⟨n, hn, e⟩ := hr Q t (crystalSymmetry_congr (sameAtoms_symm h) hs)
  obtain ⟨k, hk, e'⟩ := (hl _).1 ⟨n, hn, e⟩
  exact ⟨k, hk, e'⟩

/-- one motion after another. -/
theorem symmetry_comp {s : Structure ℝ} {Q Q' : Mat3 ℝ} {t t' : Vec3 ℝ} (h : CrystalSymmetry s Q t)
    (h' : CrystalSymmetry s Q' t') : CrystalSymmetry s (Q * Q') (Q * t' + t) := by
  refine ⟨?_, fun e x => ?_⟩
  · have h1 : Q.transpose * Q = 1 := h.1
    have h2 : Q'.transpose * Q' = 1 := h'.1
    show (Q * Q').transpose * (Q * Q') = 1
    have e : (Q * Q').transpose = Q'.transpose * Q.transpose := by
      ext <;> simp [Mat3.transpose] <;> ring
    rw [e, mul_assoc, ← mul_assoc Q.transpose, h1, one_mul, h2]
  · rw [h'.2, h.2, Mat3.mulVec_add, Mat3.mul_mulVec, add_assoc]

/-- the difference of two symmetries with the same linear part is a lattice vector. -/
theorem symmetry_diff {s : Structure ℝ} (hp : PrimitiveCell s) {Q : Mat3 ℝ} {t t' : Vec3 ℝ} (h : CrystalSymmetry s Q t)
    (h' : CrystalSymmetry s Q t') : ∃ n : Vec3 ℝ, IntVec n ∧ t' - t = s.lattice * n := by
  refine hp _ fun e y hy => ?_
  have hQ := orthogonal_right h.1
  have hy' : y = Q * (Q.transpose * (y - t)) + t := by
    rw [← Mat3.mul_mulVec, hQ, Mat3.one_mulVec]; abel
  rw [hy'] at hy
  have h1 := (h'.2 e _).1 ((h.2 e _).2 hy)
  rw [← Mat3.mul_mulVec, hQ, Mat3.one_mulVec] at h1
  have e2 : y + (t' - t) = y - t + t' := by abel
  rw [e2]
  exact h1

/-- adding a lattice vector to the translation of a symmetry. -/
theorem symmetry_add {s : Structure ℝ} {Q : Mat3 ℝ} {t n : Vec3 ℝ} (h : CrystalSymmetry s Q t) (hn : IntVec n) :
    CrystalSymmetry s Q (t + s.lattice * n) := by
  refine ⟨h.1, fun e x => ?_⟩
  rw [h.2, ← add_assoc]
  constructor
  · intro h1; exact atomAt_add h1 hn
  · intro h1
    have hneg : IntVec (-n) := by
      obtain ⟨i, j, k, rfl⟩ := hn
      exact ⟨-i, -j, -k, by ext <;> simp⟩
    have := atomAt_add h1 hneg
    have e1 : s.lattice * -n = - (s.lattice * n) := by
      ext <;> simp <;> ring
    rw [e1, add_neg_cancel_right] at this
    exact this

/-- an operation found is close to a symmetry of the crystal, if there is no pseudosymmetry. -/
theorem within_symmetry {p : Structure ℝ} {d : ℝ} (hres : Resolved p d) {Q : Mat3 ℝ} (hQ : Orthogonal Q)
    (hm : MapsLattice Q p.lattice) {W : Mat3 ℤ} (hW : Q * p.lattice = p.lattice * overK ℝ W) {u : Vec3 ℝ}
    (hw : MapsWithin p (overK ℝ W) u (2 * d)) :
    ∃ t', CrystalSymmetry p Q t' ∧ lenSq (p.lattice * u - t') ≤ (3 * d) ^ 2 := by
  refine hres Q _ ⟨hQ, hm, ?_⟩
  rintro e x ⟨q, hq, n, hn, rfl⟩
  obtain ⟨q', hq', w, hw', hle⟩ := hw e q hq
  refine ⟨p.lattice * (q' + (w + overK ℝ W * n)), ⟨q', hq', _, intVec_sum hw' (intVec_overK hn), rfl⟩, ?_⟩
  have e1 : Q * (p.lattice * (q + n)) + p.lattice * u - p.lattice * (q' + (w + overK ℝ W * n)) =
      p.lattice * (overK ℝ W * q + u - q' - w) := by
    rw [← Mat3.mul_mulVec, hW, Mat3.mul_mulVec, ← Mat3.mulVec_add, ← Mat3.mulVec_sub]
    congr 1
    rw [Mat3.mulVec_add]
    abel
  rw [e1]
  exact hle

/-- `i / 12` and `j / 12` that agree modulo 1 up to less than `1 / 12` agree modulo 1. -/
theorem twelfths {i j : ℤ} {t : ℝ} (ht : t ≤ 1 / 12) (h : NearInt ((i : ℝ) / 12 - (j : ℝ) / 12) t) :
    ∃ m : ℤ, (i : ℝ) / 12 - (j : ℝ) / 12 = m := by
  have := sameMod1_of_near (K := ℝ) (N := 12) (by norm_num) (i := i) (j := j) (t := t) (by exact_mod_cast ht) (by exact_mod_cast h)
  obtain ⟨m, hm⟩ := this
  refine ⟨m, ?_⟩
  push_cast at hm
  linarith

set_option maxHeartbeats 1000000 in
/-- the operations found are the symmetries of the crystal, each linear part once; `from_generators` leaves them as they are; and
they are the operations of the table. -/
theorem exact_core {sa : SymmetryAnalyzer ℝ} {h : HashOrders ℝ} (hv : h.Valid) {fuel : ℕ} {p : Structure ℝ} {b : BravaisType}
    (hs : Searchable p sa.dtol) (hprim : PrimitiveCell p) (hd : p.lattice.det ≠ 0) {pg : PointGroup}
    (hpg : primitiveHolohedry (K := ℝ) h fuel b = .ret pg) (hfull : FullSymmetry p.lattice p.lattice pg.operations)
    (hfine : FineTol 25 p.lattice sa.dtol) (hres : Resolved p sa.dtol) (hgrid : GridOrigin p) {gens sg : List (SymmOp ℝ)}
    (hgens : sa.getPrimitiveSpaceGroupOps h fuel p b = .ret gens)
    (hsg : SpaceGroup.fromGenerators fuel gens (Structure.fracTols p.lattice sa.dtol) = .ret sg) {sys : LatticeSystem}
    {num : ℕ} {codes : List ℕ} {table : List (SymmOp ℝ)} (hent : IsTableEntry sys (sg.length % 256) num codes)
    (htab : TableOps num codes table)
    (hall : ∀ op ∈ sg, ∃ o ∈ table, ApproxSame op o (Structure.fracTols p.lattice sa.dtol)) :
    sg = gens ∧ (gens.map fun o => o.rotation).Nodup ∧ (∀ o ∈ table, ∃ m ∈ gens, Nearly m o) ∧
      (∀ m ∈ gens, ∃ o ∈ table, Nearly m o) ∧
      ∀ (Q : Mat3 ℝ) (u : Vec3 ℝ), CrystalSymmetry p Q (p.lattice * u) ↔
        ∃ o ∈ table, Q * p.lattice = p.lattice * castRot o.rotation ∧ IntVec (u - o.translation) := by
  obtain ⟨⟨x1, x2⟩, ⟨y1, y2⟩, z1, z2⟩ := hfine.tols (by norm_num)
  set tols := Structure.fracTols p.lattice sa.dtol with htols
  have ht : TolOK tols := ⟨⟨by linarith, by linarith⟩, ⟨by linarith, by linarith⟩, by linarith, by linarith⟩
  obtain ⟨pg1, hpg1, hC44⟩ := C44_operations_are_symmetries sa h hv fuel p b gens hs hgens
  obtain ⟨pg2, hpg2, hC45⟩ := C45_found_once sa h hv fuel p b gens hs hgens
  rw [hpg, Outcome.ret.injEq] at hpg1 hpg2
  subst hpg1
  subst hpg2
  have frac : ∀ t : Vec3 ℝ, t = p.lattice * (p.lattice.adjDiv p.lattice.det * t) := by
    intro t
    rw [← Mat3.mul_mulVec, Mat3.mul_adjDiv hd, Mat3.one_mulVec]
  have grid : ∀ (Q : Mat3 ℝ) (u : Vec3 ℝ), CrystalSymmetry p Q (p.lattice * u) → ∃ i j k : ℤ, u = (⟨(i : ℝ) / 12, (j : ℝ) / 12, (k : ℝ) / 12⟩ : Vec3 ℝ) := by
    intro Q u hsym
    obtain ⟨n, ⟨i, j, k, rfl⟩, e⟩ := hgrid Q _ hsym
    have e1 : Vec3.scale 12 (p.lattice * u) = p.lattice * Vec3.scale 12 u := by
      ext <;> simp [Vec3.scale] <;> ring
    rw [e1] at e
    have e2 := mulVec_injective hd e
    refine ⟨i, j, k, ?_⟩
    have a1 := congrArg Vec3.x e2
    have a2 := congrArg Vec3.y e2
    have a3 := congrArg Vec3.z e2
    simp only [Vec3.scale] at a1 a2 a3
    ext <;> simp only <;> linarith
  have F2 : ∀ (Q : Mat3 ℝ) (u : Vec3 ℝ), CrystalSymmetry p Q (p.lattice * u) → ∃ m ∈ gens, Q * p.lattice = p.lattice * overK ℝ (intRot m.rotation) ∧
      Nearly m ⟨m.rotation, u⟩ ∧ ∀ o' ∈ gens, o'.rotation = m.rotation → o' ≠ m → ∀ w, IntVec w →
          (3 * sa.dtol) ^ 2 < lenSq (p.lattice * (o'.translation - u - w)) := by
    intro Q u hsym
    obtain ⟨W, hW, e⟩ := hfull.1 Q hsym.1 (symmetry_mapsLattice hprim hsym)
    obtain ⟨o, ho, hrot, ⟨w, d, hw, htr, -, dx, dy, dz⟩, hu⟩ := hC45 W hW _ (symmetry_mapsExactly hd hsym e)
    refine ⟨o, ho, by rw [hrot]; exact e, ⟨rfl, w, d, hw, htr, dx, dy, dz⟩, ?_⟩
    rw [hrot]
    exact hu
  have F1 : ∀ m ∈ gens, ∃ (Q : Mat3 ℝ) (u : Vec3 ℝ), CrystalSymmetry p Q (p.lattice * u) ∧ Q * p.lattice = p.lattice * overK ℝ (intRot m.rotation) ∧
      Nearly m ⟨m.rotation, u⟩ ∧ ∀ m' ∈ gens, m'.rotation = m.rotation → m' = m := by
    intro m hm
    obtain ⟨h1, h2⟩ := hC44 m hm
    obtain ⟨Q, hQ, hml, e⟩ := hfull.2 _ h1
    obtain ⟨t, hsym, hle⟩ := within_symmetry hres hQ hml e h2
    rw [frac t] at hsym hle
    set u := p.lattice.adjDiv p.lattice.det * t
    obtain ⟨o, ho, he, hnear, huniq⟩ := F2 Q u hsym
    have hro : ∀ m' ∈ gens, m'.rotation = m.rotation → m' = o := by
      intro m' hm' hrot
      have hor : o.rotation = m.rotation := by
        apply intRot_injective
        apply overK_injective (K := ℝ)
        rw [e] at he
        exact (mat_mul_injective hd he).symm
      by_contra hne
      have h2' := (hC44 m' hm').2
      rw [hrot] at h2'
      obtain ⟨t', hsym', hle'⟩ := within_symmetry hres hQ hml e h2'
      obtain ⟨n, hn, en⟩ := symmetry_diff hprim hsym hsym'
      have := huniq m' hm' (by rw [hrot, hor]) hne n hn
      have e3 : p.lattice * (m'.translation - u - n) = p.lattice * m'.translation - t' := by
        rw [Mat3.mulVec_sub, Mat3.mulVec_sub, ← en]
        abel
      rw [e3] at this
      linarith
    have hmo := hro m hm rfl
    rw [hmo]
    rw [hmo] at hro
    exact ⟨Q, u, hsym, he, hnear, hro⟩
  have htabeq := tableOps_eq htab
  have hsub := (C37_contains_generators_partial fuel gens sg tols hsg).1.subset
  have hrotnd := table_rotations hent htab
  have hone : ∀ a ∈ groupZ (num, codes), ∀ c ∈ groupZ (num, codes), a.1 = c.1 → a = c := by
    intro a ha c hc e
    obtain ⟨groups, cands, g1, g2, g3⟩ := hent
    exact List.inj_on_of_nodup_map (rotations_once _ g1 _ g2 _ g3) ha hc e
  -- an operation that is found is nearly one of the table
  have F3 : ∀ m ∈ gens, ∀ (Q : Mat3 ℝ) (u : Vec3 ℝ), CrystalSymmetry p Q (p.lattice * u) → Nearly m ⟨m.rotation, u⟩ →
      ∃ a ∈ groupZ (num, codes), m.rotation = rotZ a ∧ IntVec (u - (opK ℝ a).translation) ∧ Nearly m (opK ℝ a) := by
    rintro m hm Q u hsym ⟨-, w, d, ⟨i, j, k, rfl⟩, htr, dx, dy, dz⟩
    obtain ⟨i', j', k', rfl⟩ := grid Q u hsym
    obtain ⟨o, ho, hap⟩ := hall m (hsub hm)
    rw [htabeq] at ho
    obtain ⟨a, ha, rfl⟩ := List.mem_map.1 ho
    obtain ⟨hr, ⟨nx, hx⟩, ⟨ny, hy⟩, ⟨nz, hz⟩⟩ := hap
    have key : ∀ {g l c n : ℤ} {e τ v : ℝ}, v = (g : ℝ) / 12 + l + e → |e| < 1 / 1000000000 →
        |v - (c : ℝ) / 12 - n| < τ → τ ≤ 1 / 25 → ∃ m : ℤ, (g : ℝ) / 12 - (c : ℝ) / 12 = m := by
      intro g l c n e τ v hv he hτ hle
      refine twelfths (t := 1 / 12) le_rfl ⟨n - l, ?_⟩
      push_cast
      rw [hv] at hτ
      rw [abs_lt] at *
      constructor <;> linarith [hτ.1, hτ.2, he.1, he.2]
    have e0 : m.translation.x = (i' : ℝ) / 12 + i + d.x := by rw [htr]; rfl
    have e1 : m.translation.y = (j' : ℝ) / 12 + j + d.y := by rw [htr]; rfl
    have e2 : m.translation.z = (k' : ℝ) / 12 + k + d.z := by rw [htr]; rfl
    obtain ⟨mx, ex⟩ := key e0 dx hx x2
    obtain ⟨my, ey⟩ := key e1 dy hy y2
    obtain ⟨mz, ez⟩ := key e2 dz hz z2
    refine ⟨a, ha, hr, ⟨mx, my, mz, ?_⟩, hr, ⟨i + mx, j + my, k + mz⟩, d, ⟨i + mx, j + my, k + mz, by push_cast; rfl⟩, ?_, dx, dy, dz⟩
    · ext
      · exact ex
      · exact ey
      · exact ez
    · have ex' : (i' : ℝ) / 12 = (a.2.x : ℝ) / 12 + mx := by linarith
      have ey' : (j' : ℝ) / 12 = (a.2.y : ℝ) / 12 + my := by linarith
      have ez' : (k' : ℝ) / 12 = (a.2.z : ℝ) / 12 + mz := by linarith
      ext
      · rw [e0, ex']; simp [opK]; ring
      · rw [e1, ey']; simp [opK]; ring
      · rw [e2, ez']; simp [opK]; ring
  -- the products are among the operations found
  have hclosed : ∀ m1 ∈ gens, ∀ m2 ∈ gens, ∃ z ∈ gens, z.isApproxEq (m1 * m2) tols = true := by
    intro m1 hm1 m2 hm2
    obtain ⟨Q1, u1, s1, q1, n1, -⟩ := F1 m1 hm1
    obtain ⟨Q2, u2, s2, q2, n2, -⟩ := F1 m2 hm2
    obtain ⟨a, ha, ra, -, na⟩ := F3 m1 hm1 Q1 u1 s1 n1
    obtain ⟨b', hb, rb, -, nb⟩ := F3 m2 hm2 Q2 u2 s2 n2
    have s3 := symmetry_comp s1 s2
    rw [frac (Q1 * (p.lattice * u2) + p.lattice * u1)] at s3
    obtain ⟨m3, hm3, q3, n3, -⟩ := F2 _ _ s3
    obtain ⟨c, hc, rc, -, nc⟩ := F3 m3 hm3 _ _ s3 n3
    have hrot : c.1 = a.1 * b'.1 := by
      rw [mul_assoc, q2, ← mul_assoc, q1, mul_assoc, ← overK_mul] at q3
      have := overK_injective (mat_mul_injective hd q3)
      rw [ra, rb, rc, intRot_rotZ (groupZ_range a ha), intRot_rotZ (groupZ_range b' hb), intRot_rotZ (groupZ_range c hc)] at this
      exact this.symm
    obtain ⟨z, hz, hzap⟩ := (C37_pairwise_different_partial fuel gens sg tols ht hsg).2 m1 hm1 m2 (hsub hm2)
    obtain ⟨o, ho, hoap⟩ := hall z hz
    rw [htabeq] at ho
    obtain ⟨c', hc', rfl⟩ := List.mem_map.1 ho
    have hprodrot : (m1 * m2).rotation = rotZ (crateZ a b') := by
      rw [← rotZ_mul, ← ra, ← rb]; rfl
    have hcr : rotZ (crateZ a b') = rotZ c := by
      show (a.1 * b'.1).map Int8.ofInt = c.1.map Int8.ofInt
      rw [hrot]
    have hcc : c' = c := by
      apply hone c' hc' c hc
      rw [← intRot_rotZ (groupZ_range c' hc'), ← intRot_rotZ (groupZ_range c hc), ← hcr, ← hprodrot, ← hzap.1, hoap.1]
      rfl
    subst hcc
    have hself : Nearly (opK ℝ (crateZ a b')) (opK ℝ (crateZ a b')) :=
      ⟨rfl, 0, 0, ⟨0, 0, 0, by ext <;> simp⟩, by rw [add_zero, add_zero], by norm_num, by norm_num, by norm_num⟩
    have hcrate := nearly_prod (groupZ_range b' hb) rfl na nb hself (tols := ⟨1 / 200000000, 1 / 200000000, 1 / 200000000⟩)
      le_rfl le_rfl le_rfl
    have hrange : RangeZ (crateZ a b') := by
      refine ⟨?_, ?_, ?_, ?_⟩
      · show ∀ e ∈ (a.1 * b'.1).toListCM, _
        rw [← hrot]
        exact (groupZ_range c' hc).1
      all_goals
        simp only [crateZ, Vec3.map]
        constructor
        · exact Int.emod_nonneg _ (by norm_num)
        · exact Int.emod_lt_of_pos _ (by norm_num)
    have hceq : crateZ a b' = c' := by
      refine zop_eq_of_approx (K := ℝ) hrange (groupZ_range c' hc) (tols := ⟨1 / 12, 1 / 12, 1 / 12⟩) le_rfl le_rfl le_rfl ?_
      refine ⟨hcr, ?_, ?_, ?_⟩
      · obtain ⟨i, hi⟩ := hcrate.2.1
        obtain ⟨j, hj⟩ := hzap.2.1
        obtain ⟨k, hk⟩ := hoap.2.1
        refine ⟨i - j + k, ?_⟩
        push_cast
        simp only at hi ⊢
        rw [abs_lt] at *
        constructor <;> linarith [hi.1, hi.2, hj.1, hj.2, hk.1, hk.2]
      · obtain ⟨i, hi⟩ := hcrate.2.2.1
        obtain ⟨j, hj⟩ := hzap.2.2.1
        obtain ⟨k, hk⟩ := hoap.2.2.1
        refine ⟨i - j + k, ?_⟩
        push_cast
        simp only at hi ⊢
        rw [abs_lt] at *
        constructor <;> linarith [hi.1, hi.2, hj.1, hj.2, hk.1, hk.2]
      · obtain ⟨i, hi⟩ := hcrate.2.2.2
        obtain ⟨j, hj⟩ := hzap.2.2.2
        obtain ⟨k, hk⟩ := hoap.2.2.2
        refine ⟨i - j + k, ?_⟩
        push_cast
        simp only at hi ⊢
        rw [abs_lt] at *
        constructor <;> linarith [hi.1, hi.2, hj.1, hj.2, hk.1, hk.2]
    refine ⟨m3, hm3, ?_⟩
    rw [C07_is_approx_eq_iff _ _ _ ht]
    exact nearly_prod (groupZ_range b' hb) hceq.symm na nb nc x1 y1 z1
  have hsgeq : sg = gens := by
    unfold SpaceGroup.fromGenerators at hsg
    rcases fuel with _ | f
    · simp [SpaceGroup.genLoop] at hsg
    rw [SpaceGroup.genLoop] at hsg
    by_cases hemp : gens.isEmpty = true
    · rw [if_pos hemp] at hsg
      exact (Outcome.ret.inj hsg).symm
    · rw [if_neg hemp, genRound_fixed hclosed] at hsg
      rcases f with _ | f
      · simp [SpaceGroup.genLoop] at hsg
      rw [SpaceGroup.genLoop, if_pos (by simp)] at hsg
      exact (Outcome.ret.inj hsg).symm
  have G1 : ∀ m ∈ gens, ∃ o ∈ table, Nearly m o := by
    intro m hm
    obtain ⟨Q, u, s1, q1, n1, -⟩ := F1 m hm
    obtain ⟨a, ha, -, -, na⟩ := F3 m hm Q u s1 n1
    exact ⟨_, by rw [htabeq]; exact List.mem_map.2 ⟨a, ha, rfl⟩, na⟩
  have hgnd : (gens.map fun o : SymmOp ℝ => o.rotation).Nodup := by
    refine List.Nodup.map_on ?_ (primitiveOps_nodup hv hs hgens)
    intro x hx y hy e
    obtain ⟨-, -, -, -, -, hu⟩ := F1 y hy
    exact hu x hx e
  have hperm : (gens.map fun o : SymmOp ℝ => o.rotation).Perm (table.map fun o => o.rotation) := by
    have hsp : (gens.map fun o : SymmOp ℝ => o.rotation).Subperm (table.map fun o => o.rotation) := by
      refine List.subperm_of_subset hgnd ?_
      intro W hW
      obtain ⟨m, hm, rfl⟩ := List.mem_map.1 hW
      obtain ⟨o, ho, hn⟩ := G1 m hm
      exact List.mem_map.2 ⟨o, ho, hn.1.symm⟩
    refine hsp.perm_of_length_le ?_
    obtain ⟨ops, ho, hlen, -⟩ := C39_tables_are_groups (K := ℝ) sys _ num codes hent
    have : ops = table := by rw [tableOps_eq ho, htabeq]
    rw [this, hsgeq] at hlen
    rw [List.length_map, List.length_map, hlen]
    exact Nat.mod_le _ _
  have G2 : ∀ o ∈ table, ∃ m ∈ gens, Nearly m o := by
    intro o ho
    have : o.rotation ∈ gens.map fun o : SymmOp ℝ => o.rotation :=
      hperm.mem_iff.2 (List.mem_map.2 ⟨o, ho, rfl⟩)
    obtain ⟨m, hm, e⟩ := List.mem_map.1 this
    obtain ⟨o', ho', hn⟩ := G1 m hm
    have : o' = o := List.inj_on_of_nodup_map hrotnd ho' ho (by rw [← hn.1]; exact e)
    exact ⟨m, hm, this ▸ hn⟩
  refine ⟨hsgeq, hgnd, G2, G1, fun Q u => ⟨fun hsym => ?_, ?_⟩⟩
  · obtain ⟨m, hm, q, n, -⟩ := F2 Q u hsym
    obtain ⟨a, ha, ra, hi, na⟩ := F3 m hm Q u hsym n
    refine ⟨opK ℝ a, by rw [htabeq]; exact List.mem_map.2 ⟨a, ha, rfl⟩, ?_, hi⟩
    rw [castRot_overK, ← na.1]
    exact q
  · rintro ⟨o, ho, hQ, hi⟩
    obtain ⟨m, hm, hn⟩ := G2 o ho
    obtain ⟨Q', u', s1, q1, n1, -⟩ := F1 m hm
    obtain ⟨a, ha, ra, hi', na⟩ := F3 m hm Q' u' s1 n1
    have hao : opK ℝ a = o :=
      List.inj_on_of_nodup_map hrotnd (by rw [htabeq]; exact List.mem_map.2 ⟨a, ha, rfl⟩) ho (by rw [← na.1, ← hn.1])
    rw [hao] at hi'
    have hQQ : Q = Q' := by
      rw [castRot_overK, ← hn.1, ← q1] at hQ
      have := congrArg (fun M => M * p.lattice.adjDiv p.lattice.det) hQ
      simpa only [mul_assoc, Mat3.mul_adjDiv hd, mul_one] using this
    have hiu : IntVec (u - u') := by
      have : u - u' = (u - o.translation) + -(u' - o.translation) := by abel
      rw [this]
      refine intVec_sum hi ?_
      obtain ⟨i, j, k, e⟩ := hi'
      exact ⟨-i, -j, -k, by rw [e]; ext <;> simp⟩
    have := symmetry_add s1 hiu
    rw [← Mat3.mulVec_add, add_sub_cancel] at this
    rw [hQQ]
    exact this

/-- a basis of a sublattice has an integer matrix. -/
theorem sublattice_change {A B X : Mat3 ℝ}
    (hAB : ∀ v : Vec3 ℝ, (∃ n : Vec3 ℝ, IntVec n ∧ v = A * n) → ∃ n : Vec3 ℝ, IntVec n ∧ v = B * n)
    (hB : B.det ≠ 0) (hX : B * X = A) : ∃ D : Mat3 ℤ, X = overK ℝ D := by
  have hc : ∀ n : Vec3 ℝ, IntVec n → IntVec (X * n) := by
    intro n hn
    obtain ⟨k, hk, e⟩ := hAB (A * n) ⟨n, hn, rfl⟩
    rw [← hX, Mat3.mul_mulVec] at e
    rw [mulVec_injective hB e]
    exact hk
  obtain ⟨a, b, c, e1⟩ := hc ⟨1, 0, 0⟩ ⟨1, 0, 0, by ext <;> simp⟩
  obtain ⟨a', b', c', e2⟩ := hc ⟨0, 1, 0⟩ ⟨0, 1, 0, by ext <;> simp⟩
  obtain ⟨a'', b'', c'', e3⟩ := hc ⟨0, 0, 1⟩ ⟨0, 0, 1, by ext <;> simp⟩
  refine ⟨⟨a, a', a'', b, b', b'', c, c', c''⟩, ?_⟩
  have x1 := congrArg Vec3.x e1
  have y1 := congrArg Vec3.y e1
  have z1 := congrArg Vec3.z e1
  have x2 := congrArg Vec3.x e2
  have y2 := congrArg Vec3.y e2
  have z2 := congrArg Vec3.z e2
  have x3 := congrArg Vec3.x e3
  have y3 := congrArg Vec3.y e3
  have z3 := congrArg Vec3.z e3
  simp only [Mat3.mulVec_x, Mat3.mulVec_y, Mat3.mulVec_z, mul_one, mul_zero, add_zero, zero_add] at x1 y1 z1 x2 y2 z2 x3 y3 z3
  ext <;> simp only [overK, Mat3.map] <;> assumption

/-- the matrix between two bases of the same lattice is an integer matrix of determinant `±1`. -/
theorem sameLattice_change {L L' T : Mat3 ℝ} (h : SameLattice L L') (hd : L.det ≠ 0) (hd' : L'.det ≠ 0) (hT : L' * T = L) :
    ∃ D : Mat3 ℤ, T = overK ℝ D ∧ D.det.natAbs = 1 := by
  obtain ⟨D, rfl⟩ := sublattice_change (fun v => (h v).1) hd' hT
  have hX : L * (L.adjDiv L.det * L') = L' := by rw [← mul_assoc, Mat3.mul_adjDiv hd, one_mul]
  obtain ⟨E, hE⟩ := sublattice_change (fun v => (h v).2) hd hX
  refine ⟨D, rfl, ?_⟩
  rw [hE] at hX
  have e : overK ℝ (E * D) = overK ℝ 1 := by
    apply mat_mul_injective hd
    rw [overK_mul, overK_one, mul_one, ← mul_assoc, hX, hT]
  have := congrArg Mat3.det (overK_injective e)
  rw [Mat3.det_mul, Mat3.det_one] at this
  exact Int.natAbs_eq_iff.2 (Int.isUnit_iff.1 (IsUnit.of_mul_eq_one _ (by rw [mul_comm]; exact this)))

theorem sgTransLoop_mono {tols : Vec3 ℝ} {inv t : Mat3 ℝ} {ratio : ℝ} {ops : List (SymmOp ℝ)} (n : ℕ) :
    ∀ (fuel mult : ℕ) (st st' : SpaceGroup.TransState ℝ), SpaceGroup.transLoop tols inv t ratio ops fuel mult st = .ret st' →
      SpaceGroup.transLoop tols inv t ratio ops (fuel + n) mult st = .ret st' := by
  intro fuel
  induction fuel with
  | zero => intro mult st st' h; simp [SpaceGroup.transLoop] at h
  | succ f ih =>
    intro mult st st' h
    rw [Nat.add_right_comm]
    rw [SpaceGroup.transLoop] at h ⊢
    split_ifs at h ⊢ with hc
    · exact ih _ _ _ h
    · exact h

theorem sgApply_mono {fuel : ℕ} {ops ops' : List (SymmOp ℝ)} {t : Mat3 ℝ} {tols : Vec3 ℝ}
    (h : SpaceGroup.applyTransformation fuel ops t tols = .ret ops') (n : ℕ) :
    SpaceGroup.applyTransformation (fuel + n) ops t tols = .ret ops' := by
  unfold SpaceGroup.applyTransformation at h ⊢
  cases hi : t.tryInverse with
  | none => rw [hi] at h; exact h
  | some inv =>
    rw [hi] at h
    simp only [Outcome.bind_eq_ret] at h ⊢
    obtain ⟨st, h1, h2⟩ := h
    exact ⟨st, sgTransLoop_mono n _ _ _ _ h1, h2⟩

/-- in the basis of the cell the isometries of the lattice are matrices of eight bit integers, with an entry `0` or `±1`. -/
def SmallMatrices (L : Mat3 ℝ) : Prop :=
  ∀ Q, Orthogonal Q → MapsLattice Q L → ∃ r : Mat3 ℤ, FitsI8 r ∧ Q * L = L * overK ℝ r ∧ ∃ e ∈ r.toListCM, e = 0 ∨ e = 1 ∨ e = -1

/-- in the basis of the cell the rotations of the symmetries of the crystal are matrices of eight bit integers, with an entry `0` or
`±1`. -/
def SmallSymmetries (s : Structure ℝ) : Prop :=
  ∀ Q t, CrystalSymmetry s Q t → ∃ r : Mat3 ℤ, FitsI8 r ∧ Q * s.lattice = s.lattice * overK ℝ r ∧
    ∃ e ∈ r.toListCM, e = 0 ∨ e = 1 ∨ e = -1

theorem smallSymmetries_of {s : Structure ℝ} (hp : PrimitiveCell s) (h : SmallMatrices s.lattice) : SmallSymmetries s :=
  fun Q _ hs => h Q hs.1 (symmetry_mapsLattice hp hs)

/-- the cell of a crystal is a cell of its lattice of translations. -/
theorem cell_sublattice {s p : Structure ℝ} (h : SameAtoms s p) (hp : PrimitiveCell p) (v : Vec3 ℝ)
    (hv : ∃ n : Vec3 ℝ, IntVec n ∧ v = s.lattice * n) : ∃ n : Vec3 ℝ, IntVec n ∧ v = p.lattice * n := by
  obtain ⟨n, hn, rfl⟩ := hv
  exact hp _ fun e x hx => (h _ _).1 (atomAt_add ((h _ _).2 hx) hn)

/-- operations with different rotations stay apart in a cell of bounded size. -/
theorem stayApart_of_nodup {ops : List (SymmOp ℝ)} {T : Mat3 ℤ} {tols : Vec3 ℝ} (hd : T.det ≠ 0)
    (hnd : (ops.map fun o => o.rotation).Nodup) (hx : tols.x ≤ 1 / T.det.natAbs) (hy : tols.y ≤ 1 / T.det.natAbs)
    (hz : tols.z ≤ 1 / T.det.natAbs) : StayApart (overK ℝ T) ops tols := by
  intro i j v u hvi hrot e n1 n2 n3
  have hij : i = j := by
    have h1 := (List.nodup_iff_injective_get.1 hnd)
    have h2 : (⟨i, by rw [List.length_map]; exact i.2⟩ : Fin (ops.map fun o => o.rotation).length) =
        ⟨j, by rw [List.length_map]; exact j.2⟩ := h1 (by simpa using hrot)
    exact Fin.ext (Fin.mk.inj_iff.1 h2)
  refine ⟨hij, ?_⟩
  subst hij
  rw [sub_self, zero_add] at e
  have hone := stayApart_of_grid (ops := [(⟨1, 0⟩ : SymmOp ℝ)]) (T := T) (tols := tols) (N := 1) one_pos hd
    (by
      intro op hop
      rw [List.mem_singleton] at hop
      subst hop
      exact ⟨0, 0, 0, by ext <;> simp [Vec3.scale]⟩)
    (by rw [Nat.cast_one, one_mul]; exact hx) (by rw [Nat.cast_one, one_mul]; exact hy) (by rw [Nat.cast_one, one_mul]; exact hz)
    (List.pairwise_singleton _ _)
  exact (hone 0 0 v u hvi rfl (by rw [e]; simp) n1 n2 n3).2

/-- the steps of `get_space_group_info`. -/
theorem info_steps {sa : SymmetryAnalyzer ℝ} {h : HashOrders ℝ} (hv : h.Valid) {fuel : ℕ} {s : Structure ℝ} {num : ℕ}
    {sym : String} {ops : List (SymmOp ℝ)} (hr : sa.getSpaceGroupInfo h fuel s = .ret (num, sym, ops))
    (hcut : ∀ prim nig, sa.reducer.findPrimitiveCell h.minEle s = .ret prim →
      sa.reducer.niggliReduce prim tol1em5 = .ret nig → SvAbove prim.lattice ∧ SvAbove nig.lattice) :
    ∃ (prim nig p : Structure ℝ) (ch : ℕ) (b : BravaisType) (gens sg : List (SymmOp ℝ)) (sys : LatticeSystem) (codes : List ℕ)
      (table : List (SymmOp ℝ)) (total : Mat3 ℝ),
      sa.reducer.findPrimitiveCell h.minEle s = .ret prim ∧ sa.reducer.niggliReduce prim tol1em5 = .ret nig ∧
      getLatticeCharacter nig tol1em5 = .ret ch ∧ amapGet? latticeCharToBravais ch = some b ∧
      sa.getStandardPrimitiveStructure h fuel s = .ret p ∧ sa.getPrimitiveSpaceGroupOps h fuel p b = .ret gens ∧
      SpaceGroup.fromGenerators fuel gens (Structure.fracTols p.lattice sa.dtol) = .ret sg ∧
      b.latticeSystem? = some sys ∧ amapGet? sgNumToSymbol num = some sym ∧
      IsTableEntry sys (sg.length % 256) num codes ∧ TableOps num codes table ∧
      (∀ op ∈ sg, ∃ o ∈ table, ApproxSame op o (Structure.fracTols p.lattice sa.dtol)) ∧
      p.lattice * total = s.lattice ∧
      SpaceGroup.applyTransformation fuel sg total (Structure.fracTols p.lattice sa.dtol) = .ret ops := by
  unfold getSpaceGroupInfo at hr
  simp only [Outcome.bind_eq_ret] at hr
  obtain ⟨prim, h1, nig, h2, ⟨T, ch⟩, h3, conv, h4, ⟨P, bravais⟩, h5, sp, h6, gens, h7, sg, h8, system, h9, ident, h10,
    ⟨num', sym'⟩, h11, invP, h12, invT, h13, ops', h14, hfin⟩ := hr
  simp only [Outcome.ret.injEq, Prod.mk.injEq] at hfin
  obtain ⟨rfl, rfl, rfl⟩ := hfin
  simp only at h4 h5 h6 h7 h8 h9
  obtain ⟨hc1, hc2⟩ := hcut prim nig h1 h2
  have hid := ofOption_eq_ret h11
  subst hid
  obtain ⟨-, -, hsym, -, codes, table, hent, htab, hall⟩ := C40_identification_sound h hv sg system _ num' sym' h10
  have hch : getLatticeCharacter nig tol1em5 = .ret ch := by
    unfold conventionalTransformationMatrix at h3
    simp only [Outcome.bind_eq_ret, Outcome.ret.injEq, Prod.mk.injEq] at h3
    obtain ⟨ch', h3, -, -, -, rfl⟩ := h3
    exact h3
  have hbr : amapGet? latticeCharToBravais ch = some bravais := by
    unfold primitiveTransformationMatrix at h5
    simp only [Outcome.bind_eq_ret, Outcome.ret.injEq, Prod.mk.injEq] at h5
    obtain ⟨b, h5, -, -, -, -, -, rfl⟩ := h5
    exact ofOption_eq_ret h5
  have hP := Mat3.tryInverse_eq_some_iff.1 (ofOption_eq_ret h12)
  have hT := Mat3.tryInverse_eq_some_iff.1 (ofOption_eq_ret h13)
  refine ⟨prim, nig, sp, ch, bravais, gens, sg, system, codes, table, _, h1, h2, hch, hbr, ?_, h7, h8, ofOption_eq_ret h9, hsym, hent,
    htab, hall, ?_, h14⟩
  · unfold getStandardPrimitiveStructure
    rw [h1, Outcome.ret_bind, h2, Outcome.ret_bind, h3, Outcome.ret_bind]
    simp only
    rw [h4, Outcome.ret_bind, h5, Outcome.ret_bind]
    exact h6
  · rw [applyTransformation_lattice h6, applyTransformation_lattice h4]
    unfold Structure.getTransformationMatrix
    calc nig.lattice * T * P * (invP * invT * ((FTrans.pinv nig.lattice : Mat3 ℝ) * prim.lattice) *
          ((FTrans.pinv prim.lattice : Mat3 ℝ) * s.lattice))
        = nig.lattice * T * (P * invP) * invT * (FTrans.pinv nig.lattice : Mat3 ℝ) *
          (prim.lattice * (FTrans.pinv prim.lattice : Mat3 ℝ)) * s.lattice := by simp only [mul_assoc]
      _ = nig.lattice * (T * invT) * (FTrans.pinv nig.lattice : Mat3 ℝ) * s.lattice := by
          rw [hP, mul_pinv hc1]; simp only [mul_one, mul_assoc]
      _ = s.lattice := by rw [hT, mul_one, mul_pinv hc2, one_mul]

/-- the cells of a clean crystal are above the cut-off of the pseudo-inverse. -/
theorem clean_svAbove {sa : SymmetryAnalyzer ℝ} {s prim nig : Structure ℝ}
    (hc : CleanInput s sa.dtol) (hf : FoundPrim s prim)
    (h2 : sa.reducer.niggliReduce prim tol1em5 = .ret nig) : SvAbove prim.lattice ∧ SvAbove nig.lattice := by
  obtain ⟨-, -, -, -, -, hfr, hdt, -⟩ := clean_niggli (r := sa.reducer) hc hf h2
  refine ⟨hf.sv, ?_⟩
  apply svAbove_of_size
  rw [hdt]
  exact lt_of_le_of_lt (pow_le_pow_left₀ (frob_nonneg nig.lattice) hfr 2) hc.flat

/-- what is known of the structures of the pipeline for a clean input. -/
theorem clean_pipeline {sa : SymmetryAnalyzer ℝ} {h : HashOrders ℝ} (hv : h.Valid) {fuel : ℕ} {s ref prim nig p : Structure ℝ}
    (hc : CleanInput ref sa.dtol) (hf : Finds sa.reducer h.minEle s ref) (hsize : 81 * cellSize ref ≤ (200000000 * sa.dtol) ^ 2)
    (h1 : sa.reducer.findPrimitiveCell h.minEle s = .ret prim) (h2 : sa.reducer.niggliReduce prim tol1em5 = .ret nig)
    (h3 : sa.getStandardPrimitiveStructure h fuel s = .ret p) :
    SameAtoms ref p ∧ SameLattice ref.lattice p.lattice ∧ p.lattice.det ≠ 0 ∧ PrimitiveCell p ∧
      Searchable p sa.dtol ∧ FineTol 25 p.lattice sa.dtol ∧
      ∀ v : Vec3 ℝ, lenSq (p.lattice * v) ≤ 9 * cellSize ref * lenSq v := by
  obtain ⟨prim', nig', conv, ch, m, P, b, g1, g2, -, -, -, -, -, g8⟩ := standardPrimitive_ret h3
  rw [h1] at g1
  cases g1
  rw [h2] at g2
  cases g2
  obtain ⟨N, k, conv', p', hret, -, -, -, -, -, -, -, pc, psame, pds, pprim, pnum, plat, psort, pdet, plen⟩ :=
    clean_standard sa h hv hc hf h1 h2 g8
  have hpp : p' = p := by
    have h4 := (hret (N + fuel) (by omega)).2
    have h5 := standardPrimitive_mono h3 N
    rw [Nat.add_comm, h4] at h5
    exact Outcome.ret.inj h5
  subst hpp
  have hdpos := hc.tol
  have hsearch := clean_searchable hc (by nlinarith [sq_nonneg sa.dtol]) pc psame pds pnum psort pdet plen
  have hnes : sites p' ≠ [] := by
    intro h0
    have := sites_length pc
    rw [h0] at this
    have h0 : p'.numSites = 0 := this.symm
    rw [pnum] at h0
    exact hc.primitive.1 (List.eq_nil_of_length_eq_zero h0)
  have hb25 : (25 * sa.dtol) ^ 2 ≤ 27 * (cellSize ref ^ 3 / ref.volume ^ 2 * sa.dtol ^ 2) := by
    have hV : 0 < ref.volume ^ 2 := by have := hc.det_ne; unfold Structure.volume; positivity
    have h1 : 27 ≤ cellSize ref ^ 3 / ref.volume ^ 2 := by
      rw [le_div_iff₀ hV]
      refine le_trans (frob_cube ref.lattice) ?_
      exact pow_le_pow_left₀ (frob_nonneg _) hc.size_ge 3
    nlinarith [sq_nonneg sa.dtol]
  have hL := longVectors_of_apart hnes pdet (atomsApart_congr psame hc.apart) hb25
  have hF0 : 0 ≤ cellSize ref := le_trans (frob_nonneg _) hc.size_ge
  refine ⟨psame, plat, pdet, pprim, hsearch, ⟨hdpos, ?_⟩, plen⟩
  · intro v hv
    have : ∃ w : Vec3 ℝ, lenSq w = 1 ∧ IntVec w ∧ w ≠ 0 ∧ v = p'.lattice * w := by
      rcases hv with rfl | rfl | rfl
      · exact ⟨⟨1, 0, 0⟩, by simp [lenSq], ⟨1, 0, 0, by simp⟩, (by intro h; simpa using congrArg Vec3.x h), by ext <;> simp [Mat3.col0]⟩
      · exact ⟨⟨0, 1, 0⟩, by simp [lenSq], ⟨0, 1, 0, by simp⟩, (by intro h; simpa using congrArg Vec3.y h), by ext <;> simp [Mat3.col1]⟩
      · exact ⟨⟨0, 0, 1⟩, by simp [lenSq], ⟨0, 0, 1, by simp⟩, (by intro h; simpa using congrArg Vec3.z h), by ext <;> simp [Mat3.col2]⟩
    obtain ⟨w, w1, w2, w3, rfl⟩ := this
    have i1 := hL w w2 w3
    have i2 := plen w
    rw [w1, mul_one] at i2
    exact ⟨i1, by linarith⟩

theorem sameLattice_det {L N : Mat3 ℝ} (h : SameLattice L N) (hd : L.det ≠ 0) : N.det ≠ 0 := by
  intro h0
  have key : ∀ n : Vec3 ℝ, IntVec n → ∃ k : Vec3 ℝ, IntVec k ∧ L * n = N * k := fun n hn => (h _).1 ⟨n, hn, rfl⟩
  obtain ⟨k1, -, e1⟩ := key ⟨1, 0, 0⟩ ⟨1, 0, 0, by ext <;> simp⟩
  obtain ⟨k2, -, e2⟩ := key ⟨0, 1, 0⟩ ⟨0, 1, 0, by ext <;> simp⟩
  obtain ⟨k3, -, e3⟩ := key ⟨0, 0, 1⟩ ⟨0, 0, 1, by ext <;> simp⟩
  have : L = N * Mat3.ofCols k1 k2 k3 := by
    have x1 := congrArg Vec3.x e1
    have y1 := congrArg Vec3.y e1
    have z1 := congrArg Vec3.z e1
    have x2 := congrArg Vec3.x e2
    have y2 := congrArg Vec3.y e2
    have z2 := congrArg Vec3.z e2
    have x3 := congrArg Vec3.x e3
    have y3 := congrArg Vec3.y e3
    have z3 := congrArg Vec3.z e3
    simp only [Mat3.mulVec_x, Mat3.mulVec_y, Mat3.mulVec_z, mul_one, mul_zero, add_zero, zero_add] at x1 y1 z1 x2 y2 z2 x3 y3 z3
    ext <;> simp [Mat3.ofCols] <;> assumption
  apply hd
  rw [this, Mat3.det_mul, h0, zero_mul]

theorem sameLattice_matrix {L N : Mat3 ℝ} (hd : L.det ≠ 0) (hN : SameLattice L N) :
    ∃ D : Mat3 ℤ, N = L * NiggliCert.castM D ∧ (D.det = 1 ∨ D.det = -1) := by
  have hN' : SameLattice N L := fun v => (hN v).symm
  have e : L * (L.adjDiv L.det * N) = N := by rw [← mul_assoc, Mat3.mul_adjDiv hd, one_mul]
  obtain ⟨D, hD, hD1⟩ := sameLattice_change hN' (sameLattice_det hN hd) hd e
  exact ⟨D, by rw [← e, hD]; rfl, Int.natAbs_eq_iff.1 hD1⟩

/-- what `ClearLattice` says of the reduced cell found. -/
theorem clean_resolves {r : Reducer ℝ} {s prim nig : Structure ℝ} (hc : CleanInput s r.dtol) (hcl : ClearLattice s.lattice (eps tol1em5 |s.volume|))
    (hf : FoundPrim s prim) (h2 : r.niggliReduce prim tol1em5 = .ret nig) :
    0 < nig.volume ∧ NiggliCell 0 nig.lattice ∧ ToleranceResolves nig tol1em5 := by
  obtain ⟨-, -, -, -, -, hsz, -, hlat⟩ := clean_niggli hc hf h2
  obtain ⟨⟨n, hn, hl⟩, hvol, hfrob, hcons, -⟩ := hf
  have hV : 0 < prim.volume := by rw [hvol]; exact abs_pos.2 hc.det_ne
  obtain ⟨e0, e1, hall⟩ := hcl
  rw [← hvol] at e0 e1 hall
  have hsvn : SvAbove nig.lattice := by
    refine niggli_svAbove r prim nig tol1em5 h2 ?_
    rw [hvol, sq_abs]
    refine lt_of_le_of_lt (pow_le_pow_left₀ ?_ ?_ 2) hc.flat
    · have := frob_nonneg prim.lattice
      unfold frob at this
      positivity
    · unfold frob at hfrob
      unfold cellSize
      linarith
  obtain ⟨-, hvn⟩ := C24_niggli_keeps_handedness_partial r prim nig tol1em5 hcons h2 hsvn (.inr ⟨e0.le, e1⟩)
  obtain ⟨a, b⟩ := hall _ hlat (C25_niggli_conditions r prim nig tol1em5 h2 hV e0 e1)
  refine ⟨by rw [hvn]; exact hV, a, ?_⟩
  unfold ToleranceResolves
  rw [hvn]
  exact ⟨e0, b⟩

/-- every lattice is clear-cut at all small tolerances. -/
theorem clearLattice_of_small {L : Mat3 ℝ} (hd : L.det ≠ 0) : ∃ δ > 0, ∀ ε, 0 < ε → ε < δ → ClearLattice L ε := by
  obtain ⟨δ, hδ, hgap⟩ := NiggliCert.lattice_gap hd
  have change := fun N => sameLattice_matrix (N := N) hd
  by_cases hex : ∃ N, SameLattice L N ∧ NiggliCell 0 N
  · obtain ⟨M, hM, hM0⟩ := hex
    obtain ⟨δ', hδ', hres⟩ := NiggliCert.resolved_of_lt (a := lenSq M.col0) (b := lenSq M.col1) (c := lenSq M.col2)
      (d := dotp M.col1 M.col2) (e := dotp M.col0 M.col2) (f := dotp M.col0 M.col1)
    refine ⟨min (min δ δ') 1, by positivity, fun ε h0 h1 => ⟨h0, h1.trans_le (min_le_right _ _), fun N hN hNε => ?_⟩⟩
    have h2 := h1.trans_le (min_le_left _ _)
    obtain ⟨D, rfl, hD⟩ := change N hN
    have hN0 := hgap D hD ε h0 (h2.trans_le (min_le_left _ _)) hNε
    refine ⟨hN0, ?_⟩
    have hMN : SameLattice M (L * NiggliCert.castM D) := sameLattice_trans (fun v => (hM v).symm) hN
    have hMd := sameLattice_det hM hd
    have e : M * (M.adjDiv M.det * (L * NiggliCert.castM D)) = L * NiggliCert.castM D := by
      rw [← mul_assoc, Mat3.mul_adjDiv hMd, one_mul]
    obtain ⟨D', hD', hD1'⟩ := sameLattice_change (fun v => (hMN v).symm) (sameLattice_det hMN hMd) hMd e
    rw [hD'] at e
    have hsh := C63_niggli_cell_unique M (overK ℝ D') hMd ⟨D', Int.natAbs_eq_iff.1 hD1', rfl⟩ hM0 (by rw [e]; exact hN0)
    rw [e] at hsh
    obtain ⟨a1, a2, a3, a4, a5, a6⟩ := hsh
    have := (hres ε h0 (h2.trans_le (min_le_right _ _))).2
    rw [← a1, ← a2, ← a3, ← a4, ← a5, ← a6]
    exact this
  · refine ⟨min δ 1, by positivity, fun ε h0 h1 => ⟨h0, h1.trans_le (min_le_right _ _), fun N hN hNε => ?_⟩⟩
    obtain ⟨D, rfl, hD⟩ := change N hN
    exact absurd ⟨_, hN, hgap D hD ε h0 (h1.trans_le (min_le_left _ _)) hNε⟩ hex

/-- a lattice all of whose scalar products are multiples of `g` is clear-cut at every tolerance below `g / 12`. -/
theorem clearLattice_integral {L : Mat3 ℝ} (hd : L.det ≠ 0) {g ε : ℝ} (h0 : 0 < ε) (h1 : ε < 1) (hg : 12 * ε < g)
    (M : Mat3 ℤ) (hM : L.transpose * L = (overK ℝ M).scale g) : ClearLattice L ε := by
  refine ⟨h0, h1, fun N hN hn => ?_⟩
  obtain ⟨D, rfl, -⟩ := sameLattice_matrix hd hN
  have hgram : (L * NiggliCert.castM D).transpose * (L * NiggliCert.castM D) = (overK ℝ (D.transpose * M * D)).scale g := by
    have e1 : (L * NiggliCert.castM D).transpose = overK ℝ D.transpose * L.transpose := by
      ext <;> simp [Mat3.transpose, overK, Mat3.map, NiggliCert.castM] <;> ring
    rw [e1, mul_assoc, ← mul_assoc L.transpose, hM, overK_mul, overK_mul]
    ext <;> simp [Mat3.scale, NiggliCert.castM, overK, Mat3.map] <;> ring
  set N := L * NiggliCert.castM D
  set G := D.transpose * M * D
  have ea : lenSq N.col0 = g * (G.m11 : ℝ) := by
    have := congrArg Mat3.m11 hgram
    simp only [Mat3.scale, overK, Mat3.map] at this
    rw [mul_comm, ← this]; simp [lenSq, Mat3.col0, Mat3.transpose]
  have eb : lenSq N.col1 = g * (G.m22 : ℝ) := by
    have := congrArg Mat3.m22 hgram
    simp only [Mat3.scale, overK, Mat3.map] at this
    rw [mul_comm, ← this]; simp [lenSq, Mat3.col1, Mat3.transpose]
  have ec : lenSq N.col2 = g * (G.m33 : ℝ) := by
    have := congrArg Mat3.m33 hgram
    simp only [Mat3.scale, overK, Mat3.map] at this
    rw [mul_comm, ← this]; simp [lenSq, Mat3.col2, Mat3.transpose]
  have ed : dotp N.col1 N.col2 = g * (G.m23 : ℝ) := by
    have := congrArg Mat3.m23 hgram
    simp only [Mat3.scale, overK, Mat3.map] at this
    rw [mul_comm, ← this]; simp [dotp, Mat3.col1, Mat3.col2, Mat3.transpose]
  have ee : dotp N.col0 N.col2 = g * (G.m13 : ℝ) := by
    have := congrArg Mat3.m13 hgram
    simp only [Mat3.scale, overK, Mat3.map] at this
    rw [mul_comm, ← this]; simp [dotp, Mat3.col0, Mat3.col2, Mat3.transpose]
  have ef : dotp N.col0 N.col1 = g * (G.m12 : ℝ) := by
    have := congrArg Mat3.m12 hgram
    simp only [Mat3.scale, overK, Mat3.map] at this
    rw [mul_comm, ← this]; simp [dotp, Mat3.col0, Mat3.col1, Mat3.transpose]
  unfold NiggliCell at hn ⊢
  rw [ea, eb, ec, ed, ee, ef] at hn ⊢
  generalize G.m11 = a at *
  generalize G.m22 = b at *
  generalize G.m33 = c at *
  generalize G.m23 = d at *
  generalize G.m13 = e at *
  generalize G.m12 = f at *
  have hg0 : 0 < g := by linarith
  -- a multiple of `g / 12` that is at most `ε` is at most `0`
  have le0 : ∀ (k : ℤ) {x : ℝ}, x = g * k / 12 → x ≤ ε → x ≤ 0 := by
    intro k x e1 e2
    by_contra hlt
    have h3 : (0 : ℝ) < k := by
      by_contra hk
      apply hlt
      rw [e1]
      have := mul_nonneg hg0.le (neg_nonneg.2 (not_lt.1 hk))
      linarith
    have h4 : (1 : ℝ) ≤ k := by
      have : (0 : ℤ) < k := by exact_mod_cast h3
      exact_mod_cast this
    have h5 : g * 1 ≤ g * k := mul_le_mul_of_nonneg_left h4 hg0.le
    linarith
  have eq0 : ∀ (k : ℤ) {x : ℝ}, x = g * k / 12 → |x| ≤ ε → x = 0 := by
    intro k x e1 e2
    rw [abs_le] at e2
    exact le_antisymm (le0 k e1 e2.2) (by
      have := le0 (-k) (x := -x) (by rw [e1]; push_cast; ring) (by linarith)
      linarith)
  have ab : ∀ k : ℤ, |2 * (g * (k : ℝ))| = g * ((12 * (2 * |k|) : ℤ) : ℝ) / 12 := by
    intro k
    rw [abs_mul, abs_mul, abs_of_pos hg0]
    push_cast
    rw [abs_of_pos (by norm_num : (0 : ℝ) < 2)]
    ring
  have z : ∀ {x : ℝ}, |x| ≤ 0 → |x| ≤ ε := fun h => h.trans h0.le
  refine ⟨?_, ?_⟩
  · constructor
    · linarith [le0 (12 * (a - b)) (x := g * a - g * b) (by push_cast; ring) (by linarith [hn.ab])]
    · linarith [le0 (12 * (b - c)) (x := g * b - g * c) (by push_cast; ring) (by linarith [hn.bc])]
    · intro h
      have := hn.ab_eq (z h)
      linarith [le0 (12 * (2 * |d| - 2 * |e|)) (x := |2 * (g * (d : ℝ))| - |2 * (g * (e : ℝ))|)
        (by rw [ab, ab]; push_cast; ring) (by linarith)]
    · intro h
      have := hn.bc_eq (z h)
      linarith [le0 (12 * (2 * |e| - 2 * |f|)) (x := |2 * (g * (e : ℝ))| - |2 * (g * (f : ℝ))|)
        (by rw [ab, ab]; push_cast; ring) (by linarith)]
    · linarith [le0 (12 * (2 * |d| - b)) (x := |2 * (g * (d : ℝ))| - g * b) (by rw [ab]; push_cast; ring) (by linarith [hn.xi])]
    · linarith [le0 (12 * (2 * |e| - a)) (x := |2 * (g * (e : ℝ))| - g * a) (by rw [ab]; push_cast; ring) (by linarith [hn.eta])]
    · linarith [le0 (12 * (2 * |f| - a)) (x := |2 * (g * (f : ℝ))| - g * a) (by rw [ab]; push_cast; ring) (by linarith [hn.zeta])]
    · linarith [le0 (-(12 * (2 * d + 2 * e + 2 * f + a + b)))
        (x := -(2 * (g * d) + 2 * (g * e) + 2 * (g * f) + g * a + g * b)) (by push_cast; ring) (by linarith [hn.sum])]
    · rcases hn.signs with h | ⟨p, q, r⟩
      · exact .inl h
      · exact .inr ⟨le0 (24 * d) (by push_cast; ring) p, le0 (24 * e) (by push_cast; ring) q, le0 (24 * f) (by push_cast; ring) r⟩
    · intro h
      have := hn.xi_eq (z h)
      linarith [le0 (12 * (2 * f - 4 * e)) (x := 2 * (g * f) - 2 * (2 * (g * e))) (by push_cast; ring) (by linarith)]
    · intro h
      have := hn.eta_eq (z h)
      linarith [le0 (12 * (2 * f - 4 * d)) (x := 2 * (g * f) - 2 * (2 * (g * d))) (by push_cast; ring) (by linarith)]
    · intro h
      have := hn.zeta_eq (z h)
      linarith [le0 (12 * (2 * e - 4 * d)) (x := 2 * (g * e) - 2 * (2 * (g * d))) (by push_cast; ring) (by linarith)]
    · intro h
      rw [eq0 (24 * f) (by push_cast; ring) (hn.xi_neg (z h)), abs_zero]
    · intro h
      rw [eq0 (24 * f) (by push_cast; ring) (hn.eta_neg (z h)), abs_zero]
    · intro h
      rw [eq0 (24 * e) (by push_cast; ring) (hn.zeta_neg (z h)), abs_zero]
    · intro h
      have := hn.sum_eq (z h)
      exact le0 (12 * (2 * (a + 2 * e) + 2 * f)) (by push_cast; ring) this
  · have key : ∀ k : ℤ, ∀ x : ℝ, x = g * k / 12 → |x| ≤ ε → x = 0 := fun k x => eq0 k
    have c25 : |g * (d : ℝ) + g * e + g * f| = g * |(d : ℝ) + e + f| := by
      rw [← mul_add, ← mul_add, abs_mul, abs_of_pos hg0]
    have c26 : |2 * (g * (d : ℝ)) + g * f| = g * |2 * (d : ℝ) + f| := by
      rw [show 2 * (g * (d : ℝ)) + g * f = g * (2 * d + f) by ring, abs_mul, abs_of_pos hg0]
    unfold shapeDifferences
    simp only [List.forall_mem_cons]
    refine ⟨key (12 * (a - b)) _ ?_, key (12 * (a - c)) _ ?_, key (12 * (b - c)) _ ?_, key (12 * d) _ ?_, key (12 * e) _ ?_,
      key (12 * f) _ ?_, key (6 * a - 12 * d) _ ?_, key (6 * a - 12 * e) _ ?_, key (6 * a - 12 * f) _ ?_, key (12 * (d - e)) _ ?_,
      key (12 * (d - f)) _ ?_, key (12 * (e - f)) _ ?_, key (-4 * a - 12 * d) _ ?_, key (-4 * a - 12 * e) _ ?_,
      key (-4 * a - 12 * f) _ ?_, key (-6 * a - 12 * d) _ ?_, key (-6 * a - 12 * e) _ ?_, key (-6 * a - 12 * f) _ ?_,
      key (3 * a - 12 * d) _ ?_, key (-6 * b - 12 * d) _ ?_, key (6 * b - 12 * d) _ ?_, key (12 * (d * 2 - e)) _ ?_,
      key (12 * (d * 2 - f)) _ ?_, key (12 * (e * 2 - f)) _ ?_, key (12 * (|d + e + f| * 2 - (a + b))) _ ?_,
      key (12 * (|2 * d + f| - b)) _ ?_, fun _ h => by cases h⟩ <;> (try rw [c25]) <;> (try rw [c26]) <;> push_cast <;> ring

/-- the reported group for a crystal in any cell, in terms of a clean primitive cell. -/
theorem group_of_cell (sa : SymmetryAnalyzer ℝ) (h : HashOrders ℝ) (hv : h.Valid) (fuel : ℕ)
    (s ref : Structure ℝ) (hc : CleanInput ref sa.dtol) (hf : Finds sa.reducer h.minEle s ref)
    (hsize : 81 * cellSize ref ≤ (200000000 * sa.dtol) ^ 2)
    (hcl : ClearLattice ref.lattice (eps tol1em5 |ref.volume|)) (hres : Resolved ref sa.dtol) (hgrid : GridOrigin ref)
    (num : ℕ) (sym : String) (ops : List (SymmOp ℝ)) (hr : sa.getSpaceGroupInfo h fuel s = .ret (num, sym, ops)) :
    ∃ (p : Structure ℝ) (sys : LatticeSystem) (n : ℕ) (codes : List ℕ) (table : List (SymmOp ℝ)),
      sa.getStandardPrimitiveStructure h fuel s = .ret p ∧ SameAtoms ref p ∧ SameLattice ref.lattice p.lattice ∧
      amapGet? sgNumToSymbol num = some sym ∧ IsTableEntry sys n num codes ∧ TableOps num codes table ∧
      ∀ (Q : Mat3 ℝ) (u : Vec3 ℝ), CrystalSymmetry ref Q (p.lattice * u) ↔ ∃ o ∈ table,
        Q * p.lattice = p.lattice * castRot o.rotation ∧ IntVec (u - o.translation) := by
  obtain ⟨prim, nig, p, ch, b, gens, sg, sys, codes, table, total, k1, k2, k3, k4, k5, k6, k7, k8, k9, k10, k11, k12, -, -⟩ :=
    info_steps hv hr fun _ _ k1 => clean_svAbove hc (hf _ k1)
  obtain ⟨psame, plat, pdet, pprim, psearch, pfine, -⟩ := clean_pipeline hv hc hf hsize k1 k2 k5
  refine ⟨p, sys, _, codes, table, k5, psame, plat, k9, k10, k11, fun Q u => ?_⟩
  obtain ⟨hV, hn, hr'⟩ := clean_resolves (r := sa.reducer) hc hcl (hf _ k1) k2
  obtain ⟨prim', nig', ch', b', g1, g2, g3, g4, key⟩ := C69_pipeline sa h hv fuel s p k5
  rw [k1] at g1
  cases g1
  rw [k2] at g2
  cases g2
  rw [k3] at g3
  cases g3
  rw [k4] at g4
  cases g4
  obtain ⟨pg, hpg, -⟩ := C44_operations_are_symmetries sa h hv fuel p b gens psearch k6
  obtain ⟨-, -, -, -, hiff⟩ := exact_core hv psearch pprim pdet hpg (key hV hn hr' pg hpg) pfine (resolved_congr psame plat hres)
    (gridOrigin_congr psame plat hgrid) k6 k7 k10 k11 k12
  rw [← hiff]
  exact ⟨crystalSymmetry_congr psame, crystalSymmetry_congr (sameAtoms_symm psame)⟩

/-- **C74 (the group).** Let the input be clean, without pseudosymmetry at the tolerance, with its origin at one of the positions of
the tables, and let the shape of its lattice be clear-cut at the tolerance of the reduction.  Whenever `get_space_group_info` returns, the operations in the table of the reported group are, in the basis of the standard primitive cell,
exactly the motions of space that map the input crystal onto itself: no more, no fewer, and with the exact translations. -/
theorem C74_reported_group_is_the_symmetry_group (sa : SymmetryAnalyzer ℝ) (h : HashOrders ℝ) (hv : h.Valid) (fuel : ℕ)
    (s : Structure ℝ) (hc : CleanInput s sa.dtol) (hsize : 81 * cellSize s ≤ (200000000 * sa.dtol) ^ 2)
    (hcl : ClearLattice s.lattice (eps tol1em5 |s.volume|)) (hres : Resolved s sa.dtol) (hgrid : GridOrigin s)
    (num : ℕ) (sym : String) (ops : List (SymmOp ℝ)) (hr : sa.getSpaceGroupInfo h fuel s = .ret (num, sym, ops)) :
    ∃ (p : Structure ℝ) (sys : LatticeSystem) (n : ℕ) (codes : List ℕ) (table : List (SymmOp ℝ)),
      sa.getStandardPrimitiveStructure h fuel s = .ret p ∧ SameAtoms s p ∧ SameLattice s.lattice p.lattice ∧
      amapGet? sgNumToSymbol num = some sym ∧ IsTableEntry sys n num codes ∧ TableOps num codes table ∧
      ∀ (Q : Mat3 ℝ) (u : Vec3 ℝ), CrystalSymmetry s Q (p.lattice * u) ↔ ∃ o ∈ table,
        Q * p.lattice = p.lattice * castRot o.rotation ∧ IntVec (u - o.translation) :=
  group_of_cell sa h hv fuel s s hc (clean_finds (r := sa.reducer) hv.minEle hc) hsize hcl hres hgrid num sym ops hr

/-- the operations returned for a crystal in any cell, in terms of a clean primitive cell. -/
theorem operations_of_cell (sa : SymmetryAnalyzer ℝ) (h : HashOrders ℝ) (hv : h.Valid) (fuel : ℕ)
    (s ref : Structure ℝ) (hc : CleanInput ref sa.dtol) (hf : Finds sa.reducer h.minEle s ref)
    (hsize : 81 * cellSize ref ≤ (200000000 * sa.dtol) ^ 2)
    (hcl : ClearLattice ref.lattice (eps tol1em5 |ref.volume|)) (hres : Resolved ref sa.dtol) (hgrid : GridOrigin ref)
    (hsame : SameAtoms s ref) (hsd : s.lattice.det ≠ 0) (hk : |s.volume| ≤ 24 * |ref.volume|) (hsm : SmallSymmetries s)
    (num : ℕ) (sym : String) (ops : List (SymmOp ℝ)) (hr : sa.getSpaceGroupInfo h fuel s = .ret (num, sym, ops)) :
    (∀ o ∈ ops, ∃ (Q : Mat3 ℝ) (t : Vec3 ℝ), CrystalSymmetry s Q t ∧ Q * s.lattice = s.lattice * castRot o.rotation ∧
      lenSq (s.lattice * o.translation - t) ≤ sa.dtol ^ 2) ∧
    (∀ (Q : Mat3 ℝ) (t : Vec3 ℝ), CrystalSymmetry s Q t → ∃ o ∈ ops, Q * s.lattice = s.lattice * castRot o.rotation ∧
      ∃ w : Vec3 ℝ, IntVec w ∧ lenSq (s.lattice * o.translation - t - s.lattice * w) ≤ sa.dtol ^ 2) ∧
    (ops.Pairwise fun o o' => o.rotation = o'.rotation → ¬ SamePoint o.translation o'.translation) ∧
    (|s.volume| = |ref.volume| → (ops.map fun o => o.rotation).Nodup) := by
  obtain ⟨prim, nig, p, ch, b, gens, sg, sys, codes, table, total, k1, k2, k3, k4, k5, k6, k7, k8, k9, k10, k11, k12, k13, k14⟩ :=
    info_steps hv hr fun _ _ k1 => clean_svAbove hc (hf _ k1)
  obtain ⟨psame, plat, pdet, pprim, psearch, pfine, plen⟩ := clean_pipeline hv hc hf hsize k1 k2 k5
  obtain ⟨hV, hn, hr'⟩ := clean_resolves (r := sa.reducer) hc hcl (hf _ k1) k2
  obtain ⟨prim', nig', ch', b', g1, g2, g3, g4, key⟩ := C69_pipeline sa h hv fuel s p k5
  rw [k1] at g1
  cases g1
  rw [k2] at g2
  cases g2
  rw [k3] at g3
  cases g3
  rw [k4] at g4
  cases g4
  obtain ⟨pg, hpg, hC44⟩ := C44_operations_are_symmetries sa h hv fuel p b gens psearch k6
  have hfull := key hV hn hr' pg hpg
  obtain ⟨hsg, hnd, hG2, hG1, hiff⟩ := exact_core hv psearch pprim pdet hpg hfull pfine (resolved_congr psame plat hres)
    (gridOrigin_congr psame plat hgrid) k6 k7 k10 k11 k12
  subst hsg
  have spsame : SameAtoms s p := sameAtoms_trans hsame psame
  obtain ⟨D, rfl⟩ := sublattice_change (cell_sublattice spsame pprim) pdet k13
  have hvol : |s.volume| = |ref.volume| * D.det.natAbs := by
    obtain ⟨E, hE, hE1⟩ := sameLattice_matrix hc.det_ne plat
    have e1 : |p.lattice.det| = |ref.volume| := by
      rw [hE, Mat3.det_mul, show (NiggliCert.castM E : Mat3 ℝ) = overK ℝ E from rfl, overK_det, abs_mul]
      rcases hE1 with h1 | h1 <;> rw [h1] <;> simp [Structure.volume]
    have e2 : |s.volume| = |p.lattice.det| * |(D.det : ℝ)| := by
      unfold Structure.volume
      rw [← k13, Mat3.det_mul, overK_det, abs_mul]
    rw [e2, e1, Nat.cast_natAbs, Int.cast_abs]
  have hVpos : 0 < |ref.volume| := abs_pos.2 hc.det_ne
  have hD0 : D.det ≠ 0 := by
    intro h0
    rw [h0, Int.natAbs_zero, Nat.cast_zero, mul_zero] at hvol
    exact hsd (abs_eq_zero.1 hvol)
  have hD24 : (D.det.natAbs : ℝ) ≤ 24 := by
    rw [hvol, mul_comm] at hk
    exact le_of_mul_le_mul_right hk hVpos
  have hD1 : (1 : ℝ) ≤ D.det.natAbs := by exact_mod_cast Int.natAbs_pos.2 hD0
  have hDt : (1 : ℝ) / 25 ≤ 1 / D.det.natAbs := one_div_le_one_div_of_le (by linarith) (by linarith)
  obtain ⟨⟨x1, x2⟩, ⟨y1, y2⟩, z1, z2⟩ := pfine.tols (by norm_num)
  set tols := Structure.fracTols p.lattice sa.dtol with htols
  have ht : TolOK tols := ⟨⟨by linarith, by linarith⟩, ⟨by linarith, by linarith⟩, by linarith, by linarith⟩
  have small : ∀ d : Vec3 ℝ, |d.x| < 1 / 1000000000 → |d.y| < 1 / 1000000000 → |d.z| < 1 / 1000000000 →
      lenSq (p.lattice * d) ≤ sa.dtol ^ 2 := by
    intro d dx dy dz
    have e1 : lenSq d ≤ 3 / 1000000000000000000 := by
      have sq : ∀ {x : ℝ}, |x| < 1 / 1000000000 → x ^ 2 ≤ 1 / 1000000000000000000 := by
        intro x hx
        rw [← sq_abs]
        nlinarith [abs_nonneg x]
      have e : lenSq d = d.x ^ 2 + d.y ^ 2 + d.z ^ 2 := by simp only [lenSq]; ring
      rw [e]
      linarith [sq dx, sq dy, sq dz]
    have e2 := plen d
    have hF0 : 0 ≤ cellSize ref := le_trans (frob_nonneg _) hc.size_ge
    have e3 : 9 * cellSize ref * lenSq d ≤ 9 * cellSize ref * (3 / 1000000000000000000) :=
      mul_le_mul_of_nonneg_left e1 (by linarith)
    nlinarith [sq_nonneg sa.dtol]
  have hint : ∀ op ∈ sg, ∃ r, FitsI8 r ∧ InBasis (overK ℝ D) (intRot op.rotation) r ∧
      ∃ e ∈ r.toListCM, e = 0 ∨ e = 1 ∨ e = -1 := by
    intro op hop
    obtain ⟨hrot, -⟩ := hC44 op hop
    obtain ⟨Q, hQ, hml, e⟩ := hfull.2 _ hrot
    obtain ⟨q, hq, hrq, -⟩ := hG1 op hop
    obtain ⟨r, hfit, e', hent⟩ := hsm Q (p.lattice * q.translation) (crystalSymmetry_congr (sameAtoms_symm spsame) (by
      rw [hiff]
      exact ⟨q, hq, by rw [castRot_overK, ← hrq]; exact e, by rw [sub_self]; exact intVec_zero⟩))
    refine ⟨r, hfit, ?_, hent⟩
    apply mat_mul_injective pdet
    rw [← mul_assoc, ← e, mul_assoc, k13, e', ← mul_assoc, k13]
  have hapart : StayApart (overK ℝ D) sg tols := stayApart_of_nodup hD0 hnd (by linarith) (by linarith) (by linarith)
  obtain ⟨N, hN⟩ := C38_supercell_partial sg D tols ht hD0 hint hapart
  obtain ⟨ops', hops, -, hin, hout⟩ := hN (fuel + N) (by omega)
  rw [sgApply_mono k14 N, Outcome.ret.injEq] at hops
  subst hops
  refine ⟨fun o ho => ?_, fun Q t hsym => ?_, ?_, fun hone => ?_⟩
  · obtain ⟨op, hop, v, hvi, hb, w, hw, e⟩ := hin o ho
    obtain ⟨q, hq, hrq, w', d, hw', htr, dx, dy, dz⟩ := hG1 op hop
    obtain ⟨Q, hQ, hml, eQ⟩ := hfull.2 _ (hC44 op hop).1
    refine ⟨Q, p.lattice * (q.translation + (w' + v + -(overK ℝ D * w))), ?_, ?_, ?_⟩
    · apply crystalSymmetry_congr (sameAtoms_symm spsame)
      rw [hiff]
      refine ⟨q, hq, by rw [castRot_overK, ← hrq]; exact eQ, ?_⟩
      rw [add_sub_cancel_left]
      refine intVec_sum (intVec_sum hw' hvi) ?_
      obtain ⟨i, j, k, ei⟩ := intVec_overK (m := D) hw
      exact ⟨-i, -j, -k, by rw [ei]; ext <;> simp⟩
    · rw [← k13, ← mul_assoc, eQ, mul_assoc, castRot_overK, mul_assoc]
      exact congrArg _ hb
    · have e2 : s.lattice * o.translation - p.lattice * (q.translation + (w' + v + -(overK ℝ D * w))) = p.lattice * d := by
        rw [← k13, Mat3.mul_mulVec, ← Mat3.mulVec_sub]
        congr 1
        rw [Mat3.mulVec_add, htr] at e
        have : overK ℝ D * o.translation = q.translation + w' + d + v - overK ℝ D * w := by rw [← e]; abel
        rw [this]
        abel
      rw [e2]
      exact small d dx dy dz
  · have hsym' := crystalSymmetry_congr spsame hsym
    have hft : t = p.lattice * (p.lattice.adjDiv p.lattice.det * t) := by
      rw [← Mat3.mul_mulVec, Mat3.mul_adjDiv pdet, Mat3.one_mulVec]
    rw [hft] at hsym'
    obtain ⟨q, hq, eQ, hi⟩ := (hiff _ _).1 hsym'
    obtain ⟨op, hop, hrq, w', d, hw', htr, dx, dy, dz⟩ := hG2 q hq
    set u := p.lattice.adjDiv p.lattice.det * t
    obtain ⟨o, ho, hb, w, hw, e⟩ := hout op hop (u - q.translation - w') (intVec_subV hi hw')
    refine ⟨o, ho, ?_, -w, ?_, ?_⟩
    · rw [← k13, ← mul_assoc, eQ, mul_assoc, castRot_overK, castRot_overK, mul_assoc, ← hrq]
      exact congrArg _ hb
    · obtain ⟨i, j, k, ei⟩ := hw
      exact ⟨-i, -j, -k, by rw [ei]; ext <;> simp⟩
    · have e2 : s.lattice * o.translation - t - s.lattice * -w = p.lattice * d := by
        rw [hft, ← k13, Mat3.mul_mulVec, Mat3.mul_mulVec, ← Mat3.mulVec_sub, ← Mat3.mulVec_sub]
        congr 1
        rw [Mat3.mulVec_add, htr] at e
        have e3 : overK ℝ D * -w = -(overK ℝ D * w) := by ext <;> simp <;> ring
        have : overK ℝ D * o.translation = q.translation + w' + d + (u - q.translation - w') - overK ℝ D * w := by
          rw [← e]; abel
        rw [this, e3]
        abel
      rw [e2]
      exact small d dx dy dz
  · refine (C38_pairwise_different fuel sg _ _ tols ht k14).imp ?_
    intro o o' hne hrot hsp
    obtain ⟨⟨i, hi⟩, ⟨j, hj⟩, k, hk'⟩ := hsp
    refine hne ⟨hrot, ⟨i, ?_⟩, ⟨j, ?_⟩, ⟨k, ?_⟩⟩
    · rw [hi, sub_self, abs_zero]; exact ht.1.1
    · rw [hj, sub_self, abs_zero]; exact ht.2.1.1
    · rw [hk', sub_self, abs_zero]; exact ht.2.2.1
  · have hD : D.det.natAbs = 1 := by
      rw [hone] at hvol
      have : (D.det.natAbs : ℝ) = 1 := mul_left_cancel₀ hVpos.ne' (by linarith)
      exact_mod_cast this
    obtain ⟨D', hDa, hDb, -⟩ := int_inverse hD
    have hDD : overK ℝ D * overK ℝ D' = 1 := by rw [← overK_mul, hDa, overK_one]
    have hDD' : overK ℝ D' * overK ℝ D = 1 := by rw [← overK_mul, hDb, overK_one]
    have hpw := C38_pairwise_different fuel sg _ _ tols ht k14
    rw [List.Nodup, List.pairwise_map]
    refine hpw.imp_of_mem ?_
    intro o o' ho ho' hne hrot
    apply hne
    obtain ⟨op, hop, v, hvi, hb, w, hw, e⟩ := hin o ho
    obtain ⟨op', hop', v', hvi', hb', w2, hw2, e'⟩ := hin o' ho'
    have hoo : op = op' := by
      apply List.inj_on_of_nodup_map hnd hop hop'
      apply intRot_injective
      apply overK_injective (K := ℝ)
      have h1 : overK ℝ (intRot op.rotation) * overK ℝ D = overK ℝ D * overK ℝ (intRot o.rotation) := hb
      have h2 : overK ℝ (intRot op'.rotation) * overK ℝ D = overK ℝ D * overK ℝ (intRot o'.rotation) := hb'
      rw [← hrot, ← h1] at h2
      have := congrArg (fun M => M * overK ℝ D') h2
      simpa only [mul_assoc, hDD, mul_one] using this.symm
    subst hoo
    have hdiff : IntVec (o.translation - o'.translation) := by
      have e3 : overK ℝ D * (o.translation + w - (o'.translation + w2)) = v - v' := by
        rw [Mat3.mulVec_sub, e, e']; abel
      have e4 : o.translation + w - (o'.translation + w2) = overK ℝ D' * (v - v') := by
        rw [← e3, ← Mat3.mul_mulVec, hDD', Mat3.one_mulVec]
      have e5 : o.translation - o'.translation = overK ℝ D' * (v - v') - (w - w2) := by rw [← e4]; abel
      rw [e5]
      exact intVec_subV (intVec_overK (intVec_subV hvi hvi')) (intVec_subV hw hw2)
    obtain ⟨i, j, k, e6⟩ := hdiff
    have a1 := congrArg Vec3.x e6
    have a2 := congrArg Vec3.y e6
    have a3 := congrArg Vec3.z e6
    simp only [Vec3.sub_x, Vec3.sub_y, Vec3.sub_z] at a1 a2 a3
    refine ⟨hrot, ⟨i, ?_⟩, ⟨j, ?_⟩, ⟨k, ?_⟩⟩
    · rw [a1, sub_self, abs_zero]; exact ht.1.1
    · rw [a2, sub_self, abs_zero]; exact ht.2.1.1
    · rw [a3, sub_self, abs_zero]; exact ht.2.2.1

/-- **C74 (the operations).** Under the same assumptions, if moreover the isometries of the lattice have small matrices in the basis of
the input: the operations returned are the motions of space that map the input crystal onto itself, each of them once, written in the
basis of the input; the translations agree up to a lattice vector and at most the distance tolerance. -/
theorem C74_operations_are_the_symmetries (sa : SymmetryAnalyzer ℝ) (h : HashOrders ℝ) (hv : h.Valid) (fuel : ℕ)
    (s : Structure ℝ) (hc : CleanInput s sa.dtol) (hsize : 81 * cellSize s ≤ (200000000 * sa.dtol) ^ 2)
    (hcl : ClearLattice s.lattice (eps tol1em5 |s.volume|)) (hres : Resolved s sa.dtol) (hgrid : GridOrigin s)
    (hsm : SmallMatrices s.lattice)
    (num : ℕ) (sym : String) (ops : List (SymmOp ℝ)) (hr : sa.getSpaceGroupInfo h fuel s = .ret (num, sym, ops)) :
    (∀ o ∈ ops, ∃ (Q : Mat3 ℝ) (t : Vec3 ℝ), CrystalSymmetry s Q t ∧ Q * s.lattice = s.lattice * castRot o.rotation ∧
      lenSq (s.lattice * o.translation - t) ≤ sa.dtol ^ 2) ∧
    (∀ (Q : Mat3 ℝ) (t : Vec3 ℝ), CrystalSymmetry s Q t → ∃ o ∈ ops, Q * s.lattice = s.lattice * castRot o.rotation ∧
      ∃ w : Vec3 ℝ, IntVec w ∧ lenSq (s.lattice * o.translation - t - s.lattice * w) ≤ sa.dtol ^ 2) ∧
    (ops.map fun o => o.rotation).Nodup := by
  have hp : PrimitiveCell s := clean_primitiveCell hc
  obtain ⟨h1, h2, -, h3⟩ := operations_of_cell sa h hv fuel s s hc (clean_finds (r := sa.reducer) hv.minEle hc) hsize hcl hres hgrid
    (fun _ _ => Iff.rfl) hc.det_ne (by linarith [abs_nonneg s.volume]) (smallSymmetries_of hp hsm) num sym ops hr
  exact ⟨h1, h2, h3 rfl⟩

/-! ### a case: one atom in a cube with edge 3.35 -/

theorem atomAt_oneSite {s : Structure ℝ} {e : String} (hs : OneSite s e) {e' : String} {x : Vec3 ℝ} :
    AtomAt s e' x ↔ e' = e ∧ ∃ n : Vec3 ℝ, IntVec n ∧ x = s.lattice * n := by
  have hsites : sites s = [(e, 0)] := by unfold sites; rw [hs.1, hs.2]; rfl
  unfold AtomAt
  rw [hsites]
  constructor
  · rintro ⟨q, hq, n, hn, rfl⟩
    rw [List.mem_singleton, Prod.mk.injEq] at hq
    exact ⟨hq.1, n, hn, by rw [hq.2, zero_add]⟩
  · rintro ⟨rfl, n, hn, rfl⟩
    exact ⟨0, by simp, n, hn, by rw [zero_add]⟩

/-- an orthogonal map of a lattice into itself is onto. -/
theorem mapsLattice_inv {L Q : Mat3 ℝ} (hd : L.det ≠ 0) (hQ : Orthogonal Q) (hm : MapsLattice Q L) (n : Vec3 ℝ) :
    IntVec n ↔ ∃ k : Vec3 ℝ, IntVec k ∧ Q * (L * n) = L * k := by
  refine ⟨fun h => hm n h, ?_⟩
  rintro ⟨k, hk, e⟩
  -- the matrix of `Q` in the basis is an integer matrix with determinant `±1`
  have hcols : ∃ D : Mat3 ℤ, Q * L = L * overK ℝ D := by
    obtain ⟨k1, ⟨a, b, c, rfl⟩, e1⟩ := hm ⟨1, 0, 0⟩ ⟨1, 0, 0, by ext <;> simp⟩
    obtain ⟨k2, ⟨a', b', c', rfl⟩, e2⟩ := hm ⟨0, 1, 0⟩ ⟨0, 1, 0, by ext <;> simp⟩
    obtain ⟨k3, ⟨a'', b'', c'', rfl⟩, e3⟩ := hm ⟨0, 0, 1⟩ ⟨0, 0, 1, by ext <;> simp⟩
    refine ⟨⟨a, a', a'', b, b', b'', c, c', c''⟩, ?_⟩
    rw [← Mat3.mul_mulVec] at e1 e2 e3
    have x1 := congrArg Vec3.x e1
    have y1 := congrArg Vec3.y e1
    have z1 := congrArg Vec3.z e1
    have x2 := congrArg Vec3.x e2
    have y2 := congrArg Vec3.y e2
    have z2 := congrArg Vec3.z e2
    have x3 := congrArg Vec3.x e3
    have y3 := congrArg Vec3.y e3
    have z3 := congrArg Vec3.z e3
    simp only [Mat3.mulVec_x, Mat3.mulVec_y, Mat3.mulVec_z, mul_one, mul_zero, add_zero, zero_add] at x1 y1 z1 x2 y2 z2 x3 y3 z3
    ext <;> simp [overK, Mat3.map] at * <;> assumption
  obtain ⟨D, hD⟩ := hcols
  have hdet : D.det = 1 ∨ D.det = -1 := by
    have h1 := congrArg Mat3.det hD
    rw [Mat3.det_mul, Mat3.det_mul, overK_det] at h1
    have h2 := congrArg Mat3.det hQ
    have ht : Q.transpose.det = Q.det := by simp [Mat3.det, Mat3.transpose]; ring
    rw [Mat3.det_mul, ht, Mat3.det_one] at h2
    have h3 : (D.det : ℝ) = Q.det := mul_left_cancel₀ hd (by linarith)
    rw [← h3] at h2
    have h4 : D.det * D.det = 1 := by exact_mod_cast h2
    exact Int.isUnit_iff.1 (IsUnit.of_mul_eq_one _ h4)
  obtain ⟨D', -, hD', -⟩ := unimodular_inverse hdet
  rw [← Mat3.mul_mulVec, hD, Mat3.mul_mulVec] at e
  have e2 := mulVec_injective hd e
  have e3 : n = overK ℝ D' * k := by
    rw [← e2, ← Mat3.mul_mulVec, ← overK_mul, hD', overK_one, Mat3.one_mulVec]
  rw [e3]
  exact intVec_overK hk

theorem oneSite_symmetry {s : Structure ℝ} {e : String} (hs : OneSite s e) (hd : s.lattice.det ≠ 0) {Q : Mat3 ℝ} {n : Vec3 ℝ}
    (hQ : Orthogonal Q) (hm : MapsLattice Q s.lattice) (hn : IntVec n) : CrystalSymmetry s Q (s.lattice * n) := by
  refine ⟨hQ, fun e' x => ?_⟩
  rw [atomAt_oneSite hs, atomAt_oneSite hs]
  refine and_congr_right fun _ => ?_
  have hx : x = s.lattice * (s.lattice.adjDiv s.lattice.det * x) := by
    rw [← Mat3.mul_mulVec, Mat3.mul_adjDiv hd, Mat3.one_mulVec]
  set u := s.lattice.adjDiv s.lattice.det * x
  have h1 : (∃ m : Vec3 ℝ, IntVec m ∧ x = s.lattice * m) ↔ IntVec u := by
    constructor
    · rintro ⟨m, hm', e1⟩
      rw [hx] at e1
      rw [mulVec_injective hd e1]
      exact hm'
    · intro h; exact ⟨u, h, hx⟩
  rw [h1, mapsLattice_inv hd hQ hm, hx]
  constructor
  · rintro ⟨k, hk, e1⟩
    exact ⟨k + n, intVec_sum hk hn, by rw [e1, Mat3.mulVec_add]⟩
  · rintro ⟨k, hk, e1⟩
    refine ⟨k - n, intVec_subV hk hn, ?_⟩
    rw [Mat3.mulVec_sub, ← e1]
    abel

theorem oneSite_resolved {s : Structure ℝ} {e : String} (hs : OneSite s e) (hd : s.lattice.det ≠ 0) {d : ℝ} (h0 : 0 ≤ d) :
    Resolved s d := by
  rintro Q t ⟨hQ, hm, h⟩
  obtain ⟨y, hy, hle⟩ := h e 0 ((atomAt_oneSite hs).2 ⟨rfl, 0, intVec_zero, by rw [Mat3.mulVec_zero]⟩)
  obtain ⟨-, n, hn, rfl⟩ := (atomAt_oneSite hs).1 hy
  refine ⟨_, oneSite_symmetry hs hd hQ hm hn, ?_⟩
  rw [Mat3.mulVec_zero, zero_add] at hle
  nlinarith

theorem oneSite_gridOrigin {s : Structure ℝ} {e : String} (hs : OneSite s e) : GridOrigin s := by
  rintro Q t ⟨-, h⟩
  have h1 := (h e 0).1 ((atomAt_oneSite hs).2 ⟨rfl, 0, intVec_zero, by rw [Mat3.mulVec_zero]⟩)
  rw [Mat3.mulVec_zero, zero_add] at h1
  obtain ⟨-, n, ⟨i, j, k, rfl⟩, rfl⟩ := (atomAt_oneSite hs).1 h1
  refine ⟨⟨(12 * i : ℤ), (12 * j : ℤ), (12 * k : ℤ)⟩, ⟨12 * i, 12 * j, 12 * k, rfl⟩, ?_⟩
  push_cast
  ext <;> simp [Vec3.scale] <;> ring

theorem poCell_size : cellSize poCell = 3 * (67 / 20) ^ 2 + 67 / 20000 := by
  have hl : poCell.lattice = ⟨67 / 20, 0, 0, 0, 67 / 20, 0, 0, 0, 67 / 20⟩ := rfl
  have hvol : poCell.volume = (67 / 20) ^ 3 := by unfold Structure.volume; rw [hl]; simp [Mat3.det]; norm_num
  unfold cellSize
  rw [hvol, hl]
  unfold eps
  rw [tol1em5_real, show |((67 / 20) ^ 3 : ℝ)| = (67 / 20) ^ (3 : ℝ) by
      rw [abs_of_pos (by norm_num)]; norm_num, ← Real.rpow_mul (by norm_num)]
  norm_num [lenSq, Mat3.col0, Mat3.col1, Mat3.col2]

theorem poCell_clean : CleanInput poCell (1 / 20) := by
  have hl : poCell.lattice = ⟨67 / 20, 0, 0, 0, 67 / 20, 0, 0, 0, 67 / 20⟩ := rfl
  have hvol : poCell.volume = (67 / 20) ^ 3 := by unfold Structure.volume; rw [hl]; simp [Mat3.det]; norm_num
  have hs : OneSite poCell "Po" := ⟨rfl, rfl⟩
  have hsz := poCell_size
  refine ⟨⟨rfl, rfl⟩, by decide, ?_, noTranslation_of_once _ ⟨"Po", rfl⟩, by norm_num, by rw [hvol]; norm_num,
    by rw [hvol, hsz]; norm_num, by rw [hvol, hsz]; norm_num, ?_⟩
  · exact List.pairwise_singleton _ _
  · rw [hsz, hvol]
    intro e e' x y hx hy
    obtain ⟨rfl, n, ⟨i, j, k, rfl⟩, rfl⟩ := (atomAt_oneSite hs).1 hx
    obtain ⟨rfl, m, ⟨i', j', k', rfl⟩, rfl⟩ := (atomAt_oneSite hs).1 hy
    by_cases h0 : i = i' ∧ j = j' ∧ k = k'
    · left
      rw [h0.1, h0.2.1, h0.2.2]
      exact ⟨rfl, rfl⟩
    · right
      have h1 : 1 ≤ (i - i') ^ 2 + (j - j') ^ 2 + (k - k') ^ 2 := by
        by_contra hlt
        have a1 := sq_nonneg (i - i')
        have a2 := sq_nonneg (j - j')
        have a3 := sq_nonneg (k - k')
        have b1 : (i - i') ^ 2 = 0 := by omega
        have b2 : (j - j') ^ 2 = 0 := by omega
        have b3 : (k - k') ^ 2 = 0 := by omega
        rw [sq_eq_zero_iff] at b1 b2 b3
        omega
      have h2 : (1 : ℝ) ≤ ((i : ℝ) - i') ^ 2 + ((j : ℝ) - j') ^ 2 + ((k : ℝ) - k') ^ 2 := by exact_mod_cast h1
      have e : lenSq (poCell.lattice * (⟨i, j, k⟩ : Vec3 ℝ) - poCell.lattice * (⟨i', j', k'⟩ : Vec3 ℝ))
          = (67 / 20) ^ 2 * (((i : ℝ) - i') ^ 2 + ((j : ℝ) - j') ^ 2 + ((k : ℝ) - k') ^ 2) := by
        rw [hl]; simp [lenSq]; ring
      rw [e]
      norm_num
      linarith

theorem poCell_small : SmallMatrices poCell.lattice := by
  intro Q hQ hm
  have hl : poCell.lattice = ⟨67 / 20, 0, 0, 0, 67 / 20, 0, 0, 0, 67 / 20⟩ := rfl
  obtain ⟨k1, ⟨a, b, c, rfl⟩, e1⟩ := hm ⟨1, 0, 0⟩ ⟨1, 0, 0, by ext <;> simp⟩
  obtain ⟨k2, ⟨a', b', c', rfl⟩, e2⟩ := hm ⟨0, 1, 0⟩ ⟨0, 1, 0, by ext <;> simp⟩
  obtain ⟨k3, ⟨a'', b'', c'', rfl⟩, e3⟩ := hm ⟨0, 0, 1⟩ ⟨0, 0, 1, by ext <;> simp⟩
  rw [hl] at e1 e2 e3
  have x1 := congrArg Vec3.x e1
  have y1 := congrArg Vec3.y e1
  have z1 := congrArg Vec3.z e1
  have x2 := congrArg Vec3.x e2
  have y2 := congrArg Vec3.y e2
  have z2 := congrArg Vec3.z e2
  have x3 := congrArg Vec3.x e3
  have y3 := congrArg Vec3.y e3
  have z3 := congrArg Vec3.z e3
  simp only [Mat3.mulVec_x, Mat3.mulVec_y, Mat3.mulVec_z, mul_one, mul_zero, add_zero, zero_add, zero_mul] at x1 y1 z1 x2 y2 z2 x3 y3 z3
  have hQe : Q = overK ℝ ⟨a, a', a'', b, b', b'', c, c', c''⟩ := by
    ext <;> simp only [overK, Mat3.map] <;> linarith
  have hO : (⟨a, a', a'', b, b', b'', c, c', c''⟩ : Mat3 ℤ).transpose * ⟨a, a', a'', b, b', b'', c, c', c''⟩ = 1 := by
    apply overK_injective (K := ℝ)
    rw [overK_mul, overK_one]
    have : overK ℝ (⟨a, a', a'', b, b', b'', c, c', c''⟩ : Mat3 ℤ).transpose = Q.transpose := by
      rw [hQe]; rfl
    rw [this, ← hQe]
    exact hQ
  have r1 : a * a + b * b + c * c = 1 := congrArg Mat3.m11 hO
  have r2 : a' * a' + b' * b' + c' * c' = 1 := congrArg Mat3.m22 hO
  have r3 : a'' * a'' + b'' * b'' + c'' * c'' = 1 := congrArg Mat3.m33 hO
  have bd : ∀ {x y z : ℤ}, x * x + y * y + z * z = 1 → (-1 ≤ x ∧ x ≤ 1) ∧ (-1 ≤ y ∧ y ≤ 1) ∧ (-1 ≤ z ∧ z ≤ 1) := by
    intro x y z h
    refine ⟨⟨?_, ?_⟩, ⟨?_, ?_⟩, ⟨?_, ?_⟩⟩ <;> nlinarith [mul_self_nonneg x, mul_self_nonneg y, mul_self_nonneg z]
  obtain ⟨⟨p1, p1'⟩, ⟨p2, p2'⟩, p3, p3'⟩ := bd r1
  obtain ⟨⟨q1, q1'⟩, ⟨q2, q2'⟩, q3, q3'⟩ := bd r2
  obtain ⟨⟨s1, s1'⟩, ⟨s2, s2'⟩, s3, s3'⟩ := bd r3
  refine ⟨⟨a, a', a'', b, b', b'', c, c', c''⟩, ?_, ?_, a, by simp [Mat3.toListCM], by omega⟩
  · intro e he
    simp only [Mat3.toListCM, List.mem_cons, List.not_mem_nil, or_false] at he
    rcases he with rfl | rfl | rfl | rfl | rfl | rfl | rfl | rfl | rfl <;> omega
  · rw [← hQe, hl]
    ext <;> simp <;> ring

/-- all hypotheses hold for `α`-polonium: the group reported is number 221, its table is exactly the symmetry group of the crystal, and
the operations returned are exactly its symmetries. -/
example (h : HashOrders ℝ) (hv : h.Valid) (atol : ℝ) : ∃ N, ∀ fuel ≥ N, ∃ (sym : String) (ops : List (SymmOp ℝ)),
    (⟨1 / 20, atol⟩ : SymmetryAnalyzer ℝ).getSpaceGroupInfo h fuel poCell = .ret (221, sym, ops) ∧
    (∃ (p : Structure ℝ) (sys : LatticeSystem) (n : ℕ) (codes : List ℕ) (table : List (SymmOp ℝ)),
      SameAtoms poCell p ∧ IsTableEntry sys n 221 codes ∧ TableOps 221 codes table ∧
      ∀ (Q : Mat3 ℝ) (u : Vec3 ℝ), CrystalSymmetry poCell Q (p.lattice * u) ↔
        ∃ o ∈ table, Q * p.lattice = p.lattice * castRot o.rotation ∧ IntVec (u - o.translation)) ∧
    (∀ (Q : Mat3 ℝ) (t : Vec3 ℝ), CrystalSymmetry poCell Q t → ∃ o ∈ ops, Q * poCell.lattice = poCell.lattice * castRot o.rotation) ∧
    ops.length = 48 := by
  set sa : SymmetryAnalyzer ℝ := ⟨1 / 20, atol⟩ with hsa
  have hdt : sa.dtol = 1 / 20 := rfl
  have hs : OneSite poCell "Po" := ⟨rfl, rfl⟩
  have hl : poCell.lattice = ⟨67 / 20, 0, 0, 0, 67 / 20, 0, 0, 0, 67 / 20⟩ := rfl
  obtain ⟨N, hN⟩ := C56_right_angles sa h hv poCell "Po" hs (67 / 20) (67 / 20) (67 / 20) hl le_rfl le_rfl (by norm_num)
    (by norm_num) (by norm_num) (by norm_num) (by norm_num)
  have hdet : poCell.lattice.det ≠ 0 := by rw [hl]; norm_num [Mat3.det]
  have hsize : 81 * cellSize poCell ≤ (200000000 * sa.dtol) ^ 2 := by rw [poCell_size, hdt]; norm_num
  have hvol : poCell.volume = 67 / 20 * (67 / 20) * (67 / 20) := by
    unfold Structure.volume; rw [hl]; simp [Mat3.det]; ring
  have he : eps tol1em5 (67 / 20 * (67 / 20) * (67 / 20)) = 67 / 2000000 := by
    unfold eps
    rw [tol1em5_real, show (67 / 20 * (67 / 20) * (67 / 20) : ℝ) = (67 / 20) ^ (3 : ℝ) by norm_num,
      ← Real.rpow_mul (by norm_num)]
    norm_num
  have hcl : ClearLattice poCell.lattice (eps tol1em5 |poCell.volume|) := by
    rw [hvol, abs_of_pos (by norm_num), he]
    refine clearLattice_integral hdet (g := (67 / 20) ^ 2) (by norm_num) (by norm_num) (by norm_num) 1 ?_
    rw [hl, overK_one]
    ext <;> simp [Mat3.transpose, Mat3.scale, Mat3.map] <;> norm_num
  refine ⟨N, fun fuel hf => ?_⟩
  obtain ⟨num, sym, ops, g1, g2, g3, -⟩ := hN fuel hf
  have hpos : (0 : ℝ) ≤ eps tol1em5 (67 / 20 * (67 / 20) * (67 / 20)) := by rw [he]; norm_num
  rw [sub_self, abs_zero, if_pos ⟨hpos, hpos⟩, Prod.mk.injEq] at g3
  obtain ⟨rfl, hlen⟩ := g3
  obtain ⟨p, sys, n, codes, table, k3, k4, k5, k6, k7, k8, key⟩ :=
    C74_reported_group_is_the_symmetry_group sa h hv fuel poCell poCell_clean hsize hcl (oneSite_resolved hs hdet (by norm_num))
      (oneSite_gridOrigin hs) 221 sym ops g1
  obtain ⟨-, jkey, -⟩ :=
    C74_operations_are_the_symmetries sa h hv fuel poCell poCell_clean hsize hcl (oneSite_resolved hs hdet (by norm_num))
      (oneSite_gridOrigin hs) poCell_small 221 sym ops g1
  refine ⟨sym, ops, g1, ⟨p, sys, n, codes, table, k4, k7, k8, key⟩, fun Q t hsym => ?_, hlen⟩
  obtain ⟨o, ho, e, -⟩ := jkey Q t hsym
  exact ⟨o, ho, e⟩

end CrystSymm
