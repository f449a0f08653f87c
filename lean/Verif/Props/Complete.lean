import Verif.Props.Centred
import Verif.Props.Report
import Verif.Props.Orthogonal

set_option autoImplicit false
set_option linter.unusedSectionVars false

/-! # C59: a structure whose symmetry operations are those of a table entry is identified as that entry -/

namespace CrystSymm

open Spec SymmetryAnalyzer PointGroup

/-- among the operations with a rotation of `rots`, those that map the structure onto itself are the ones of `table`:
these do so exactly, and what does so up to `2 * dtol` is within `3 * dtol` of one of these. -/
structure HasSymmetry (s : Structure ℝ) (dtol : ℝ) (rots : List (Mat3 Int8)) (table : List (SymmOp ℝ)) : Prop where
  exact : ∀ o ∈ table, o.rotation ∈ rots ∧ MapsExactly s (overK ℝ (intRot o.rotation)) o.translation
  only : ∀ W ∈ rots, ∀ t, MapsWithin s (overK ℝ (intRot W)) t (2 * dtol) →
    ∃ o ∈ table, o.rotation = W ∧ ∃ w, IntVec w ∧ lenSq (s.lattice * (t - o.translation - w)) ≤ (3 * dtol) ^ 2

/-- no edge is shorter than `k` tolerances or longer than `2 * 10 ^ 8` tolerances. -/
def FineTol (k : ℝ) (L : Mat3 ℝ) (dtol : ℝ) : Prop :=
  0 < dtol ∧ ∀ v, v = L.col0 ∨ v = L.col1 ∨ v = L.col2 →
    (k * dtol) ^ 2 ≤ lenSq v ∧ lenSq v ≤ (200000000 * dtol) ^ 2

theorem FineTol.mono {L : Mat3 ℝ} {dtol : ℝ} (h : FineTol 48 L dtol) {k : ℝ} (hk : 0 ≤ k ∧ k ≤ 48) :
    FineTol k L dtol := by
  obtain ⟨h0, hc⟩ := h
  refine ⟨h0, fun v hv => ⟨le_trans ?_ (hc v hv).1, (hc v hv).2⟩⟩
  have h1 : 0 ≤ k * dtol := mul_nonneg hk.1 h0.le
  have h2 : k * dtol ≤ 48 * dtol := mul_le_mul_of_nonneg_right hk.2 h0.le
  nlinarith

theorem FineTol.tols {k : ℝ} (hk : 0 < k) {L : Mat3 ℝ} {dtol : ℝ} (h : FineTol k L dtol) :
    let t := Structure.fracTols L dtol
    (1 / 200000000 ≤ t.x ∧ t.x ≤ 1 / k) ∧ (1 / 200000000 ≤ t.y ∧ t.y ≤ 1 / k) ∧
      (1 / 200000000 ≤ t.z ∧ t.z ≤ 1 / k) := by
  obtain ⟨h0, hc⟩ := h
  have key : ∀ v, v = L.col0 ∨ v = L.col1 ∨ v = L.col2 → 1 / 200000000 ≤ dtol / v.mag ∧ dtol / v.mag ≤ 1 / k := by
    intro v hv
    obtain ⟨h1, h2⟩ := hc v hv
    have hm := mag_nonneg v
    have hs : v.mag * v.mag = lenSq v := mag_mul_self v
    have hkd : 0 < k * dtol := mul_pos hk h0
    have h3 : k * dtol ≤ v.mag := by nlinarith
    have h4 : v.mag ≤ 200000000 * dtol := by nlinarith
    have hp : 0 < v.mag := by linarith
    rw [div_le_div_iff₀ (by norm_num) hp, div_le_div_iff₀ hp hk]
    constructor <;> linarith
  exact ⟨key _ (Or.inl rfl), key _ (Or.inr (Or.inl rfl)), key _ (Or.inr (Or.inr rfl))⟩

/-- same rotation, and the translations agree up to a lattice vector and `1e-9`. -/
def Nearly (o q : SymmOp ℝ) : Prop :=
  o.rotation = q.rotation ∧ ∃ w d : Vec3 ℝ, IntVec w ∧ o.translation = q.translation + w + d ∧
    |d.x| < 1 / 1000000000 ∧ |d.y| < 1 / 1000000000 ∧ |d.z| < 1 / 1000000000

theorem Nearly.approx {o q : SymmOp ℝ} (h : Nearly o q) {tols : Vec3 ℝ} (hx : 1 / 1000000000 ≤ tols.x)
    (hy : 1 / 1000000000 ≤ tols.y) (hz : 1 / 1000000000 ≤ tols.z) : ApproxSame o q tols := by
  obtain ⟨hr, w, d, ⟨i, j, k, rfl⟩, ht, dx, dy, dz⟩ := h
  refine ⟨hr, ⟨i, ?_⟩, ⟨j, ?_⟩, ⟨k, ?_⟩⟩ <;> rw [ht]
  · simp only [Vec3.add_x]
    rw [show q.translation.x + (i : ℝ) + d.x - q.translation.x - i = d.x by ring]; linarith
  · simp only [Vec3.add_y]
    rw [show q.translation.y + (j : ℝ) + d.y - q.translation.y - j = d.y by ring]; linarith
  · simp only [Vec3.add_z]
    rw [show q.translation.z + (k : ℝ) + d.z - q.translation.z - k = d.z by ring]; linarith

theorem row_bound {p q r : ℤ} {x y z e : ℝ} (hp : -1 ≤ p ∧ p ≤ 1) (hq : -1 ≤ q ∧ q ≤ 1) (hr : -1 ≤ r ∧ r ≤ 1)
    (hx : |x| < e) (hy : |y| < e) (hz : |z| < e) : |(p : ℝ) * x + q * y + r * z| < 3 * e := by
  have key : ∀ {a : ℤ} {u : ℝ}, -1 ≤ a ∧ a ≤ 1 → |u| < e → |(a : ℝ) * u| < e := by
    rintro a u ⟨h1, h2⟩ hu
    have he : 0 < e := (abs_nonneg u).trans_lt hu
    have : a = -1 ∨ a = 0 ∨ a = 1 := by omega
    rcases this with rfl | rfl | rfl <;> simp [hu, he]
  calc _ ≤ |(p : ℝ) * x| + |(q : ℝ) * y| + |(r : ℝ) * z| := abs_add_three _ _ _
    _ < 3 * e := by linarith [key hp hx, key hq hy, key hr hz]

/-- operations that are nearly those of a table multiply nearly like these. -/
theorem nearly_prod {a b c : ZOp} (hb : RangeZ b) (hc : c = crateZ a b) {a' b' c' : SymmOp ℝ}
    (ha' : Nearly a' (opK ℝ a)) (hb' : Nearly b' (opK ℝ b)) (hc' : Nearly c' (opK ℝ c)) {tols : Vec3 ℝ}
    (hx : 1 / 200000000 ≤ tols.x) (hy : 1 / 200000000 ≤ tols.y) (hz : 1 / 200000000 ≤ tols.z) :
    ApproxSame c' (a' * b') tols := by
  subst hc
  obtain ⟨ra, w1, d1, ⟨i1, j1, k1, rfl⟩, ta, ax, ay, az⟩ := ha'
  obtain ⟨rb, w2, d2, ⟨i2, j2, k2, rfl⟩, tb, bx, by', bz⟩ := hb'
  obtain ⟨rc, w3, d3, ⟨i3, j3, k3, rfl⟩, tc, cx, cy, cz⟩ := hc'
  obtain ⟨pr, ⟨mx, px⟩, ⟨my, py⟩, ⟨mz, pz⟩⟩ := opK_prod (K := ℝ) a hb
  have e : (a' * b').translation = (castRot b'.rotation : Mat3 ℝ) * a'.translation + b'.translation := rfl
  have e0 : (opK ℝ a * opK ℝ b).translation =
    (castRot (rotZ b) : Mat3 ℝ) * (opK ℝ a).translation + (opK ℝ b).translation := rfl
  have hcr : (castRot (rotZ b) : Mat3 ℝ) = b.1.map fun k : ℤ => (k : ℝ) := by
    rw [castRot_eq_map_intRot, intRot_rotZ hb]
  rw [rb, show (opK ℝ b).rotation = rotZ b from rfl, hcr] at e
  rw [hcr] at e0
  rw [e0] at px py pz
  have hent := hb.1
  simp only [Mat3.toListCM, List.mem_cons, List.not_mem_nil, or_false, forall_eq_or_imp, forall_eq] at hent
  obtain ⟨h11, h21, h31, h12, h22, h32, h13, h23, h33⟩ := hent
  refine ⟨?_, ⟨i3 - (b.1.m11 * i1 + b.1.m12 * j1 + b.1.m13 * k1) - i2 - mx, ?_⟩,
    ⟨j3 - (b.1.m21 * i1 + b.1.m22 * j1 + b.1.m23 * k1) - j2 - my, ?_⟩,
    ⟨k3 - (b.1.m31 * i1 + b.1.m32 * j1 + b.1.m33 * k1) - k2 - mz, ?_⟩⟩
  · rw [rc, ← pr]
    change rotZ a * rotZ b = a'.rotation * b'.rotation
    rw [ra, rb]; rfl
  all_goals rw [e, tc, ta, tb]
  · have hr := row_bound h11 h12 h13 ax ay az
    simp only [Vec3.add_x, Vec3.add_y, Vec3.add_z, Mat3.mulVec_x, Mat3.map] at px ⊢
    push_cast
    rw [abs_lt] at *
    constructor <;> linarith [hr.1, hr.2, cx.1, cx.2, bx.1, bx.2]
  · have hr := row_bound h21 h22 h23 ax ay az
    simp only [Vec3.add_x, Vec3.add_y, Vec3.add_z, Mat3.mulVec_y, Mat3.map] at py ⊢
    push_cast
    rw [abs_lt] at *
    constructor <;> linarith [hr.1, hr.2, cy.1, cy.2, by'.1, by'.2]
  · have hr := row_bound h31 h32 h33 ax ay az
    simp only [Vec3.add_x, Vec3.add_y, Vec3.add_z, Mat3.mulVec_z, Mat3.map] at pz ⊢
    push_cast
    rw [abs_lt] at *
    constructor <;> linarith [hr.1, hr.2, cz.1, cz.2, bz.1, bz.2]

/-- no table entry lists a rotation twice. -/
theorem table_rotations {sys : LatticeSystem} {n num : ℕ} {codes : List ℕ} {table : List (SymmOp ℝ)}
    (hent : IsTableEntry sys n num codes) (htab : TableOps num codes table) :
    (table.map fun o => o.rotation).Nodup := by
  obtain ⟨groups, cands, g1, g2, g3⟩ := hent
  have h1 := rotations_once _ g1 _ g2 _ g3
  apply List.Nodup.of_map intRot
  rw [tableOps_eq htab, List.map_map, List.map_map]
  have : (groupZ (num, codes)).map ((intRot ∘ fun o : SymmOp ℝ => o.rotation) ∘ opK ℝ) =
      (groupZ (num, codes)).map Prod.fst :=
    List.map_congr_left fun z hz => intRot_rotZ (groupZ_range z hz)
  rw [this]
  exact h1

/-- the operations found correspond to those of the table. -/
theorem search_table {sa : SymmetryAnalyzer ℝ} {h : HashOrders ℝ} (hv : h.Valid) {fuel : ℕ} {p : Structure ℝ}
    {b : BravaisType} (hs : Searchable p sa.dtol) {pg : PointGroup}
    (hpg : primitiveHolohedry (K := ℝ) h fuel b = .ret pg) {table gens : List (SymmOp ℝ)}
    (hsym : HasSymmetry p sa.dtol pg.operations table)
    (hr : sa.getPrimitiveSpaceGroupOps h fuel p b = .ret gens) :
    ∃ g : SymmOp ℝ → SymmOp ℝ, (∀ q ∈ table, g q ∈ gens) ∧ (∀ q ∈ table, Nearly (g q) q) ∧
      ∀ o ∈ gens, ∃ q ∈ table, g q = o := by
  obtain ⟨pg1, hpg1, hC44⟩ := C44_operations_are_symmetries sa h hv fuel p b gens hs hr
  obtain ⟨pg2, hpg2, hC45⟩ := C45_found_once sa h hv fuel p b gens hs hr
  rw [hpg, Outcome.ret.injEq] at hpg1 hpg2
  subst hpg1
  subst hpg2
  have hfound : ∀ q ∈ table, ∃ o ∈ gens, Nearly o q ∧ ∀ o' ∈ gens, o'.rotation = q.rotation → o' ≠ o →
      ∀ w, IntVec w → (3 * sa.dtol) ^ 2 < lenSq (p.lattice * (o'.translation - q.translation - w)) := by
    intro q hq
    obtain ⟨h1, h2⟩ := hsym.exact q hq
    obtain ⟨o, ho, hrot, ⟨w, d, hw, htr, -, dx, dy, dz⟩, hu⟩ := hC45 _ h1 _ h2
    exact ⟨o, ho, ⟨hrot, w, d, hw, htr, dx, dy, dz⟩, hu⟩
  choose! g hg hnear huniq using hfound
  refine ⟨g, hg, hnear, fun o ho => ?_⟩
  obtain ⟨h1, h2⟩ := hC44 o ho
  obtain ⟨q, hq, hrot, w, hw, hle⟩ := hsym.only _ h1 _ h2
  refine ⟨q, hq, ?_⟩
  by_contra hne
  exact absurd (huniq q hq o ho hrot.symm (Ne.symm hne) w hw) (not_lt.2 hle)

/-- **C59 (search, closure and table).** Let the sites of a structure be separated and its symmetry operations be those
of a table entry of the lattice system.  Then the operations found are those of the entry, `from_generators` returns
them unchanged unless the entry is one of the 21 of `crateBad`, and the entry is identified. -/
theorem C59_group_identified_partial (sa : SymmetryAnalyzer ℝ) (h : HashOrders ℝ) (hv : h.Valid) (fuel : ℕ) (hf : 2 ≤ fuel)
    (p : Structure ℝ) (b : BravaisType) (hs : Searchable p sa.dtol) (hfine : FineTol 24 p.lattice sa.dtol)
    (pg : PointGroup) (hpg : primitiveHolohedry (K := ℝ) h fuel b = .ret pg) (sys : LatticeSystem) (n num : ℕ)
    (codes : List ℕ) (table gens : List (SymmOp ℝ)) (hent : IsTableEntry sys n num codes)
    (htab : TableOps num codes table) (hsym : HasSymmetry p sa.dtol pg.operations table)
    (hr : sa.getPrimitiveSpaceGroupOps h fuel p b = .ret gens) :
    SameOps (Structure.fracTols p.lattice sa.dtol) gens table ∧
      (num ∉ crateBad → SpaceGroup.fromGenerators fuel gens (Structure.fracTols p.lattice sa.dtol) = .ret gens) ∧
      ∃ sym, amapGet? sgNumToSymbol num = some sym ∧
        identifySpaceGroup h gens sys (Structure.fracTols p.lattice sa.dtol) = .ret (some (num, sym)) := by
  obtain ⟨⟨x1, x2⟩, ⟨y1, y2⟩, z1, z2⟩ := hfine.tols (by norm_num)
  set tols := Structure.fracTols p.lattice sa.dtol with htols
  have ht : TolOK tols := ⟨⟨by linarith, by linarith⟩, ⟨by linarith, by linarith⟩, by linarith, by linarith⟩
  obtain ⟨g, hg, hnear, hback⟩ := search_table hv hs hpg hsym hr
  have htabeq := tableOps_eq htab
  have hrotnd := table_rotations hent htab
  have hgnd : (table.map g).Nodup := by
    apply List.Nodup.of_map (fun o : SymmOp ℝ => o.rotation)
    rw [List.map_map]
    have : table.map ((fun o : SymmOp ℝ => o.rotation) ∘ g) = table.map fun o => o.rotation :=
      List.map_congr_left fun q hq => (hnear q hq).1
    rw [this]
    exact hrotnd
  have hperm : gens.Perm (table.map g) := by
    rw [List.perm_ext_iff_of_nodup (primitiveOps_nodup hv hs hr) hgnd]
    intro o
    constructor
    · intro ho
      obtain ⟨q, hq, rfl⟩ := hback o ho
      exact List.mem_map.2 ⟨q, hq, rfl⟩
    · intro ho
      obtain ⟨q, hq, rfl⟩ := List.mem_map.1 ho
      exact hg q hq
  have hsame : SameOps tols gens table := by
    obtain ⟨m, h1, h2⟩ := List.perm_comp_forall₂ (r := fun x y => ApproxSame x y tols) hperm (v := table) (by
      rw [List.forall₂_map_left_iff, List.forall₂_same]
      intro q hq
      exact (hnear q hq).approx (by linarith) (by linarith) (by linarith))
    exact ⟨m, h2, h1⟩
  refine ⟨hsame, ?_, C41_table_groups_recognised h hv sys n num codes table gens tols ht x2 y2 z2 hent htab hsame⟩
  intro hgood
  have hck := entry_check hent
  unfold entryCheck at hck
  simp only [Bool.and_eq_true, decide_eq_true_eq] at hck
  have hsg := hck.1.1
  have hcc : crateCheck (num, codes) = true := by
    obtain ⟨groups, cands, h1, h2, h3⟩ := hent
    exact List.all_eq_true.1 (List.all_eq_true.1 (List.all_eq_true.1 crate_checked _ h1) _ h2) _ h3
  have hcl := closedZ hsg
  unfold crateCheck at hcc
  simp only [List.contains_iff_mem, hgood, if_false] at hcc
  simp only [List.all_eq_true, decide_eq_true_eq] at hcc
  have hcls := classZ hsg hcc
  obtain ⟨f, rfl⟩ : ∃ f, fuel = f + 2 := ⟨fuel - 2, by omega⟩
  unfold SpaceGroup.fromGenerators
  rw [SpaceGroup.genLoop]
  by_cases hemp : gens.isEmpty = true
  · rw [if_pos hemp]
  · rw [if_neg hemp, genRound_fixed, SpaceGroup.genLoop, if_pos (by simp)]
    intro m1 h1 m2 h2
    obtain ⟨q1, hq1, rfl⟩ := hback m1 h1
    obtain ⟨q2, hq2, rfl⟩ := hback m2 h2
    have n1 := hnear _ hq1
    have n2 := hnear _ hq2
    rw [htabeq] at hq1 hq2
    obtain ⟨a, ha, rfl⟩ := List.mem_map.1 hq1
    obtain ⟨b', hb, rfl⟩ := List.mem_map.1 hq2
    have hm : opK ℝ (mulZ a b') ∈ table := by
      rw [htabeq]; exact List.mem_map.2 ⟨_, hcl a ha b' hb, rfl⟩
    refine ⟨_, hg _ hm, ?_⟩
    rw [C07_is_approx_eq_iff _ _ _ ht]
    exact nearly_prod (groupZ_range b' hb) (crateZ_of_class (hcls a ha b' hb)).symm n1 n2 (hnear _ hm) x1 y1 z1

theorem nearInt_sum {x y a b : ℝ} (hx : NearInt x a) (hy : NearInt y b) : NearInt (x + y) (a + b) := by
  obtain ⟨m, hm⟩ := hx
  obtain ⟨n, hn⟩ := hy
  refine ⟨m + n, ?_⟩
  push_cast
  rw [abs_lt] at *
  constructor <;> linarith [hm.1, hm.2, hn.1, hn.2]

/-- **C59 (the 21 groups that are not closed under the product of the crate).** If the symmetry operations are those of
an entry of `crateBad`, nothing is identified. -/
theorem C59_false_not_identified (sa : SymmetryAnalyzer ℝ) (h : HashOrders ℝ) (hv : h.Valid) (fuel : ℕ)
    (p : Structure ℝ) (b : BravaisType) (hs : Searchable p sa.dtol) (hfine : FineTol 48 p.lattice sa.dtol)
    (pg : PointGroup) (hpg : primitiveHolohedry (K := ℝ) h fuel b = .ret pg) (sys : LatticeSystem) (n num : ℕ)
    (codes : List ℕ) (table gens sg : List (SymmOp ℝ)) (hent : IsTableEntry sys n num codes)
    (htab : TableOps num codes table) (hsym : HasSymmetry p sa.dtol pg.operations table)
    (hr : sa.getPrimitiveSpaceGroupOps h fuel p b = .ret gens) (hbad : num ∈ crateBad)
    (hsg : SpaceGroup.fromGenerators fuel gens (Structure.fracTols p.lattice sa.dtol) = .ret sg) (sys' : LatticeSystem)
    (x : ℕ × String) : identifySpaceGroup h sg sys' (Structure.fracTols p.lattice sa.dtol) ≠ .ret (some x) := by
  obtain ⟨⟨x1, x2⟩, ⟨y1, y2⟩, z1, z2⟩ := hfine.tols (by norm_num)
  set tols := Structure.fracTols p.lattice sa.dtol with htols
  have ht : TolOK tols := ⟨⟨by linarith, by linarith⟩, ⟨by linarith, by linarith⟩, by linarith, by linarith⟩
  obtain ⟨g, hg, hnear, hback⟩ := search_table hv hs hpg hsym hr
  have hck := entry_check hent
  unfold entryCheck at hck
  simp only [Bool.and_eq_true, decide_eq_true_eq] at hck
  have hcc : crateCheck (num, codes) = true := by
    obtain ⟨groups, cands, h1, h2, h3⟩ := hent
    exact List.all_eq_true.1 (List.all_eq_true.1 (List.all_eq_true.1 crate_checked _ h1) _ h2) _ h3
  have hcl := closedZ hck.1.1
  unfold crateCheck at hcc
  simp only [List.contains_iff_mem, hbad, if_true] at hcc
  rw [List.any_eq_true] at hcc
  obtain ⟨a, ha, hcc⟩ := hcc
  rw [List.any_eq_true] at hcc
  obtain ⟨b', hb, hcc⟩ := hcc
  simp only [Bool.not_eq_true', ← Bool.not_eq_true, List.contains_iff_mem] at hcc
  have hcm := hcl a ha b' hb
  have htabeq := tableOps_eq htab
  have hmem : ∀ z ∈ groupZ (num, codes), opK ℝ z ∈ table := by
    intro z hz; rw [htabeq]; exact List.mem_map.2 ⟨z, hz, rfl⟩
  have hsub := (C37_contains_generators_partial fuel gens sg _ hsg).1.subset
  obtain ⟨z, hz, rz, zx, zy, zz⟩ := (C37_pairwise_different_partial fuel _ _ tols ht hsg).2 _ (hg _ (hmem a ha)) _
    (hsub (hg _ (hmem b' hb)))
  have nself : Nearly (opK ℝ (crateZ a b')) (opK ℝ (crateZ a b')) :=
    ⟨rfl, 0, 0, ⟨0, 0, 0, by ext <;> simp⟩, by ext <;> simp, by simp, by simp, by simp⟩
  obtain ⟨rp, px, py, pz⟩ := nearly_prod (tols := ⟨1 / 200000000, 1 / 200000000, 1 / 200000000⟩) (groupZ_range b' hb) rfl
    (hnear _ (hmem a ha)) (hnear _ (hmem b' hb)) nself le_rfl le_rfl le_rfl
  obtain ⟨rc, cx, cy, cz⟩ := (hnear _ (hmem _ hcm)).approx (tols := ⟨1 / 1000000000, 1 / 1000000000, 1 / 1000000000⟩)
    le_rfl le_rfl le_rfl
  intro hid
  obtain ⟨num', sym'⟩ := x
  obtain ⟨-, -, -, -, codes', table', hent', htab', hall⟩ := C40_identification_sound h hv sg sys' tols num' sym' hid
  obtain ⟨t1, ht1, r1, tx1, ty1, tz1⟩ := hall z hz
  obtain ⟨t2, ht2, r2, tx2, ty2, tz2⟩ := hall _ (hsub (hg _ (hmem _ hcm)))
  have hrr : (opK ℝ (crateZ a b')).rotation = (opK ℝ (mulZ a b')).rotation := rfl
  have htt : t1 = t2 := by
    refine List.inj_on_of_nodup_map (table_rotations hent' htab') ht1 ht2 ?_
    rw [← r1, ← r2, rc, rz, ← rp, hrr]
  subst htt
  have hsum : ∀ {q ab zz t c cc τ : ℝ}, τ ≤ 1 / 48 → NearInt (q - ab) (1 / 200000000) → NearInt (zz - ab) τ →
      NearInt (zz - t) τ → NearInt (c - t) τ → NearInt (c - cc) (1 / 1000000000) → NearInt (q - cc) (1 / 12) := by
    intro q ab zz t c cc τ hτ h1 h2 h3 h4 h5
    have h2' : NearInt (ab - zz) τ := by simpa using nearInt_neg h2
    have h4' : NearInt (t - c) τ := by simpa using nearInt_neg h4
    have h6 := nearInt_sum (nearInt_sum (nearInt_sum (nearInt_sum h1 h2') h3) h4') h5
    obtain ⟨m, hm⟩ := h6
    refine ⟨m, ?_⟩
    rw [show q - ab + (ab - zz) + (zz - t) + (t - c) + (c - cc) - m = q - cc - (m : ℝ) by ring] at hm
    linarith
  have heq : crateZ a b' = mulZ a b' := by
    refine zop_eq_of_approx (K := ℝ) (tols := ⟨1 / 12, 1 / 12, 1 / 12⟩) (rangeZ_crateZ (groupZ_range _ hcm))
      (groupZ_range _ hcm) le_rfl le_rfl le_rfl ⟨rfl, ?_, ?_, ?_⟩
    · exact hsum (by linarith) px zx tx1 tx2 cx
    · exact hsum (by linarith) py zy ty1 ty2 cy
    · exact hsum (by linarith) pz zz tz1 tz2 cz
  exact hcc (List.mem_map.2 ⟨_, heq ▸ hcm, rfl⟩)

/-- **C59.** Let the standard primitive structure of `s` have the symmetry operations of a table entry `num` of its
lattice system.  If the entry is not in `crateBad`, `get_space_group_info` identifies `num`: its result is the result of
the final change of basis, with the number and its symbol.  If it is in `crateBad`, `get_space_group_info` returns
nothing. -/
theorem C59_reported_number (sa : SymmetryAnalyzer ℝ) (h : HashOrders ℝ) (hv : h.Valid) (fuel : ℕ)
    (s prim nig p : Structure ℝ) (ch : ℕ) (b : BravaisType) (h1 : sa.reducer.findPrimitiveCell h.minEle s = .ret prim)
    (h2 : sa.reducer.niggliReduce prim tol1em5 = .ret nig) (h3 : getLatticeCharacter nig tol1em5 = .ret ch)
    (h4 : amapGet? latticeCharToBravais ch = some b) (h5 : sa.getStandardPrimitiveStructure h fuel s = .ret p)
    (hf : 2 ≤ fuel) (hne : p.species ≠ []) (hs : Searchable p sa.dtol) (hfine : FineTol 48 p.lattice sa.dtol)
    (pg : PointGroup) (hpg : primitiveHolohedry (K := ℝ) h fuel b = .ret pg) (sys : LatticeSystem)
    (hsys : b.latticeSystem? = some sys) (n num : ℕ) (codes : List ℕ) (table : List (SymmOp ℝ))
    (hent : IsTableEntry sys n num codes) (htab : TableOps num codes table)
    (hsym : HasSymmetry p sa.dtol pg.operations table) :
    (num ∉ crateBad → SvAbove prim.lattice → SvAbove nig.lattice → ∃ sym gens total,
      amapGet? sgNumToSymbol num = some sym ∧ sa.getPrimitiveSpaceGroupOps h fuel p b = .ret gens ∧
      SameOps (Structure.fracTols p.lattice sa.dtol) gens table ∧
      p.lattice * total = s.lattice ∧
      sa.getSpaceGroupInfo h fuel s = (SpaceGroup.applyTransformation fuel gens total
        (Structure.fracTols p.lattice sa.dtol)).bind fun ops => .ret (num, sym, ops)) ∧
    (∀ num' sym' ops, sa.getSpaceGroupInfo h fuel s = .ret (num', sym', ops) →
      num ∉ crateBad ∧ num' = num ∧ amapGet? sgNumToSymbol num = some sym') := by
  obtain ⟨prim', nig', conv, ch', m, P, b', k1, k2, k3, k4, k5, k6, -, k8⟩ := standardPrimitive_ret h5
  rw [h1, Outcome.ret.injEq] at k1; subst k1
  rw [h2, Outcome.ret.injEq] at k2; subst k2
  rw [h3, Outcome.ret.injEq] at k8; subst k8
  obtain ⟨r1, r2⟩ := char_range k3
  obtain ⟨m', P', b'', c, n', e1, e2, e3, e4, e5, e6, e7⟩ := C32_tables_consistent (K := ℝ) ch r1 r2
  rw [k3] at e1
  rw [k5] at e2
  simp only [Option.some.injEq, Outcome.ret.injEq, Prod.mk.injEq] at e1 e2
  obtain ⟨rfl, rfl⟩ := e2
  subst e1
  have hbb : b' = b := by
    have e2' := k5
    unfold primitiveTransformationMatrix at e2'
    rw [h4] at e2'
    simp only [Outcome.bind_eq_ret, Outcome.ofOption, Outcome.ret.injEq, Prod.mk.injEq, exists_eq_left'] at e2'
    obtain ⟨_, -, _, -, -, hb⟩ := e2'
    exact hb.symm
  subst hbb
  have hct : conventionalTransformationMatrix nig = .ret ((castRot m : Mat3 ℝ).transpose, ch) := by
    unfold conventionalTransformationMatrix
    rw [h3, Outcome.ret_bind, k3]
    rfl
  have hTPdet : (castRot m : Mat3 ℝ).transpose.det ≠ 0 ∧ P.det ≠ 0 := by
    have := congrArg Mat3.det e5
    rw [Mat3.det_mul, overK_det] at this
    have h0 : (n'.det : ℝ) ≠ 0 := by
      have : n'.det ≠ 0 := by rcases e6 with h | h <;> rw [h] <;> simp
      exact_mod_cast this
    exact ⟨fun hz => h0 (by rw [← this, hz, zero_mul]), fun hz => h0 (by rw [← this, hz, mul_zero])⟩
  obtain ⟨invT, hinvT⟩ : ∃ i, (castRot m : Mat3 ℝ).transpose.tryInverse = some i := by
    cases hi : (castRot m : Mat3 ℝ).transpose.tryInverse with
    | none => exact absurd (Mat3.tryInverse_eq_none_iff.1 hi) hTPdet.1
    | some i => exact ⟨i, rfl⟩
  obtain ⟨invP, hinvP⟩ : ∃ i, P.tryInverse = some i := by
    cases hi : P.tryInverse with
    | none => exact absurd (Mat3.tryInverse_eq_none_iff.1 hi) hTPdet.2
    | some i => exact ⟨i, rfl⟩
  have hT1 := Mat3.tryInverse_eq_some_iff.1 hinvT
  have hP1 := Mat3.tryInverse_eq_some_iff.1 hinvP
  obtain ⟨gens, hgens⟩ := search_returns sa hv hs hpg hne
  obtain ⟨hsame, hclose, sym, hsy, hid⟩ := C59_group_identified_partial sa h hv fuel hf p b' hs (hfine.mono (by norm_num)) pg hpg
    sys n num codes table gens hent htab hsym hgens
  have hrun : num ∉ crateBad → sa.getSpaceGroupInfo h fuel s = (SpaceGroup.applyTransformation fuel gens
      (invP * invT * nig.getTransformationMatrix prim * prim.getTransformationMatrix s)
        (Structure.fracTols p.lattice sa.dtol)).bind fun ops => .ret (num, sym, ops) := by
    intro hgood
    unfold getSpaceGroupInfo
    rw [h1, Outcome.ret_bind, h2, Outcome.ret_bind, hct, Outcome.ret_bind]
    simp only
    rw [k4, Outcome.ret_bind, k5, Outcome.ret_bind]
    simp only
    rw [k6, Outcome.ret_bind, hgens, Outcome.ret_bind, hclose hgood, Outcome.ret_bind, hsys]
    simp only [Outcome.ofOption, Outcome.ret_bind]
    rw [hid, Outcome.ret_bind]
    simp only [Outcome.ret_bind]
    rw [hinvP]
    simp only [Outcome.ret_bind]
    rw [hinvT]
    simp only [Outcome.ret_bind]
  constructor
  · intro hgood hc1 hc2
    refine ⟨sym, gens, _, hsy, hgens, hsame, ?_, hrun hgood⟩
    rw [applyTransformation_lattice k6, applyTransformation_lattice k4]
    unfold Structure.getTransformationMatrix
    calc nig.lattice * (castRot m : Mat3 ℝ).transpose * P * (invP * invT *
          ((FTrans.pinv nig.lattice : Mat3 ℝ) * prim.lattice) * ((FTrans.pinv prim.lattice : Mat3 ℝ) * s.lattice))
        = nig.lattice * (castRot m : Mat3 ℝ).transpose * (P * invP) * invT * (FTrans.pinv nig.lattice : Mat3 ℝ) *
          (prim.lattice * (FTrans.pinv prim.lattice : Mat3 ℝ)) * s.lattice := by simp only [mul_assoc]
      _ = nig.lattice * ((castRot m : Mat3 ℝ).transpose * invT) * (FTrans.pinv nig.lattice : Mat3 ℝ) * s.lattice := by
          rw [hP1, mul_pinv hc1]; simp only [mul_one, mul_assoc]
      _ = s.lattice := by rw [hT1, mul_one, mul_pinv hc2, one_mul]
  · intro num' sym' ops hr
    by_cases hgood : num ∈ crateBad
    · exfalso
      unfold getSpaceGroupInfo at hr
      rw [h1, Outcome.ret_bind, h2, Outcome.ret_bind, hct, Outcome.ret_bind] at hr
      simp only at hr
      rw [k4, Outcome.ret_bind, k5, Outcome.ret_bind] at hr
      simp only at hr
      rw [k6, Outcome.ret_bind, hgens, Outcome.ret_bind] at hr
      simp only [Outcome.bind_eq_ret] at hr
      obtain ⟨sg, h8, system, h9, ident, h10, ⟨num'', sym''⟩, h11, -⟩ := hr
      have hid := ofOption_eq_ret h11
      subst hid
      exact C59_false_not_identified sa h hv fuel p b' hs hfine pg hpg sys n num codes table gens sg hent htab hsym hgens
        hgood h8 system _ h10
    · rw [hrun hgood, Outcome.bind_eq_ret] at hr
      obtain ⟨ops', -, hr⟩ := hr
      simp only [Outcome.ret.injEq, Prod.mk.injEq] at hr
      obtain ⟨rfl, rfl, rfl⟩ := hr
      exact ⟨hgood, rfl, hsy⟩

end CrystSymm
