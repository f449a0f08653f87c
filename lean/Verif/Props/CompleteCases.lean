import Verif.Props.Complete

set_option autoImplicit false
set_option linter.unusedSectionVars false

/-! # Cases of C59: crystals whose sites lie on a grid -/

namespace CrystSymm

open Spec SymmetryAnalyzer PointGroup

/-- the same point of a grid with `N` points per edge. -/
def sameZ (N : ℤ) (u v : Vec3 ℤ) : Bool :=
  decide ((u.x - v.x) % N = 0) && decide ((u.y - v.y) % N = 0) && decide ((u.z - v.z) % N = 0)

/-- `{W | t}` maps the sites onto sites of the same kind. -/
def mapsZ (N : ℤ) (zs : List (ℕ × Vec3 ℤ)) (W : Mat3 ℤ) (t : Vec3 ℤ) : Bool :=
  zs.all fun p => zs.any fun q => decide (p.1 = q.1) && sameZ N (W * p.2 + t) q.2

/-- the operations with a rotation of `rots` that map the sites onto sites of the same kind are those of `ops`, whose
translations are given in twelfths. -/
def gridCheck (N k : ℤ) (z0 : ℕ × Vec3 ℤ) (zs : List (ℕ × Vec3 ℤ)) (rots : List (Mat3 ℤ)) (ops : List ZOp) : Bool :=
  (ops.all fun o => rots.any (fun W => decide (o.1 = W)) && mapsZ N zs o.1 (o.2.map fun x => k * x)) &&
  rots.all fun W => zs.all fun q => (! decide (q.1 = z0.1)) || (! mapsZ N zs W (q.2 - W * z0.2)) ||
    ops.any fun o => decide (o.1 = W) && sameZ N (o.2.map fun x => k * x) (q.2 - W * z0.2)

/-- position of a grid point. -/
noncomputable def gridPos (N : ℤ) (v : Vec3 ℤ) : Vec3 ℝ := v.map fun x : ℤ => (x : ℝ) / N

theorem sameZ_iff {N : ℤ} {u v : Vec3 ℤ} : sameZ N u v = true ↔ ∃ w : Vec3 ℤ, u = v + w.map fun x => N * x := by
  unfold sameZ
  simp only [Bool.and_eq_true, decide_eq_true_eq, ← Int.dvd_iff_emod_eq_zero]
  constructor
  · rintro ⟨⟨⟨a, ha⟩, ⟨b, hb⟩⟩, ⟨c, hc⟩⟩
    exact ⟨⟨a, b, c⟩, by ext <;> simp [Vec3.map] <;> linarith⟩
  · rintro ⟨w, rfl⟩
    refine ⟨⟨⟨w.x, ?_⟩, ⟨w.y, ?_⟩⟩, ⟨w.z, ?_⟩⟩ <;> simp [Vec3.map]

theorem small_multiple {N m : ℤ} (hN : 0 < N) {u v : ℝ} (hu : |u| < 1 / (2 * N)) (hv : |v| < 1 / (2 * N))
    (h : (m : ℝ) / N = u - v) : m = 0 := by
  have hN' : (0 : ℝ) < N := by exact_mod_cast hN
  have h1 : |(m : ℝ)| < 1 := by
    have : (m : ℝ) = (u - v) * N := by rw [← h]; field_simp
    rw [this, abs_mul, abs_of_pos hN']
    have h2 : |u - v| < 1 / N := by
      calc |u - v| ≤ |u| + |v| := abs_sub _ _
        _ < 1 / (2 * N) + 1 / (2 * N) := by linarith
        _ = 1 / N := by field_simp; norm_num
    calc |u - v| * N < 1 / N * N := by nlinarith
      _ = 1 := by field_simp
  have : |m| < 1 := by exact_mod_cast h1
  exact Int.abs_lt_one_iff.1 this

/-- the computation decides the symmetry. -/
theorem hasSymmetry_of_grid {s : Structure ℝ} {dtol : ℝ} {N k : ℤ} (hN : N = 12 * k) (hk : 0 < k) {nm : ℕ → String}
    {z0 : ℕ × Vec3 ℤ} {zs : List (ℕ × Vec3 ℤ)} (hz0 : z0 ∈ zs) (hnm : ∀ p ∈ zs, ∀ q ∈ zs, nm p.1 = nm q.1 → p.1 = q.1)
    (hsites : sites s = zs.map fun p => (nm p.1, gridPos N p.2)) (hd : 0 < dtol)
    (hL : ∀ v : Vec3 ℝ, lenSq (s.lattice * v) ≤ (2 * dtol) ^ 2 →
      |v.x| < 1 / (2 * N) ∧ |v.y| < 1 / (2 * N) ∧ |v.z| < 1 / (2 * N))
    {h : HashOrders ℝ} (hv : h.Valid) {fuel : ℕ} {b : BravaisType} {pg : PointGroup}
    (hpg : primitiveHolohedry (K := ℝ) h fuel b = .ret pg) {num : ℕ} {codes : List ℕ} {table : List (SymmOp ℝ)}
    (htab : TableOps num codes table)
    (hchk : gridCheck N k z0 zs ((holoCodes b).map decZ) (groupZ (num, codes)) = true) :
    HasSymmetry s dtol pg.operations table := by
  have hperm := holo_perm hv hpg
  have hN0 : 0 < N := by omega
  have hNr : (0 : ℝ) < N := by exact_mod_cast hN0
  have hkr : (0 : ℝ) < k := by exact_mod_cast hk
  have hNk : (N : ℝ) = 12 * k := by exact_mod_cast hN
  unfold gridCheck at hchk
  simp only [Bool.and_eq_true, List.all_eq_true, List.any_eq_true, decide_eq_true_eq, Bool.or_eq_true,
    Bool.not_eq_true', decide_eq_false_iff_not] at hchk
  obtain ⟨hex, hon⟩ := hchk
  have htabeq := tableOps_eq htab
  have hpos : ∀ z : ZOp, (opK ℝ z).translation = gridPos N (z.2.map fun x => k * x) := by
    intro z
    ext <;> simp only [opK, gridPos, Vec3.map, hNk] <;> push_cast <;> field_simp
  have hmaps : ∀ W : Mat3 ℤ, ∀ t : Vec3 ℤ, mapsZ N zs W t = true ↔
      ∀ p ∈ zs, ∃ q ∈ zs, p.1 = q.1 ∧ ∃ w : Vec3 ℤ, W * p.2 + t = q.2 + w.map fun x => N * x := by
    intro W t
    unfold mapsZ
    simp only [List.all_eq_true, List.any_eq_true, Bool.and_eq_true, decide_eq_true_eq, sameZ_iff]
  constructor
  · intro o ho
    rw [htabeq] at ho
    obtain ⟨z, hz, rfl⟩ := List.mem_map.1 ho
    obtain ⟨⟨W, hW, hWz⟩, hm⟩ := hex z hz
    obtain ⟨c, hc, hcW⟩ := List.mem_map.1 hW
    have hrot : intRot (opK ℝ z).rotation = z.1 := intRot_rotZ (groupZ_range z hz)
    constructor
    · rw [hperm.mem_iff]
      refine List.mem_map.2 ⟨c, hc, ?_⟩
      apply intRot_injective
      rw [intRot_dec8, hrot, hcW, hWz]
    · rw [hrot, hpos]
      intro e p hp
      rw [hsites] at hp
      obtain ⟨a, ha, e1⟩ := List.mem_map.1 hp
      obtain ⟨rfl, rfl⟩ := Prod.mk.inj e1
      obtain ⟨q, hq, hpq, w, hw⟩ := (hmaps _ _).1 hm a ha
      refine ⟨gridPos N q.2, ?_, ?_⟩
      · rw [hsites, hpq]; exact List.mem_map.2 ⟨q, hq, rfl⟩
      · have h1 := congrArg Vec3.x hw
        have h2 := congrArg Vec3.y hw
        have h3 := congrArg Vec3.z hw
        simp only [Vec3.add_x, Vec3.add_y, Vec3.add_z, Mat3.mulVec_x, Mat3.mulVec_y, Mat3.mulVec_z, Vec3.map] at h1 h2 h3
        refine ⟨⟨w.x, ?_⟩, ⟨w.y, ?_⟩, ⟨w.z, ?_⟩⟩
        all_goals simp only [gridPos, Vec3.add_x, Vec3.add_y, Vec3.add_z, Mat3.mulVec_x, Mat3.mulVec_y, Mat3.mulVec_z,
          Vec3.map, overK, Mat3.map]
        · have h1' : (z.1.m11 * a.2.x + z.1.m12 * a.2.y + z.1.m13 * a.2.z + k * z.2.x : ℝ) = q.2.x + N * w.x := by
            exact_mod_cast h1
          field_simp
          push_cast
          linarith
        · have h2' : (z.1.m21 * a.2.x + z.1.m22 * a.2.y + z.1.m23 * a.2.z + k * z.2.y : ℝ) = q.2.y + N * w.y := by
            exact_mod_cast h2
          field_simp
          push_cast
          linarith
        · have h3' : (z.1.m31 * a.2.x + z.1.m32 * a.2.y + z.1.m33 * a.2.z + k * z.2.z : ℝ) = q.2.z + N * w.z := by
            exact_mod_cast h3
          field_simp
          push_cast
          linarith
  · intro W hW t hmap
    obtain ⟨c, hc, hcW⟩ := List.mem_map.1 (hperm.mem_iff.1 hW)
    have hWd : intRot W = decZ c := by rw [← hcW, intRot_dec8]
    obtain ⟨q0, hq0, w0, ⟨i0, j0, l0, rfl⟩, hle0⟩ := hmap (nm z0.1) (gridPos N z0.2) (by
      rw [hsites]; exact List.mem_map.2 ⟨z0, hz0, rfl⟩)
    rw [hsites] at hq0
    obtain ⟨y0, hy0, e1⟩ := List.mem_map.1 hq0
    obtain ⟨e1', rfl⟩ := Prod.mk.inj e1
    have hy01 := hnm y0 hy0 z0 hz0 e1'
    obtain ⟨a1, a2, a3⟩ := hL _ hle0
    have hmz : mapsZ N zs (decZ c) (y0.2 - decZ c * z0.2) = true := by
      rw [hmaps]
      intro p hp
      obtain ⟨q, hq, w, ⟨i, j, l, rfl⟩, hle⟩ := hmap (nm p.1) (gridPos N p.2) (by
        rw [hsites]; exact List.mem_map.2 ⟨p, hp, rfl⟩)
      rw [hsites] at hq
      obtain ⟨y, hy, e2⟩ := List.mem_map.1 hq
      obtain ⟨e2', rfl⟩ := Prod.mk.inj e2
      obtain ⟨b1, b2, b3⟩ := hL _ hle
      refine ⟨y, hy, (hnm y hy p hp e2').symm, ⟨i - i0, j - j0, l - l0⟩, ?_⟩
      rw [hWd] at a1 a2 a3 b1 b2 b3
      have k1 := small_multiple (m := (decZ c * p.2 + (y0.2 - decZ c * z0.2) - y.2 : Vec3 ℤ).x - N * (i - i0)) hN0 b1 a1 (by
        simp only [gridPos, Vec3.add_x, Vec3.sub_x, Mat3.mulVec_x, Vec3.map, overK, Mat3.map]
        push_cast; field_simp; ring)
      have k2 := small_multiple (m := (decZ c * p.2 + (y0.2 - decZ c * z0.2) - y.2 : Vec3 ℤ).y - N * (j - j0)) hN0 b2 a2 (by
        simp only [gridPos, Vec3.add_y, Vec3.sub_y, Mat3.mulVec_y, Vec3.map, overK, Mat3.map]
        push_cast; field_simp; ring)
      have k3 := small_multiple (m := (decZ c * p.2 + (y0.2 - decZ c * z0.2) - y.2 : Vec3 ℤ).z - N * (l - l0)) hN0 b3 a3 (by
        simp only [gridPos, Vec3.add_z, Vec3.sub_z, Mat3.mulVec_z, Vec3.map, overK, Mat3.map]
        push_cast; field_simp; ring)
      ext
      · simp only [Vec3.add_x, Vec3.sub_x, Vec3.map] at k1 ⊢; linarith
      · simp only [Vec3.add_y, Vec3.sub_y, Vec3.map] at k2 ⊢; linarith
      · simp only [Vec3.add_z, Vec3.sub_z, Vec3.map] at k3 ⊢; linarith
    rcases hon (decZ c) (List.mem_map.2 ⟨c, hc, rfl⟩) y0 hy0 with (hne | hno) | ⟨o, ho, hoW, hot⟩
    · exact absurd hy01 hne
    · rw [hmz] at hno; simp at hno
    obtain ⟨w, hw⟩ := sameZ_iff.1 hot
    have hrot : intRot (opK ℝ o).rotation = o.1 := intRot_rotZ (groupZ_range o ho)
    refine ⟨opK ℝ o, by rw [htabeq]; exact List.mem_map.2 ⟨o, ho, rfl⟩, ?_, ⟨(i0 - w.x : ℤ), (j0 - w.y : ℤ), (l0 - w.z : ℤ)⟩,
      ⟨i0 - w.x, j0 - w.y, l0 - w.z, rfl⟩, ?_⟩
    · apply intRot_injective; rw [hrot, hoW, hWd]
    · have he : t - (opK ℝ o).translation - (⟨(i0 - w.x : ℤ), (j0 - w.y : ℤ), (l0 - w.z : ℤ)⟩ : Vec3 ℝ) =
          overK ℝ (intRot W) * gridPos N z0.2 + t - gridPos N y0.2 - ⟨i0, j0, l0⟩ := by
        rw [hpos, hw, hWd]
        ext
        all_goals
          simp only [gridPos, Vec3.add_x, Vec3.sub_x, Mat3.mulVec_x, Vec3.add_y, Vec3.sub_y, Mat3.mulVec_y, Vec3.add_z,
            Vec3.sub_z, Mat3.mulVec_z, Vec3.map, overK, Mat3.map]
          push_cast; field_simp; ring
      rw [he]
      exact hle0.trans (by nlinarith)

/-- a structure with sites on a grid. -/
noncomputable def gridStructure (L : Mat3 ℝ) (N : ℤ) (nm : ℕ → String) (zs : List (ℕ × Vec3 ℤ)) : Structure ℝ where
  lattice := L
  species := zs.map fun p => nm p.1
  fracCoords := zs.map fun p => gridPos N p.2
  coords := zs.map fun p => L * gridPos N p.2

theorem gridStructure_sites (L : Mat3 ℝ) (N : ℤ) (nm : ℕ → String) (zs : List (ℕ × Vec3 ℤ)) :
    sites (gridStructure L N nm zs) = zs.map fun p => (nm p.1, gridPos N p.2) := by
  unfold sites gridStructure
  simp only
  induction zs with
  | nil => rfl
  | cons p zs ih => simp [ih]

/-- what a case has to provide. -/
structure GridCase (L : Mat3 ℝ) (dtol : ℝ) (N k : ℤ) (nm : ℕ → String) (z0 : ℕ × Vec3 ℤ) (rest : List (ℕ × Vec3 ℤ)) :
    Prop where
  twelve : N = 12 * k
  pos : 0 < k
  names : ∀ p ∈ z0 :: rest, ∀ q ∈ z0 :: rest, nm p.1 = nm q.1 → p.1 = q.1
  sorted : ((z0 :: rest).map fun p => nm p.1).Pairwise (· ≤ ·)
  few : (z0 :: rest).length < 65536
  apart : (z0 :: rest).Pairwise fun p q => (! decide (p.1 = q.1)) || ! sameZ N p.2 q.2
  fine : FineTol 48 L dtol
  short : ∀ v : Vec3 ℝ, lenSq (L * v) ≤ (4 * dtol) ^ 2 → |v.x| < 1 / (2 * N) ∧ |v.y| < 1 / (2 * N) ∧ |v.z| < 1 / (2 * N)

theorem GridCase.searchable {L : Mat3 ℝ} {dtol : ℝ} {N k : ℤ} {nm : ℕ → String} {z0 : ℕ × Vec3 ℤ}
    {rest : List (ℕ × Vec3 ℤ)} (c : GridCase L dtol N k nm z0 rest) :
    Searchable (gridStructure L N nm (z0 :: rest)) dtol := by
  have hN0 : 0 < N := by have := c.twelve; have := c.pos; omega
  have hNr : (0 : ℝ) < N := by exact_mod_cast hN0
  obtain ⟨h0, hf⟩ := c.fine
  refine ⟨by simp [gridStructure], by simpa [gridStructure] using c.few, c.sorted, ⟨h0, fun v hv => ?_⟩, ?_⟩
  · obtain ⟨f1, f2⟩ := hf v hv
    constructor <;> nlinarith
  · intro i j e p q hi hj hne w hw
    rw [gridStructure_sites] at hi hj
    rw [List.getElem?_map, Option.map_eq_some_iff] at hi hj
    obtain ⟨a, ha, ha'⟩ := hi
    obtain ⟨b, hb, hb'⟩ := hj
    obtain ⟨ea, rfl⟩ := Prod.mk.inj ha'
    obtain ⟨eb, rfl⟩ := Prod.mk.inj hb'
    by_contra hle
    rw [not_lt] at hle
    obtain ⟨x, y, z, rfl⟩ := hw
    obtain ⟨a1, a2, a3⟩ := c.short _ hle
    have zero : |(0 : ℝ)| < 1 / (2 * N) := by rw [abs_zero]; positivity
    have k1 := small_multiple (m := a.2.x - b.2.x - N * x) hN0 a1 zero (by
      simp only [gridPos, Vec3.sub_x, Vec3.map]; push_cast; field_simp; ring)
    have k2 := small_multiple (m := a.2.y - b.2.y - N * y) hN0 a2 zero (by
      simp only [gridPos, Vec3.sub_y, Vec3.map]; push_cast; field_simp; ring)
    have k3 := small_multiple (m := a.2.z - b.2.z - N * z) hN0 a3 zero (by
      simp only [gridPos, Vec3.sub_z, Vec3.map]; push_cast; field_simp; ring)
    have hname := c.names a (List.mem_of_getElem? ha) b (List.mem_of_getElem? hb) (ea.trans eb.symm)
    have hsame : sameZ N a.2 b.2 = true := sameZ_iff.2 ⟨⟨x, y, z⟩, by
      ext <;> simp only [Vec3.add_x, Vec3.add_y, Vec3.add_z, Vec3.map] <;> omega⟩
    have hsame' : sameZ N b.2 a.2 = true := sameZ_iff.2 ⟨⟨-x, -y, -z⟩, by
      ext <;> simp only [Vec3.add_x, Vec3.add_y, Vec3.add_z, Vec3.map] <;> linarith⟩
    have hap := List.pairwise_iff_getElem.1 c.apart
    obtain ⟨hi', rfl⟩ := List.getElem?_eq_some_iff.1 ha
    obtain ⟨hj', rfl⟩ := List.getElem?_eq_some_iff.1 hb
    rcases Nat.lt_or_gt_of_ne hne with hlt | hlt
    · have := hap i j hi' hj' hlt
      simp [hname, hsame] at this
    · have := hap j i hj' hi' hlt
      simp [hname, hsame'] at this

/-- C59 for such structures: the entry is found by computation. -/
theorem GridCase.identified {L : Mat3 ℝ} {dtol : ℝ} {N k : ℤ} {nm : ℕ → String} {z0 : ℕ × Vec3 ℤ}
    {rest : List (ℕ × Vec3 ℤ)} (c : GridCase L dtol N k nm z0 rest) {b : BravaisType} {sys : LatticeSystem} {n num : ℕ}
    {codes : List ℕ} (hent : IsTableEntry sys n num codes)
    (hchk : gridCheck N k z0 (z0 :: rest) ((holoCodes b).map decZ) (groupZ (num, codes)) = true) (atol : ℝ) :
    ∃ M, ∀ fuel ≥ M, ∀ h : HashOrders ℝ, h.Valid → ∃ gens,
      (⟨dtol, atol⟩ : SymmetryAnalyzer ℝ).getPrimitiveSpaceGroupOps h fuel (gridStructure L N nm (z0 :: rest)) b
        = .ret gens ∧ gens.length = n ∧
      (num ∉ crateBad → SpaceGroup.fromGenerators fuel gens (Structure.fracTols L dtol) = .ret gens ∧
        ∃ sym, amapGet? sgNumToSymbol num = some sym ∧
          identifySpaceGroup h gens sys (Structure.fracTols L dtol) = .ret (some (num, sym))) ∧
      (num ∈ crateBad → ∀ sg, SpaceGroup.fromGenerators fuel gens (Structure.fracTols L dtol) = .ret sg →
        ∀ sys' x, identifySpaceGroup h sg sys' (Structure.fracTols L dtol) ≠ .ret (some x)) := by
  obtain ⟨M, hM⟩ := C35_primitive_holohedry_returns (K := ℝ)
  refine ⟨max M 2, fun fuel hf h hv => ?_⟩
  obtain ⟨pg, hpg⟩ := hM fuel (le_trans (le_max_left _ _) hf) h hv b
  obtain ⟨table, htab, hlen, -⟩ := C39_tables_are_groups (K := ℝ) sys n num codes hent
  have hs := c.searchable
  have hsym : HasSymmetry (gridStructure L N nm (z0 :: rest)) dtol pg.operations table :=
    hasSymmetry_of_grid c.twelve c.pos (by simp) c.names (gridStructure_sites _ _ _ _) c.fine.1
      (fun v hv => c.short v (hv.trans (by have := c.fine.1; nlinarith))) hv hpg htab hchk
  obtain ⟨gens, hgens⟩ := search_returns ⟨dtol, atol⟩ hv (s := gridStructure L N nm (z0 :: rest)) hs hpg
    (by simp [gridStructure])
  obtain ⟨⟨m, hp, hf2⟩, hcl, hid⟩ := C59_group_identified_partial ⟨dtol, atol⟩ h hv fuel (le_trans (le_max_right _ _) hf) _ b hs
    (c.fine.mono (by norm_num)) pg hpg sys n num codes table gens hent htab hsym hgens
  refine ⟨gens, hgens, ?_, fun hg => ⟨hcl hg, hid⟩, fun hbad sg hsg sys' x => ?_⟩
  · rw [hf2.length_eq, hp.length_eq, hlen]
  · exact C59_false_not_identified ⟨dtol, atol⟩ h hv fuel _ b hs c.fine pg hpg sys n num codes table gens sg hent htab hsym
      hgens hbad hsg sys' x

/-- the entry of a number in the tables. -/
def entryOf (num : ℕ) : Option (LatticeSystem × ℕ × List ℕ) :=
  (sgNumToFullMatrices.flatMap fun p => p.2.flatMap fun q => q.2.filterMap fun e =>
    if e.1 = num then some (p.1, q.1, e.2) else none).head?

theorem entryOf_spec {num n : ℕ} {sys : LatticeSystem} {codes : List ℕ} (h : entryOf num = some (sys, n, codes)) :
    IsTableEntry sys n num codes := by
  have h1 := List.mem_of_head? h
  simp only [List.mem_flatMap, List.mem_filterMap, Option.ite_none_right_eq_some, Option.some.injEq, Prod.mk.injEq] at h1
  obtain ⟨p, hp, q, hq, e, he, rfl, rfl, rfl, rfl⟩ := h1
  exact ⟨p.2, q.2, hp, hq, he⟩

/-- the check for a number. -/
def entryChecks (num : ℕ) (sys : LatticeSystem) (n : ℕ) (N k : ℤ) (z0 : ℕ × Vec3 ℤ) (rest : List (ℕ × Vec3 ℤ))
    (b : BravaisType) : Bool :=
  match entryOf num with
  | some (sys', n', codes) => decide (sys' = sys) && decide (n' = n) &&
      gridCheck N k z0 (z0 :: rest) ((holoCodes b).map decZ) (groupZ (num, codes))
  | none => false

theorem entryChecks_spec {num : ℕ} {sys : LatticeSystem} {n : ℕ} {N k : ℤ} {z0 : ℕ × Vec3 ℤ} {rest : List (ℕ × Vec3 ℤ)}
    {b : BravaisType} (h : entryChecks num sys n N k z0 rest b = true) : ∃ codes, IsTableEntry sys n num codes ∧
      gridCheck N k z0 (z0 :: rest) ((holoCodes b).map decZ) (groupZ (num, codes)) = true := by
  unfold entryChecks at h
  split at h
  · rename_i sys' n' codes he
    simp only [Bool.and_eq_true, decide_eq_true_eq] at h
    obtain ⟨⟨rfl, rfl⟩, h⟩ := h
    exact ⟨codes, entryOf_spec he, h⟩
  · simp at h

theorem comp_le {u : Vec3 ℝ} {d : ℝ} (hd : 0 < d) (h : lenSq u ≤ d ^ 2) : |u.x| ≤ d ∧ |u.y| ≤ d ∧ |u.z| ≤ d := by
  unfold lenSq at h
  have h1 := sq_nonneg u.x
  have h2 := sq_nonneg u.y
  have h3 := sq_nonneg u.z
  refine ⟨abs_le_of_sq_le_sq ?_ hd.le, abs_le_of_sq_le_sq ?_ hd.le, abs_le_of_sq_le_sq ?_ hd.le⟩ <;> nlinarith

/-- names of two species. -/
def ab : ℕ → String := fun i => if i = 0 then "A" else "B"

/-- caesium chloride: group 221. -/
example (h : HashOrders ℝ) (hv : h.Valid) (atol : ℝ) : ∃ M, ∀ fuel ≥ M, ∃ gens sym,
    (⟨1 / 1000, atol⟩ : SymmetryAnalyzer ℝ).getPrimitiveSpaceGroupOps h fuel
      (gridStructure ⟨4, 0, 0, 0, 4, 0, 0, 0, 4⟩ 12 ab [(0, ⟨0, 0, 0⟩), (1, ⟨6, 6, 6⟩)]) .cP = .ret gens ∧
    gens.length = 48 ∧
    SpaceGroup.fromGenerators fuel gens (Structure.fracTols ⟨4, 0, 0, 0, 4, 0, 0, 0, 4⟩ (1 / 1000)) = .ret gens ∧
    identifySpaceGroup h gens .Cubic (Structure.fracTols ⟨4, 0, 0, 0, 4, 0, 0, 0, 4⟩ (1 / 1000)) = .ret (some (221, sym)) := by
  obtain ⟨codes, hent, hchk⟩ := entryChecks_spec (num := 221) (sys := .Cubic) (n := 48) (N := 12) (k := 1)
    (z0 := (0, ⟨0, 0, 0⟩)) (rest := [(1, ⟨6, 6, 6⟩)]) (b := .cP) (by decide +kernel)
  have c : GridCase ⟨4, 0, 0, 0, 4, 0, 0, 0, 4⟩ (1 / 1000) 12 1 ab (0, ⟨0, 0, 0⟩) [(1, ⟨6, 6, 6⟩)] := by
    refine ⟨rfl, one_pos, by decide, by decide, by decide, by decide, ⟨by norm_num, ?_⟩, ?_⟩
    · rintro v (rfl | rfl | rfl) <;> norm_num [lenSq, Mat3.col0, Mat3.col1, Mat3.col2]
    · intro v hv
      obtain ⟨h1, h2, h3⟩ := comp_le (by norm_num) hv
      simp only [Mat3.mulVec_x, Mat3.mulVec_y, Mat3.mulVec_z, abs_le] at h1 h2 h3
      simp only [abs_lt]
      norm_num
      refine ⟨⟨?_, ?_⟩, ⟨?_, ?_⟩, ?_, ?_⟩ <;> linarith [h1.1, h1.2, h2.1, h2.2, h3.1, h3.2]
  obtain ⟨M, hM⟩ := c.identified hent hchk atol
  refine ⟨M, fun fuel hf => ?_⟩
  obtain ⟨gens, g1, g2, g3, -⟩ := hM fuel hf h hv
  obtain ⟨g4, sym, -, g5⟩ := g3 (by decide)
  exact ⟨gens, sym, g1, g2, g4, g5⟩

/-- diamond, in the primitive cell of the face-centred lattice: group 227. -/
example (h : HashOrders ℝ) (hv : h.Valid) (atol : ℝ) : ∃ M, ∀ fuel ≥ M, ∃ gens sym,
    (⟨1 / 1000, atol⟩ : SymmetryAnalyzer ℝ).getPrimitiveSpaceGroupOps h fuel
      (gridStructure ⟨0, 2, 2, 2, 0, 2, 2, 2, 0⟩ 24 ab [(0, ⟨0, 0, 0⟩), (0, ⟨6, 6, 6⟩)]) .cF = .ret gens ∧
    gens.length = 48 ∧
    SpaceGroup.fromGenerators fuel gens (Structure.fracTols ⟨0, 2, 2, 2, 0, 2, 2, 2, 0⟩ (1 / 1000)) = .ret gens ∧
    identifySpaceGroup h gens .Cubic (Structure.fracTols ⟨0, 2, 2, 2, 0, 2, 2, 2, 0⟩ (1 / 1000)) = .ret (some (227, sym)) := by
  obtain ⟨codes, hent, hchk⟩ := entryChecks_spec (num := 227) (sys := .Cubic) (n := 48) (N := 24) (k := 2)
    (z0 := (0, ⟨0, 0, 0⟩)) (rest := [(0, ⟨6, 6, 6⟩)]) (b := .cF) (by decide +kernel)
  have c : GridCase ⟨0, 2, 2, 2, 0, 2, 2, 2, 0⟩ (1 / 1000) 24 2 ab (0, ⟨0, 0, 0⟩) [(0, ⟨6, 6, 6⟩)] := by
    refine ⟨rfl, two_pos, by decide, by decide, by decide, by decide, ⟨by norm_num, ?_⟩, ?_⟩
    · rintro v (rfl | rfl | rfl) <;> norm_num [lenSq, Mat3.col0, Mat3.col1, Mat3.col2]
    · intro v hv
      obtain ⟨h1, h2, h3⟩ := comp_le (by norm_num) hv
      simp only [Mat3.mulVec_x, Mat3.mulVec_y, Mat3.mulVec_z, abs_le] at h1 h2 h3
      simp only [abs_lt]
      norm_num
      refine ⟨⟨?_, ?_⟩, ⟨?_, ?_⟩, ?_, ?_⟩ <;> linarith [h1.1, h1.2, h2.1, h2.2, h3.1, h3.2]
  obtain ⟨M, hM⟩ := c.identified hent hchk atol
  refine ⟨M, fun fuel hf => ?_⟩
  obtain ⟨gens, g1, g2, g3, -⟩ := hM fuel hf h hv
  obtain ⟨g4, sym, -, g5⟩ := g3 (by decide)
  exact ⟨gens, sym, g1, g2, g4, g5⟩

/-- **C59 (a group that is never identified).** One species on a fourfold screw axis, with the symmetry of group 91
(`P4_122`): the search finds its eight operations, but whatever `from_generators` returns for them is not identified. -/
theorem C59_false_screw_axis (h : HashOrders ℝ) (hv : h.Valid) (atol : ℝ) : ∃ M, ∀ fuel ≥ M, ∃ gens,
    (⟨1 / 1000, atol⟩ : SymmetryAnalyzer ℝ).getPrimitiveSpaceGroupOps h fuel
      (gridStructure ⟨4, 0, 0, 0, 4, 0, 0, 0, 9⟩ 12 ab
        [(0, ⟨0, 2, 0⟩), (0, ⟨0, -2, 6⟩), (0, ⟨-2, 0, 3⟩), (0, ⟨2, 0, 9⟩)]) .tP = .ret gens ∧
    gens.length = 8 ∧ ∀ sg,
      SpaceGroup.fromGenerators fuel gens (Structure.fracTols ⟨4, 0, 0, 0, 4, 0, 0, 0, 9⟩ (1 / 1000)) = .ret sg →
      ∀ sys x, identifySpaceGroup h sg sys (Structure.fracTols ⟨4, 0, 0, 0, 4, 0, 0, 0, 9⟩ (1 / 1000)) ≠ .ret (some x) := by
  obtain ⟨codes, hent, hchk⟩ := entryChecks_spec (num := 91) (sys := .Tetragonal) (n := 8) (N := 12) (k := 1)
    (z0 := (0, ⟨0, 2, 0⟩)) (rest := [(0, ⟨0, -2, 6⟩), (0, ⟨-2, 0, 3⟩), (0, ⟨2, 0, 9⟩)]) (b := .tP) (by decide +kernel)
  have c : GridCase ⟨4, 0, 0, 0, 4, 0, 0, 0, 9⟩ (1 / 1000) 12 1 ab (0, ⟨0, 2, 0⟩)
      [(0, ⟨0, -2, 6⟩), (0, ⟨-2, 0, 3⟩), (0, ⟨2, 0, 9⟩)] := by
    refine ⟨rfl, one_pos, by decide, by decide, by decide, by decide, ⟨by norm_num, ?_⟩, ?_⟩
    · rintro v (rfl | rfl | rfl) <;> norm_num [lenSq, Mat3.col0, Mat3.col1, Mat3.col2]
    · intro v hv
      obtain ⟨h1, h2, h3⟩ := comp_le (by norm_num) hv
      simp only [Mat3.mulVec_x, Mat3.mulVec_y, Mat3.mulVec_z, abs_le] at h1 h2 h3
      simp only [abs_lt]
      norm_num
      refine ⟨⟨?_, ?_⟩, ⟨?_, ?_⟩, ?_, ?_⟩ <;> linarith [h1.1, h1.2, h2.1, h2.2, h3.1, h3.2]
  obtain ⟨M, hM⟩ := c.identified hent hchk atol
  refine ⟨M, fun fuel hf => ?_⟩
  obtain ⟨gens, g1, g2, -, g3⟩ := hM fuel hf h hv
  exact ⟨gens, g1, g2, g3 (by decide)⟩

end CrystSymm
