import Verif.Proofs.RoundedFinish
import Verif.Proofs.RoundedOrder
import Verif.Model.Lib
import Verif.Props.RoundedCases

/-! # C87: `get_space_group_info` for a box, in floating-point arithmetic -/

set_option autoImplicit false
set_option linter.unusedSectionVars false
set_option linter.unusedSimpArgs false

namespace CrystSymm

open Spec Reducer SymmetryAnalyzer

section
variable {ρ : Rounding} {a b c dtol : RNum ρ} {r A : ℝ} {sp : List String} {ps : List (Vec3 ℝ)} {η : ℝ}
  {s : Structure (RNum ρ)}

/-- a crystal in a box with edges `a ≤ b ≤ c`: rounding with a relative error of `r ^ 2`; the tolerance between `0.01` and `1`
and at least `4000 A r` and `A / 16000`; the edges at least 61 tolerances long, at most `A`, and different by a tolerance, but
the first two or all three may be equal; the stored coordinates at most eight cells from the origin, and those of the positions `ps` up to lattice vectors and noise
`η ≤ dtol / (110 A)`; and the positions more than eight tolerances apart. -/
structure BoxCrystal (s : Structure (RNum ρ)) (a b c dtol : RNum ρ) (r A η : ℝ) (sp : List String) (ps : List (Vec3 ℝ)) : Prop where
  cell : BoxInput a b c dtol r A
  lattice : s.lattice = ⟨a, 0, 0, 0, b, 0, 0, 0, c⟩
  species : s.species = sp
  sites : SitesNear η 8 s.fracCoords ps
  noise0 : 0 ≤ η
  noise : 110 * A * η ≤ dtol.val
  len : sp.length = ps.length
  some : sp ≠ []
  few : sp.length < 65536
  apart : PosApart (valM ⟨a, 0, 0, 0, b, 0, 0, 0, c⟩) (8 * dtol.val) ps

/-- the same with the species in order. -/
structure BoxOrdered (s : Structure (RNum ρ)) (a b c dtol : RNum ρ) (r A η : ℝ) (sp : List String) (ps : List (Vec3 ℝ)) : Prop
    extends BoxCrystal s a b c dtol r A η sp ps where
  order : sp.Pairwise (· ≤ ·)

/-- the permutations of the axes, with signs. -/
def signedPerms : List (Mat3 Int8) :=
  ([1, -1] : List Int8).flatMap fun i => ([1, -1] : List Int8).flatMap fun j => ([1, -1] : List Int8).flatMap fun k =>
    [⟨i, 0, 0, 0, j, 0, 0, 0, k⟩, ⟨0, i, 0, j, 0, 0, 0, 0, k⟩, ⟨i, 0, 0, 0, 0, j, 0, k, 0⟩,
      ⟨0, 0, i, 0, j, 0, k, 0, 0⟩, ⟨0, i, 0, 0, 0, j, k, 0, 0⟩, ⟨0, 0, i, j, 0, 0, 0, k, 0⟩]

/-- the rotations of the axes of a box: the permutations of axes of equal length, with signs. -/
def boxRots (sys : LatticeSystem) : List (Mat3 Int8) :=
  signedPerms.filter fun W => match sys with
    | .Cubic => true
    | .Tetragonal => decide (W.m33 ≠ 0)
    | _ => decide (W.m11 ≠ 0 ∧ W.m22 ≠ 0)

example : (boxRots .Cubic).length = 48 ∧ (boxRots .Tetragonal).length = 16 ∧ (boxRots .Orthorhombic).length = 8 := by decide +kernel

/-- a structure in a box with almost the same edges, with the same species in the same order and almost the same
positions. -/
structure AlmostSame (s : Structure (RNum ρ)) (a b c dtol : RNum ρ) (η : ℝ) (sp : List String) (ps : List (Vec3 ℝ)) : Prop where
  lattice : ∃ a' b' c' : RNum ρ, s.lattice = ⟨a', 0, 0, 0, b', 0, 0, 0, c'⟩ ∧ |a'.val - a.val| ≤ dtol.val / 100000 ∧
    |b'.val - b.val| ≤ dtol.val / 100000 ∧ |c'.val - c.val| ≤ dtol.val / 100000
  species : s.species = sp
  sites : SitesNear η (3 / 2) s.fracCoords ps

/-- no shift other than those near a lattice vector maps the crystal onto itself within three tolerances. -/
def NoShifts (M : Mat3 ℝ) (d : ℝ) (sp : List String) (ps : List (Vec3 ℝ)) : Prop :=
  ∀ t, MapsWithin (idealOn M sp ps) (overK ℝ 1) t (3 * d) → DistMod M (9 / 2 * d) t 0

/-- the stages of the program. -/
structure Stages (sa : SymmetryAnalyzer (RNum ρ)) (h : HashOrders (RNum ρ)) (fuel : ℕ) (s : Structure (RNum ρ)) (a b c : RNum ρ)
    (ch : ℕ) (sp : List String) (ps : List (Vec3 ℝ)) (η : ℝ) (prim nig conv std : Structure (RNum ρ)) : Prop where
  prim_eq : sa.reducer.findPrimitiveCell h.minEle s = .ret prim
  nig_eq : sa.reducer.niggliReduce prim tol1em5 = .ret nig
  char_eq : conventionalTransformationMatrix nig = .ret (1, ch)
  conv_eq : nig.applyTransformation fuel 1 sa.dtol = .ret conv
  std_eq : conv.applyTransformation fuel 1 sa.dtol = .ret std
  prim_box : prim.lattice = rbox (newEdge a) (newEdge b) (newEdge c)
  nig_box : nig.lattice = rbox (newEdge a) (newEdge b) (newEdge c)
  conv_box : BoxState (newEdge a) (newEdge b) (newEdge c) sp ps η conv
  std_box : BoxState (newEdge a) (newEdge b) (newEdge c) sp ps η std

theorem BoxCrystal.small (hc : BoxCrystal s a b c dtol r A η sp ps) :
    100 * A * (10500 * (A * r ^ 2) + η) ≤ dtol.val := by
  have h1 := hc.noise
  have h2 := hc.cell.bounds.Au
  have h3 := hc.cell.lo
  have e : 100 * A * (10500 * (A * r ^ 2) + η) = 1050000 * (A * (A * r ^ 2)) + 10 / 11 * (110 * A * η) := by ring
  rw [e]
  linarith

theorem BoxCrystal.le_small (hc : BoxCrystal s a b c dtol r A η sp ps) {x : ℝ} (hx : x ≤ 10500 * (A * r ^ 2) + η) :
    100 * A * x ≤ dtol.val := by
  have h1 := hc.small
  have h2 := hc.cell.A1
  exact (mul_le_mul_of_nonneg_left hx (by linarith)).trans h1

theorem box_shape (hi : BoxInput a b c dtol r A) : ∃ bt sys ch, BoxShape a b c bt sys ch := by
  by_cases h2 : b = c
  · rcases hi.bc with e | e
    · exact ⟨_, _, _, .cubic e.1 e.2⟩
    · have := hi.lo
      rw [h2] at e
      linarith
  · by_cases h1 : a = b
    · exact ⟨_, _, _, .tetragonal h1 h2⟩
    · exact ⟨_, _, _, .orthorhombic h1 h2⟩

theorem shape_new (hi : BoxInput a b c dtol r A) {bt : BravaisType} {sys : LatticeSystem} {ch : ℕ} (hs : BoxShape a b c bt sys ch) :
    BoxShape (newEdge a) (newEdge b) (newEdge c) bt sys ch := by
  have hb := hi.bounds
  obtain ⟨l1, l2, l3⟩ := hb.lower
  obtain ⟨u1, u2, u3⟩ := hb.upper
  have hlo := hi.lo
  have ka := edge_near_abs hb (by linarith) u1 (edge_close hb l1 u1)
  have kb := edge_near_abs hb (by linarith) u2 (edge_close hb l2 u2)
  have kc := edge_near_abs hb (by linarith) u3 (edge_close hb l3 u3)
  have n1 : a ≠ b → newEdge a ≠ newEdge b := by
    intro hab e
    change |(newEdge a).val - a.val| ≤ _ at ka
    change |(newEdge b).val - b.val| ≤ _ at kb
    rw [e] at ka
    rw [abs_le] at ka kb
    have := hi.ab.resolve_left hab
    linarith [ka.1, kb.2, kb.1, ka.2]
  have n2 : b ≠ c → newEdge b ≠ newEdge c := by
    intro hab e
    change |(newEdge b).val - b.val| ≤ _ at kb
    change |(newEdge c).val - c.val| ≤ _ at kc
    rw [e] at kb
    rw [abs_le] at kb kc
    have := hi.bc.resolve_left fun x => hab x.2
    linarith [kb.1, kc.2, kc.1, kb.2]
  cases hs with
  | cubic h1 h2 => exact .cubic (by rw [h1]) (by rw [h2])
  | tetragonal h1 h2 => exact .tetragonal (by rw [h1]) (n2 h2)
  | orthorhombic h1 h2 => exact .orthorhombic (n1 h1) (n2 h2)

theorem box_stages (sa : SymmetryAnalyzer (RNum ρ)) (h : HashOrders (RNum ρ)) (hv : h.Valid) {fuel : ℕ} (hf : 2 ≤ fuel)
    (hc : BoxOrdered s a b c sa.dtol r A η sp ps) {bt : BravaisType} {sys : LatticeSystem} {ch : ℕ} (hs : BoxShape a b c bt sys ch)
    (hno : NoShifts (valM (rbox a b c)) sa.dtol.val sp ps) :
    ∃ prim nig conv std, Stages sa h fuel s a b c ch sp ps (10500 * (A * r ^ 2) + η) prim nig conv std := by
  have hi := hc.cell
  have hb := hi.bounds
  obtain ⟨l1, l2, l3⟩ := hb.lower
  obtain ⟨u1, u2, u3⟩ := hb.upper
  have hu0 := hb.u0
  have hru := hb.r2u
  have ea : EdgeNear 34 (A * r ^ 2) a (newEdge a) := edge_close hb l1 u1
  have eb : EdgeNear 34 (A * r ^ 2) b (newEdge b) := edge_close hb l2 u2
  have ec : EdgeNear 34 (A * r ^ 2) c (newEdge c) := edge_close hb l3 u3
  have hb' := hi.near ea eb ec (fun e => by rw [e]) (fun e => by rw [e])
  have hlo := hi.lo
  have hatoms' : BoxAtoms (newEdge a) (newEdge b) (newEdge c) sa.dtol sp ps :=
    ⟨hc.len, hc.some, hc.order, near_apart hb ea eb ec (by linarith) hc.apart⟩
  obtain ⟨prim, p1, p2⟩ := prim_state hi hc.len hc.some hc.few hc.order hc.apart hno hc.lattice hc.species hc.sites
    (hc.le_small (by linarith)) sa.reducer rfl hv.minEle
  obtain ⟨nig, n1, n2⟩ := niggli_state hb' hatoms' p2 sa.reducer rfl
  obtain ⟨conv, c1, c2⟩ := apply_box hb' hatoms' n2 (hc.le_small (by linarith)) hf
  obtain ⟨std, s1, s2⟩ := apply_box hb' hatoms' c2 (hc.le_small (by linarith)) hf
  exact ⟨prim, nig, conv, std, p1, n1, conv_box hb' (shape_new hi hs) nig n2.lattice, c1, s1, p2.lattice, n2.lattice,
    ⟨c2.lattice, c2.species, c2.sites.mono (by linarith) le_rfl, c2.cart⟩,
    ⟨s2.lattice, s2.species, s2.sites.mono (by linarith) le_rfl, s2.cart⟩⟩

theorem BoxOrdered.almost (hc : BoxOrdered s a b c dtol r A η sp ps) {std : Structure (RNum ρ)} {η' : ℝ}
    (h : BoxState (newEdge a) (newEdge b) (newEdge c) sp ps η' std) : AlmostSame std a b c dtol η' sp ps := by
  have hb := hc.cell.bounds
  obtain ⟨l1, l2, l3⟩ := hb.lower
  obtain ⟨u1, u2, u3⟩ := hb.upper
  exact ⟨⟨_, _, _, h.lattice, edge_near_abs hb (by linarith) u1 (edge_close hb l1 u1),
    edge_near_abs hb (by linarith) u2 (edge_close hb l2 u2), edge_near_abs hb (by linarith) u3 (edge_close hb l3 u3)⟩,
    h.species, h.sites⟩

theorem ordered_structures (sa : SymmetryAnalyzer (RNum ρ)) (h : HashOrders (RNum ρ)) (hv : h.Valid) (fuel : ℕ)
    (hf : 2 ≤ fuel) (hc : BoxOrdered s a b c sa.dtol r A η sp ps)
    (hno : NoShifts (valM ⟨a, 0, 0, 0, b, 0, 0, 0, c⟩) sa.dtol.val sp ps) :
    (∃ conv, sa.getStandardConventionalStructure h fuel s = .ret conv ∧
      AlmostSame conv a b c sa.dtol (10500 * (A * r ^ 2) + η) sp ps) ∧
    ∃ std, sa.getStandardPrimitiveStructure h fuel s = .ret std ∧
      AlmostSame std a b c sa.dtol (10500 * (A * r ^ 2) + η) sp ps := by
  obtain ⟨bt, sys, ch, hs⟩ := box_shape hc.cell
  obtain ⟨prim, nig, conv, std, S⟩ := box_stages sa h hv hf hc hs hno
  refine ⟨⟨conv, ?_, hc.almost S.conv_box⟩, std, ?_, hc.almost S.std_box⟩
  · unfold getStandardConventionalStructure
    rw [S.prim_eq]
    simp only [Outcome.ret_bind]
    rw [S.nig_eq]
    simp only [Outcome.ret_bind]
    rw [S.char_eq]
    simp only [Outcome.ret_bind]
    exact S.conv_eq
  · unfold getStandardPrimitiveStructure
    rw [S.prim_eq]
    simp only [Outcome.ret_bind]
    rw [S.nig_eq]
    simp only [Outcome.ret_bind]
    rw [S.char_eq]
    simp only [Outcome.ret_bind]
    rw [S.conv_eq]
    simp only [Outcome.ret_bind]
    rw [prim_box hs]
    simp only [Outcome.ret_bind]
    exact S.std_eq

theorem axis_holohedry {bt : BravaisType} {sys : LatticeSystem} {ch : ℕ} (hs : BoxShape a b c bt sys ch) {h : HashOrders ℝ} (hv : h.Valid)
    {fuel : ℕ} {pg : PointGroup} (hpg : primitiveHolohedry (K := ℝ) h fuel bt = .ret pg) :
    ∀ W, W ∈ pg.operations ↔ W ∈ boxRots sys := by
  intro W
  rw [(holo_perm hv hpg).mem_iff]
  have e1 : ∀ W ∈ (holoCodes .cP).map dec8, W ∈ boxRots .Cubic := by decide +kernel
  have e2 : ∀ W ∈ (holoCodes .tP).map dec8, W ∈ boxRots .Tetragonal := by decide +kernel
  have e3 : ∀ W ∈ (holoCodes .oP).map dec8, W ∈ boxRots .Orthorhombic := by decide +kernel
  have f1 : ∀ W ∈ boxRots .Cubic, W ∈ (holoCodes .cP).map dec8 := by decide +kernel
  have f2 : ∀ W ∈ boxRots .Tetragonal, W ∈ (holoCodes .tP).map dec8 := by decide +kernel
  have f3 : ∀ W ∈ boxRots .Orthorhombic, W ∈ (holoCodes .oP).map dec8 := by decide +kernel
  cases hs
  · exact ⟨e1 W, f1 W⟩
  · exact ⟨e2 W, f2 W⟩
  · exact ⟨e3 W, f3 W⟩

theorem nearly_kept {o' o : SymmOp (RNum ρ)} {q : SymmOp ℝ} {ν ν' : ℝ} (h : OpKept o' o) (h' : NearlyBy ν (exactOp o) q)
    (hν : ν + 6 / 10 ^ 7 ≤ ν') : NearlyBy ν' (exactOp o') q := by
  obtain ⟨r1, -, w, ⟨i1, i2, i3, rfl⟩, c⟩ := h
  obtain ⟨r2, w', d, ⟨j1, j2, j3, rfl⟩, e, d1, d2, d3⟩ := h'
  have e1 : (exactOp o').translation = valV o'.translation := rfl
  have e2 : (exactOp o).translation = valV o.translation := rfl
  refine ⟨r1.trans r2, ⟨i1 + j1, i2 + j2, i3 + j3⟩, (valV o'.translation - valV o.translation - ⟨i1, i2, i3⟩) + d,
    ⟨i1 + j1, i2 + j2, i3 + j3, by ext <;> simp⟩, ?_, ?_⟩
  · rw [e1]
    rw [e2] at e
    generalize valV o'.translation = u at *
    rw [e]
    ext <;> simp <;> ring
  · generalize valV o'.translation - valV o.translation - ⟨i1, i2, i3⟩ = u at *
    obtain ⟨c1, c2, c3⟩ := c
    simp only [Vec3.add_x, Vec3.add_y, Vec3.add_z]
    refine ⟨lt_of_le_of_lt (abs_add_le _ _) ?_, lt_of_le_of_lt (abs_add_le _ _) ?_, lt_of_le_of_lt (abs_add_le _ _) ?_⟩ <;> linarith

set_option maxHeartbeats 1000000 in
theorem ordered_info (sa : SymmetryAnalyzer (RNum ρ)) (hc : BoxOrdered s a b c sa.dtol r A η sp ps) {bt : BravaisType}
    {sys : LatticeSystem} {ch : ℕ} (hs : BoxShape a b c bt sys ch) (n num : ℕ) (codes : List ℕ) (table : List (SymmOp ℝ))
    (hent : IsTableEntry sys n num codes) (hgood : num ∉ crateBad) (htab : TableOps num codes table)
    (hsym : HasSymmetry (idealOn (valM ⟨a, 0, 0, 0, b, 0, 0, 0, c⟩) sp ps) (3 / 2 * sa.dtol.val) (boxRots sys) table) :
    ∃ N, ∀ fuel ≥ N, ∀ h : HashOrders (RNum ρ), h.Valid → ∃ sym ops, amapGet? sgNumToSymbol num = some sym ∧
      sa.getSpaceGroupInfo h fuel s = .ret (num, sym, ops) ∧
      ∃ table' : List (SymmOp ℝ), table'.Perm table ∧
        List.Forall₂ (fun o q => NearlyBy (4 * (η + 10500 * (A * r ^ 2)) + 7 / 10 ^ 7) (exactOp o) q) ops table' := by
  obtain ⟨M, hM⟩ := C35_primitive_holohedry_returns (K := ℝ)
  refine ⟨max M 2, fun fuel hf h hv => ?_⟩
  have hf2 : 2 ≤ fuel := le_trans (le_max_right _ _) hf
  have hi := hc.cell
  have hb := hi.bounds
  have hlo := hi.lo
  obtain ⟨l1, l2, l3⟩ := hb.lower
  obtain ⟨u1, u2, u3⟩ := hb.upper
  have hu0 := hb.u0
  have hu1 := hb.u1
  have hhi := hb.hi
  have ea : EdgeNear 34 (A * r ^ 2) a (newEdge a) := edge_close hb l1 u1
  have eb : EdgeNear 34 (A * r ^ 2) b (newEdge b) := edge_close hb l2 u2
  have ec : EdgeNear 34 (A * r ^ 2) c (newEdge c) := edge_close hb l3 u3
  have hb' := hi.near ea eb ec (fun e => by rw [e]) (fun e => by rw [e])
  obtain ⟨l1', l2', l3'⟩ := hb'.lower
  obtain ⟨u1', u2', u3'⟩ := hb'.upper
  obtain ⟨prim, nig, conv, std, S⟩ := box_stages sa h hv hf2 hc hs (no_translations hent htab (by linarith) hsym)
  -- the holohedry
  have hv' : (exactOrders h).Valid := ⟨fun _ => .refl _, hv.pointOps, fun _ => .refl _, fun _ => .refl _,
    fun _ _ => .refl _, fun _ => .refl _⟩
  obtain ⟨pg, hpg'⟩ := hM fuel (le_trans (le_max_left _ _) hf) _ hv' bt
  obtain ⟨hδ, hd⟩ := hb.search.delta
  have hpg : primitiveHolohedry (K := RNum ρ) h fuel bt = .ret pg := by
    rw [C86_holohedry hδ (hd.trans (by norm_num)) h (exactOrders h) rfl hv.pointOps]
    exact hpg'
  have hrots := axis_holohedry hs hv' hpg'
  have hsym' : HasSymmetry (idealOn (valM std.lattice) sp ps) (5 / 4 * sa.dtol.val) pg.operations table := by
    rw [S.std_box.lattice]
    have := near_symmetry hb ea eb ec hc.len hc.some hc.apart hsym
    exact ⟨fun o ho => ⟨(hrots _).2 (this.exact o ho).1, (this.exact o ho).2⟩, fun W hW => this.only W ((hrots W).1 hW)⟩
  -- the search
  have hη0 := hc.noise0
  have hη' : 0 ≤ 10500 * (A * r ^ 2) + η := by linarith
  have hb2 : SearchBounds std.lattice sa.dtol r A := by rw [S.std_box.lattice]; exact hb'.search
  have ho : Sorted std := ⟨by rw [S.std_box.species, S.std_box.sites.length, hc.len], by rw [S.std_box.species]; exact hc.few,
    by rw [S.std_box.species]; exact hc.order⟩
  have hid : Approximates std (idealOn (valM std.lattice) sp ps) (10500 * (A * r ^ 2) + η) := by
    refine ⟨rfl, S.std_box.species.symm, S.std_box.sites.length.symm, fun i p q hp hq => ?_⟩
    obtain ⟨q', hq', -, hcl⟩ := S.std_box.sites.get hp
    simp only [idealOn] at hq
    rw [hq, Option.some.injEq] at hq'
    exact hq' ▸ hcl
  have hap' : PosApart (valM std.lattice) (5 * sa.dtol.val) ps := by
    rw [S.std_box.lattice]
    exact near_apart hb ea eb ec (by linarith) hc.apart
  have hsep : Separated (idealOn (valM std.lattice) sp ps) (5 / 4 * sa.dtol.val) := by
    intro i j e p q hi hj hij w hw
    unfold sites at hi hj
    rw [List.getElem?_zip_eq_some] at hi hj
    by_contra hle
    rw [not_lt, ← mag_le_iff (by linarith)] at hle
    exact hap'.get hij hi.2 hj.2 ⟨w, hw, hle.trans (by linarith)⟩
  have hready : SearchReady std sa.dtol r A :=
    ⟨ho, hb2, fun p hp => (S.std_box.sites.comps p hp).mono (by norm_num), hid.separated hη' ho hb2 hc.small hsep⟩
  have hedge : EdgesAtLeast std.lattice sa.dtol 25 := by
    rw [S.std_box.lattice]
    unfold EdgesAtLeast
    rw [valM_rbox]
    have k1 := hb'.ea
    have k2 := hb'.le1
    have k3 := hb'.le2
    have key : ∀ x : ℝ, 25 * sa.dtol.val ≤ x → (25 * sa.dtol.val) ^ 2 ≤ x * x := by
      intro x hx
      have := mul_le_mul hx hx (by linarith) (by linarith)
      nlinarith
    intro v hv
    rcases hv with rfl | rfl | rfl <;> simp only [lenSq, Mat3.col0, Mat3.col1, Mat3.col2, mul_zero, add_zero, zero_add]
    · exact key _ (by linarith)
    · exact key _ (by linarith)
    · exact key _ (by linarith)
  obtain ⟨gens, g1, -, g3, sym, g4, g5⟩ := C86_group_identified sa h hv fuel hf2 std bt hready
    (by rw [S.std_box.species]; exact hc.some) hedge pg hpg _ _ hη' hid hc.small sys n num codes table hent htab hsym'
  obtain ⟨hle, table', hperm, hnear⟩ := rounded_search_table hv hready hpg hη' hid hc.small hent htab hsym' g1
  have hclosed := g3 hgood
  -- the operations in the basis of the input
  have hrot : gens.map (fun o => o.rotation) = table'.map fun o => o.rotation := by
    clear g1 g3 g5 hclosed hle hperm
    induction hnear with
    | nil => rfl
    | cons h0 _ ih => rw [List.map_cons, List.map_cons, ih]; congr 1; exact h0.1
  have hnd : (gens.map fun o => o.rotation).Nodup := by
    rw [hrot]
    exact ((hperm.map _).nodup_iff).2 (table_rotations hent htab)
  have hne : gens ≠ [] := by
    intro h0
    obtain ⟨o, ho, -⟩ := table_identity hent htab
    rw [h0] at hrot
    have : table' = [] := by simpa using hrot.symm
    rw [this] at hperm
    rw [hperm.symm.eq_nil] at ho
    simp at ho
  have hW : ∀ o ∈ gens, EntriesOne o.rotation ∧ TransLe 2 o := by
    intro o ho
    refine ⟨?_, hle o ho⟩
    have h1 : o.rotation ∈ gens.map fun o => o.rotation := List.mem_map_of_mem ho
    rw [hrot] at h1
    obtain ⟨q, hq, e⟩ := List.mem_map.1 h1
    rw [← e]
    exact table_entries htab (hperm.mem_iff.1 hq)
  obtain ⟨ops, k1, k2⟩ := group_kept hb' (total_near hi l1 u1 l1' u1') (total_near hi l2 u2 l2' u2') (total_near hi l3 u3 l3' u3')
    gens hne hW hnd hf2
  refine ⟨sym, ops, g4, ?_, table', hperm, ?_⟩
  · have hpinv : FTrans.pinv (rbox (newEdge a) (newEdge b) (newEdge c)) =
        rbox (1 / newEdge a) (1 / newEdge b) (1 / newEdge c) := rbox_pinv (by linarith) (by linarith) (by linarith)
    have hsys : Outcome.ofOption "Problem determining lattice system." (BravaisType.latticeSystem? bt) =
        .ret sys := by cases hs <;> decide
    unfold getSpaceGroupInfo
    rw [S.prim_eq]
    simp only [Outcome.ret_bind]
    rw [S.nig_eq]
    simp only [Outcome.ret_bind]
    rw [S.char_eq]
    simp only [Outcome.ret_bind]
    rw [S.conv_eq]
    simp only [Outcome.ret_bind]
    rw [prim_box hs]
    simp only [Outcome.ret_bind]
    rw [S.std_eq]
    simp only [Outcome.ret_bind]
    rw [g1]
    simp only [Outcome.ret_bind]
    rw [hclosed]
    simp only [Outcome.ret_bind]
    rw [hsys]
    simp only [Outcome.ret_bind]
    rw [g5]
    simp only [Outcome.ret_bind, Outcome.ofOption]
    rw [one_tryInverse]
    simp only [Outcome.ret_bind]
    unfold Structure.getTransformationMatrix
    rw [S.prim_box, S.nig_box, S.std_box.lattice, hc.lattice, hpinv, rbox_one, rbox_mul]
    change (SpaceGroup.applyTransformation fuel gens (rbox (1 * 1) (1 * 1) (1 * 1) * (_ * _) * (_ * rbox a b c)) _).bind _ = _
    rw [rbox_mul, rbox_mul, rbox_mul, rbox_mul]
    simp only [RNum.one_mul']
    rw [k1]
    rfl
  · clear g1 g3 g5 hclosed hle hperm hrot hnd hne hW k1
    induction k2 generalizing table' with
    | nil => cases hnear; exact .nil
    | cons h0 _ ih =>
      cases hnear with
      | cons n0 n1 =>
        refine .cons ?_ (ih _ n1)
        have hs : 4 * (10500 * (A * r ^ 2) + η) + 1 / 160000000 + 6 / 10 ^ 7 ≤ 4 * (η + 10500 * (A * r ^ 2)) + 7 / 10 ^ 7 := by
          norm_num
          linarith
        exact nearly_kept h0 n0 hs


/-! ### Species in any order -/

theorem idealOn_mem {M : Mat3 ℝ} {sp sp' : List String} {ps ps' : List (Vec3 ℝ)} (h : (sp'.zip ps').Perm (sp.zip ps)) (x : String × Vec3 ℝ) :
    x ∈ sites (idealOn M sp' ps') ↔ x ∈ sites (idealOn M sp ps) := h.mem_iff

theorem maps_perm {M : Mat3 ℝ} {sp sp' : List String} {ps ps' : List (Vec3 ℝ)} (h : (sp'.zip ps').Perm (sp.zip ps)) {W : Mat3 ℝ}
    {t : Vec3 ℝ} {d : ℝ} (hm : MapsWithin (idealOn M sp' ps') W t d) : MapsWithin (idealOn M sp ps) W t d := by
  intro e p hp
  obtain ⟨q, hq, w⟩ := hm e p ((idealOn_mem h _).2 hp)
  exact ⟨q, (idealOn_mem h _).1 hq, w⟩

theorem symmetry_perm {M : Mat3 ℝ} {sp sp' : List String} {ps ps' : List (Vec3 ℝ)} (h : (sp'.zip ps').Perm (sp.zip ps)) {d : ℝ}
    {rots : List (Mat3 Int8)} {table : List (SymmOp ℝ)} (hs : HasSymmetry (idealOn M sp ps) d rots table) :
    HasSymmetry (idealOn M sp' ps') d rots table := by
  refine ⟨fun o ho => ⟨(hs.exact o ho).1, fun e p hp => ?_⟩, fun W hW t ht => hs.only W hW t (maps_perm h ht)⟩
  obtain ⟨q, hq, w⟩ := (hs.exact o ho).2 e p ((idealOn_mem h _).1 hp)
  exact ⟨q, (idealOn_mem h _).2 hq, w⟩

theorem NoShifts.perm {M : Mat3 ℝ} {sp sp' : List String} {ps ps' : List (Vec3 ℝ)} (h : (sp'.zip ps').Perm (sp.zip ps)) {d : ℝ}
    (hs : NoShifts M d sp ps) : NoShifts M d sp' ps' := fun t ht => hs t (maps_perm h ht)

/-- the sites sorted by species: the three functions return the same. -/
theorem BoxCrystal.sorted (hc : BoxCrystal s a b c dtol r A η sp ps) : ∃ s' sp' ps', BoxOrdered s' a b c dtol r A η sp' ps' ∧
    (sp'.zip ps').Perm (sp.zip ps) ∧
    ∀ (sa : SymmetryAnalyzer (RNum ρ)) (h : HashOrders (RNum ρ)) (fuel : ℕ),
      sa.getSpaceGroupInfo h fuel s = sa.getSpaceGroupInfo h fuel s' ∧
      sa.getStandardConventionalStructure h fuel s = sa.getStandardConventionalStructure h fuel s' ∧
      sa.getStandardPrimitiveStructure h fuel s = sa.getStandardPrimitiveStructure h fuel s' := by
  have hl1 : s.species.length = ps.length := by rw [hc.species]; exact hc.len
  have hl2 : s.fracCoords.length = ps.length := hc.sites.length
  let T := s.species.zip (s.fracCoords.zip ps)
  have e1 : T.map Prod.fst = s.species := List.map_fst_zip (by simp [hl1, hl2])
  have e23 : T.map Prod.snd = s.fracCoords.zip ps := List.map_snd_zip (by simp [hl1, hl2])
  have e2 : (T.map fun t => t.2.1) = s.fracCoords := by
    have : (T.map fun t => t.2.1) = (T.map Prod.snd).map Prod.fst := by rw [List.map_map]; rfl
    rw [this, e23, List.map_fst_zip (by simp [hl2])]
  have e3 : (T.map fun t => t.2.2) = ps := by
    have : (T.map fun t => t.2.2) = (T.map Prod.snd).map Prod.snd := by rw [List.map_map]; rfl
    rw [this, e23, List.map_snd_zip (by simp [hl2])]
  have hperm : (T.mergeSort (keyLe Prod.fst)).Perm T := List.mergeSort_perm _ _
  have hnear : ∀ t ∈ T, CompsLe (valV t.2.1) 8 ∧ CloseMod η (valV t.2.1) t.2.2 := by
    have h := hc.sites
    unfold SitesNear at h
    rw [← e2, ← e3, List.forall₂_map_left_iff, List.forall₂_map_right_iff, List.forall₂_same] at h
    exact h
  have hsp : (T.mergeSort (keyLe Prod.fst)).map Prod.fst ≠ [] := by
    intro h0
    have := (hperm.map Prod.fst).length_eq
    rw [h0, e1, hc.species] at this
    exact hc.some (List.length_eq_zero_iff.1 this.symm)
  refine ⟨sortedBy s.lattice T, (T.mergeSort (keyLe Prod.fst)).map Prod.fst, (T.mergeSort (keyLe Prod.fst)).map fun t => t.2.2,
    ⟨⟨hc.cell, hc.lattice, rfl, ?_, hc.noise0, hc.noise, by simp, hsp, ?_, ?_⟩, sortedBy_order s.lattice T⟩, ?_,
    fun sa h fuel => info_sortedBy e1.symm e2.symm sa h fuel⟩
  · unfold SitesNear sortedBy
    simp only
    rw [List.forall₂_map_left_iff, List.forall₂_map_right_iff, List.forall₂_same]
    exact fun t ht => hnear t (hperm.mem_iff.1 ht)
  · rw [(hperm.map Prod.fst).length_eq, e1, hc.species]
    exact hc.few
  · refine hc.apart.perm ?_
    have := hperm.map fun t => t.2.2
    rw [e3] at this
    exact this.symm
  · rw [List.zip_map']
    have := hperm.map fun t => (t.1, t.2.2)
    refine this.trans (List.Perm.of_eq ?_)
    rw [← hc.species, ← e1]
    conv_rhs => rw [← e3]
    rw [List.zip_map']

/-- **C87 (standard structures).** A crystal in a box that no shift maps onto itself: `get_standard_conventional_structure`
and `get_standard_primitive_structure` return, for all hash orders, a box with the same sites, sorted by species, edges that
differ by at most `dtol / 10⁵` and positions that differ by the noise and `10500 A r²`. -/
theorem C87_standard_structures (sa : SymmetryAnalyzer (RNum ρ)) (h : HashOrders (RNum ρ)) (hv : h.Valid) (fuel : ℕ)
    (hf : 2 ≤ fuel) (hc : BoxCrystal s a b c sa.dtol r A η sp ps)
    (hno : NoShifts (valM ⟨a, 0, 0, 0, b, 0, 0, 0, c⟩) sa.dtol.val sp ps) :
    ∃ sp' ps', (sp'.zip ps').Perm (sp.zip ps) ∧ sp'.length = ps'.length ∧ sp'.Pairwise (· ≤ ·) ∧
    (∃ conv, sa.getStandardConventionalStructure h fuel s = .ret conv ∧
      AlmostSame conv a b c sa.dtol (10500 * (A * r ^ 2) + η) sp' ps') ∧
    ∃ std, sa.getStandardPrimitiveStructure h fuel s = .ret std ∧
      AlmostSame std a b c sa.dtol (10500 * (A * r ^ 2) + η) sp' ps' := by
  obtain ⟨s', sp', ps', ho, hp, heq⟩ := hc.sorted
  obtain ⟨-, e2, e3⟩ := heq sa h fuel
  rw [e2, e3]
  exact ⟨sp', ps', hp, ho.len, ho.order, ordered_structures sa h hv fuel hf ho (hno.perm hp)⟩

/-- **C87.** A crystal in a box whose symmetry operations with a rotation of the axes are those of a table entry of the
system of the box: for all hash orders `get_space_group_info` returns the number of the entry and its symbol, and a list of
operations that are the operations of the table, in some order: the rotations are the same, and the translations agree up to
lattice vectors and `4 (η + 10500 A r²) + 7 · 10⁻⁷`. -/
theorem C87_space_group_info (sa : SymmetryAnalyzer (RNum ρ)) (hc : BoxCrystal s a b c sa.dtol r A η sp ps) {bt : BravaisType}
    {sys : LatticeSystem} {ch : ℕ} (hs : BoxShape a b c bt sys ch) (n num : ℕ) (codes : List ℕ) (table : List (SymmOp ℝ))
    (hent : IsTableEntry sys n num codes) (hgood : num ∉ crateBad) (htab : TableOps num codes table)
    (hsym : HasSymmetry (idealOn (valM ⟨a, 0, 0, 0, b, 0, 0, 0, c⟩) sp ps) (3 / 2 * sa.dtol.val) (boxRots sys) table) :
    ∃ N, ∀ fuel ≥ N, ∀ h : HashOrders (RNum ρ), h.Valid → ∃ sym ops, amapGet? sgNumToSymbol num = some sym ∧
      sa.getSpaceGroupInfo h fuel s = .ret (num, sym, ops) ∧
      ∃ table' : List (SymmOp ℝ), table'.Perm table ∧
        List.Forall₂ (fun o q => NearlyBy (4 * (η + 10500 * (A * r ^ 2)) + 7 / 10 ^ 7) (exactOp o) q) ops table' := by
  obtain ⟨s', sp', ps', ho, hp, heq⟩ := hc.sorted
  obtain ⟨N, hN⟩ := ordered_info sa ho hs n num codes table hent hgood htab (symmetry_perm hp hsym)
  refine ⟨N, fun fuel hf h hv => ?_⟩
  rw [(heq sa h fuel).1]
  exact hN fuel hf h hv

/-! ### The function called from Python -/

/-- an operation as it is handed to Python: the nine entries of the rotation row by row, and three numbers that are the
translation up to a lattice vector and `ν`. -/
def ListedNear (ν : ℝ) (o : List Int8 × List (RNum ρ)) (q : SymmOp ℝ) : Prop :=
  ∃ x y z : RNum ρ, o = ([q.rotation.m11, q.rotation.m12, q.rotation.m13, q.rotation.m21, q.rotation.m22, q.rotation.m23,
    q.rotation.m31, q.rotation.m32, q.rotation.m33], [x, y, z]) ∧ ∃ i j k : ℤ,
    |x.val - q.translation.x - i| < ν ∧ |y.val - q.translation.y - j| < ν ∧ |z.val - q.translation.z - k| < ν

theorem listed_near {ν : ℝ} {o : SymmOp (RNum ρ)} {q : SymmOp ℝ} (h : NearlyBy ν (exactOp o) q) : ListedNear ν (PyApi.opToLists o) q := by
  obtain ⟨h1, w, d, ⟨i, j, k, rfl⟩, e, d1, d2, d3⟩ := h
  have h1' : o.rotation = q.rotation := h1
  have e' : valV o.translation = q.translation + ⟨i, j, k⟩ + d := e
  refine ⟨o.translation.x, o.translation.y, o.translation.z, ?_, i, j, k, ?_, ?_, ?_⟩
  · rw [← h1']; rfl
  · have := congrArg Vec3.x e'
    simp only [valV, Vec3.map, Vec3.add_x] at this
    rw [this]
    convert d1 using 2
    ring
  · have := congrArg Vec3.y e'
    simp only [valV, Vec3.map, Vec3.add_y] at this
    rw [this]
    convert d2 using 2
    ring
  · have := congrArg Vec3.z e'
    simp only [valV, Vec3.map, Vec3.add_z] at this
    rw [this]
    convert d3 using 2
    ring

theorem box_input (a b c : RNum ρ) (sp : List String) (cs : List (Vec3 (RNum ρ))) (cart : Bool) :
    PyApi.generateInputStructure [a, 0, 0, 0, b, 0, 0, 0, c] sp (cs.map fun p => [p.x, p.y, p.z]) cart =
      .ret (Structure.new ⟨a, 0, 0, 0, b, 0, 0, 0, c⟩ sp cs cart) := by
  unfold PyApi.generateInputStructure
  have h : mapOutcome PyApi.coordOfList (cs.map fun p => [p.x, p.y, p.z]) = .ret cs := by
    induction cs with
    | nil => rfl
    | cons p cs ih =>
      simp only [List.map_cons, mapOutcome]
      rw [ih]
      rfl
  rw [h]
  rfl

/-- the Cartesian coordinates `cs` are at most `3 A` and seven cells from the origin, and those of the positions `ps` up to
lattice vectors and noise. -/
def CartNear (a b c : RNum ρ) (A η : ℝ) (cs : List (Vec3 (RNum ρ))) (ps : List (Vec3 ℝ)) : Prop :=
  List.Forall₂ (fun p q => CompsLe (valV p) (3 * A) ∧ CompsLe ⟨p.x.val / a.val, p.y.val / b.val, p.z.val / c.val⟩ 7 ∧
    CloseMod η ⟨p.x.val / a.val, p.y.val / b.val, p.z.val / c.val⟩ q) cs ps

theorem cart_sites (hb : BoxBounds a b c dtol r A) {cs : List (Vec3 (RNum ρ))} (h : CartNear a b c A η cs ps) :
    SitesNear (η + 15 * (A * r ^ 2)) 8 (Structure.new ⟨a, 0, 0, 0, b, 0, 0, 0, c⟩ sp cs true).fracCoords ps := by
  obtain ⟨l1, l2, l3⟩ := hb.lower
  have hu1 := hb.u1
  have hhi := hb.hi
  have hpinv : FTrans.pinv (⟨a, 0, 0, 0, b, 0, 0, 0, c⟩ : Mat3 (RNum ρ)) = rbox (1 / a) (1 / b) (1 / c) :=
    rbox_pinv (by linarith) (by linarith) (by linarith)
  unfold Structure.new SitesNear
  simp only [if_true, Structure.getFracCoords]
  rw [hpinv, List.forall₂_map_left_iff]
  refine h.imp fun p q ⟨⟨b1, b2, b3⟩, ⟨n1, n2, n3⟩, w, hw, c1, c2, c3⟩ => ?_
  have q1 := quot_close hb (x := a) (y := p.x) (by linarith) b1
  have q2 := quot_close hb (x := b) (y := p.y) (by linarith) b2
  have q3 := quot_close hb (x := c) (y := p.z) (by linarith) b3
  rw [rbox_mulVec]
  simp only [Vec3.sub_x, Vec3.sub_y, Vec3.sub_z] at c1 c2 c3
  simp only at n1 n2 n3
  refine ⟨⟨?_, ?_, ?_⟩, w, hw, ?_, ?_, ?_⟩ <;>
    simp only [valV, Vec3.map, Vec3.sub_x, Vec3.sub_y, Vec3.sub_z] <;> rw [abs_le] at * <;> constructor <;> linarith

/-- **C87 (Python).** The function `get_space_group_info` that Python calls, given the lattice of the box as nine numbers, the
species and the coordinates as lists, fractional or Cartesian: it returns the number and the symbol of the entry and the
operations of the table, in some order, each as nine integers and three numbers. -/
theorem C87_python (atol : RNum ρ) (cs : List (Vec3 (RNum ρ))) (cart : Bool) (hi : BoxInput a b c dtol r A)
    (hcs : if cart then CartNear a b c A η cs ps else SitesNear (η + 15 * (A * r ^ 2)) 8 cs ps) (hη : 0 ≤ η)
    (hnoise : 110 * A * (η + 15 * (A * r ^ 2)) ≤ dtol.val) (hlen : sp.length = ps.length) (hsome : sp ≠ []) (hfew : sp.length < 65536)
    (hapart : PosApart (valM ⟨a, 0, 0, 0, b, 0, 0, 0, c⟩) (8 * dtol.val) ps) {bt : BravaisType}
    {sys : LatticeSystem} {ch : ℕ} (hs : BoxShape a b c bt sys ch) (n num : ℕ) (codes : List ℕ) (table : List (SymmOp ℝ))
    (hent : IsTableEntry sys n num codes) (hgood : num ∉ crateBad) (htab : TableOps num codes table)
    (hsym : HasSymmetry (idealOn (valM ⟨a, 0, 0, 0, b, 0, 0, 0, c⟩) sp ps) (3 / 2 * dtol.val) (boxRots sys) table) :
    ∃ N, ∀ fuel ≥ N, ∀ h : HashOrders (RNum ρ), h.Valid → ∃ sym ops, amapGet? sgNumToSymbol num = some sym ∧
      PyApi.getSpaceGroupInfo h fuel [a, 0, 0, 0, b, 0, 0, 0, c] sp (cs.map fun p => [p.x, p.y, p.z]) cart dtol atol =
        .ret (num, sym, ops) ∧
      ∃ table' : List (SymmOp ℝ), table'.Perm table ∧
        List.Forall₂ (ListedNear (4 * (η + 10515 * (A * r ^ 2)) + 7 / 10 ^ 7)) ops table' := by
  have hb := hi.bounds
  have hu0 := hb.u0
  have hc : BoxCrystal (Structure.new ⟨a, 0, 0, 0, b, 0, 0, 0, c⟩ sp cs cart) a b c dtol r A (η + 15 * (A * r ^ 2)) sp ps := by
    refine ⟨hi, ?_, ?_, ?_, by linarith, hnoise, hlen, hsome, hfew, hapart⟩
    · cases cart <;> rfl
    · cases cart <;> rfl
    · cases cart with
      | false => exact hcs
      | true => exact cart_sites hb hcs
  obtain ⟨N, hN⟩ := C87_space_group_info ⟨dtol, atol⟩ hc hs n num codes table hent hgood htab hsym
  refine ⟨N, fun fuel hf h hv => ?_⟩
  obtain ⟨sym, ops, h1, h2, table', h3, h4⟩ := hN fuel hf h hv
  refine ⟨sym, ops.map PyApi.opToLists, h1, ?_, table', h3, ?_⟩
  · unfold PyApi.getSpaceGroupInfo
    rw [box_input]
    simp only [Outcome.ret_bind]
    rw [h2]
    rfl
  · rw [List.forall₂_map_left_iff]
    refine h4.imp fun o q hoq => listed_near ?_
    have e : 4 * (η + 15 * (A * r ^ 2) + 10500 * (A * r ^ 2)) + 7 / 10 ^ 7 = 4 * (η + 10515 * (A * r ^ 2)) + 7 / 10 ^ 7 := by ring
    rwa [e] at hoq

end

/-! ## Positions that are fractions, in binary64 -/

/-- some component of the difference is at least `m` away from the multiples of `N`. -/
def farZ (N m : ℤ) (u v : Vec3 ℤ) : Bool :=
  decide (m ≤ (u.x - v.x) % N ∧ (u.x - v.x) % N ≤ N - m) || decide (m ≤ (u.y - v.y) % N ∧ (u.y - v.y) % N ≤ N - m) ||
    decide (m ≤ (u.z - v.z) % N ∧ (u.z - v.z) % N ≤ N - m)

theorem far_multiple {N m D x : ℤ} (hN : 0 < N) (h1 : m ≤ D % N) (h2 : D % N ≤ N - m) {t : ℝ} (ht : |t| < m / N)
    (he : (D : ℝ) / N - x = t) : False := by
  have hNr : (0 : ℝ) < N := by exact_mod_cast hN
  rw [← he, show (D : ℝ) / N - x = ((D - N * x : ℤ) : ℝ) / N by push_cast; field_simp, abs_div, abs_of_pos hNr,
    div_lt_div_iff_of_pos_right hNr] at ht
  have h3 : |D - N * x| < m := by exact_mod_cast ht
  have h4 := Int.emod_add_mul_ediv D N
  have h5 : D - N * x = D % N + N * (D / N - x) := by linarith
  rw [h5, abs_lt] at h3
  rcases le_or_gt 0 (D / N - x) with h | h
  · nlinarith [mul_nonneg hN.le h]
  · have : D / N - x ≤ -1 := by omega
    nlinarith [mul_le_mul_of_nonneg_left this hN.le]

theorem grid_apart {M : Mat3 ℝ} {d : ℝ} {N m : ℤ} (hN : 0 < N) (hd : 0 ≤ d)
    (hshort : ∀ v : Vec3 ℝ, lenSq (M * v) ≤ d ^ 2 → |v.x| < m / N ∧ |v.y| < m / N ∧ |v.z| < m / N)
    {zs : List (ℕ × Vec3 ℤ)} (h : zs.Pairwise fun p q => farZ N m p.2 q.2 = true) : PosApart M d (zs.map fun p => gridPos N p.2) := by
  unfold PosApart
  rw [List.pairwise_map]
  refine h.imp fun {p q} hpq hdm => ?_
  obtain ⟨w, ⟨x, y, z, rfl⟩, hm⟩ := hdm
  rw [mag_le_iff hd] at hm
  obtain ⟨a1, a2, a3⟩ := hshort _ hm
  unfold farZ at hpq
  simp only [Bool.or_eq_true, decide_eq_true_eq] at hpq
  rcases hpq with (⟨h1, h2⟩ | ⟨h1, h2⟩) | ⟨h1, h2⟩
  · refine far_multiple (x := x) hN h1 h2 a1 ?_
    simp only [gridPos, Vec3.sub_x, Vec3.map]; push_cast; ring
  · refine far_multiple (x := y) hN h1 h2 a2 ?_
    simp only [gridPos, Vec3.sub_y, Vec3.map]; push_cast; ring
  · refine far_multiple (x := z) hN h1 h2 a3 ?_
    simp only [gridPos, Vec3.sub_z, Vec3.map]; push_cast; ring

theorem box_short {x y z d t : ℝ} (ht : 0 < t) (hd : 0 < d) (hx : d < t * x) (hy : d < t * y) (hz : d < t * z)
    (v : Vec3 ℝ) (h : lenSq ((⟨x, 0, 0, 0, y, 0, 0, 0, z⟩ : Mat3 ℝ) * v) ≤ d ^ 2) : |v.x| < t ∧ |v.y| < t ∧ |v.z| < t := by
  obtain ⟨h1, h2, h3⟩ := comp_le hd h
  simp only [Mat3.mulVec_x, Mat3.mulVec_y, Mat3.mulVec_z, zero_mul, add_zero, zero_add] at h1 h2 h3
  have key : ∀ {s e : ℝ}, d < t * e → |e * s| ≤ d → |s| < t := by
    intro s e he hs
    have he0 : 0 < e := by
      by_contra h0
      have := mul_nonpos_of_nonneg_of_nonpos ht.le (not_lt.1 h0)
      linarith
    rw [abs_mul, abs_of_pos he0] at hs
    by_contra hc
    have := mul_le_mul_of_nonneg_left (not_lt.1 hc) he0.le
    linarith [mul_comm t e]
  exact ⟨key hx h1, key hy h2, key hz h3⟩

set_option maxHeartbeats 1000000 in
theorem grid_box {a b c dtol : RNum binary64} {N k : ℤ} (hN : N = 12 * k) (hk : 0 < k) {nm : ℕ → String}
    {z0 : ℕ × Vec3 ℤ} {rest : List (ℕ × Vec3 ℤ)}
    (hnames : ∀ p ∈ z0 :: rest, ∀ q ∈ z0 :: rest, nm p.1 = nm q.1 → p.1 = q.1)
    {m : ℤ} (hm : 0 < m) (hfar : (z0 :: rest).Pairwise fun p q => farZ N m p.2 q.2 = true)
    (hlo : 1 / 100 ≤ dtol.val) (hhi : dtol.val ≤ 1) (h61 : 61 * dtol.val ≤ a.val) (hgrid : 6 * N * dtol.val < a.val)
    (hsep : 8 * N * dtol.val < m * a.val)
    (hab : a = b ∨ a.val + dtol.val ≤ b.val) (hbc : (a = b ∧ b = c) ∨ b.val + dtol.val ≤ c.val) (hc : c.val ≤ 15999 * dtol.val)
    {bt : BravaisType} {sys : LatticeSystem} {ch : ℕ} (hs : BoxShape a b c bt sys ch) {num : ℕ} {codes : List ℕ}
    {table : List (SymmOp ℝ)} (htab : TableOps num codes table)
    (hchk : gridCheck N k z0 (z0 :: rest) ((holoCodes bt).map decZ) (groupZ (num, codes)) = true) :
    BoxInput a b c dtol (1 / 2 ^ 26) (16000 * dtol.val) ∧
    PosApart (valM ⟨a, 0, 0, 0, b, 0, 0, 0, c⟩) (8 * dtol.val) ((z0 :: rest).map fun p => gridPos N p.2) ∧
    HasSymmetry (idealOn (valM ⟨a, 0, 0, 0, b, 0, 0, 0, c⟩) ((z0 :: rest).map fun p => nm p.1)
      ((z0 :: rest).map fun p => gridPos N p.2)) (3 / 2 * dtol.val) (boxRots sys) table := by
  have le1 : a.val ≤ b.val := by
    rcases hab with e | e
    · rw [e]
    · linarith
  have le2 : b.val ≤ c.val := by
    rcases hbc with e | e
    · rw [e.2]
    · linarith
  have hN0 : 0 < N := by omega
  have hNr : (0 : ℝ) < N := by exact_mod_cast hN0
  have hM : valM (⟨a, 0, 0, 0, b, 0, 0, 0, c⟩ : Mat3 (RNum binary64)) = ⟨a.val, 0, 0, 0, b.val, 0, 0, 0, c.val⟩ := valM_rbox a b c
  have hmr : (0 : ℝ) < m := by exact_mod_cast hm
  have hfrac : ∀ {n d x : ℝ}, d * N < n * x → d < n / N * x := by
    intro n d x h
    rw [div_mul_eq_mul_div, lt_div_iff₀ hNr]
    exact h
  have m1 := mul_le_mul_of_nonneg_left le1 hmr.le
  have m2 := mul_le_mul_of_nonneg_left le2 hmr.le
  have hshort := box_short (x := a.val) (y := b.val) (z := c.val) (d := 8 * dtol.val) (t := m / N) (by positivity) (by linarith)
    (hfrac (by linarith)) (hfrac (by linarith)) (hfrac (by linarith))
  have hshort3 := box_short (x := a.val) (y := b.val) (z := c.val) (d := 3 * dtol.val) (t := 1 / 2 / N) (by positivity) (by linarith)
    (hfrac (by linarith)) (hfrac (by linarith)) (hfrac (by linarith))
  refine ⟨⟨relative_binary64, by positivity, by norm_num, by linarith, by norm_num; linarith, hlo, hhi, le_rfl, h61, hab, hbc,
    by linarith⟩, by rw [hM]; exact grid_apart hN0 (by linarith) hshort hfar, ?_⟩
  obtain ⟨M, hM1⟩ := C35_primitive_holohedry_returns (K := ℝ)
  let h : HashOrders ℝ :=
    { minEle := id, pointOps := fun _ l => l, eleInds := id, opVecs := id, counts := fun _ => id, groups := id }
  have hv : h.Valid := ⟨fun _ => .refl _, fun _ _ => .refl _, fun _ => .refl _, fun _ => .refl _, fun _ _ => .refl _, fun _ => .refl _⟩
  obtain ⟨pg, hpg⟩ := hM1 M le_rfl h hv bt
  have hrots := axis_holohedry hs hv hpg
  have hs : HasSymmetry (idealOn (valM ⟨a, 0, 0, 0, b, 0, 0, 0, c⟩) ((z0 :: rest).map fun p => nm p.1)
      ((z0 :: rest).map fun p => gridPos N p.2)) (3 / 2 * dtol.val) pg.operations table := by
    refine hasSymmetry_of_grid hN hk (z0 := z0) (zs := z0 :: rest) (by simp) hnames ?_ (by linarith) (fun v hv => ?_) hv hpg htab hchk
    · unfold sites idealOn
      simp only []
      rw [List.zip_map']
    · rw [show (1 : ℝ) / (2 * N) = 1 / 2 / N by field_simp]
      refine hshort3 v ?_
      have e : (idealOn (valM ⟨a, 0, 0, 0, b, 0, 0, 0, c⟩) ((z0 :: rest).map fun p => nm p.1)
        ((z0 :: rest).map fun p => gridPos N p.2)).lattice = ⟨a.val, 0, 0, 0, b.val, 0, 0, 0, c.val⟩ := hM
      rw [e] at hv
      exact hv.trans (pow_le_pow_left₀ (by linarith) (by linarith) 2)
  exact ⟨fun o ho => ⟨(hrots _).1 (hs.exact o ho).1, (hs.exact o ho).2⟩, fun W hW => hs.only W ((hrots W).2 hW)⟩

theorem stored_sites {N : ℤ} (hN0 : 0 < N) {zs : List (ℕ × Vec3 ℤ)} (hin : InCellZ N zs) :
    SitesNear (1 / 2 ^ 53) 8 (zs.map fun p => ((gridPos N p.2).map RNum.round : Vec3 (RNum binary64))) (zs.map fun p => gridPos N p.2) := by
  unfold SitesNear
  rw [List.forall₂_map_left_iff, List.forall₂_map_right_iff, List.forall₂_same]
  intro p hp
  obtain ⟨i1, i2, i3⟩ := hin p hp
  have le8 : ∀ {x : ℝ}, |x| ≤ 2 → |x| ≤ 8 := fun h => h.trans (by norm_num)
  refine ⟨⟨le8 (round64_le (grid_unit hN0 i1)), le8 (round64_le (grid_unit hN0 i2)), le8 (round64_le (grid_unit hN0 i3))⟩,
    0, intVec_zero, ?_, ?_, ?_⟩ <;>
    simp only [valV, gridPos, Vec3.map, Vec3.sub_x, Vec3.sub_y, Vec3.sub_z, Vec3.zero_x, Vec3.zero_y, Vec3.zero_z, sub_zero]
  · exact round64_close (grid_unit hN0 i1)
  · exact round64_close (grid_unit hN0 i2)
  · exact round64_close (grid_unit hN0 i3)

/-- **C87 (binary64).** A crystal in a box of binary64 numbers, whose positions are multiples of `1/N` stored with rounding,
with a tolerance between `0.01` and `1`, edges longer than 61 and `6 N` tolerances, at most 15999 tolerances, and equal or
different by a tolerance, any two positions `m / N` apart in some direction with `m a > 8 N dtol`, and whose symmetry operations are those of a table entry of the system of the box (`gridCheck`, a
computation with integers): `get_space_group_info` returns the number of the entry, its symbol and its operations, with the translations
correct to `10⁻⁶` up to lattice vectors. -/
theorem C87_binary64 {a b c dtol : RNum binary64} (atol : RNum binary64) {N k : ℤ} (hN : N = 12 * k) (hk : 0 < k) {nm : ℕ → String}
    {z0 : ℕ × Vec3 ℤ} {rest : List (ℕ × Vec3 ℤ)}
    (hnames : ∀ p ∈ z0 :: rest, ∀ q ∈ z0 :: rest, nm p.1 = nm q.1 → p.1 = q.1) (hfew : (z0 :: rest).length < 65536)
    {m : ℤ} (hm : 0 < m) (hfar : (z0 :: rest).Pairwise fun p q => farZ N m p.2 q.2 = true) (hin : InCellZ N (z0 :: rest))
    (hlo : 1 / 100 ≤ dtol.val) (hhi : dtol.val ≤ 1) (h61 : 61 * dtol.val ≤ a.val) (hgrid : 6 * N * dtol.val < a.val)
    (hsep : 8 * N * dtol.val < m * a.val)
    (hab : a = b ∨ a.val + dtol.val ≤ b.val) (hbc : (a = b ∧ b = c) ∨ b.val + dtol.val ≤ c.val) (hc : c.val ≤ 15999 * dtol.val)
    {bt : BravaisType} {sys : LatticeSystem} {ch : ℕ} (hs : BoxShape a b c bt sys ch) {n num : ℕ} {codes : List ℕ}
    (hent : IsTableEntry sys n num codes) (hgood : num ∉ crateBad)
    (hchk : gridCheck N k z0 (z0 :: rest) ((holoCodes bt).map decZ) (groupZ (num, codes)) = true) :
    ∃ table : List (SymmOp ℝ), TableOps num codes table ∧ table.length = n ∧
      ∃ M, ∀ fuel ≥ M, ∀ h : HashOrders (RNum binary64), h.Valid → ∃ sym ops, amapGet? sgNumToSymbol num = some sym ∧
        (⟨dtol, atol⟩ : SymmetryAnalyzer (RNum binary64)).getSpaceGroupInfo h fuel
          (storedGrid ⟨a, 0, 0, 0, b, 0, 0, 0, c⟩ N nm (z0 :: rest)) = .ret (num, sym, ops) ∧
        ∃ table' : List (SymmOp ℝ), table'.Perm table ∧
          List.Forall₂ (fun o q => NearlyBy (1 / 10 ^ 6) (exactOp o) q) ops table' := by
  have hN0 : 0 < N := by omega
  obtain ⟨table, htab, hlen, -⟩ := C39_tables_are_groups (K := ℝ) sys n num codes hent
  refine ⟨table, htab, hlen, ?_⟩
  have le1 : a.val ≤ b.val := by
    rcases hab with e | e
    · rw [e]
    · linarith
  have le2 : b.val ≤ c.val := by
    rcases hbc with e | e
    · rw [e.2]
    · linarith
  obtain ⟨hcell, hap, hsym⟩ := grid_box hN hk hnames hm hfar hlo hhi h61 hgrid hsep hab hbc hc hs htab hchk
  have hcr : BoxCrystal (storedGrid ⟨a, 0, 0, 0, b, 0, 0, 0, c⟩ N nm (z0 :: rest)) a b c dtol (1 / 2 ^ 26) (16000 * dtol.val) (1 / 2 ^ 53)
      ((z0 :: rest).map fun p => nm p.1) ((z0 :: rest).map fun p => gridPos N p.2) :=
    ⟨hcell, rfl, rfl, stored_sites hN0 hin, by positivity, by norm_num; linarith, by simp, by simp, by simpa using hfew, hap⟩
  obtain ⟨M, hM1⟩ := C87_space_group_info ⟨dtol, atol⟩ hcr hs n num codes table hent hgood htab hsym
  refine ⟨M, fun fuel hf h hv => ?_⟩
  obtain ⟨sym, ops, h1, h2, table', h3, h4⟩ := hM1 fuel hf h hv
  refine ⟨sym, ops, h1, h2, table', h3, h4.imp fun o q hoq => ?_⟩
  obtain ⟨e1, w, d, hw, e2, d1, d2, d3⟩ := hoq
  have hs : 4 * (1 / 2 ^ 53 + 10500 * (16000 * dtol.val * (1 / 2 ^ 26) ^ 2)) + 7 / 10 ^ 7 ≤ 1 / 10 ^ 6 := by
    norm_num
    linarith
  exact ⟨e1, w, d, hw, e2, d1.trans_le hs, d2.trans_le hs, d3.trans_le hs⟩

theorem round64_quot {x t B : ℝ} (hx : 1 / 2 ≤ x) (hB : x ≤ B) (ht : |t| ≤ 1) :
    |(RNum.round (x * t) : RNum binary64).val| ≤ 3 * B ∧ |(RNum.round (x * t) : RNum binary64).val / x - t| ≤ 1 / 2 ^ 51 := by
  have h := relative_binary64 (x * t)
  change |(RNum.round (x * t) : RNum binary64).val - x * t| ≤ _ at h
  generalize (RNum.round (x * t) : RNum binary64).val = y at *
  have h0 : |x * t| ≤ x := by
    rw [abs_mul, abs_of_pos (by linarith)]
    nlinarith
  have h1 : max 1 |x * t| ≤ 2 * x := max_le (by linarith) (by linarith)
  have h2 : |y - x * t| ≤ x * (1 / 2 ^ 51) := by
    generalize max 1 |x * t| = m at *
    refine h.trans ?_
    norm_num
    linarith
  constructor
  · norm_num at h2
    rw [abs_le] at *
    constructor <;> linarith [h0.1, h0.2, h2.1, h2.2]
  · have e : y / x - t = (y - x * t) / x := by
      field_simp
    rw [e, abs_div, abs_of_pos (a := x) (by linarith), div_le_iff₀ (by linarith)]
    linarith

/-- **C87 (Python, binary64).** The same for the function called from Python, with the coordinates given as fractions or as
Cartesian coordinates, each rounded to binary64. -/
theorem C87_python_binary64 {a b c dtol : RNum binary64} (atol : RNum binary64) (cart : Bool) {N k : ℤ} (hN : N = 12 * k) (hk : 0 < k)
    {nm : ℕ → String} {z0 : ℕ × Vec3 ℤ} {rest : List (ℕ × Vec3 ℤ)}
    (hnames : ∀ p ∈ z0 :: rest, ∀ q ∈ z0 :: rest, nm p.1 = nm q.1 → p.1 = q.1) (hfew : (z0 :: rest).length < 65536)
    {m : ℤ} (hm : 0 < m) (hfar : (z0 :: rest).Pairwise fun p q => farZ N m p.2 q.2 = true) (hin : InCellZ N (z0 :: rest))
    (hlo : 1 / 100 ≤ dtol.val) (hhi : dtol.val ≤ 1) (h61 : 61 * dtol.val ≤ a.val) (hgrid : 6 * N * dtol.val < a.val)
    (hsep : 8 * N * dtol.val < m * a.val)
    (hab : a = b ∨ a.val + dtol.val ≤ b.val) (hbc : (a = b ∧ b = c) ∨ b.val + dtol.val ≤ c.val) (hc : c.val ≤ 15999 * dtol.val)
    {bt : BravaisType} {sys : LatticeSystem} {ch : ℕ} (hs : BoxShape a b c bt sys ch) {n num : ℕ} {codes : List ℕ}
    (hent : IsTableEntry sys n num codes) (hgood : num ∉ crateBad)
    (hchk : gridCheck N k z0 (z0 :: rest) ((holoCodes bt).map decZ) (groupZ (num, codes)) = true) :
    ∃ table : List (SymmOp ℝ), TableOps num codes table ∧ table.length = n ∧
      ∃ M, ∀ fuel ≥ M, ∀ h : HashOrders (RNum binary64), h.Valid → ∃ sym ops, amapGet? sgNumToSymbol num = some sym ∧
        PyApi.getSpaceGroupInfo h fuel [a, 0, 0, 0, b, 0, 0, 0, c] ((z0 :: rest).map fun p => nm p.1)
          ((z0 :: rest).map fun p => if cart then
              [RNum.round (a.val * (p.2.x / N)), RNum.round (b.val * (p.2.y / N)), RNum.round (c.val * (p.2.z / N))]
            else [RNum.round (p.2.x / N), RNum.round (p.2.y / N), RNum.round (p.2.z / N)]) cart dtol atol = .ret (num, sym, ops) ∧
        ∃ table' : List (SymmOp ℝ), table'.Perm table ∧ List.Forall₂ (ListedNear (1 / 10 ^ 6)) ops table' := by
  have hN0 : 0 < N := by omega
  obtain ⟨table, htab, hlen, -⟩ := C39_tables_are_groups (K := ℝ) sys n num codes hent
  refine ⟨table, htab, hlen, ?_⟩
  have le1 : a.val ≤ b.val := by
    rcases hab with e | e
    · rw [e]
    · linarith
  have le2 : b.val ≤ c.val := by
    rcases hbc with e | e
    · rw [e.2]
    · linarith
  obtain ⟨hcell, hap, hsym⟩ := grid_box hN hk hnames hm hfar hlo hhi h61 hgrid hsep hab hbc hc hs htab hchk
  have hcs : if cart then CartNear a b c (16000 * dtol.val) (1 / 2 ^ 51) ((z0 :: rest).map fun p => if cart then
        ⟨RNum.round (a.val * (p.2.x / N)), RNum.round (b.val * (p.2.y / N)), RNum.round (c.val * (p.2.z / N))⟩
      else ((gridPos N p.2).map RNum.round : Vec3 (RNum binary64))) ((z0 :: rest).map fun p => gridPos N p.2)
    else SitesNear (1 / 2 ^ 51 + 15 * (16000 * dtol.val * (1 / 2 ^ 26) ^ 2)) 8 ((z0 :: rest).map fun p => if cart then
        ⟨RNum.round (a.val * (p.2.x / N)), RNum.round (b.val * (p.2.y / N)), RNum.round (c.val * (p.2.z / N))⟩
      else ((gridPos N p.2).map RNum.round : Vec3 (RNum binary64))) ((z0 :: rest).map fun p => gridPos N p.2) := by
    cases cart with
    | false =>
      simp only [Bool.false_eq_true, if_false]
      exact (stored_sites hN0 hin).mono (by norm_num; linarith) le_rfl
    | true =>
      simp only [if_true]
      unfold CartNear
      rw [List.forall₂_map_left_iff, List.forall₂_map_right_iff, List.forall₂_same]
      intro p hp
      obtain ⟨i1, i2, i3⟩ := hin p hp
      have u1 := grid_unit hN0 i1
      have u2 := grid_unit hN0 i2
      have u3 := grid_unit hN0 i3
      obtain ⟨r1, s1⟩ := round64_quot (x := a.val) (B := 16000 * dtol.val) (by linarith) (by linarith) u1
      obtain ⟨r2, s2⟩ := round64_quot (x := b.val) (B := 16000 * dtol.val) (by linarith) (by linarith) u2
      obtain ⟨r3, s3⟩ := round64_quot (x := c.val) (B := 16000 * dtol.val) (by linarith) (by linarith) u3
      have le7 : ∀ {y t : ℝ}, |y - t| ≤ 1 / 2 ^ 51 → |t| ≤ 1 → |y| ≤ 7 := by
        intro y t h1 h2
        norm_num at h1
        rw [abs_le] at *
        constructor <;> linarith [h1.1, h1.2, h2.1, h2.2]
      refine ⟨⟨r1, r2, r3⟩, ⟨le7 s1 u1, le7 s2 u2, le7 s3 u3⟩, 0, intVec_zero, ?_, ?_, ?_⟩ <;>
        simp only [gridPos, Vec3.map, Vec3.sub_x, Vec3.sub_y, Vec3.sub_z, Vec3.zero_x, Vec3.zero_y, Vec3.zero_z, sub_zero]
      · exact s1
      · exact s2
      · exact s3
  have hsq : dtol.val * dtol.val ≤ dtol.val := by nlinarith
  obtain ⟨M, hM1⟩ := C87_python atol _ cart hcell hcs (by positivity) (by norm_num; nlinarith) (by simp) (by simp) (by simpa using hfew)
    hap hs n num codes table hent hgood htab hsym
  refine ⟨M, fun fuel hf h hv => ?_⟩
  obtain ⟨sym, ops, h1, h2, table', h3, h4⟩ := hM1 fuel hf h hv
  refine ⟨sym, ops, h1, ?_, table', h3, h4.imp fun o q hoq => ?_⟩
  · rw [← h2, List.map_map]
    congr 1
    refine List.map_congr_left fun p _ => ?_
    cases cart <;> rfl
  · obtain ⟨x, y, z, e, i, j, l, d1, d2, d3⟩ := hoq
    have hs : 4 * (1 / 2 ^ 51 + 10515 * (16000 * dtol.val * (1 / 2 ^ 26) ^ 2)) + 7 / 10 ^ 7 ≤ 1 / 10 ^ 6 := by
      norm_num
      linarith
    exact ⟨x, y, z, e, i, j, l, d1.trans_le hs, d2.trans_le hs, d3.trans_le hs⟩

theorem ne_of_val {x y : RNum binary64} (h : x.val ≠ y.val) : x ≠ y := fun e => h (by rw [e])

/-- species `A` at the origin and `B` a third of the way up, in a cell of 10 by 12 by 14, all stored in binary64, with the
default tolerance `0.05` of the crate and any angle tolerance: the answer is `Pmm2` (25) with its four operations, for all hash
orders.  Neither a third nor the tolerance is representable. -/
example (atol : RNum binary64) : ∃ e10 e12 e14 : RNum binary64, e10.val = 10 ∧ e12.val = 12 ∧ e14.val = 14 ∧
    ∃ M, ∀ fuel ≥ M, ∀ h : HashOrders (RNum binary64), h.Valid → ∃ sym ops,
      (⟨RNum.round (1 / 20), atol⟩ : SymmetryAnalyzer (RNum binary64)).getSpaceGroupInfo h fuel
        (storedGrid ⟨e10, 0, 0, 0, e12, 0, 0, 0, e14⟩ 12 ab [(0, ⟨0, 0, 0⟩), (1, ⟨0, 0, 4⟩)]) = .ret (25, sym, ops) ∧
      ops.length = 4 := by
  have f10 : fl64 10 = 10 := fl64_of_grid (j := 3) (k := 10 * 2 ^ 49) (by norm_num) (by norm_num) (by norm_num)
  have f12 : fl64 12 = 12 := fl64_of_grid (j := 3) (k := 12 * 2 ^ 49) (by norm_num) (by norm_num) (by norm_num)
  have f14 : fl64 14 = 14 := fl64_of_grid (j := 3) (k := 14 * 2 ^ 49) (by norm_num) (by norm_num) (by norm_num)
  obtain ⟨a, ha⟩ : ∃ a : RNum binary64, a.val = 10 := ⟨⟨10, f10⟩, rfl⟩
  obtain ⟨b, hb⟩ : ∃ a : RNum binary64, a.val = 12 := ⟨⟨12, f12⟩, rfl⟩
  obtain ⟨c, hc⟩ : ∃ a : RNum binary64, a.val = 14 := ⟨⟨14, f14⟩, rfl⟩
  refine ⟨a, b, c, ha, hb, hc, ?_⟩
  have hd := round64_close (x := 1 / 20) (by norm_num [abs_le])
  generalize (RNum.round (1 / 20) : RNum binary64) = dtol at *
  norm_num at hd
  rw [abs_le] at hd
  obtain ⟨d1, d2⟩ := hd
  obtain ⟨codes, hent, hchk⟩ := entryChecks_spec (num := 25) (sys := .Orthorhombic) (n := 4) (N := 12) (k := 1)
    (z0 := (0, ⟨0, 0, 0⟩)) (rest := [(1, ⟨0, 0, 4⟩)]) (b := .oP) (by decide +kernel)
  obtain ⟨table, -, hl, M, hM⟩ := C87_binary64 (a := a) (b := b) (c := c) (dtol := dtol) atol (N := 12) (k := 1) rfl one_pos (nm := ab)
    (z0 := (0, ⟨0, 0, 0⟩)) (rest := [(1, ⟨0, 0, 4⟩)]) (by decide) (by decide) (m := 4) (by decide) (by decide) (by
      intro p hp
      simp only [List.mem_cons, List.not_mem_nil, or_false] at hp
      rcases hp with rfl | rfl <;> norm_num) (by linarith) (by linarith) (by linarith) (by push_cast; linarith) (by push_cast; linarith) (Or.inr (by linarith))
    (Or.inr (by linarith)) (by linarith) (.orthorhombic (ne_of_val (by rw [ha, hb]; norm_num)) (ne_of_val (by rw [hb, hc]; norm_num)))
    hent (by decide) hchk
  refine ⟨M, fun fuel hf h hv => ?_⟩
  obtain ⟨sym, ops, -, h2, table', h3, h4⟩ := hM fuel hf h hv
  exact ⟨sym, ops, h2, by rw [h4.length_eq, h3.length_eq, hl]⟩

/-- the same with the species in the other order, from Python, with Cartesian coordinates. -/
example (atol : RNum binary64) : ∃ e10 e12 e14 : RNum binary64, e10.val = 10 ∧ e12.val = 12 ∧ e14.val = 14 ∧
    ∃ M, ∀ fuel ≥ M, ∀ h : HashOrders (RNum binary64), h.Valid → ∃ sym ops,
      PyApi.getSpaceGroupInfo h fuel [e10, 0, 0, 0, e12, 0, 0, 0, e14] ["B", "A"]
        [[RNum.round (e10.val * 0), RNum.round (e12.val * 0), RNum.round (e14.val * 0)],
          [RNum.round (e10.val * 0), RNum.round (e12.val * 0), RNum.round (e14.val * (4 / 12))]] true (RNum.round (1 / 20)) atol =
        .ret (25, sym, ops) ∧ ops.length = 4 := by
  have f10 : fl64 10 = 10 := fl64_of_grid (j := 3) (k := 10 * 2 ^ 49) (by norm_num) (by norm_num) (by norm_num)
  have f12 : fl64 12 = 12 := fl64_of_grid (j := 3) (k := 12 * 2 ^ 49) (by norm_num) (by norm_num) (by norm_num)
  have f14 : fl64 14 = 14 := fl64_of_grid (j := 3) (k := 14 * 2 ^ 49) (by norm_num) (by norm_num) (by norm_num)
  obtain ⟨a, ha⟩ : ∃ a : RNum binary64, a.val = 10 := ⟨⟨10, f10⟩, rfl⟩
  obtain ⟨b, hb⟩ : ∃ a : RNum binary64, a.val = 12 := ⟨⟨12, f12⟩, rfl⟩
  obtain ⟨c, hc⟩ : ∃ a : RNum binary64, a.val = 14 := ⟨⟨14, f14⟩, rfl⟩
  refine ⟨a, b, c, ha, hb, hc, ?_⟩
  have hd := round64_close (x := 1 / 20) (by norm_num [abs_le])
  generalize (RNum.round (1 / 20) : RNum binary64) = dtol at *
  norm_num at hd
  rw [abs_le] at hd
  obtain ⟨d1, d2⟩ := hd
  obtain ⟨codes, hent, hchk⟩ := entryChecks_spec (num := 25) (sys := .Orthorhombic) (n := 4) (N := 12) (k := 1)
    (z0 := (1, ⟨0, 0, 0⟩)) (rest := [(0, ⟨0, 0, 4⟩)]) (b := .oP) (by decide +kernel)
  obtain ⟨table, -, hl, M, hM⟩ := C87_python_binary64 (a := a) (b := b) (c := c) (dtol := dtol) atol true (N := 12) (k := 1) rfl one_pos
    (nm := ab) (z0 := (1, ⟨0, 0, 0⟩)) (rest := [(0, ⟨0, 0, 4⟩)]) (by decide) (by decide) (m := 4) (by decide) (by decide) (by
      intro p hp
      simp only [List.mem_cons, List.not_mem_nil, or_false] at hp
      rcases hp with rfl | rfl <;> norm_num) (by linarith) (by linarith) (by linarith) (by push_cast; linarith) (by push_cast; linarith) (Or.inr (by linarith))
    (Or.inr (by linarith)) (by linarith) (.orthorhombic (ne_of_val (by rw [ha, hb]; norm_num)) (ne_of_val (by rw [hb, hc]; norm_num)))
    hent (by decide) hchk
  refine ⟨M, fun fuel hf h hv => ?_⟩
  obtain ⟨sym, ops, -, h2, table', h3, h4⟩ := hM fuel hf h hv
  refine ⟨sym, ops, ?_, by rw [h4.length_eq, h3.length_eq, hl]⟩
  rw [← h2]
  simp [ab]

/-- caesium chloride in a cube with an edge of 4.123, called from Python with Cartesian coordinates and the default tolerance
`0.05`, all rounded to binary64: the answer is 221 with 48 operations, for all hash orders. -/
example (atol : RNum binary64) : ∃ M, ∀ fuel ≥ M, ∀ h : HashOrders (RNum binary64), h.Valid → ∃ sym ops,
    let e : RNum binary64 := RNum.round (4123 / 1000)
    PyApi.getSpaceGroupInfo h fuel [e, 0, 0, 0, e, 0, 0, 0, e] ["Cs", "Cl"]
      [[RNum.round (e.val * 0), RNum.round (e.val * 0), RNum.round (e.val * 0)],
        [RNum.round (e.val * (6 / 12)), RNum.round (e.val * (6 / 12)), RNum.round (e.val * (6 / 12))]] true (RNum.round (1 / 20)) atol =
      .ret (221, sym, ops) ∧ ops.length = 48 := by
  have he := relative_binary64 (4123 / 1000)
  change |(RNum.round (4123 / 1000) : RNum binary64).val - 4123 / 1000| ≤ _ at he
  have hd := round64_close (x := 1 / 20) (by norm_num [abs_le])
  generalize (RNum.round (4123 / 1000) : RNum binary64) = a at *
  generalize (RNum.round (1 / 20) : RNum binary64) = dtol at *
  norm_num at hd he
  rw [abs_le] at hd he
  obtain ⟨d1, d2⟩ := hd
  obtain ⟨e1, e2⟩ := he
  obtain ⟨codes, hent, hchk⟩ := entryChecks_spec (num := 221) (sys := .Cubic) (n := 48) (N := 12) (k := 1)
    (z0 := (0, ⟨0, 0, 0⟩)) (rest := [(1, ⟨6, 6, 6⟩)]) (b := .cP) (by decide +kernel)
  obtain ⟨table, -, hl, M, hM⟩ := C87_python_binary64 (a := a) (b := a) (c := a) (dtol := dtol) atol true (N := 12) (k := 1) rfl one_pos
    (nm := fun i => if i = 0 then "Cs" else "Cl") (z0 := (0, ⟨0, 0, 0⟩)) (rest := [(1, ⟨6, 6, 6⟩)]) (by decide) (by decide) (m := 6) (by decide)
    (by decide) (by
      intro p hp
      simp only [List.mem_cons, List.not_mem_nil, or_false] at hp
      rcases hp with rfl | rfl <;> norm_num) (by linarith) (by linarith) (by linarith) (by push_cast; linarith) (by push_cast; linarith) (Or.inl rfl)
    (Or.inl ⟨rfl, rfl⟩) (by linarith) (.cubic rfl rfl) hent (by decide) hchk
  refine ⟨M, fun fuel hf h hv => ?_⟩
  obtain ⟨sym, ops, -, h2, table', h3, h4⟩ := hM fuel hf h hv
  refine ⟨sym, ops, ?_, by rw [h4.length_eq, h3.length_eq, hl]⟩
  rw [← h2]
  simp

/-- `A` at the origin and `B` a third of the way up, in a cell of 10 by 10 by 14: `P4mm` (99) with 8 operations. -/
example (atol : RNum binary64) : ∃ e10 e14 : RNum binary64, e10.val = 10 ∧ e14.val = 14 ∧
    ∃ M, ∀ fuel ≥ M, ∀ h : HashOrders (RNum binary64), h.Valid → ∃ sym ops,
      (⟨RNum.round (1 / 20), atol⟩ : SymmetryAnalyzer (RNum binary64)).getSpaceGroupInfo h fuel
        (storedGrid ⟨e10, 0, 0, 0, e10, 0, 0, 0, e14⟩ 12 ab [(0, ⟨0, 0, 0⟩), (1, ⟨0, 0, 4⟩)]) = .ret (99, sym, ops) ∧
      ops.length = 8 := by
  have f10 : fl64 10 = 10 := fl64_of_grid (j := 3) (k := 10 * 2 ^ 49) (by norm_num) (by norm_num) (by norm_num)
  have f14 : fl64 14 = 14 := fl64_of_grid (j := 3) (k := 14 * 2 ^ 49) (by norm_num) (by norm_num) (by norm_num)
  obtain ⟨a, ha⟩ : ∃ a : RNum binary64, a.val = 10 := ⟨⟨10, f10⟩, rfl⟩
  obtain ⟨c, hc⟩ : ∃ a : RNum binary64, a.val = 14 := ⟨⟨14, f14⟩, rfl⟩
  refine ⟨a, c, ha, hc, ?_⟩
  have hd := round64_close (x := 1 / 20) (by norm_num [abs_le])
  generalize (RNum.round (1 / 20) : RNum binary64) = dtol at *
  norm_num at hd
  rw [abs_le] at hd
  obtain ⟨d1, d2⟩ := hd
  obtain ⟨codes, hent, hchk⟩ := entryChecks_spec (num := 99) (sys := .Tetragonal) (n := 8) (N := 12) (k := 1)
    (z0 := (0, ⟨0, 0, 0⟩)) (rest := [(1, ⟨0, 0, 4⟩)]) (b := .tP) (by decide +kernel)
  obtain ⟨table, -, hl, M, hM⟩ := C87_binary64 (a := a) (b := a) (c := c) (dtol := dtol) atol (N := 12) (k := 1) rfl one_pos (nm := ab)
    (z0 := (0, ⟨0, 0, 0⟩)) (rest := [(1, ⟨0, 0, 4⟩)]) (by decide) (by decide) (m := 4) (by decide) (by decide) (by
      intro p hp
      simp only [List.mem_cons, List.not_mem_nil, or_false] at hp
      rcases hp with rfl | rfl <;> norm_num) (by linarith) (by linarith) (by linarith) (by push_cast; linarith) (by push_cast; linarith) (Or.inl rfl)
    (Or.inr (by linarith)) (by linarith) (.tetragonal rfl (ne_of_val (by rw [ha, hc]; norm_num))) hent (by decide) hchk
  refine ⟨M, fun fuel hf h hv => ?_⟩
  obtain ⟨sym, ops, -, h2, table', h3, h4⟩ := hM fuel hf h hv
  exact ⟨sym, ops, h2, by rw [h4.length_eq, h3.length_eq, hl]⟩

end CrystSymm
