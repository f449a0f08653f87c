import Verif.Props.Returns
import Verif.Props.Diamond

set_option autoImplicit false
set_option linter.unusedSectionVars false

/-! # C84: every run of `get_space_group_info` for a clean crystal ends, and how -/

namespace CrystSymm

open Spec Reducer SymmetryAnalyzer NiggliCert PointGroup

/-- `get_space_group_info` after the standard primitive structure and the operations found in it. -/
theorem info_from {sa : SymmetryAnalyzer ℝ} {h : HashOrders ℝ} {fuel : ℕ} {s prim nig p : Structure ℝ} {ch : ℕ} {b : BravaisType}
    (h1 : sa.reducer.findPrimitiveCell h.minEle s = .ret prim) (h2 : sa.reducer.niggliReduce prim tol1em5 = .ret nig)
    (h3 : getLatticeCharacter nig tol1em5 = .ret ch) (h4 : amapGet? latticeCharToBravais ch = some b)
    (h5 : sa.getStandardPrimitiveStructure h fuel s = .ret p) (hc1 : SvAbove prim.lattice) (hc2 : SvAbove nig.lattice)
    {gens sg : List (SymmOp ℝ)} (h6 : sa.getPrimitiveSpaceGroupOps h fuel p b = .ret gens)
    (h7 : SpaceGroup.fromGenerators fuel gens (Structure.fracTols p.lattice sa.dtol) = .ret sg) {sys : LatticeSystem}
    (h8 : b.latticeSystem? = some sys) :
    ∃ total, p.lattice * total = s.lattice ∧ sa.getSpaceGroupInfo h fuel s =
      (identifySpaceGroup h sg sys (Structure.fracTols p.lattice sa.dtol)).bind fun id =>
        (Outcome.ofOption "Cannot identify spacegroup from operations!" id).bind fun x =>
          (SpaceGroup.applyTransformation fuel sg total (Structure.fracTols p.lattice sa.dtol)).bind fun ops => .ret (x.1, x.2, ops) := by
  obtain ⟨prim', nig', conv, ch', m, P, b', k1, k2, k3, k4, k5, k6, -, k8⟩ := standardPrimitive_ret h5
  rw [h1, Outcome.ret.injEq] at k1; subst k1
  rw [h2, Outcome.ret.injEq] at k2; subst k2
  rw [h3, Outcome.ret.injEq] at k8; subst k8
  obtain ⟨r1, r2⟩ := char_range k3
  obtain ⟨m', P', b'', c, n', e1, e2, e3, e4, e5, e6, e7⟩ := C32_tables_consistent (K := ℝ) ch r1 r2
  rw [k3] at e1
  rw [k5] at e2
  simp only [Option.some.injEq, Outcome.ret.injEq, Prod.mk.injEq] at e1 e2
  obtain ⟨rfl, rfl⟩ := e2
  subst e1
  have hbb : b' = b := by
    have e2' := k5
    unfold primitiveTransformationMatrix at e2'
    rw [h4] at e2'
    simp only [Outcome.bind_eq_ret, Outcome.ofOption, Outcome.ret.injEq, Prod.mk.injEq, exists_eq_left'] at e2'
    obtain ⟨_, -, _, -, -, hb⟩ := e2'
    exact hb.symm
  subst hbb
  have hct : conventionalTransformationMatrix nig = .ret ((castRot m : Mat3 ℝ).transpose, ch) := by
    unfold conventionalTransformationMatrix
    rw [h3, Outcome.ret_bind, k3]
    rfl
  have hTPdet : (castRot m : Mat3 ℝ).transpose.det ≠ 0 ∧ P.det ≠ 0 := by
    have := congrArg Mat3.det e5
    rw [Mat3.det_mul, overK_det] at this
    have h0 : (n'.det : ℝ) ≠ 0 := by
      have : n'.det ≠ 0 := by rcases e6 with h | h <;> rw [h] <;> simp
      exact_mod_cast this
    exact ⟨fun hz => h0 (by rw [← this, hz, zero_mul]), fun hz => h0 (by rw [← this, hz, mul_zero])⟩
  obtain ⟨invT, hinvT⟩ : ∃ i, (castRot m : Mat3 ℝ).transpose.tryInverse = some i := by
    cases hi : (castRot m : Mat3 ℝ).transpose.tryInverse with
    | none => exact absurd (Mat3.tryInverse_eq_none_iff.1 hi) hTPdet.1
    | some i => exact ⟨i, rfl⟩
  obtain ⟨invP, hinvP⟩ : ∃ i, P.tryInverse = some i := by
    cases hi : P.tryInverse with
    | none => exact absurd (Mat3.tryInverse_eq_none_iff.1 hi) hTPdet.2
    | some i => exact ⟨i, rfl⟩
  have hT1 := Mat3.tryInverse_eq_some_iff.1 hinvT
  have hP1 := Mat3.tryInverse_eq_some_iff.1 hinvP
  refine ⟨invP * invT * nig.getTransformationMatrix prim * prim.getTransformationMatrix s, ?_, ?_⟩
  · rw [applyTransformation_lattice k6, applyTransformation_lattice k4]
    unfold Structure.getTransformationMatrix
    calc nig.lattice * (castRot m : Mat3 ℝ).transpose * P * (invP * invT *
          ((FTrans.pinv nig.lattice : Mat3 ℝ) * prim.lattice) * ((FTrans.pinv prim.lattice : Mat3 ℝ) * s.lattice))
        = nig.lattice * (castRot m : Mat3 ℝ).transpose * (P * invP) * invT * (FTrans.pinv nig.lattice : Mat3 ℝ) *
          (prim.lattice * (FTrans.pinv prim.lattice : Mat3 ℝ)) * s.lattice := by simp only [mul_assoc]
      _ = nig.lattice * ((castRot m : Mat3 ℝ).transpose * invT) * (FTrans.pinv nig.lattice : Mat3 ℝ) * s.lattice := by
          rw [hP1, mul_pinv hc1]; simp only [mul_one, mul_assoc]
      _ = s.lattice := by rw [hT1, mul_one, mul_pinv hc2, one_mul]
  · unfold getSpaceGroupInfo
    rw [h1, Outcome.ret_bind, h2, Outcome.ret_bind, hct, Outcome.ret_bind]
    simp only
    rw [k4, Outcome.ret_bind, k5, Outcome.ret_bind]
    simp only
    rw [k6, Outcome.ret_bind, h6, Outcome.ret_bind, h7, Outcome.ret_bind, h8]
    simp only [Outcome.ofOption, Outcome.ret_bind]
    rw [hinvP, hinvT]
    simp only [Outcome.ret_bind]

/-- every Bravais type has a lattice system. -/
theorem latticeSystem_some (b : BravaisType) : ∃ sys, b.latticeSystem? = some sys := by
  cases b <;> exact ⟨_, rfl⟩

/-- once the standard primitive structure of a clean crystal exists, the run ends: with an answer or with a panic of the
identification. -/
theorem ends_of_standard (sa : SymmetryAnalyzer ℝ) (h : HashOrders ℝ) (hv : h.Valid) (f₀ : ℕ) (s ref p : Structure ℝ)
    (hc : CleanCrystal sa h s ref) (hp : sa.getStandardPrimitiveStructure h f₀ s = .ret p) :
    ∃ N, (∃ num sym ops, ∀ fuel ≥ N, sa.getSpaceGroupInfo h fuel s = .ret (num, sym, ops)) ∨
      (∃ msg, (msg = "Cannot identify spacegroup from operations!" ∨
          msg = "Could not find candidate group with the provided number of operations!") ∧
        ∀ fuel ≥ N, sa.getSpaceGroupInfo h fuel s = .panic msg) := by
  obtain ⟨N₁, hN₁⟩ := C35_primitive_holohedry_returns (K := ℝ)
  obtain ⟨N₂, hN₂⟩ := C45_search_returns
  have hp0 := (standardLe sa h f₀ N₁ s).of_ret hp
  obtain ⟨prim, nig, ch, b, k1, k2, k3, k4, key⟩ := clean_system sa h hv _ s ref p hc.clean hc.found hc.size hc.clear hp0
  obtain ⟨psame, plat, pdet, pprim, psearch, pfine, -⟩ := clean_pipeline hv hc.clean hc.found hc.size k1 k2 hp0
  obtain ⟨⟨x1, x2⟩, ⟨y1, y2⟩, z1, z2⟩ := pfine.tols (by norm_num)
  have ht : TolOK (Structure.fracTols p.lattice sa.dtol) :=
    ⟨⟨by linarith, by linarith⟩, ⟨by linarith, by linarith⟩, by linarith, by linarith⟩
  obtain ⟨N₃, hN₃⟩ := C37_terminates _ ht
  obtain ⟨c1, c2⟩ := clean_svAbove hc.clean (hc.found _ k1) k2
  have spsame : SameAtoms s p := sameAtoms_trans hc.same psame
  obtain ⟨sys, hsys⟩ := latticeSystem_some b
  obtain ⟨gens, hgens⟩ := (hN₂ (f₀ + N₁ + N₂ + N₃) (by omega) sa h hv p b psearch).1 (clean_species hc.clean psame)
  obtain ⟨sg, hsg⟩ := hN₃ (f₀ + N₁ + N₂ + N₃) (by omega) gens
  have hpF : ∀ n, sa.getStandardPrimitiveStructure h (f₀ + N₁ + N₂ + N₃ + n) s = .ret p := fun n => by
    have := (standardLe sa h f₀ (N₁ + N₂ + N₃ + n) s).of_ret hp
    rwa [show f₀ + (N₁ + N₂ + N₃ + n) = f₀ + N₁ + N₂ + N₃ + n by omega] at this
  have hgF : ∀ n, sa.getPrimitiveSpaceGroupOps h (f₀ + N₁ + N₂ + N₃ + n) p b = .ret gens := fun n =>
    (primitiveOps_le sa h _ n p b).of_ret hgens
  have hsF : ∀ n, SpaceGroup.fromGenerators (f₀ + N₁ + N₂ + N₃ + n) gens (Structure.fracTols p.lattice sa.dtol) = .ret sg := fun n =>
    (sgGenLoop_le _ n _ _ _).of_ret hsg
  have hrun := fun n => info_from k1 k2 k3 k4 (hpF n) c1 c2 (hgF n) (hsF n) hsys
  rcases hid : identifySpaceGroup h sg sys (Structure.fracTols p.lattice sa.dtol) with id | msg | _
  · rcases id with _ | ⟨num, sym⟩
    · refine ⟨f₀ + N₁ + N₂ + N₃, .inr ⟨_, .inl rfl, fun fuel hf => ?_⟩⟩
      obtain ⟨n, rfl⟩ := Nat.exists_eq_add_of_le hf
      obtain ⟨total, -, e⟩ := hrun n
      rw [e, hid]
      rfl
    · obtain ⟨-, -, -, -, codes, table, hent, htab, hall⟩ := C40_identification_sound h hv sg sys _ num sym hid
      obtain ⟨pg, hpg⟩ := hN₁ (f₀ + N₁) (by omega) h hv b
      obtain ⟨hfull, -⟩ := key pg hpg
      have hpgF : primitiveHolohedry (K := ℝ) h (f₀ + N₁ + N₂ + N₃) b = .ret pg := by
        have := (primitiveHolohedry_le (K := ℝ) h _ (N₂ + N₃) b).of_ret hpg
        rwa [show f₀ + N₁ + (N₂ + N₃) = f₀ + N₁ + N₂ + N₃ by omega] at this
      obtain ⟨hsg', hnd, -, hG1, hiff⟩ := exact_core hv psearch pprim pdet hpgF hfull pfine (resolved_congr psame plat hc.resolved)
        (gridOrigin_congr psame plat hc.grid) hgens hsg hent htab hall
      have hdu : ∀ op ∈ gens, op.rotation ∈ pg.operations := by
        obtain ⟨pg1, hpg1, hC44⟩ := C44_operations_are_symmetries sa h hv _ p b gens psearch hgens
        rw [hpgF, Outcome.ret.injEq] at hpg1
        subst hpg1
        exact fun op hop => (hC44 op hop).1
      have hrot : ∀ op ∈ gens, ∃ Q t, CrystalSymmetry s Q t ∧ Q * p.lattice = p.lattice * overK ℝ (intRot op.rotation) := by
        intro op hop
        obtain ⟨o, ho, e, -⟩ := hG1 op hop
        obtain ⟨Q, hQ, hml, e'⟩ := hfull.2 _ (hdu op hop)
        refine ⟨Q, p.lattice * o.translation, crystalSymmetry_congr (sameAtoms_symm spsame) ((hiff _ _).2 ⟨o, ho, ?_, ?_⟩), e'⟩
        · rw [castRot_overK, ← e]
          exact e'
        · rw [sub_self]
          exact intVec_zero
      obtain ⟨total, htot, e⟩ := hrun 0
      obtain ⟨N₄, hN₄⟩ := final_change_returns pdet hc.clean.det_ne hc.nonsing plat spsame pprim hc.index hc.small pfine hrot hnd htot
      obtain ⟨ops, hops⟩ := hN₄ (f₀ + N₁ + N₂ + N₃ + N₄) (by omega)
      obtain ⟨total', htot', e'⟩ := hrun N₄
      rw [mat_mul_injective pdet (htot'.trans htot.symm), hid, hsg', Outcome.ret_bind] at e'
      simp only [Outcome.ofOption, Outcome.ret_bind] at e'
      rw [hops, Outcome.ret_bind] at e'
      refine ⟨f₀ + N₁ + N₂ + N₃ + N₄, .inl ⟨num, sym, ops, fun fuel hf => ?_⟩⟩
      obtain ⟨n, rfl⟩ := Nat.exists_eq_add_of_le hf
      exact (infoLe sa h _ n s).of_ret e'
  · have hmsg : msg = "Could not find candidate group with the provided number of operations!" := by
      rcases identify_cases h sg sys (Structure.fracTols p.lattice sa.dtol) hv with ⟨_, _, -, -, e⟩ | ⟨-, e⟩
      · rw [e] at hid
        cases hid
      · rw [e] at hid
        exact (Outcome.panic.inj hid).symm
    refine ⟨f₀ + N₁ + N₂ + N₃, .inr ⟨msg, .inr hmsg, fun fuel hf => ?_⟩⟩
    obtain ⟨n, rfl⟩ := Nat.exists_eq_add_of_le hf
    obtain ⟨total, -, e⟩ := hrun n
    rw [e, hid]
    rfl
  · exfalso
    rcases identify_cases h sg sys (Structure.fracTols p.lattice sa.dtol) hv with ⟨_, _, -, -, e⟩ | ⟨-, e⟩ <;> rw [e] at hid <;> cases hid

/-- **C84 (every run ends).** Let `s` describe a clean crystal whose lattice has fewer than 25 smaller sums of squared edges among its
bases.  Then `get_space_group_info` ends, and there are three cases.  If the angles of the Niggli cell do not follow its edges, it panics
because the lattice has no character.  If they do, and the symmetries of the crystal are the operations of a group in the tables of the
system of its lattice for which the product of operations of the crate is right, it returns this group.  In all other cases it panics
in the identification. -/
theorem C84_every_run_ends (sa : SymmetryAnalyzer ℝ) (h : HashOrders ℝ) (hv : h.Valid) (s ref prim : Structure ℝ) (L₀ : Mat3 ℝ)
    (hc : CleanCrystal sa h s ref) (h1 : sa.reducer.findPrimitiveCell h.minEle s = .ret prim)
    (hres : EdgesResolved ref.lattice (eps tol1em5 |ref.volume|)) (hd : (smallerSums ref.lattice).ncard < 25)
    (hL : SameLattice ref.lattice L₀) (hn : NiggliCell 0 L₀) :
    (¬ AnglesFollow L₀ → ∀ fuel, sa.getSpaceGroupInfo h fuel s = .panic noCharacterMsg) ∧
    (AnglesFollow L₀ → ∃ (N : ℕ) (p : Structure ℝ), (∀ fuel ≥ N, sa.getStandardPrimitiveStructure h fuel s = .ret p) ∧
      SameAtoms s p ∧ SameLattice ref.lattice p.lattice ∧
      ((∃ num sym ops, num ∉ crateBad ∧
          (∃ (sys : LatticeSystem) (n : ℕ) (codes : List ℕ) (table : List (SymmOp ℝ)),
            sys ≠ .Rhombohedral ∧ InSystem ref.lattice sys ∧ IsTableEntry sys n num codes ∧ TableOps num codes table ∧
            ∀ (Q : Mat3 ℝ) (u : Vec3 ℝ), CrystalSymmetry s Q (p.lattice * u) ↔ ∃ o ∈ table,
              Q * p.lattice = p.lattice * castRot o.rotation ∧ IntVec (u - o.translation)) ∧
          ∀ fuel ≥ N, sa.getSpaceGroupInfo h fuel s = .ret (num, sym, ops)) ∨
        ((¬ ∃ num, num ∉ crateBad ∧ ∃ (sys : LatticeSystem) (n : ℕ) (codes : List ℕ) (table : List (SymmOp ℝ)),
            sys ≠ .Rhombohedral ∧ InSystem ref.lattice sys ∧ IsTableEntry sys n num codes ∧ TableOps num codes table ∧
            ∀ (Q : Mat3 ℝ) (u : Vec3 ℝ), CrystalSymmetry s Q (p.lattice * u) ↔ ∃ o ∈ table,
              Q * p.lattice = p.lattice * castRot o.rotation ∧ IntVec (u - o.translation)) ∧
          ∃ msg, (msg = "Cannot identify spacegroup from operations!" ∨
              msg = "Could not find candidate group with the provided number of operations!") ∧
            ∀ fuel ≥ N, sa.getSpaceGroupInfo h fuel s = .panic msg))) := by
  obtain ⟨key1, key2⟩ := C83_space_group sa h hv s ref prim L₀ hc h1 hres hd hL hn
  refine ⟨key1, fun ha => ?_⟩
  obtain ⟨N, p, hret, hsame, hlat, hiff⟩ := key2 ha
  obtain ⟨N', hN'⟩ := ends_of_standard sa h hv N s ref p hc (hret N le_rfl)
  refine ⟨N + N', p, fun fuel hf => hret fuel (by omega), hsame, hlat, ?_⟩
  rcases hN' with ⟨num, sym, ops, hr⟩ | ⟨msg, hmsg, hr⟩
  · obtain ⟨g1, g2⟩ := (hiff num).1 ⟨N', sym, ops, hr N' le_rfl⟩
    exact .inl ⟨num, sym, ops, g1, g2, fun fuel hf => hr fuel (by omega)⟩
  · refine .inr ⟨?_, msg, hmsg, fun fuel hf => hr fuel (by omega)⟩
    rintro ⟨num, g⟩
    obtain ⟨fuel, sym, ops, e⟩ := (hiff num).2 g
    have := (infoLe sa h fuel N' s).of_ret e
    rw [hr _ (by omega)] at this
    cases this

/-- **C84 (silicon).** In its usual cell silicon gets number 227; the same crystal in the cell whose basis is turned by 90° makes
`get_space_group_info` panic in the identification. -/
theorem C84_turned_silicon_panics {u : ℝ} (hu : 6 / 5 ≤ u) (hu' : u ≤ 500) (h : HashOrders ℝ) (hv : h.Valid) (atol : ℝ) :
    ∃ N msg, (msg = "Cannot identify spacegroup from operations!" ∨
        msg = "Could not find candidate group with the provided number of operations!") ∧
      ∀ fuel ≥ N, (⟨1 / 20, atol⟩ : SymmetryAnalyzer ℝ).getSpaceGroupInfo h fuel (siCell u siTurned) = .panic msg := by
  obtain ⟨p, f, hp, -⟩ := si_standard hu hu' siTurned_ok hv atol
  obtain ⟨N, ⟨num, sym, ops, hr⟩ | ⟨msg, hm, hr⟩⟩ :=
    ends_of_standard _ h hv f _ _ p (si_crystal hu hu' siTurned_ok hv atol) hp
  · exact absurd (hr N le_rfl) ((C78_false_turned_axes hu hu' h hv atol).2 N num sym ops)
  · exact ⟨N, msg, hm, hr⟩

/-- **C84 (a cubic lattice without cubic symmetry).** Caesium chloride with chlorine moved along an axis makes `get_space_group_info`
panic in the identification. -/
theorem C84_cubic_metric_panics (h : HashOrders ℝ) (hv : h.Valid) (atol : ℝ) :
    ∃ N msg, (msg = "Cannot identify spacegroup from operations!" ∨
        msg = "Could not find candidate group with the provided number of operations!") ∧
      ∀ fuel ≥ N, (⟨1 / 20, atol⟩ : SymmetryAnalyzer ℝ).getSpaceGroupInfo h fuel (saltCell 4) = .panic msg := by
  have hc := salt_crystal 4 hv atol
  obtain ⟨prim, nig, k1, k2, k3⟩ := salt_cells 4 h hv atol
  obtain ⟨N, k, conv, p, hret, -⟩ := clean_standard ⟨1 / 20, atol⟩ h hv hc.clean hc.found k1 k2 k3
  obtain ⟨N, ⟨num, sym, ops, hr⟩ | ⟨msg, hm, hr⟩⟩ := ends_of_standard _ h hv N _ _ p hc (hret N le_rfl).2
  · exact absurd (hr N le_rfl) (C76_cubic_metric_no_answer h hv atol N _)
  · exact ⟨N, msg, hm, hr⟩

/-- silicon with the edge 5.43. -/
example (h : HashOrders ℝ) (hv : h.Valid) : (∃ ops N, ∀ fuel ≥ N,
    (⟨1 / 20, 5⟩ : SymmetryAnalyzer ℝ).getSpaceGroupInfo h fuel (siCell (543 / 400) siBasis) = .ret (227, "Fd-3m1", ops)) ∧
    ∃ N msg, ∀ fuel ≥ N, (⟨1 / 20, 5⟩ : SymmetryAnalyzer ℝ).getSpaceGroupInfo h fuel (siCell (543 / 400) siTurned) = .panic msg := by
  obtain ⟨N, msg, -, hr⟩ := C84_turned_silicon_panics (u := 543 / 400) (by norm_num) (by norm_num) h hv 5
  exact ⟨C78_silicon (by norm_num) (by norm_num) h hv 5, N, msg, hr⟩

end CrystSymm
