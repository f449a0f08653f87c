import Verif.Props.BravaisExact
import Verif.Props.Report
import Verif.Props.Orthogonal

set_option autoImplicit false
set_option linter.unusedSectionVars false

/-! # C70: every symmetry of the crystal is found -/

namespace CrystSymm

open Spec Reducer SymmetryAnalyzer NiggliCert PointGroup

theorem orthogonal_right {Q : Mat3 ℝ} (hQ : Orthogonal Q) : Q * Q.transpose = 1 := Mat3.mul_eq_one_comm' hQ

theorem intVec_sum {u v : Vec3 ℝ} (hu : IntVec u) (hv : IntVec v) : IntVec (u + v) := by
  obtain ⟨a, b, c, rfl⟩ := hu
  obtain ⟨a', b', c', rfl⟩ := hv
  exact ⟨a + a', b + b', c + c', by ext <;> simp⟩

/-- the linear part of a symmetry of the crystal maps the lattice of a primitive cell into itself. -/
theorem symmetry_mapsLattice {s : Structure ℝ} (hp : PrimitiveCell s) {Q : Mat3 ℝ} {t : Vec3 ℝ}
    (h : CrystalSymmetry s Q t) : MapsLattice Q s.lattice := by
  obtain ⟨hQ, h⟩ := h
  intro n hn
  refine hp (Q * (s.lattice * n)) fun e y hy => ?_
  have hy' : y = Q * (Q.transpose * (y - t)) + t := by
    rw [← Mat3.mul_mulVec, orthogonal_right hQ, Mat3.one_mulVec]; abel
  rw [hy'] at hy
  obtain ⟨p, hs, k, hk, e1⟩ := (h e _).2 hy
  have hx : AtomAt s e (Q.transpose * (y - t) + s.lattice * n) := by
    refine ⟨p, hs, k + n, intVec_sum hk hn, ?_⟩
    rw [e1, ← Mat3.mulVec_add, add_assoc]
  have := (h e _).1 hx
  rw [Mat3.mulVec_add] at this
  have e2 : Q * (Q.transpose * (y - t)) + Q * (s.lattice * n) + t =
      Q * (Q.transpose * (y - t)) + t + Q * (s.lattice * n) := by abel
  rw [e2, ← hy'] at this
  exact this

/-- a symmetry of the crystal whose linear part is `W` in the basis of the cell maps the sites of the cell exactly. -/
theorem symmetry_mapsExactly {s : Structure ℝ} (hd : s.lattice.det ≠ 0) {Q : Mat3 ℝ} {u : Vec3 ℝ}
    (h : CrystalSymmetry s Q (s.lattice * u)) {W : Mat3 ℤ} (hW : Q * s.lattice = s.lattice * overK ℝ W) :
    MapsExactly s (overK ℝ W) u := by
  intro e p hp
  have h0 : AtomAt s e (s.lattice * p) := ⟨p, hp, 0, ⟨0, 0, 0, by ext <;> simp⟩, by rw [add_zero]⟩
  obtain ⟨q, hq, k, hk, e1⟩ := (h.2 e _).1 h0
  refine ⟨q, hq, ?_⟩
  rw [← Mat3.mul_mulVec, hW, Mat3.mul_mulVec, ← Mat3.mulVec_add] at e1
  have e2 : overK ℝ W * p + u = q + k := by
    have := congrArg (fun v : Vec3 ℝ => s.lattice.adjDiv s.lattice.det * v) e1
    simpa only [← Mat3.mul_mulVec, Mat3.adjDiv_mul hd, Mat3.one_mulVec] using this
  rw [e2, samePoint_iff_intVec, add_sub_cancel_left]
  exact hk

/-- **C70 (search).** If the reduced cell satisfies the Niggli conditions exactly, the tolerance resolves it, and the standard
primitive structure is primitive with separated sites, then every motion of space that maps the crystal onto itself is among
the operations found, with a translation that differs by a lattice vector and at most the distance tolerance. -/
theorem C70_symmetries_of_the_crystal_are_found (sa : SymmetryAnalyzer ℝ) (h : HashOrders ℝ) (hv : h.Valid) (fuel : ℕ)
    (s p : Structure ℝ) (hp : sa.getStandardPrimitiveStructure h fuel s = .ret p) :
    ∃ (prim nig : Structure ℝ) (ch : ℕ) (b : BravaisType), sa.reducer.findPrimitiveCell h.minEle s = .ret prim ∧
      sa.reducer.niggliReduce prim tol1em5 = .ret nig ∧ getLatticeCharacter nig tol1em5 = .ret ch ∧
      amapGet? latticeCharToBravais ch = some b ∧
      (0 < nig.volume → NiggliCell 0 nig.lattice → ToleranceResolves nig tol1em5 → Searchable p sa.dtol →
        PrimitiveCell p → ∀ ops, sa.getPrimitiveSpaceGroupOps h fuel p b = .ret ops → ∀ Q t, CrystalSymmetry p Q t →
          ∃ o ∈ ops, Q * p.lattice = p.lattice * castRot o.rotation ∧ ∃ w d : Vec3 ℝ, IntVec w ∧
            p.lattice * o.translation = t + p.lattice * (w + d) ∧ lenSq (p.lattice * d) ≤ sa.dtol ^ 2) := by
  obtain ⟨prim, nig, ch, b, h1, h2, h3, h4, key⟩ := C69_pipeline sa h hv fuel s p hp
  refine ⟨prim, nig, ch, b, h1, h2, h3, h4, fun hV hn hr hs hprim ops hops Q t hsym => ?_⟩
  obtain ⟨pg, hpg, hf⟩ := C45_symmetries_are_found sa h hv fuel p b ops hs hops
  obtain ⟨W, hW, e⟩ := (key hV hn hr pg hpg).1 Q hsym.1 (symmetry_mapsLattice hprim hsym)
  have hd : p.lattice.det ≠ 0 := by
    obtain ⟨prim', nig', conv, b', c, P, T, n, g1, g2, -, -, -, -, -, gl, gn, -⟩ := C49_standard_cells sa h fuel s p hp
    rw [h1] at g1
    cases g1
    rw [h2] at g2
    cases g2
    have hV' : nig.lattice.det ≠ 0 := hV.ne'
    rw [gl, Mat3.det_mul, det_overK_ℝ]
    refine mul_ne_zero hV' ?_
    rcases gn with g | g <;> rw [g] <;> norm_num
  have ht : t = p.lattice * (p.lattice.adjDiv p.lattice.det * t) := by
    rw [← Mat3.mul_mulVec, Mat3.mul_adjDiv hd, Mat3.one_mulVec]
  rw [ht] at hsym
  obtain ⟨o, ho, hrot, w, d, hw, htr, hl, -⟩ := hf W hW _ (symmetry_mapsExactly hd hsym e)
  refine ⟨o, ho, by rw [hrot, castRot_overK]; exact e, w, d, hw, ?_, hl⟩
  rw [htr, add_assoc, Mat3.mulVec_add, ← ht]

/-- **C70.** Whenever `get_space_group_info` returns under the same assumptions on the structures it builds, every motion of
space that maps the crystal onto itself occurs in the table of the reported space group, with a translation that agrees up to
a lattice vector and the tolerance: the group reported is never too small. -/
theorem C70_reported_group_contains_symmetries (sa : SymmetryAnalyzer ℝ) (h : HashOrders ℝ) (hv : h.Valid) (fuel : ℕ)
    (s : Structure ℝ) (num : ℕ) (sym : String) (ops : List (SymmOp ℝ))
    (hr : sa.getSpaceGroupInfo h fuel s = .ret (num, sym, ops)) :
    ∃ (prim nig p : Structure ℝ) (sys : LatticeSystem) (n : ℕ) (codes : List ℕ) (table : List (SymmOp ℝ)),
      sa.reducer.findPrimitiveCell h.minEle s = .ret prim ∧ sa.reducer.niggliReduce prim tol1em5 = .ret nig ∧
      sa.getStandardPrimitiveStructure h fuel s = .ret p ∧ amapGet? sgNumToSymbol num = some sym ∧
      IsTableEntry sys n num codes ∧ TableOps num codes table ∧
      (0 < nig.volume → NiggliCell 0 nig.lattice → ToleranceResolves nig tol1em5 → Searchable p sa.dtol →
        PrimitiveCell p → ∀ (Q : Mat3 ℝ) (u : Vec3 ℝ), CrystalSymmetry p Q (p.lattice * u) → ∃ o ∈ table,
          Q * p.lattice = p.lattice * castRot o.rotation ∧
          NearInt (u.x - o.translation.x) (sa.dtol / p.lattice.col0.mag + 1 / 1000000000) ∧
          NearInt (u.y - o.translation.y) (sa.dtol / p.lattice.col1.mag + 1 / 1000000000) ∧
          NearInt (u.z - o.translation.z) (sa.dtol / p.lattice.col2.mag + 1 / 1000000000)) := by
  obtain ⟨prim, nig, p, ch, b, sys, n, codes, table, h1, h2, h3, h4, h5, h6, h7, h8, h9, h10, h11⟩ :=
    C53_reported_group sa h hv fuel s num sym ops hr
  refine ⟨prim, nig, p, sys, n, codes, table, h1, h2, h10, h7, h8, h9, fun hV hn hres hs hprim Q u hsym => ?_⟩
  obtain ⟨prim', nig', ch', b', g1, g2, g3, g4, key⟩ := C69_pipeline sa h hv fuel s p h10
  rw [h1] at g1
  cases g1
  rw [h2] at g2
  cases g2
  rw [h3] at g3
  cases g3
  rw [h4] at g4
  cases g4
  obtain ⟨pg, hpg, hf⟩ := h11 hs
  obtain ⟨W, hW, e⟩ := (key hV hn hres pg hpg).1 Q hsym.1 (symmetry_mapsLattice hprim hsym)
  have hd : p.lattice.det ≠ 0 := by
    obtain ⟨prim', nig', conv, b', c, P, T, n, g1, g2, -, -, -, -, -, gl, gn, -⟩ := C49_standard_cells sa h fuel s p h10
    rw [h1] at g1
    cases g1
    rw [h2] at g2
    cases g2
    have hV' : nig.lattice.det ≠ 0 := hV.ne'
    rw [gl, Mat3.det_mul, det_overK_ℝ]
    refine mul_ne_zero hV' ?_
    rcases gn with g | g <;> rw [g] <;> norm_num
  obtain ⟨o, ho, hrot, n1, n2, n3⟩ := hf W hW _ (symmetry_mapsExactly hd hsym e)
  exact ⟨o, ho, by rw [hrot, castRot_overK]; exact e, n1, n2, n3⟩

/-- **C70 (one atom).** One atom at the origin, as in C56: if the reduced cell satisfies the Niggli conditions exactly and the
tolerance resolves it, the operations returned are exactly the isometries of the input lattice, in the input basis. -/
theorem C70_one_atom (sa : SymmetryAnalyzer ℝ) (h : HashOrders ℝ) (hv : h.Valid) (s : Structure ℝ) (e : String)
    (hs : OneSite s e) (hsv : SvAbove s.lattice) (hd : 0 < sa.dtol)
    (hL : LongVectors s.lattice (24 * sa.dtol)) (hvol : sa.dtol < |s.volume|)
    (harea : ∀ u v : Vec3 ℝ, IntVec u → IntVec v → (s.lattice * u).cross (s.lattice * v) ≠ 0 →
      sa.dtol < ((s.lattice * u).cross (s.lattice * v)).mag)
    (prim nig : Structure ℝ) (ch : ℕ) (b : BravaisType)
    (h1 : sa.reducer.findPrimitiveCell h.minEle s = .ret prim) (h2 : sa.reducer.niggliReduce prim tol1em5 = .ret nig)
    (h3 : getLatticeCharacter nig tol1em5 = .ret ch) (h4 : amapGet? latticeCharToBravais ch = some b)
    (hb1 : b ≠ .mI) (hb2 : b ≠ .hR) (hc1 : SvAbove prim.lattice) (hc2 : SvAbove nig.lattice)
    (hV : 0 < nig.volume) (hn : NiggliCell 0 nig.lattice) (hr : ToleranceResolves nig tol1em5) :
    ∃ (p : Structure ℝ) (n : Mat3 ℤ) (sym : String) (N : ℕ), n.det.natAbs = 1 ∧ p.lattice * overK ℝ n = s.lattice ∧
      (∀ fuel ≥ N, sa.getStandardPrimitiveStructure h fuel s = .ret p) ∧ OneSite p e ∧
      ((∀ W ∈ (holoCodes b).map dec8, ∃ r, FitsI8 r ∧ InBasis (overK ℝ n) (intRot W) r ∧
          ∃ k ∈ r.toListCM, k = 0 ∨ k = 1 ∨ k = -1) →
        ∃ N', ∀ fuel ≥ N', ∃ ops, sa.getSpaceGroupInfo h fuel s = .ret (latticeGroup b, sym, ops) ∧
          FullSymmetry s.lattice s.lattice (ops.map SymmOp.rotation)) := by
  obtain ⟨p, n, sym, N, q1, q2, -, q4, q5, q6⟩ := (C56_one_atom_partial sa h hv s e hs hsv hd hL hvol harea prim nig ch b h1 h2 h3
    h4).2 hb1 hb2 hc1 hc2
  refine ⟨p, n, sym, N, q1, q2, q4, q5, fun hfit => ?_⟩
  obtain ⟨M, hM⟩ := C35_primitive_holohedry_returns (K := ℝ)
  obtain ⟨pg, hpg⟩ := hM (max N M) (le_max_right _ _) h hv b
  obtain ⟨prim', nig', ch', b', g1, g2, g3, g4, key⟩ := C69_pipeline sa h hv (max N M) s p (q4 _ (le_max_left _ _))
  rw [h1] at g1
  cases g1
  rw [h2] at g2
  cases g2
  rw [h3] at g3
  cases g3
  rw [h4] at g4
  cases g4
  obtain ⟨f1, f2⟩ := key hV hn hr pg hpg
  have hperm := holo_perm hv hpg
  have hn' : n.det = 1 ∨ n.det = -1 := Int.natAbs_eq_iff.1 q1
  have hmaps : ∀ Q, MapsLattice Q s.lattice ↔ MapsLattice Q p.lattice := fun Q => by rw [← q2, mapsLattice_mul hn']
  have hbasis : ∀ (Q : Mat3 ℝ) (W r : Mat3 ℤ), InBasis (overK ℝ n) W r → Q * p.lattice = p.lattice * overK ℝ W →
      Q * s.lattice = s.lattice * overK ℝ r := by
    intro Q W r hi hQ
    unfold InBasis at hi
    rw [← q2, ← mul_assoc, hQ, mul_assoc, hi, mul_assoc]
  obtain ⟨N', hN'⟩ := q6 hfit
  refine ⟨N', fun fuel hf => ?_⟩
  obtain ⟨ops, o1, -, o3, o4⟩ := hN' fuel hf
  refine ⟨ops, o1, ?_, ?_⟩
  · intro Q hQ hL
    obtain ⟨W, hW, e⟩ := f1 Q hQ ((hmaps Q).1 hL)
    obtain ⟨o, ho, hi⟩ := o4 W (hperm.mem_iff.1 hW)
    exact ⟨_, List.mem_map.2 ⟨o, ho, rfl⟩, hbasis Q _ _ hi e⟩
  · intro R hR
    obtain ⟨o, ho, rfl⟩ := List.mem_map.1 hR
    obtain ⟨-, W, hW, hi⟩ := o3 o ho
    obtain ⟨Q, hQ, hM, e⟩ := f2 W (hperm.mem_iff.2 hW)
    exact ⟨Q, hQ, (hmaps Q).2 hM, hbasis Q _ _ hi e⟩

/-! ### a case: one atom in a cube with edge 3.35 -/

theorem primitiveCell_oneSite {p : Structure ℝ} {e : String} (hp : OneSite p e) : PrimitiveCell p := by
  intro t ht
  have hsites : sites p = [(e, 0)] := by unfold sites; rw [hp.1, hp.2]; rfl
  have h0 : AtomAt p e (p.lattice * (0 : Vec3 ℝ)) :=
    ⟨0, by rw [hsites]; simp, 0, ⟨0, 0, 0, by ext <;> simp⟩, by rw [add_zero]⟩
  obtain ⟨q, hq, n, hn, e1⟩ := ht e _ h0
  rw [hsites, List.mem_singleton, Prod.mk.injEq] at hq
  rw [hq.2, Mat3.mulVec_zero, zero_add, zero_add] at e1
  exact ⟨n, hn, e1⟩

/-- `α`-polonium. -/
noncomputable def poCell : Structure ℝ :=
  Structure.new ⟨67 / 20, 0, 0, 0, 67 / 20, 0, 0, 0, 67 / 20⟩ ["Po"] [0] false

/-- all hypotheses hold for `α`-polonium: the group reported is number 221 and its table contains every symmetry of the
crystal. -/
example (h : HashOrders ℝ) (hv : h.Valid) (atol : ℝ) : ∃ N, ∀ fuel ≥ N, ∃ (sym : String)
    (ops : List (SymmOp ℝ)) (p : Structure ℝ) (sys : LatticeSystem) (n : ℕ) (codes : List ℕ) (table : List (SymmOp ℝ)),
    (⟨1 / 20, atol⟩ : SymmetryAnalyzer ℝ).getSpaceGroupInfo h fuel poCell = .ret (221, sym, ops) ∧
    (⟨1 / 20, atol⟩ : SymmetryAnalyzer ℝ).getStandardPrimitiveStructure h fuel poCell = .ret p ∧
    IsTableEntry sys n 221 codes ∧ TableOps 221 codes table ∧
    ∀ (Q : Mat3 ℝ) (u : Vec3 ℝ), CrystalSymmetry p Q (p.lattice * u) → ∃ o ∈ table, Q * p.lattice = p.lattice * castRot o.rotation := by
  set sa : SymmetryAnalyzer ℝ := ⟨1 / 20, atol⟩ with hsa
  have hdt : sa.dtol = 1 / 20 := rfl
  have hs : OneSite poCell "Po" := ⟨rfl, rfl⟩
  have hl : poCell.lattice = ⟨67 / 20, 0, 0, 0, 67 / 20, 0, 0, 0, 67 / 20⟩ := rfl
  obtain ⟨N, hN⟩ := C56_right_angles sa h hv poCell "Po" hs (67 / 20) (67 / 20) (67 / 20) hl le_rfl le_rfl (by norm_num)
    (by norm_num) (by norm_num) (by norm_num) (by norm_num)
  obtain ⟨prim, nig, S, hsv, hL, hvol, harea, h1, hpl, hSo, hvp, l0, l1, l2, d01, d02, d12, h2, hnl, hvn⟩ :=
    right_angles_cells sa h hv poCell "Po" hs (67 / 20) (67 / 20) (67 / 20) hl le_rfl le_rfl (by norm_num) (by norm_num)
      (by norm_num) (by norm_num) (by norm_num)
  have he : eps tol1em5 nig.volume = 67 / 2000000 := by
    rw [hvn]
    unfold eps
    rw [tol1em5_real, show (67 / 20 * (67 / 20) * (67 / 20) : ℝ) = (67 / 20) ^ (3 : ℝ) by norm_num,
      ← Real.rpow_mul (by norm_num)]
    norm_num
  have hn : NiggliCell 0 nig.lattice := by
    unfold NiggliCell
    rw [hnl, l0, l1, l2, d01, d02, d12]
    constructor <;> norm_num [abs_le]
  have hr : ToleranceResolves nig tol1em5 := by
    unfold ToleranceResolves
    rw [he, hnl, l0, l1, l2, d01, d02, d12]
    refine ⟨by norm_num, ?_⟩
    simp only [comparisons, List.forall_mem_cons]
    norm_num [abs_le]
  have h3 : getLatticeCharacter nig tol1em5 = .ret 3 := by
    rw [getLatticeCharacter_eq (by rw [hvn]; norm_num), he, hnl, l0, l1, l2, d01, d02, d12]
    rw [characterOf_orthogonal (by norm_num), if_pos (by norm_num)]
  have hsp : SvAbove prim.lattice := by
    intro v hv0
    rw [hpl, Mat3.mul_mulVec, ← hSo.lenSq v]
    apply hsv
    intro h0
    apply hv0
    have := hSo.lenSq v
    rw [h0] at this
    have hz0 : lenSq v = 0 := by rw [← this]; simp [lenSq]
    exact vec_zero_of_lenSq hz0
  obtain ⟨p, n, -, N', -, -, hstd, hone, -⟩ := C70_one_atom sa h hv poCell "Po" hs hsv (by norm_num) hL
    (by rw [hvol, hdt]; norm_num) harea prim nig 3 .cP h1 h2 h3 rfl (by decide) (by decide) hsp (by rw [hnl]; exact hsp)
    (by rw [hvn]; norm_num) hn hr
  have hsearch : Searchable p sa.dtol := by
    obtain ⟨prim', nig', conv, ch', m, P, b'', k1, k2, k3, k4, k5, k6, -, k8⟩ := standardPrimitive_ret (hstd N' le_rfl)
    rw [h1, Outcome.ret.injEq] at k1
    subst k1
    rw [h2, Outcome.ret.injEq] at k2
    subst k2
    rw [h3, Outcome.ret.injEq] at k8
    subst k8
    obtain ⟨Q, hQ, hQe⟩ := ortho_tables (Or.inl rfl) k3 k5
    have hpQ : p.lattice = poCell.lattice * overK ℝ (S * Q) := by
      rw [applyTransformation_lattice k6, applyTransformation_lattice k4, hnl, hpl, mul_assoc, mul_assoc, hQe,
        overK_mul]
    have hlen : ∀ v : Vec3 ℝ, lenSq (p.lattice * v) = (67 / 20) ^ 2 * lenSq v := by
      intro v
      rw [hpQ, Mat3.mul_mulVec, ← (hSo.mul hQ).lenSq v, hl]
      simp [lenSq]
      ring
    refine ⟨by rw [hone.1, hone.2]; rfl, by rw [hone.1]; simp, by rw [hone.1]; simp, ⟨by norm_num, ?_⟩, ?_⟩
    · intro v hv
      have : ∃ w : Vec3 ℝ, lenSq w = 1 ∧ v = p.lattice * w := by
        rcases hv with rfl | rfl | rfl
        · exact ⟨⟨1, 0, 0⟩, by simp [lenSq], by ext <;> simp [Mat3.col0]⟩
        · exact ⟨⟨0, 1, 0⟩, by simp [lenSq], by ext <;> simp [Mat3.col1]⟩
        · exact ⟨⟨0, 0, 1⟩, by simp [lenSq], by ext <;> simp [Mat3.col2]⟩
      obtain ⟨w, hw, rfl⟩ := this
      rw [hlen, hw, hdt]
      norm_num
    · intro a b e x y ha hb hab
      exfalso
      have hsites : sites p = [("Po", 0)] := by unfold sites; rw [hone.1, hone.2]; rfl
      rw [hsites] at ha hb
      have := (List.getElem?_eq_some_iff.1 ha).1
      have := (List.getElem?_eq_some_iff.1 hb).1
      simp at *
      omega
  refine ⟨max N N', fun fuel hf => ?_⟩
  obtain ⟨num, sym, ops, g1, g2, g3, -⟩ := hN fuel (le_trans (le_max_left _ _) hf)
  have hpos : (0 : ℝ) ≤ eps tol1em5 (67 / 20 * (67 / 20) * (67 / 20)) := by rw [← hvn, he]; norm_num
  rw [sub_self, abs_zero, if_pos ⟨hpos, hpos⟩, Prod.mk.injEq] at g3
  obtain ⟨rfl, -⟩ := g3
  obtain ⟨prim', nig', p', sys, n, codes, table, k1, k2, k3, k4, k5, k6, key⟩ :=
    C70_reported_group_contains_symmetries sa h hv fuel poCell 221 sym ops g1
  rw [h1] at k1
  cases k1
  rw [h2] at k2
  cases k2
  have hpp := hstd fuel (le_trans (le_max_right _ _) hf)
  rw [k3] at hpp
  cases hpp
  refine ⟨sym, ops, _, sys, n, codes, table, g1, k3, k5, k6, fun Q u hsym => ?_⟩
  obtain ⟨o, ho, e, -⟩ := key (by rw [hvn]; norm_num) hn hr hsearch (primitiveCell_oneSite hone) Q u hsym
  exact ⟨o, ho, e⟩

end CrystSymm
