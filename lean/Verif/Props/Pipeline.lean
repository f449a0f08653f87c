import Verif.Props.Structure
import Verif.Props.TransOps
import Verif.Props.LatticeTables
import Verif.Props.LatticeChar
import Verif.Props.Species
import Verif.Props.Primitive
import Verif.Props.Niggli
import Verif.Props.Transform

set_option autoImplicit false
set_option linter.unusedSectionVars false

/-! # C46, C49, C50: the composed functions of the analyzer -/

namespace CrystSymm

open Spec SymmetryAnalyzer

section
variable {K : Type} [Add K] [Sub K] [Mul K] [Div K] [Neg K] [Zero K] [One K] [IntCast K]
  [LT K] [LE K] [DecidableLT K] [DecidableLE K] [BEq K] [FRound K] [FTrans K]

/-! ## C50 -/

theorem findPrimitiveCell_order (r : Reducer K) (ord ord' : List (String × ℕ) → List (String × ℕ))
    (ho : ∀ l, (ord l).Perm l) (ho' : ∀ l, (ord' l).Perm l) (s : Structure K) :
    r.findPrimitiveCell ord s = r.findPrimitiveCell ord' s := by
  unfold Reducer.findPrimitiveCell
  simp only
  rw [C19_get_min_element_order_independent _ ord ord' ho ho']

/-- **C50.** For every structure, all tolerances and any two hash iteration orders, `find_primitive_cell` and the two
standard structures have the same outcome (result, panic or still running), and so do the formulas.
`niggli_reduce` iterates over no hash container. -/
theorem C50_hash_order_irrelevant (sa : SymmetryAnalyzer K) (h h' : HashOrders K) (hv : h.Valid) (hv' : h'.Valid)
    (fuel : ℕ) (s : Structure K) (ord ord' : List (String × Int8) → List (String × Int8)) (ho : ∀ l, (ord l).Perm l)
    (ho' : ∀ l, (ord' l).Perm l) :
    (∀ r : Reducer K, r.findPrimitiveCell h.minEle s = r.findPrimitiveCell h'.minEle s) ∧
    sa.getStandardConventionalStructure h fuel s = sa.getStandardConventionalStructure h' fuel s ∧
    sa.getStandardPrimitiveStructure h fuel s = sa.getStandardPrimitiveStructure h' fuel s ∧
    s.formulas ord = s.formulas ord' := by
  have e := fun r => findPrimitiveCell_order r h.minEle h'.minEle hv.minEle hv'.minEle s
  refine ⟨e, ?_, ?_, C20_formulas_order_independent s ord ord' ho ho'⟩
  · unfold getStandardConventionalStructure
    rw [e]
  · unfold getStandardPrimitiveStructure
    rw [e]

/-- a case: listing in the given order and in reverse. -/
example : (⟨id, fun _ => id, id, id, fun _ => id, id⟩ : HashOrders K).Valid ∧
    (⟨List.reverse, fun _ => List.reverse, List.reverse, List.reverse, fun _ => List.reverse, List.reverse⟩ :
      HashOrders K).Valid :=
  ⟨⟨fun _ => .refl _, fun _ _ => .refl _, fun _ => .refl _, fun _ => .refl _, fun _ _ => .refl _, fun _ => .refl _⟩,
    ⟨List.reverse_perm, fun _ => List.reverse_perm, List.reverse_perm, List.reverse_perm, fun _ => List.reverse_perm,
      List.reverse_perm⟩⟩

/-! ## C49 -/

/-- the steps of both functions. -/
theorem standardPrimitive_ret {sa : SymmetryAnalyzer K} {h : HashOrders K} {fuel : ℕ} {s p : Structure K}
    (hp : sa.getStandardPrimitiveStructure h fuel s = .ret p) :
    ∃ prim nig conv ch m P b, sa.reducer.findPrimitiveCell h.minEle s = .ret prim ∧
      sa.reducer.niggliReduce prim tol1em5 = .ret nig ∧
      amapGet? latticeCharToConvTrans ch = some m ∧
      nig.applyTransformation fuel (castRot m).transpose sa.dtol = .ret conv ∧
      primitiveTransformationMatrix ch = .ret (P, b) ∧ conv.applyTransformation fuel P sa.dtol = .ret p ∧
      sa.getStandardConventionalStructure h fuel s = .ret conv ∧ getLatticeCharacter nig tol1em5 = .ret ch := by
  unfold getStandardPrimitiveStructure at hp
  simp only [Outcome.bind_eq_ret] at hp
  obtain ⟨prim, h1, nig, h2, ⟨T, ch⟩, h3, conv, h4, ⟨P, b⟩, h5, h6⟩ := hp
  have h3' := h3
  unfold conventionalTransformationMatrix at h3
  simp only [Outcome.bind_eq_ret, Outcome.ret.injEq, Prod.mk.injEq] at h3
  obtain ⟨ch', h7, m, h8, rfl, rfl⟩ := h3
  refine ⟨prim, nig, conv, ch', m, P, b, h1, h2, ?_, h4, h5, h6, ?_, h7⟩
  · cases hm : amapGet? latticeCharToConvTrans ch' with
    | none => rw [hm] at h8; simp [Outcome.ofOption] at h8
    | some m' => rw [hm] at h8; simp [Outcome.ofOption] at h8; rw [h8]
  · unfold getStandardConventionalStructure
    rw [h1, Outcome.ret_bind, h2, Outcome.ret_bind, h3', Outcome.ret_bind]
    exact h4

end

section
variable {K : Type} [Field K] [LinearOrder K] [IsStrictOrderedRing K] [FloorRing K] [FTrans K]

theorem char_range {ch : ℕ} {m : Mat3 Int8} (h : amapGet? latticeCharToConvTrans ch = some m) : 1 ≤ ch ∧ ch ≤ 44 := by
  by_contra hc
  rw [(C32_no_other_character (ch := ch) (by omega)).1] at h
  exact absurd h (by simp)

/-- **C49.** Whenever the standard primitive structure is returned, so is the standard conventional one.  With the
reduced cell in between: the primitive lattice is the conventional one times a matrix whose columns generate exactly
the centring; the conventional lattice is an integer multiple of the reduced one; the primitive lattice is another
basis of the reduced lattice; and the conventional cell has the centring multiplicity times its volume. -/
theorem C49_standard_cells (sa : SymmetryAnalyzer K) (h : HashOrders K) (fuel : ℕ) (s p : Structure K)
    (hp : sa.getStandardPrimitiveStructure h fuel s = .ret p) :
    ∃ (prim nig conv : Structure K) (b : BravaisType) (c : Centering) (P : Mat3 K) (T n : Mat3 ℤ),
      sa.reducer.findPrimitiveCell h.minEle s = .ret prim ∧ sa.reducer.niggliReduce prim tol1em5 = .ret nig ∧
      sa.getStandardConventionalStructure h fuel s = .ret conv ∧
      b.centering? = some c ∧ PrimitiveBasisOf c P ∧ p.lattice = conv.lattice * P ∧
      conv.lattice = nig.lattice * overK K T ∧
      p.lattice = nig.lattice * overK K n ∧ (n.det = 1 ∨ n.det = -1) ∧ SameLattice nig.lattice p.lattice ∧
      |conv.volume| = ((centringVectors c).2.length : K) * |p.volume| := by
  obtain ⟨prim, nig, conv, ch, m, P, b, h1, h2, h3, h4, h5, h6, h7, -⟩ := standardPrimitive_ret hp
  obtain ⟨r1, r2⟩ := char_range h3
  obtain ⟨m', P', b', c, n, e1, e2, e3, e4, e5, e6, e7⟩ := C32_tables_consistent (K := K) ch r1 r2
  rw [h3] at e1
  rw [h5] at e2
  simp only [Option.some.injEq, Outcome.ret.injEq, Prod.mk.injEq] at e1 e2
  obtain ⟨rfl, rfl⟩ := e2
  subst e1
  have l1 := applyTransformation_lattice h4
  have l2 := applyTransformation_lattice h6
  refine ⟨prim, nig, conv, b, c, P, (intRot m).transpose, n, h1, h2, h7, e3, e4, l2, ?_, ?_, e6, ?_, ?_⟩
  · rw [l1, castRot_overK]
    rfl
  · rw [l2, l1, mul_assoc, e5]
  · rw [l2, l1]
    exact C32_same_lattice ch r1 r2 m P b h3 h5 _
  · have := e7 nig.lattice
    unfold Structure.volume
    rw [l2, l1]
    exact this

end

/-- the position `y` in the basis of the columns of `n` is `x` up to the lattice. -/
theorem int_mulVec {K : Type} [CommRing K] (n : Mat3 ℤ) {v : Vec3 K} (hv : IntVec v) :
    IntVec ((n.map fun k : ℤ => (k : K)) * v) := by
  obtain ⟨i, j, k, rfl⟩ := hv
  refine ⟨n.m11 * i + n.m12 * j + n.m13 * k, n.m21 * i + n.m22 * j + n.m23 * k,
    n.m31 * i + n.m32 * j + n.m33 * k, ?_⟩
  ext <;> simp [Mat3.map]

/-- **C49 (sites).** Every site of the standard primitive structure is a site of the reduced structure, with the same
species and the same position in space up to a lattice vector; likewise for the standard conventional structure. -/
theorem C49_standard_sites (sa : SymmetryAnalyzer ℝ) (h : HashOrders ℝ) (fuel : ℕ) (s p : Structure ℝ)
    (hp : sa.getStandardPrimitiveStructure h fuel s = .ret p) :
    ∃ prim nig conv : Structure ℝ, sa.reducer.findPrimitiveCell h.minEle s = .ret prim ∧
      sa.reducer.niggliReduce prim tol1em5 = .ret nig ∧ sa.getStandardConventionalStructure h fuel s = .ret conv ∧
      (Consistent nig → Consistent conv ∧ Consistent p ∧
        (∀ x ∈ sites conv, ∃ y ∈ sites nig, x.1 = y.1 ∧ ∃ w, IntVec w ∧
          conv.lattice * x.2 = nig.lattice * (y.2 + w)) ∧
        ∀ x ∈ sites p, ∃ y ∈ sites nig, x.1 = y.1 ∧ ∃ w, IntVec w ∧ p.lattice * x.2 = nig.lattice * (y.2 + w)) := by
  obtain ⟨prim, nig, conv, ch, m, P, b, h1, h2, h3, h4, h5, h6, h7, -⟩ := standardPrimitive_ret hp
  refine ⟨prim, nig, conv, h1, h2, h7, fun hnig => ?_⟩
  obtain ⟨r1, r2⟩ := char_range h3
  obtain ⟨m', P', b', c, n, e1, e2, e3, e4, e5, e6, e7⟩ := C32_tables_consistent (K := ℝ) ch r1 r2
  rw [h3] at e1
  rw [h5] at e2
  simp only [Option.some.injEq, Outcome.ret.injEq, Prod.mk.injEq] at e1 e2
  obtain ⟨rfl, rfl⟩ := e2
  subst e1
  obtain ⟨l1, c1, -, s1, -⟩ := C16_apply_transformation_sound fuel nig conv _ _ hnig h4
  obtain ⟨l2, c2, -, s2, -⟩ := C16_apply_transformation_sound fuel conv p _ _ c1 h6
  have hT : ((castRot m : Mat3 ℝ)).transpose = ((intRot m).transpose.map fun k : ℤ => (k : ℝ)) := by
    rw [castRot_overK]; rfl
  have add_int : ∀ {u v : Vec3 ℝ}, IntVec u → IntVec v → IntVec (u + v) := by
    rintro _ _ ⟨i, j, k, rfl⟩ ⟨i', j', k', rfl⟩
    exact ⟨i + i', j + j', k + k', by ext <;> simp⟩
  have hconv : ∀ x ∈ sites conv, ∃ y ∈ sites nig, x.1 = y.1 ∧ ∃ w, IntVec w ∧
      (castRot m : Mat3 ℝ).transpose * x.2 = y.2 + w := by
    intro x hx
    obtain ⟨q, hq, hsp, y, mm, hxy, hm, e⟩ := s1 x hx
    refine ⟨q, hq, hsp.symm, mm + (castRot m : Mat3 ℝ).transpose * (x.2 - y), ?_, ?_⟩
    · refine add_int hm ?_
      rw [hT]
      exact int_mulVec _ (intVec_sub_iff_samePoint.2 hxy)
    · have e' : (castRot m : Mat3 ℝ).transpose * (x.2 - y) = (castRot m : Mat3 ℝ).transpose * x.2 -
          (castRot m : Mat3 ℝ).transpose * y := by ext <;> simp <;> ring
      rw [e', e]
      ext <;> simp <;> ring
  refine ⟨c1, c2, ?_, ?_⟩
  · intro x hx
    obtain ⟨y, hy, hsp, w, hw, e⟩ := hconv x hx
    refine ⟨y, hy, hsp, w, hw, ?_⟩
    rw [l1, Mat3.mul_mulVec, e]
  · intro x hx
    obtain ⟨q, hq, hsp, z, mm, hxz, hm, e⟩ := s2 x hx
    obtain ⟨y, hy, hsp', w, hw, e'⟩ := hconv q hq
    refine ⟨y, hy, hsp.symm.trans hsp', w + (castRot m : Mat3 ℝ).transpose * mm + overK ℝ n * (x.2 - z), ?_, ?_⟩
    · refine add_int (add_int hw ?_) (int_mulVec _ (intVec_sub_iff_samePoint.2 hxz))
      rw [hT]
      exact int_mulVec _ hm
    · rw [l2, l1, mul_assoc, e5, Mat3.mul_mulVec]
      congr 1
      have a1 : overK ℝ n * (x.2 - z) = overK ℝ n * x.2 - overK ℝ n * z := by ext <;> simp <;> ring
      have a2 : overK ℝ n * z = y.2 + w + (castRot m : Mat3 ℝ).transpose * mm := by
        rw [← e5, Mat3.mul_mulVec, e, ← e']
        ext <;> simp <;> ring
      rw [a1, a2]
      ext <;> simp <;> ring

/-! ## C46 -/

/-- **C46.** Whenever `get_space_group_info` returns and the primitive and the reduced lattice are above the cut-off of
the pseudo-inverse: the operations returned are those of a list `sg`, generated in the basis of the standard
primitive structure, after `apply_transformation` with a matrix that maps the standard primitive lattice onto the
lattice of the input. -/
theorem C46_total_transformation (sa : SymmetryAnalyzer ℝ) (h : HashOrders ℝ) (fuel : ℕ) (s : Structure ℝ) (num : ℕ)
    (sym : String) (ops : List (SymmOp ℝ)) (hr : sa.getSpaceGroupInfo h fuel s = .ret (num, sym, ops))
    (hcut : ∀ prim nig, sa.reducer.findPrimitiveCell h.minEle s = .ret prim →
      sa.reducer.niggliReduce prim tol1em5 = .ret nig → SvAbove prim.lattice ∧ SvAbove nig.lattice) :
    ∃ (stdPrim : Structure ℝ) (bravais : BravaisType) (gens sg : List (SymmOp ℝ)) (total : Mat3 ℝ),
      sa.getStandardPrimitiveStructure h fuel s = .ret stdPrim ∧
      sa.getPrimitiveSpaceGroupOps h fuel stdPrim bravais = .ret gens ∧
      SpaceGroup.fromGenerators fuel gens (Structure.fracTols stdPrim.lattice sa.dtol) = .ret sg ∧
      stdPrim.lattice * total = s.lattice ∧
      SpaceGroup.applyTransformation fuel sg total (Structure.fracTols stdPrim.lattice sa.dtol) = .ret ops := by
  unfold getSpaceGroupInfo at hr
  simp only [Outcome.bind_eq_ret] at hr
  obtain ⟨prim, h1, nig, h2, ⟨T, ch⟩, h3, conv, h4, ⟨P, bravais⟩, h5, sp, h6, gens, h7, sg, h8, system, -, ident, -,
    ⟨num', sym'⟩, -, invP, h9, invT, h10, ops', h11, hfin⟩ := hr
  simp only [Outcome.ret.injEq, Prod.mk.injEq] at hfin
  obtain ⟨-, -, rfl⟩ := hfin
  obtain ⟨hc1, hc2⟩ := hcut prim nig h1 h2
  have hP : P * invP = 1 := by
    cases hi : P.tryInverse with
    | none => rw [hi] at h9; simp [Outcome.ofOption] at h9
    | some i =>
      rw [hi] at h9
      simp only [Outcome.ofOption, Outcome.ret.injEq] at h9
      subst h9
      exact Mat3.tryInverse_eq_some_iff.1 hi
  have hT : T * invT = 1 := by
    cases hi : T.tryInverse with
    | none => rw [hi] at h10; simp [Outcome.ofOption] at h10
    | some i =>
      rw [hi] at h10
      simp only [Outcome.ofOption, Outcome.ret.injEq] at h10
      subst h10
      exact Mat3.tryInverse_eq_some_iff.1 hi
  refine ⟨sp, bravais, gens, sg, _, ?_, h7, h8, ?_, h11⟩
  · unfold getStandardPrimitiveStructure
    simp only at h4 h5 h6
    rw [h1, Outcome.ret_bind, h2, Outcome.ret_bind, h3, Outcome.ret_bind]
    simp only
    rw [h4, Outcome.ret_bind, h5, Outcome.ret_bind]
    exact h6
  · rw [applyTransformation_lattice h6, applyTransformation_lattice h4]
    unfold Structure.getTransformationMatrix
    calc nig.lattice * T * P * (invP * invT * ((FTrans.pinv nig.lattice : Mat3 ℝ) * prim.lattice) *
          ((FTrans.pinv prim.lattice : Mat3 ℝ) * s.lattice))
        = nig.lattice * T * (P * invP) * invT * (FTrans.pinv nig.lattice : Mat3 ℝ) *
          (prim.lattice * (FTrans.pinv prim.lattice : Mat3 ℝ)) * s.lattice := by simp only [mul_assoc]
      _ = nig.lattice * (T * invT) * (FTrans.pinv nig.lattice : Mat3 ℝ) * s.lattice := by
          rw [hP, mul_pinv hc1]; simp only [mul_one, mul_assoc]
      _ = s.lattice := by rw [hT, mul_one, mul_pinv hc2, one_mul]

/-- **C46 (as motions of space).** If moreover every rotation of `sg` is an integer matrix in the input basis, each
returned operation is the same motion of space as an operation of `sg`, up to lattice translations: it maps the point
`x` of the input basis, which is the point `y` of the standard primitive basis, to the same place. -/
theorem C46_same_motion (sa : SymmetryAnalyzer ℝ) (h : HashOrders ℝ) (fuel : ℕ) (s : Structure ℝ) (num : ℕ)
    (sym : String) (ops : List (SymmOp ℝ)) (hr : sa.getSpaceGroupInfo h fuel s = .ret (num, sym, ops))
    (hcut : ∀ prim nig, sa.reducer.findPrimitiveCell h.minEle s = .ret prim →
      sa.reducer.niggliReduce prim tol1em5 = .ret nig → SvAbove prim.lattice ∧ SvAbove nig.lattice) :
    ∃ (stdPrim : Structure ℝ) (bravais : BravaisType) (gens sg : List (SymmOp ℝ)) (total : Mat3 ℝ),
      sa.getStandardPrimitiveStructure h fuel s = .ret stdPrim ∧
      sa.getPrimitiveSpaceGroupOps h fuel stdPrim bravais = .ret gens ∧
      SpaceGroup.fromGenerators fuel gens (Structure.fracTols stdPrim.lattice sa.dtol) = .ret sg ∧
      stdPrim.lattice * total = s.lattice ∧
      ((∀ op ∈ sg, ∃ r, FitsI8 r ∧ InBasis total (intRot op.rotation) r) →
        ∀ o ∈ ops, ∃ op ∈ sg, ∃ v w, IntVec v ∧ IntVec w ∧ ∀ x y : Vec3 ℝ, s.lattice * x = stdPrim.lattice * y →
          s.lattice * (overK ℝ (intRot o.rotation) * x + o.translation + w) =
            stdPrim.lattice * (overK ℝ (intRot op.rotation) * y + op.translation + v)) := by
  obtain ⟨sp, bravais, gens, sg, total, h1, h2, h3, h4, h5⟩ := C46_total_transformation sa h fuel s num sym ops hr hcut
  refine ⟨sp, bravais, gens, sg, total, h1, h2, h3, h4, fun hint o ho => ?_⟩
  obtain ⟨op, hop, v, hv, hb, w, hw, ht⟩ := C38_change_of_basis_partial fuel sg ops total _ hint h5 o ho
  refine ⟨op, hop, v, w, hv, hw, fun x y hxy => ?_⟩
  have hdet : sp.lattice.det ≠ 0 := by
    obtain ⟨prim, nig, conv, ch, m, P, b, g1, g2, g3, g4, g5, g6, -, -⟩ := standardPrimitive_ret h1
    obtain ⟨r1, r2⟩ := char_range g3
    obtain ⟨m', P', b', c, n, e1, e2, e3, e4, e5, e6, e7⟩ := C32_tables_consistent (K := ℝ) ch r1 r2
    rw [g3] at e1
    rw [g5] at e2
    simp only [Option.some.injEq, Outcome.ret.injEq, Prod.mk.injEq] at e1 e2
    obtain ⟨rfl, rfl⟩ := e2
    subst e1
    rw [applyTransformation_lattice g6, applyTransformation_lattice g4, mul_assoc, e5, Mat3.det_mul]
    refine mul_ne_zero (SvAbove.det_ne_zero (hcut prim nig g1 g2).2) ?_
    have : (overK ℝ n).det = (n.det : ℝ) := by simp [overK, Mat3.det, Mat3.map]
    rw [this]
    rcases e6 with e | e <;> rw [e] <;> norm_num
  have hinj : ∀ a b : Vec3 ℝ, sp.lattice * a = sp.lattice * b → a = b := by
    intro a b hab
    cases hi : sp.lattice.tryInverse with
    | none => exact absurd (Mat3.tryInverse_eq_none_iff.1 hi) hdet
    | some i =>
      have hm := Mat3.mul_eq_one_comm' (Mat3.tryInverse_eq_some_iff.1 hi)
      have := congrArg (fun v : Vec3 ℝ => i * v) hab
      simpa only [← Mat3.mul_mulVec, hm, Mat3.one_mulVec] using this
  rw [← h4, Mat3.mul_mulVec] at hxy ⊢
  have hy := hinj _ _ hxy
  congr 1
  unfold InBasis at hb
  have e1 : total * (overK ℝ (intRot o.rotation) * x) = overK ℝ (intRot op.rotation) * y := by
    rw [← Mat3.mul_mulVec, ← hb, Mat3.mul_mulVec, hy]
  have e2 : total * (overK ℝ (intRot o.rotation) * x + o.translation + w) =
      total * (overK ℝ (intRot o.rotation) * x) + total * (o.translation + w) := by ext <;> simp <;> ring
  rw [e2, e1, ht]
  ext <;> simp <;> ring

end CrystSymm
