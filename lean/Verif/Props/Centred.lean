import Verif.Props.Bravais
import Verif.Props.PyApi

set_option autoImplicit false
set_option linter.unusedSectionVars false

/-! # C58: the reported group has the centring of the Bravais type and the crystal class of the operations -/

namespace CrystSymm

open Spec SymmetryAnalyzer PointGroup

/-- the space groups with a given Bravais lattice (`International Tables`, table 3.1.2.2). -/
def bravaisNumbers : BravaisType → List ℕ
  | .aP => [1, 2]
  | .mP => [3, 4, 6, 7, 10, 11, 13, 14]
  | .mC | .mI => [5, 8, 9, 12, 15]
  | .oP => [16, 17, 18, 19] ++ List.range' 25 10 ++ List.range' 47 16
  | .oC => [20, 21] ++ List.range' 35 7 ++ List.range' 63 6
  | .oF => [22, 42, 43, 69, 70]
  | .oI => [23, 24, 44, 45, 46, 71, 72, 73, 74]
  | .tP => [75, 76, 77, 78, 81, 83, 84, 85, 86] ++ List.range' 89 8 ++ List.range' 99 8 ++ List.range' 111 8 ++
      List.range' 123 16
  | .tI => [79, 80, 82, 87, 88, 97, 98] ++ List.range' 107 4 ++ List.range' 119 4 ++ List.range' 139 4
  | .hR => [146, 148, 155, 160, 161, 166, 167]
  | .hP => [143, 144, 145, 147, 149, 150, 151, 152, 153, 154, 156, 157, 158, 159, 162, 163, 164, 165] ++
      List.range' 168 27
  | .cP => [195, 198, 200, 201, 205, 207, 208, 212, 213, 215, 218, 221, 222, 223, 224]
  | .cF => [196, 202, 203, 209, 210, 216, 219, 225, 226, 227, 228]
  | .cI => [197, 199, 204, 206, 211, 214, 217, 220, 229, 230]

/-- the entries of the system whose rotations all belong to the holohedry in the primitive basis. -/
def compatible (b : BravaisType) : List ℕ :=
  match b.latticeSystem?.bind fun sys => amapGet? sgNumToFullMatrices sys with
  | some groups => groups.flatMap fun q => (q.2.filter fun p => (groupZ p).all fun o =>
      (holoCodes b).any fun c => decide (o.1 = decZ c)).map Prod.fst
  | none => []

set_option maxRecDepth 100000 in
theorem compatible_checked : ∀ b, (b = .mI ∨ b = .hR → compatible b = []) ∧
    ∀ n ∈ compatible b, n ∈ bravaisNumbers b := by
  intro b
  cases b <;> refine ⟨?_, ?_⟩ <;> first | (intro h; simp at h; done) | decide +kernel

/-- no entry lists a rotation twice. -/
theorem rotations_once : ∀ p ∈ sgNumToFullMatrices, ∀ q ∈ p.2, ∀ e ∈ q.2, ((groupZ e).map Prod.fst).Nodup := by
  decide +kernel

theorem mem_compatible {b : BravaisType} {sys : LatticeSystem} (hsys : b.latticeSystem? = some sys) {n num : ℕ}
    {codes : List ℕ} (hent : IsTableEntry sys n num codes)
    (hrot : ∀ o ∈ groupZ (num, codes), ∃ c ∈ holoCodes b, o.1 = decZ c) : num ∈ compatible b := by
  obtain ⟨groups, cands, h1, h2, h3⟩ := hent
  have hk1 : (sgNumToFullMatrices.map Prod.fst).Nodup := by decide
  unfold compatible
  rw [hsys, Option.bind_some, amapGet?_of_mem hk1 h1]
  simp only [List.mem_flatMap, List.mem_map, List.mem_filter, List.all_eq_true, List.any_eq_true, decide_eq_true_eq]
  exact ⟨_, h2, _, ⟨h3, hrot⟩, rfl⟩

theorem mem_foldl_upsert {α β : Type} [DecidableEq α] (l : List (α × β)) (m : List (α × β)) (k : α)
    (h : k ∈ (l.foldl (fun m p => amapUpsert m p.1 p.2 fun _ => p.2) m).map Prod.fst) :
    k ∈ l.map Prod.fst ∨ k ∈ m.map Prod.fst := by
  induction l generalizing m with
  | nil => exact Or.inr h
  | cons p l ih =>
    rw [List.foldl_cons] at h
    rcases ih _ h with h | h
    · exact Or.inl (by simp [h])
    · rw [amapUpsert_keys] at h
      split at h
      · exact Or.inr h
      · rcases List.mem_append.1 h with h | h
        · exact Or.inr h
        · left; simp at h; simp [h]

/-- the search only returns rotations of the holohedry. -/
theorem ops_rotation_mem {sa : SymmetryAnalyzer ℝ} {h : HashOrders ℝ} (hv : h.Valid) {fuel : ℕ} {s : Structure ℝ}
    {b : BravaisType} {ops : List (SymmOp ℝ)} (hr : sa.getPrimitiveSpaceGroupOps h fuel s b = .ret ops) :
    ∃ pg, primitiveHolohedry (K := ℝ) h fuel b = .ret pg ∧ ∀ o ∈ ops, o.rotation ∈ pg.operations := by
  unfold getPrimitiveSpaceGroupOps at hr
  simp only [Outcome.bind_eq_ret] at hr
  obtain ⟨pg, hpg, ⟨e, inds, counts⟩, -, entries, hent, hfin⟩ := hr
  refine ⟨pg, hpg, fun o ho => ?_⟩
  rw [← Outcome.ret.inj hfin, List.mem_flatMap] at ho
  obtain ⟨p, hp, ho⟩ := ho
  have hrot : o.rotation = p.1 := by
    unfold opsForRotation at ho
    simp only [List.mem_filterMap] at ho
    obtain ⟨q, -, ho⟩ := ho
    split at ho
    · rw [← Option.some.inj ho]
    · simp at ho
  have hk := mem_foldl_upsert entries [] p.1 (List.mem_map.2 ⟨p, (hv.opVecs _).subset hp, rfl⟩)
  simp only [List.map_nil, List.not_mem_nil, or_false] at hk
  obtain ⟨q, hq, hqp⟩ := List.mem_map.1 hk
  rw [mapOutcome_eq_ret] at hent
  obtain ⟨op, hop, hq'⟩ := forall₂_right hent hq
  rw [Outcome.bind_eq_ret] at hq'
  obtain ⟨vs, -, hq'⟩ := hq'
  rw [hrot, ← hqp, ← Outcome.ret.inj hq']
  exact hop

theorem derived_rotation {tols : Vec3 ℝ} {gens : List (SymmOp ℝ)} {rots : List (Mat3 Int8)}
    (hcl : ∀ W ∈ rots, ∀ V ∈ rots, W * V ∈ rots) (hg : ∀ o ∈ gens, o.rotation ∈ rots) {x : SymmOp ℝ}
    (hx : Derived tols gens x) : x.rotation ∈ rots := by
  induction hx with
  | gen h => exact hg _ h
  | prod _ _ iha ihb => exact hcl _ iha _ ihb

/-- every number belongs to one Bravais lattice; `mC` and `mI` are two settings of the same. -/
example : (([.aP, .mP, .mC, .oP, .oC, .oF, .oI, .tP, .tI, .hR, .hP, .cP, .cF, .cI] : List BravaisType).flatMap
    bravaisNumbers).Perm (List.range' 1 230) := by
  set_option maxRecDepth 100000 in decide +kernel

/-- **C58.** Let `get_space_group_info` return `num` and let the generated operations have different rotations.  Then
the Bravais type is neither `mI` nor `hR`, `num` is one of the space groups with that Bravais lattice, and the crystal
class of `num` is that of the rotations. -/
theorem C58_centring_and_class (sa : SymmetryAnalyzer ℝ) (h : HashOrders ℝ) (hv : h.Valid) (fuel : ℕ) (s : Structure ℝ)
    (num : ℕ) (sym : String) (ops : List (SymmOp ℝ)) (hr : sa.getSpaceGroupInfo h fuel s = .ret (num, sym, ops)) :
    ∃ (prim nig stdPrim : Structure ℝ) (ch : ℕ) (b : BravaisType) (gens sg : List (SymmOp ℝ)),
      sa.reducer.findPrimitiveCell h.minEle s = .ret prim ∧ sa.reducer.niggliReduce prim tol1em5 = .ret nig ∧
      getLatticeCharacter nig tol1em5 = .ret ch ∧ amapGet? latticeCharToBravais ch = some b ∧
      sa.getStandardPrimitiveStructure h fuel s = .ret stdPrim ∧
      sa.getPrimitiveSpaceGroupOps h fuel stdPrim b = .ret gens ∧
      SpaceGroup.fromGenerators fuel gens (Structure.fracTols stdPrim.lattice sa.dtol) = .ret sg ∧
      ((sg.map fun o => o.rotation).Nodup → b ≠ .mI ∧ b ≠ .hR ∧ num ∈ bravaisNumbers b ∧
        classData num = some (sg.length, typeCounts (sg.map fun o => intRot o.rotation))) := by
  unfold getSpaceGroupInfo at hr
  simp only [Outcome.bind_eq_ret] at hr
  obtain ⟨prim, h1, nig, h2, ⟨T, ch⟩, h3, conv, h4, ⟨P, b⟩, h5, sp, h6, gens, h7, sg, h8, system, h9, ident, h10,
    ⟨num', sym'⟩, h11, invP, -, invT, -, ops', -, hfin⟩ := hr
  simp only [Outcome.ret.injEq, Prod.mk.injEq] at hfin
  obtain ⟨rfl, rfl, rfl⟩ := hfin
  simp only at h4 h5 h6 h7 h8 h9
  have hid := ofOption_eq_ret h11
  subst hid
  obtain ⟨-, -, hsym, hsys, codes, table, hent, htab, hall⟩ := C40_identification_sound h hv sg system _ num' sym' h10
  have hch : getLatticeCharacter nig tol1em5 = .ret ch := by
    unfold conventionalTransformationMatrix at h3
    simp only [Outcome.bind_eq_ret, Outcome.ret.injEq, Prod.mk.injEq] at h3
    obtain ⟨ch', h3, -, -, -, rfl⟩ := h3
    exact h3
  have hbr : amapGet? latticeCharToBravais ch = some b := by
    unfold primitiveTransformationMatrix at h5
    simp only [Outcome.bind_eq_ret, Outcome.ret.injEq, Prod.mk.injEq] at h5
    obtain ⟨b, h5, -, -, -, -, -, rfl⟩ := h5
    exact ofOption_eq_ret h5
  refine ⟨prim, nig, sp, ch, b, gens, sg, h1, h2, hch, hbr, ?_, h7, h8, ?_⟩
  · unfold getStandardPrimitiveStructure
    rw [h1, Outcome.ret_bind, h2, Outcome.ret_bind, h3, Outcome.ret_bind]
    simp only
    rw [h4, Outcome.ret_bind, h5, Outcome.ret_bind]
    exact h6
  · intro hnd
    obtain ⟨pg, hpg, hrot⟩ := ops_rotation_mem hv h7
    obtain ⟨-, hcl, -⟩ := holo_group hv hpg
    have hperm := holo_perm hv hpg
    have hsub : ∀ x ∈ sg, x.rotation ∈ pg.operations := fun x hx =>
      derived_rotation hcl hrot ((C37_contains_generators_partial fuel gens sg _ h8).2 x hx)
    have hnd' : (sg.map fun o => intRot o.rotation).Nodup := by
      have := hnd.map (f := intRot) (fun _ _ e => intRot_injective e)
      rwa [List.map_map] at this
    have hss : (sg.map fun o => intRot o.rotation) ⊆ (groupZ (num', codes)).map Prod.fst := by
      intro W hW
      obtain ⟨o, ho, rfl⟩ := List.mem_map.1 hW
      obtain ⟨q, hq, hrq, -⟩ := hall o ho
      rw [tableOps_eq htab] at hq
      obtain ⟨z, hz, rfl⟩ := List.mem_map.1 hq
      refine List.mem_map.2 ⟨z, hz, ?_⟩
      rw [hrq]
      exact (intRot_rotZ (groupZ_range z hz)).symm
    obtain ⟨table', htab', hlen', -⟩ := C39_tables_are_groups (K := ℝ) _ _ _ _ hent
    have hlen : ((groupZ (num', codes)).map Prod.fst).length = sg.length % 256 := by
      rw [tableOps_eq htab', List.length_map] at hlen'
      rw [List.length_map, hlen']
    have hp : (sg.map fun o => intRot o.rotation).Perm ((groupZ (num', codes)).map Prod.fst) := by
      refine (hnd'.subperm hss).perm_of_length_le ?_
      rw [hlen, List.length_map]
      exact Nat.mod_le _ _
    have hcomp : num' ∈ compatible b := mem_compatible (ofOption_eq_ret h9) hent (by
      intro o ho
      obtain ⟨x, hx, hxo⟩ := List.mem_map.1 (hp.mem_iff.2 (List.mem_map.2 ⟨o, ho, rfl⟩))
      obtain ⟨c, hc, hcx⟩ := List.mem_map.1 (hperm.mem_iff.1 (hsub x hx))
      refine ⟨c, hc, ?_⟩
      rw [← hxo, ← hcx, intRot_dec8])
    obtain ⟨hno, hyes⟩ := compatible_checked b
    refine ⟨?_, ?_, hyes _ hcomp, ?_⟩
    · intro hb; rw [hno (Or.inl hb)] at hcomp; simp at hcomp
    · intro hb; rw [hno (Or.inr hb)] at hcomp; simp at hcomp
    · have hc := C39_crystal_class (K := ℝ) _ _ _ _ hent table htab
      have hl : sg.length % 256 = sg.length := by
        rw [← hlen, ← hp.length_eq, List.length_map]
      rw [hl] at hc
      rw [hc]
      congr 2
      have e : (table.map fun o => (operOf o).1) = (groupZ (num', codes)).map Prod.fst := by
        have := congrArg (List.map Prod.fst) (tableOps_oper htab)
        simp only [List.map_map] at this
        exact this
      rw [e]
      unfold typeCounts
      refine List.map_congr_left fun t _ => ?_
      exact ((hp.map opType).count_eq t).symm

/-- the rotations of the holohedry that occur in no table of the system. -/
def neverListed (b : BravaisType) (W : Mat3 ℤ) : Bool :=
  match b.latticeSystem?.bind fun sys => amapGet? sgNumToFullMatrices sys with
  | some groups => groups.all fun q => q.2.all fun p => (groupZ p).all fun o => decide (o.1 ≠ W)
  | none => false

set_option maxRecDepth 100000 in
theorem neverListed_checked :
    (∀ c ∈ holoCodes .mI, decZ c ≠ 1 → decZ c ≠ ⟨-1, 0, 0, 0, -1, 0, 0, 0, -1⟩ → neverListed .mI (decZ c) = true) ∧
    ∀ c ∈ holoCodes .hR, decZ c * decZ c * decZ c = 1 → decZ c ≠ 1 → neverListed .hR (decZ c) = true := by
  decide +kernel

/-- **C58 (no answer).** When the standard primitive structure is exactly mapped onto itself by an operation with a
rotation of the holohedry that is, for Bravais type `mI`, neither `1` nor `-1`, or, for `hR`, a threefold rotation, then
`get_space_group_info` does not return. -/
theorem C58_no_answer (sa : SymmetryAnalyzer ℝ) (h : HashOrders ℝ) (hv : h.Valid) (fuel : ℕ) (s prim nig p : Structure ℝ)
    (ch : ℕ) (b : BravaisType) (h1 : sa.reducer.findPrimitiveCell h.minEle s = .ret prim)
    (h2 : sa.reducer.niggliReduce prim tol1em5 = .ret nig) (h3 : getLatticeCharacter nig tol1em5 = .ret ch)
    (h4 : amapGet? latticeCharToBravais ch = some b) (h5 : sa.getStandardPrimitiveStructure h fuel s = .ret p)
    (hs : Searchable p sa.dtol) (pg : PointGroup) (hpg : primitiveHolohedry (K := ℝ) h fuel b = .ret pg)
    (W : Mat3 Int8) (hW : W ∈ pg.operations) (t : Vec3 ℝ) (hm : MapsExactly p (overK ℝ (intRot W)) t)
    (hb : (b = .mI ∧ intRot W ≠ 1 ∧ intRot W ≠ ⟨-1, 0, 0, 0, -1, 0, 0, 0, -1⟩) ∨
      (b = .hR ∧ intRot W * intRot W * intRot W = 1 ∧ intRot W ≠ 1)) (x : ℕ × String × List (SymmOp ℝ)) :
    sa.getSpaceGroupInfo h fuel s ≠ .ret x := by
  obtain ⟨num, sym, ops⟩ := x
  intro hr
  obtain ⟨prim', nig', p', ch', b', sys, n, codes, table, k1, k2, k3, k4, hsys, -, -, hent, htab, k5, hfin⟩ :=
    C53_reported_group sa h hv fuel s num sym ops hr
  rw [h1, Outcome.ret.injEq] at k1; subst k1
  rw [h2, Outcome.ret.injEq] at k2; subst k2
  rw [h3, Outcome.ret.injEq] at k3; subst k3
  rw [h4, Option.some.injEq] at k4; subst k4
  rw [h5, Outcome.ret.injEq] at k5; subst k5
  obtain ⟨pg', hpg', hf⟩ := hfin hs
  rw [hpg, Outcome.ret.injEq] at hpg'; subst hpg'
  obtain ⟨o, ho, hrot, -⟩ := hf W hW t hm
  obtain ⟨c, hc, hcW⟩ := List.mem_map.1 ((holo_perm hv hpg).mem_iff.1 hW)
  have hdec : intRot W = decZ c := by rw [← hcW, intRot_dec8]
  rw [hdec] at hb
  have hnl : neverListed b (decZ c) = true := by
    rcases hb with ⟨rfl, e1, e2⟩ | ⟨rfl, e1, e2⟩
    · exact neverListed_checked.1 c hc e1 e2
    · exact neverListed_checked.2 c hc e1 e2
  obtain ⟨groups, cands, g1, g2, g3⟩ := hent
  have hk1 : (sgNumToFullMatrices.map Prod.fst).Nodup := by decide
  unfold neverListed at hnl
  rw [hsys, Option.bind_some, amapGet?_of_mem hk1 g1] at hnl
  simp only [List.all_eq_true, decide_eq_true_eq] at hnl
  rw [tableOps_eq htab] at ho
  obtain ⟨z, hz, rfl⟩ := List.mem_map.1 ho
  refine hnl _ g2 _ g3 z hz ?_
  rw [← hdec, ← hrot]
  exact (intRot_rotZ (groupZ_range z hz)).symm

/-- such rotations exist: a twofold axis for `mI` and a threefold axis for `hR`. -/
example : (∃ c ∈ holoCodes .mI, decZ c ≠ 1 ∧ decZ c ≠ ⟨-1, 0, 0, 0, -1, 0, 0, 0, -1⟩) ∧
    ∃ c ∈ holoCodes .hR, decZ c * decZ c * decZ c = 1 ∧ decZ c ≠ 1 := by decide +kernel

end CrystSymm
