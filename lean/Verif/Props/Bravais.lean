import Verif.Props.Report
import Verif.Props.PrimitiveSites
import Verif.Props.PrimitiveIndex

set_option autoImplicit false
set_option linter.unusedSectionVars false

/-! # C56: one atom per primitive cell -/

namespace CrystSymm

open Spec SymmetryAnalyzer PointGroup

/-- the space group of a lattice with one atom per lattice point (`International Tables`): the symmorphic group of the
full point symmetry of the lattice. -/
def latticeGroup : BravaisType → ℕ
  | .aP => 2 | .mP => 10 | .mC => 12 | .mI => 12 | .oP => 47 | .oC => 65 | .oI => 71 | .oF => 69
  | .tP => 123 | .tI => 139 | .hR => 166 | .hP => 191 | .cP => 221 | .cI => 229 | .cF => 225

/-- the holohedry in the primitive basis, as numbers. -/
def holoCodes (b : BravaisType) : List ℕ :=
  match amapGet? bravaisToHolohedryNum b, b.centering?.bind fun c => amapGet? centeringToPrimTrans c with
  | some num, some m =>
    match pgCodes.find? fun q => q.1 = num with
    | some q => q.2.2.map (primCode m.1)
    | none => []
  | _, _ => []

section
variable {K : Type} [Field K] [LinearOrder K] [IsStrictOrderedRing K] [FloorRing K]

theorem holo_perm {h : HashOrders K} (hv : h.Valid) {fuel : ℕ} {b : BravaisType} {pg : PointGroup}
    (hr : primitiveHolohedry h fuel b = .ret pg) : pg.operations.Perm ((holoCodes b).map dec8) := by
  obtain ⟨c, sym, hb⟩ := bravais_mem b
  obtain ⟨num, m, gens, ops, e1, e2, e3, e4, -, -, h1, h2, hmem, hops⟩ := holo_spec hb
  have hcodes : holoCodes b = ops.map (primCode m.1) := by
    have u := pgCodes_unique _ hmem
    simp only at u
    unfold holoCodes
    rw [e1, e3, Option.bind_some, e2]
    simp only [u]
  unfold primitiveHolohedry at hr
  rw [e1] at hr
  simp only [Outcome.ofOption, Outcome.ret_bind] at hr
  obtain ⟨pg0, hpg0, hr⟩ := Outcome.bind_eq_ret.1 hr
  rw [e3] at hr
  simp only [Outcome.ret_bind] at hr
  rw [e2] at hr
  simp only [Outcome.ret_bind] at hr
  obtain ⟨gens', ops', hmem', hsym', -, hperm⟩ := fromNumber_perm h1 h2 _ hv.pointOps _ hpg0
  have hsame : ops' = ops := by
    have u1 := pgCodes_unique _ hmem
    have u2 := pgCodes_unique _ hmem'
    simp only at u1 u2
    rw [u1] at u2
    simp only [Option.some.injEq, Prod.mk.injEq] at u2
    exact u2.2.2.symm
  subst hsame
  obtain ⟨inv, hi, rfl⟩ := pgTransformation_ret hr
  rw [hcodes]
  simp only
  refine (hperm.map _).trans ?_
  rw [List.map_map, List.map_map]
  refine List.Perm.of_eq (List.map_congr_left fun x hx => ?_)
  apply intRot_injective
  simp only [Function.comp]
  rw [intRot_dec8]
  exact intRot_conjRot hi (by rw [intRot_dec8]; exact inBasis_primMatrix (hops x hx).1) (fitsI8_of_small (small_decZ _))

end

/-- the table entries of the lattice groups. -/
def latticeEntry (b : BravaisType) : Option (LatticeSystem × ℕ × ℕ × List ℕ) :=
  b.latticeSystem?.bind fun sys => (amapGet? sgNumToFullMatrices sys).bind fun groups =>
    (amapGet? groups (holoCodes b).length).bind fun cands =>
      (cands.find? fun p => p.1 = latticeGroup b).map fun p => (sys, (holoCodes b).length, p)

/-- a lattice group is in the tables of its system, without translations. -/
def latticeEntryOk (b : BravaisType) : Bool :=
  match latticeEntry b with
  | some p => (groupZ p.2.2).isPerm ((holoCodes b).map fun c => (decZ c, ⟨0, 0, 0⟩))
  | none => false

set_option maxRecDepth 100000 in
theorem latticeEntry_ok : ∀ b, b ≠ .mI → b ≠ .hR → latticeEntryOk b = true := by
  intro b h1 h2
  cases b <;> first | exact absurd rfl h1 | exact absurd rfl h2 | decide +kernel

theorem latticeEntry_spec {b : BravaisType} (h1 : b ≠ .mI) (h2 : b ≠ .hR) :
    ∃ sys n codes, b.latticeSystem? = some sys ∧ IsTableEntry sys n (latticeGroup b) codes ∧
      (groupZ (latticeGroup b, codes)).Perm ((holoCodes b).map fun c => (decZ c, ⟨0, 0, 0⟩)) := by
  have hk := latticeEntry_ok b h1 h2
  unfold latticeEntryOk at hk
  split at hk
  · rename_i p hp
    unfold latticeEntry at hp
    simp only [Option.bind_eq_some_iff, Option.map_eq_some_iff] at hp
    obtain ⟨sys, e1, groups, e2, cands, e3, q, e4, rfl⟩ := hp
    have hq : q.1 = latticeGroup b := by simpa using List.find?_some e4
    refine ⟨sys, _, q.2, e1, ⟨groups, cands, amapGet?_mem e2, amapGet?_mem e3, ?_⟩, ?_⟩
    · rw [← hq]; exact List.mem_of_find?_eq_some e4
    · rw [← hq]; exact List.isPerm_iff.1 hk
  · exact absurd hk (by simp)

/-- for the two other types no table of the system contains the holohedry. -/
def missingRotations (b : BravaisType) : Bool :=
  match b.latticeSystem?.bind fun sys => amapGet? sgNumToFullMatrices sys with
  | some groups => groups.all fun q => q.2.all fun p =>
      (holoCodes b).any fun c => ! (groupZ p).any fun o => decide (o.1 = decZ c)
  | none => false

set_option maxRecDepth 100000 in
theorem missing_mI : missingRotations .mI = true ∧ missingRotations .hR = true := by decide +kernel

/-- the rotations that occur in no table of the system. -/
theorem missing_from_tables : ∀ b, b = .mI ∨ b = .hR → ∀ sys, b.latticeSystem? = some sys → ∀ groups,
    (sys, groups) ∈ sgNumToFullMatrices → ∀ q ∈ groups, ∀ p ∈ q.2, ∃ c ∈ holoCodes b, ∀ o ∈ groupZ p, o.1 ≠ decZ c := by
  intro b hb sys hsys groups hg q hq p hp
  have hk : missingRotations b = true := by
    rcases hb with rfl | rfl
    exacts [missing_mI.1, missing_mI.2]
  unfold missingRotations at hk
  have hk1 : (sgNumToFullMatrices.map Prod.fst).Nodup := by decide
  rw [hsys, Option.bind_some, amapGet?_of_mem hk1 hg] at hk
  simp only [List.all_eq_true, List.any_eq_true, Bool.not_eq_true', List.any_eq_false, decide_eq_true_eq] at hk
  exact hk q hq p hp

/-! ## the search on a single site at the origin -/

/-- one atom, at the origin. -/
def OneSite (s : Structure ℝ) (e : String) : Prop := s.species = [e] ∧ s.fracCoords = [0]

theorem perm_upsert {α β : Type} [DecidableEq α] (F : α → β) {l : List α} (hl : l.Nodup) :
    ((l.map fun a => (a, F a)).foldl (fun m p => amapUpsert m p.1 p.2 fun _ => p.2) []).Perm (l.map fun a => (a, F a)) := by
  obtain ⟨g1, g2⟩ := upsert_all_get F l
  rw [List.perm_ext_iff_of_nodup (List.Nodup.of_map _ g1)]
  · rintro ⟨k, v⟩
    rw [mem_iff_amapGet? g1, g2]
    constructor
    · intro hk
      split at hk
      · rename_i hm
        rw [← Option.some.inj hk]
        exact List.mem_map.2 ⟨k, hm, rfl⟩
      · exact absurd hk (by simp)
    · intro hk
      obtain ⟨a, ha, e⟩ := List.mem_map.1 hk
      injection e with e1 e2
      subst e1 e2
      rw [if_pos ha]
  · exact List.Nodup.map (fun a b hab => (Prod.mk.inj hab).1) hl

theorem opsForRotation_single {h : HashOrders ℝ} (hv : h.Valid) (L : Mat3 ℝ) (tols : Vec3 ℝ) (dtol : ℝ)
    (W : Mat3 Int8) : opsForRotation h L tols dtol 1 (W, [0]) = [⟨W, 0⟩] := by
  have hp1 : ∀ (i : ℕ) (a : Vec3 Int × ℕ), h.counts i [a] = [a] := fun i a =>
    List.perm_singleton.1 (hv.counts i [a])
  have hp0 : ∀ i, h.counts i [] = [] := fun i => List.perm_nil.1 (hv.counts i [])
  have hz : (ofIntVec (toIntVec (0 : Vec3 ℝ)) : Vec3 ℝ) = 0 := by
    have : toIntVec (0 : Vec3 ℝ) = ⟨0, 0, 0⟩ := by
      have ht : (FRound.toI64 ((0 : ℝ) * intConversionMult) : ℤ) = 0 := by
        rw [zero_mul]
        simp [FRound.toI64, truncZ, satZ]
      unfold toIntVec Vec3.map
      simp only [Vec3.zero_x, Vec3.zero_y, Vec3.zero_z, ht]
    rw [this]
    ext <;> simp [ofIntVec, Vec3.map, lit]
  have hst : [(0 : Vec3 ℝ)].foldl (countStep h L tols dtol) (0, []) = (1, [(toIntVec (0 : Vec3 ℝ), 1)]) := by
    simp [countStep, bumpCount, hp0, amapUpsert]
  unfold opsForRotation
  simp only [hst, hp1]
  simp [hz]

theorem search_single {sa : SymmetryAnalyzer ℝ} {h : HashOrders ℝ} (hv : h.Valid) {fuel : ℕ} {s : Structure ℝ}
    {b : BravaisType} {pg : PointGroup} {e : String} (hs : OneSite s e)
    (ht : (0 ≤ (Structure.fracTols s.lattice sa.dtol).x ∧ (Structure.fracTols s.lattice sa.dtol).x < 1) ∧
      (0 ≤ (Structure.fracTols s.lattice sa.dtol).y ∧ (Structure.fracTols s.lattice sa.dtol).y < 1) ∧
      (0 ≤ (Structure.fracTols s.lattice sa.dtol).z ∧ (Structure.fracTols s.lattice sa.dtol).z < 1))
    (hpg : primitiveHolohedry (K := ℝ) h fuel b = .ret pg) (hnd : pg.operations.Nodup) :
    ∃ gens, sa.getPrimitiveSpaceGroupOps h fuel s b = .ret gens ∧
      gens.Perm (pg.operations.map fun W => (⟨W, 0⟩ : SymmOp ℝ)) := by
  set tols := Structure.fracTols s.lattice sa.dtol with htols
  have hmin : s.getMinElement h.minEle = .ret (e, [(e, 0)], [(e, 1)]) := by
    unfold Structure.getMinElement
    have h1 : Structure.typeCount s.species = [(e, 1)] := by
      rw [hs.1]; simp [Structure.typeCount, amapUpsert]
    have h2 : Structure.eleInds s.species = [(e, 0)] := by
      rw [hs.1]; simp [Structure.eleInds, amapUpsert]
    simp only [h1, h2]
    rw [List.perm_singleton.1 (hv.minEle _)]
    simp [Structure.minByKey, Outcome.ofOption]
  have hcand : ∀ W, candidateTranslations tols s.fracCoords (h.eleInds [(e, 0)]) [(e, 1)] W
      = .ret [(0 : Vec3 ℝ)] := by
    intro W
    have hn : normFracVec tols (0 : Vec3 ℝ) = 0 := normFracVec_int ht.1 ht.2.1 ht.2.2 ⟨0, 0, 0, by ext <;> simp⟩
    rw [List.perm_singleton.1 (hv.eleInds _), hs.2]
    simp [candidateTranslations, mapOutcome, amapGet?, Outcome.ofOption, siteRange, hn]
  unfold getPrimitiveSpaceGroupOps
  simp only
  rw [hpg, Outcome.ret_bind, hmin, Outcome.ret_bind]
  simp only
  rw [mapOutcome_ret _ (fun W => (W, [(0 : Vec3 ℝ)])) _ (fun W _ => by rw [← htols, hcand]; rfl), Outcome.ret_bind]
  refine ⟨_, rfl, ?_⟩
  have hn1 : s.numSites = 1 := by unfold Structure.numSites; rw [hs.1]; rfl
  rw [hn1]
  have hp := (hv.opVecs _).trans (perm_upsert (fun _ : Mat3 Int8 => [(0 : Vec3 ℝ)]) hnd)
  refine (hp.flatMap_right _).trans ?_
  rw [List.flatMap_map]
  simp only [opsForRotation_single hv]
  refine List.Perm.of_eq ?_
  induction pg.operations with
  | nil => rfl
  | cons W l ih => simp [ih]

theorem holo_group {h : HashOrders ℝ} (hv : h.Valid) {fuel : ℕ} {b : BravaisType} {pg : PointGroup}
    (hr : primitiveHolohedry (K := ℝ) h fuel b = .ret pg) : pg.operations.Nodup ∧
      (∀ W ∈ pg.operations, ∀ V ∈ pg.operations, W * V ∈ pg.operations) ∧ pg.operations ≠ [] := by
  obtain ⟨c, sym, p, conv, order, types, -, -, -, -, -, -, -, -, hg, -, hsm⟩ := C35_primitive_holohedry h hv fuel b pg hr
  have hperm := holo_perm hv hr
  refine ⟨List.Nodup.of_map _ hg.nodup, ?_, ?_⟩
  · intro W hW V hV
    have hm := hg.mul _ (List.mem_map.2 ⟨W, hW, rfl⟩) _ (List.mem_map.2 ⟨V, hV, rfl⟩)
    obtain ⟨U, hU, e⟩ := List.mem_map.1 hm
    obtain ⟨x, -, rfl⟩ := List.mem_map.1 (hperm.mem_iff.1 hW)
    obtain ⟨y, -, rfl⟩ := List.mem_map.1 (hperm.mem_iff.1 hV)
    have : U = dec8 x * dec8 y := by
      apply intRot_injective
      rw [e, intRot_mul (entriesLe_dec8 x) (entriesLe_dec8 y)]
    rw [← this]
    exact hU
  · intro hn
    have := hg.one
    rw [hn] at this
    simp at this

theorem closure_single {fuel : ℕ} (hf : 2 ≤ fuel) {rots : List (Mat3 Int8)} {tols : Vec3 ℝ} (ht : TolOK tols)
    (hcl : ∀ W ∈ rots, ∀ V ∈ rots, W * V ∈ rots) {gens : List (SymmOp ℝ)}
    (hg : gens.Perm (rots.map fun W => (⟨W, 0⟩ : SymmOp ℝ))) : SpaceGroup.fromGenerators fuel gens tols = .ret gens := by
  obtain ⟨f, rfl⟩ : ∃ f, fuel = f + 2 := ⟨fuel - 2, by omega⟩
  unfold SpaceGroup.fromGenerators
  rw [SpaceGroup.genLoop]
  by_cases hemp : gens.isEmpty = true
  · rw [if_pos hemp]
  · rw [if_neg hemp, genRound_fixed, SpaceGroup.genLoop, if_pos (by simp)]
    intro m1 h1 m2 h2
    obtain ⟨W, hW, rfl⟩ := List.mem_map.1 (hg.mem_iff.1 h1)
    obtain ⟨V, hV, rfl⟩ := List.mem_map.1 (hg.mem_iff.1 h2)
    refine ⟨⟨W * V, 0⟩, hg.mem_iff.2 (List.mem_map.2 ⟨_, hcl W hW V hV, rfl⟩), ?_⟩
    have e : (⟨W, 0⟩ * ⟨V, 0⟩ : SymmOp ℝ) = ⟨W * V, 0⟩ := by
      have h0 : ((castRot V : Mat3 ℝ) * (0 : Vec3 ℝ) + 0) = 0 := by ext <;> simp
      show (⟨W * V, (castRot V : Mat3 ℝ) * (0 : Vec3 ℝ) + 0⟩ : SymmOp ℝ) = _
      rw [h0]
    rw [e]
    exact C07_is_approx_eq_refl _ tols ht

theorem order_in_tables {b : BravaisType} {sys : LatticeSystem}
    (hb : (b = .mI ∧ sys = .Monoclinic) ∨ (b = .hR ∧ sys = .Hexagonal)) :
    ∃ num codes, IsTableEntry sys ((holoCodes b).length % 256) num codes := by
  have key : ((amapGet? sgNumToFullMatrices sys).bind fun groups =>
      (amapGet? groups ((holoCodes b).length % 256)).bind List.head?).isSome = true := by
    rcases hb with ⟨rfl, rfl⟩ | ⟨rfl, rfl⟩ <;> decide +kernel
  obtain ⟨p, hp⟩ := Option.isSome_iff_exists.1 key
  simp only [Option.bind_eq_some_iff] at hp
  obtain ⟨groups, h1, cands, h2, h3⟩ := hp
  exact ⟨p.1, p.2, groups, cands, amapGet?_mem h1, amapGet?_mem h2, List.mem_of_head? h3⟩

/-- **C56 (standard cell).** Let the standard primitive structure have one atom, at the origin, and the tolerance be at
most `1/24` of each edge.  For every Bravais type except `mI` and `hR`, the search finds the holohedry without
translations, the closure adds nothing, and the identification returns the space group of the lattice.  For `mI` and
`hR` the identification returns nothing. -/
theorem C56_lattice_identified : ∃ N, ∀ fuel ≥ N, ∀ (sa : SymmetryAnalyzer ℝ) (h : HashOrders ℝ), h.Valid →
    ∀ (s : Structure ℝ) (e : String) (b : BravaisType) (tols : Vec3 ℝ), OneSite s e →
      tols = Structure.fracTols s.lattice sa.dtol → (0 < tols.x ∧ tols.x ≤ 1 / 24) → (0 < tols.y ∧ tols.y ≤ 1 / 24) →
      (0 < tols.z ∧ tols.z ≤ 1 / 24) →
      ∃ gens sys pg, sa.getPrimitiveSpaceGroupOps h fuel s b = .ret gens ∧
        SpaceGroup.fromGenerators fuel gens tols = .ret gens ∧ b.latticeSystem? = some sys ∧
        primitiveHolohedry (K := ℝ) h fuel b = .ret pg ∧
        gens.Perm (pg.operations.map fun W => (⟨W, 0⟩ : SymmOp ℝ)) ∧
        (b ≠ .mI → b ≠ .hR → ∃ sym, amapGet? sgNumToSymbol (latticeGroup b) = some sym ∧
          identifySpaceGroup h gens sys tols = .ret (some (latticeGroup b, sym))) ∧
        (b = .mI ∨ b = .hR → identifySpaceGroup h gens sys tols = .ret none) := by
  obtain ⟨N, hN⟩ := C35_primitive_holohedry_returns (K := ℝ)
  refine ⟨max N 2, fun fuel hf sa h hv s e b tols hs htols hx hy hz => ?_⟩
  obtain ⟨pg, hpg⟩ := hN fuel (le_trans (le_max_left _ _) hf) h hv b
  obtain ⟨hnd, hcl, hne⟩ := holo_group hv hpg
  have hperm := holo_perm hv hpg
  obtain ⟨gens, hgens, hgp⟩ := search_single (sa := sa) hv hs (by
    rw [← htols]
    exact ⟨⟨hx.1.le, by linarith [hx.2]⟩, ⟨hy.1.le, by linarith [hy.2]⟩, ⟨hz.1.le, by linarith [hz.2]⟩⟩) hpg hnd
  have ht : TolOK tols := ⟨⟨hx.1, by linarith [hx.2]⟩, ⟨hy.1, by linarith [hy.2]⟩, ⟨hz.1, by linarith [hz.2]⟩⟩
  have hall : gens.Perm ((holoCodes b).map fun c => (⟨dec8 c, 0⟩ : SymmOp ℝ)) := by
    refine hgp.trans ((hperm.map _).trans (List.Perm.of_eq ?_))
    rw [List.map_map]
    rfl
  obtain ⟨c, sys, -, hsys, -⟩ := C48_bravais_parts b
  refine ⟨gens, sys, pg, hgens, closure_single (le_trans (le_max_right _ _) hf) ht hcl hgp, hsys, hpg, hgp, ?_, ?_⟩
  · intro h1 h2
    obtain ⟨sys', n, codes, hsys', hent, hz'⟩ := latticeEntry_spec h1 h2
    rw [hsys] at hsys'
    obtain rfl := Option.some.inj hsys'
    obtain ⟨table, htab⟩ := tableOps_exists (K := ℝ) hent
    refine C41_table_groups_recognised h hv sys n (latticeGroup b) codes table gens tols ht hx.2 hy.2 hz.2 hent htab
      ⟨gens, ?_, ?_⟩
    · rw [tableOps_eq htab]
      refine hall.trans (List.Perm.symm ((hz'.map _).trans (List.Perm.of_eq ?_)))
      rw [List.map_map]
      refine List.map_congr_left fun x _ => ?_
      simp only [Function.comp, opK, Int.cast_zero, zero_div]
      rfl
    · rw [List.forall₂_same]
      intro x _
      exact (C07_is_approx_eq_iff x x tols ht).1 (C07_is_approx_eq_refl x tols ht)
  · intro hb
    have hlen : gens.length = (holoCodes b).length := by rw [hall.length_eq, List.length_map]
    rcases hres : identifySpaceGroup h gens sys tols with (_ | ⟨num, sym⟩) | msg | _
    · rfl
    · exfalso
      obtain ⟨-, -, -, -, codes, table, hent, htab, hmatch⟩ := C40_identification_sound h hv gens sys tols num sym hres
      obtain ⟨groups, cands, g1, g2, g3⟩ := hent
      obtain ⟨x, hx', hmiss⟩ := missing_from_tables b hb sys hsys groups g1 _ g2 _ g3
      obtain ⟨o, ho, hsame, -⟩ := hmatch ⟨dec8 x, 0⟩ (hall.mem_iff.2 (List.mem_map.2 ⟨x, hx', rfl⟩))
      rw [tableOps_eq htab] at ho
      obtain ⟨z, hz', rfl⟩ := List.mem_map.1 ho
      refine hmiss z hz' ?_
      have := congrArg intRot hsame
      rw [intRot_dec8] at this
      rw [this]
      exact (intRot_rotZ (groupZ_range z hz')).symm
    · exfalso
      have hno := (C40_identification_none h hv gens sys tols ht).2.1 ⟨msg, hres⟩
      rw [hlen] at hno
      have hs' : (b = .mI ∧ sys = .Monoclinic) ∨ (b = .hR ∧ sys = .Hexagonal) := by
        rcases hb with rfl | rfl
        · exact .inl ⟨rfl, (Option.some.inj hsys).symm⟩
        · exact .inr ⟨rfl, (Option.some.inj hsys).symm⟩
      obtain ⟨num, codes, hent⟩ := order_in_tables hs'
      exact hno num codes hent
    · exfalso
      rcases identify_cases h gens sys tols hv with ⟨_, _, _, _, h3⟩ | ⟨_, h3⟩ <;> rw [hres] at h3 <;> simp at h3

end CrystSymm
