import Verif.Props.ExactGroup
import Verif.Props.Centred
import Verif.Props.Fuel
import Verif.Spec.System

set_option autoImplicit false
set_option linter.unusedSectionVars false

/-! # C76: when a space group is reported -/

namespace CrystSymm

open Spec SymmetryAnalyzer PointGroup

theorem Outcome.Le.of_ret {α : Type} {a b : Outcome α} {x : α} (h : Outcome.Le a b) (ha : a = .ret x) : b = .ret x := by
  rcases h with h | h
  · rw [h] at ha; cases ha
  · rw [← h]; exact ha

theorem inSystem_congr {L L' : Mat3 ℝ} (h : SameLattice L L') {sys : LatticeSystem} (hs : InSystem L sys) : InSystem L' sys := by
  obtain ⟨l, h1, h2, h3⟩ := hs
  refine ⟨l, h1, fun Q => ?_, h3⟩
  rw [h2]
  exact and_congr_right fun _ => ⟨mapsLattice_congr h, mapsLattice_congr fun v => (h v).symm⟩

/-- the list of the isometries that belong to the operations of the holohedry. -/
theorem isometries_of_full {L : Mat3 ℝ} (hd : L.det ≠ 0) {ops : List (Mat3 Int8)} (hf : FullSymmetry L L ops) (hn : ops.Nodup) :
    ∃ l : List (Mat3 ℝ), l.Nodup ∧ (∀ Q, Q ∈ l ↔ Orthogonal Q ∧ MapsLattice Q L) ∧ l.length = ops.length := by
  have hinv : L * L.adjDiv L.det = 1 := Mat3.mul_adjDiv hd
  have hinv' : L.adjDiv L.det * L = 1 := Mat3.adjDiv_mul hd
  have heq : ∀ {Q : Mat3 ℝ} {W : Mat3 Int8}, Q * L = L * overK ℝ (intRot W) → Q = L * overK ℝ (intRot W) * L.adjDiv L.det := by
    intro Q W e
    rw [← e, mul_assoc, hinv, mul_one]
  refine ⟨ops.map fun W => L * overK ℝ (intRot W) * L.adjDiv L.det, ?_, ?_, by rw [List.length_map]⟩
  · refine hn.map_on fun W _ W' _ e => ?_
    apply intRot_injective
    apply overK_injective (K := ℝ)
    have e2 := congrArg (fun M => L.adjDiv L.det * (M * L)) e
    rw [mul_assoc, mul_assoc (L * _), hinv', mul_one, mul_one, ← mul_assoc, ← mul_assoc, hinv', one_mul, one_mul] at e2
    exact e2
  · intro Q
    rw [List.mem_map]
    constructor
    · rintro ⟨W, hW, rfl⟩
      obtain ⟨Q, hQ, hm, e⟩ := hf.2 W hW
      rw [← heq e]
      exact ⟨hQ, hm⟩
    · rintro ⟨hQ, hm⟩
      obtain ⟨W, hW, e⟩ := hf.1 Q hQ hm
      exact ⟨W, hW, (heq e).symm⟩

theorem inSystem_iff {L : Mat3 ℝ} (hd : L.det ≠ 0) {ops : List (Mat3 Int8)} (hf : FullSymmetry L L ops) (hn : ops.Nodup)
    (sys : LatticeSystem) : InSystem L sys ↔ ops.length = systemOrder sys := by
  obtain ⟨l, h1, h2, h3⟩ := isometries_of_full hd hf hn
  constructor
  · rintro ⟨l', h1', h2', h3'⟩
    rw [← h3, ← h3']
    apply List.Perm.length_eq
    rw [List.perm_ext_iff_of_nodup h1 h1']
    intro Q
    rw [h2, h2']
  · intro h
    exact ⟨l, h1, h2, h3.trans h⟩

theorem system_of_order : ∀ t ∈ bravaisTable, ∀ g ∈ pointGroupTable, t.2.2 = g.1 →
    ∀ sys ∈ [LatticeSystem.Triclinic, .Monoclinic, .Orthorhombic, .Tetragonal, .Hexagonal, .Cubic],
      (g.2.1 = systemOrder sys → t.1.latticeSystem? = some sys) ∧
      (t.1 ≠ .hR → t.1.latticeSystem? = some sys → g.2.1 = systemOrder sys) := by decide +kernel

theorem system_cases {b : BravaisType} {sys : LatticeSystem} (h : b.latticeSystem? = some sys) : sys ≠ .Rhombohedral := by
  rintro rfl
  revert h
  cases b <;> decide

theorem system_mem {sys : LatticeSystem} (h : sys ≠ .Rhombohedral) :
    sys ∈ [LatticeSystem.Triclinic, .Monoclinic, .Orthorhombic, .Tetragonal, .Hexagonal, .Cubic] := by
  cases sys <;> simp_all

/-- the symmetry group of the crystal, given by a table, in the form used by the search. -/
theorem hasSymmetry_of_iff {p : Structure ℝ} {d : ℝ} (hprim : PrimitiveCell p) (hd : p.lattice.det ≠ 0) {rots : List (Mat3 Int8)}
    (hfull : FullSymmetry p.lattice p.lattice rots) (hres : Resolved p d) {table : List (SymmOp ℝ)}
    (hiff : ∀ (Q : Mat3 ℝ) (u : Vec3 ℝ), CrystalSymmetry p Q (p.lattice * u) ↔
      ∃ o ∈ table, Q * p.lattice = p.lattice * castRot o.rotation ∧ IntVec (u - o.translation)) :
    HasSymmetry p d rots table := by
  have hinv : p.lattice * p.lattice.adjDiv p.lattice.det = 1 := Mat3.mul_adjDiv hd
  have hinv' : p.lattice.adjDiv p.lattice.det * p.lattice = 1 := Mat3.adjDiv_mul hd
  constructor
  · intro o ho
    have e0 : p.lattice * castRot o.rotation * p.lattice.adjDiv p.lattice.det * p.lattice = p.lattice * castRot o.rotation := by
      rw [mul_assoc, hinv', mul_one]
    have hsym := (hiff (p.lattice * castRot o.rotation * p.lattice.adjDiv p.lattice.det) o.translation).2
      ⟨o, ho, e0, by rw [sub_self]; exact intVec_zero⟩
    obtain ⟨W, hW, e⟩ := hfull.1 _ hsym.1 (symmetry_mapsLattice hprim hsym)
    rw [e0, castRot_overK] at e
    have e1 := intRot_injective (overK_injective (K := ℝ) (mat_mul_injective hd e))
    refine ⟨by rw [e1]; exact hW, symmetry_mapsExactly hd hsym ?_⟩
    rw [e0, castRot_overK]
  · intro W hW t hm
    obtain ⟨Q, hQ, hml, e⟩ := hfull.2 W hW
    obtain ⟨t', hsym, hle⟩ := within_symmetry hres hQ hml e hm
    have hft : t' = p.lattice * (p.lattice.adjDiv p.lattice.det * t') := by
      rw [← Mat3.mul_mulVec, hinv, Mat3.one_mulVec]
    rw [hft] at hsym hle
    obtain ⟨o, ho, e1, hi⟩ := (hiff _ _).1 hsym
    refine ⟨o, ho, ?_, _, hi, ?_⟩
    · rw [e, castRot_overK] at e1
      exact (intRot_injective (overK_injective (K := ℝ) (mat_mul_injective hd e1))).symm
    · rw [← Mat3.mulVec_sub] at hle
      rw [show t - o.translation - (p.lattice.adjDiv p.lattice.det * t' - o.translation) = t - p.lattice.adjDiv p.lattice.det * t' by
        abel]
      exact hle

theorem fineTol_of_long {L L' : Mat3 ℝ} {d : ℝ} (hl : SameLattice L L') (hd' : L'.det ≠ 0) (h : LongVectors L (48 * d))
    (hf : FineTol 25 L' d) : FineTol 48 L' d := by
  obtain ⟨h0, hc⟩ := hf
  refine ⟨h0, fun v hv => ⟨?_, (hc v hv).2⟩⟩
  have key : ∀ n : Vec3 ℝ, IntVec n → n ≠ 0 → (48 * d) ^ 2 ≤ lenSq (L' * n) := by
    intro n hn hne
    obtain ⟨m, hm, e⟩ := (hl (L' * n)).2 ⟨n, hn, rfl⟩
    rw [e]
    refine h m hm ?_
    rintro rfl
    apply hne
    apply mulVec_injective hd'
    rw [e, Mat3.mulVec_zero, Mat3.mulVec_zero]
  rcases hv with rfl | rfl | rfl
  · have := key ⟨1, 0, 0⟩ ⟨1, 0, 0, by ext <;> simp⟩ (by intro e; simpa using congrArg Vec3.x e)
    rwa [show L' * (⟨1, 0, 0⟩ : Vec3 ℝ) = L'.col0 by ext <;> simp [Mat3.col0]] at this
  · have := key ⟨0, 1, 0⟩ ⟨0, 1, 0, by ext <;> simp⟩ (by intro e; simpa using congrArg Vec3.y e)
    rwa [show L' * (⟨0, 1, 0⟩ : Vec3 ℝ) = L'.col1 by ext <;> simp [Mat3.col1]] at this
  · have := key ⟨0, 0, 1⟩ ⟨0, 0, 1, by ext <;> simp⟩ (by intro e; simpa using congrArg Vec3.z e)
    rwa [show L' * (⟨0, 0, 1⟩ : Vec3 ℝ) = L'.col2 by ext <;> simp [Mat3.col2]] at this

/-- the size of a cell of a crystal in terms of a primitive cell. -/
theorem cell_index {s ref p : Structure ℝ} (rdet : ref.lattice.det ≠ 0) (plat : SameLattice ref.lattice p.lattice) {D : Mat3 ℤ}
    (hD : p.lattice * overK ℝ D = s.lattice) : |s.volume| = |ref.volume| * D.det.natAbs := by
  obtain ⟨E, hE, hE1⟩ := sameLattice_matrix rdet plat
  have e1 : |p.lattice.det| = |ref.volume| := by
    rw [hE, Mat3.det_mul, show (NiggliCert.castM E : Mat3 ℝ) = overK ℝ E from rfl, overK_det, abs_mul]
    rcases hE1 with h1 | h1 <;> rw [h1] <;> simp [Structure.volume]
  have e2 : |s.volume| = |p.lattice.det| * |(D.det : ℝ)| := by
    unfold Structure.volume
    rw [← hD, Mat3.det_mul, overK_det, abs_mul]
  rw [e2, e1, Nat.cast_natAbs, Int.cast_abs]

/-- the final change of basis returns for the operations of a symmetry group. -/
theorem final_change_returns {p ref s : Structure ℝ} {d : ℝ} (pdet : p.lattice.det ≠ 0) (rdet : ref.lattice.det ≠ 0)
    (sdet : s.lattice.det ≠ 0) (plat : SameLattice ref.lattice p.lattice) (spsame : SameAtoms s p) (pprim : PrimitiveCell p)
    (hk : |s.volume| ≤ 24 * |ref.volume|) (hsm : SmallSymmetries s) (pfine : FineTol 25 p.lattice d) {gens : List (SymmOp ℝ)}
    (hrot : ∀ op ∈ gens, ∃ Q t, CrystalSymmetry s Q t ∧ Q * p.lattice = p.lattice * overK ℝ (intRot op.rotation))
    (hnd : (gens.map fun o => o.rotation).Nodup) {total : Mat3 ℝ} (htot : p.lattice * total = s.lattice) :
    ∃ N, ∀ fuel ≥ N, ∃ ops, SpaceGroup.applyTransformation fuel gens total (Structure.fracTols p.lattice d) = .ret ops := by
  obtain ⟨D, rfl⟩ := sublattice_change (cell_sublattice spsame pprim) pdet htot
  have hvol := cell_index rdet plat htot
  have hVpos : 0 < |ref.volume| := abs_pos.2 rdet
  have hD0 : D.det ≠ 0 := by
    intro h0
    rw [h0, Int.natAbs_zero, Nat.cast_zero, mul_zero] at hvol
    exact sdet (abs_eq_zero.1 hvol)
  have hD24 : (D.det.natAbs : ℝ) ≤ 24 := by
    rw [hvol, mul_comm] at hk
    exact le_of_mul_le_mul_right hk hVpos
  have hD1 : (1 : ℝ) ≤ D.det.natAbs := by exact_mod_cast Int.natAbs_pos.2 hD0
  have hDt : (1 : ℝ) / 25 ≤ 1 / D.det.natAbs := one_div_le_one_div_of_le (by linarith) (by linarith)
  obtain ⟨⟨x1, x2⟩, ⟨y1, y2⟩, z1, z2⟩ := pfine.tols (by norm_num)
  have ht : TolOK (Structure.fracTols p.lattice d) :=
    ⟨⟨by linarith, by linarith⟩, ⟨by linarith, by linarith⟩, by linarith, by linarith⟩
  have hint : ∀ op ∈ gens, ∃ r, FitsI8 r ∧ InBasis (overK ℝ D) (intRot op.rotation) r ∧
      ∃ e ∈ r.toListCM, e = 0 ∨ e = 1 ∨ e = -1 := by
    intro op hop
    obtain ⟨Q, t, hs, e⟩ := hrot op hop
    obtain ⟨r, hfit, e', hent⟩ := hsm Q t hs
    refine ⟨r, hfit, ?_, hent⟩
    apply mat_mul_injective pdet
    rw [← mul_assoc, ← e, mul_assoc, htot, e', ← mul_assoc, htot]
  obtain ⟨N, hN⟩ := C38_supercell_partial gens D _ ht hD0 hint
    (stayApart_of_nodup hD0 hnd (by linarith) (by linarith) (by linarith))
  exact ⟨N, fun fuel hf => (hN fuel hf).imp fun _ h => h.1⟩

theorem sameOps_rotations {tols : Vec3 ℝ} {a b : List (SymmOp ℝ)} (h : SameOps tols a b) :
    (a.map fun o => o.rotation).Perm (b.map fun o => o.rotation) := by
  obtain ⟨b', h1, h2⟩ := h
  refine List.Perm.trans (List.Perm.of_eq ?_) (h1.map _)
  clear h1
  induction h2 with
  | nil => rfl
  | cons hxy _ ih => rw [List.map_cons, List.map_cons, ih, hxy.1]

theorem clean_species {s p : Structure ℝ} {d : ℝ} (hc : CleanInput s d) (h : SameAtoms s p) : p.species ≠ [] := by
  intro h0
  obtain ⟨x, hx⟩ := List.exists_mem_of_ne_nil _ (show sites s ≠ [] from fun h1 => hc.primitive.1 (List.eq_nil_of_length_eq_zero (by
      rw [← sites_length hc.consistent, h1]; rfl)))
  have h1 : AtomAt s x.1 (s.lattice * (x.2 + 0)) := ⟨x.2, hx, 0, intVec_zero, rfl⟩
  obtain ⟨q, hq, -⟩ := (h _ _).1 h1
  unfold sites at hq
  rw [h0] at hq
  simp at hq

/-- the lattice system found is the lattice system of the lattice. -/
theorem clean_system (sa : SymmetryAnalyzer ℝ) (h : HashOrders ℝ) (hv : h.Valid) (fuel : ℕ) (s ref p : Structure ℝ)
    (hc : CleanInput ref sa.dtol) (hf : Finds sa.reducer h.minEle s ref) (hsize : 81 * cellSize ref ≤ (200000000 * sa.dtol) ^ 2)
    (hcl : ClearLattice ref.lattice (eps tol1em5 |ref.volume|)) (hp : sa.getStandardPrimitiveStructure h fuel s = .ret p) :
    ∃ (prim nig : Structure ℝ) (ch : ℕ) (b : BravaisType), sa.reducer.findPrimitiveCell h.minEle s = .ret prim ∧
      sa.reducer.niggliReduce prim tol1em5 = .ret nig ∧ getLatticeCharacter nig tol1em5 = .ret ch ∧
      amapGet? latticeCharToBravais ch = some b ∧
      ∀ pg, primitiveHolohedry h fuel b = .ret pg → FullSymmetry p.lattice p.lattice pg.operations ∧
        ∀ sys, sys ≠ .Rhombohedral → (InSystem ref.lattice sys → b.latticeSystem? = some sys) ∧
          (b ≠ .hR → b.latticeSystem? = some sys → InSystem ref.lattice sys) := by
  obtain ⟨prim, nig, ch, b, k1, k2, k3, k4, key⟩ := C69_pipeline sa h hv fuel s p hp
  refine ⟨prim, nig, ch, b, k1, k2, k3, k4, fun pg hpg => ?_⟩
  obtain ⟨hV, hn, hr'⟩ := clean_resolves (r := sa.reducer) hc hcl (hf _ k1) k2
  obtain ⟨psame, plat, pdet, pprim, psearch, pfine, -⟩ := clean_pipeline hv hc hf hsize k1 k2 hp
  have hfull := key hV hn hr' pg hpg
  refine ⟨hfull, fun sys hR => ?_⟩
  obtain ⟨c, sym, P, conv, order, types, t1, -, -, t2, -, -, -, -, t3, -, -⟩ := C35_primitive_holohedry (K := ℝ) h hv fuel b pg hpg
  have hnd : pg.operations.Nodup := List.Nodup.of_map _ t3.nodup
  have hlen : pg.operations.length = order := by rw [← t3.order, List.length_map]
  have hin : InSystem ref.lattice sys ↔ order = systemOrder sys := by
    rw [← hlen, ← inSystem_iff pdet hfull hnd]
    exact ⟨inSystem_congr plat, inSystem_congr fun v => (plat v).symm⟩
  have hso := system_of_order _ t1 _ t2 rfl sys (system_mem hR)
  rw [hin]
  exact hso

/-- a group is found for a crystal in any cell, in terms of a clean primitive cell. -/
theorem found_of_cell (sa : SymmetryAnalyzer ℝ) (h : HashOrders ℝ) (hv : h.Valid) (f₀ : ℕ) (s ref p : Structure ℝ)
    (hc : CleanInput ref sa.dtol) (hf : Finds sa.reducer h.minEle s ref) (hsame : SameAtoms s ref) (hsd : s.lattice.det ≠ 0)
    (hk : |s.volume| ≤ 24 * |ref.volume|) (hsize : 81 * cellSize ref ≤ (200000000 * sa.dtol) ^ 2)
    (hcl : ClearLattice ref.lattice (eps tol1em5 |ref.volume|)) (hres : Resolved ref sa.dtol) (hlong : LongVectors ref.lattice (48 * sa.dtol))
    (hsm : SmallSymmetries s) (hp : sa.getStandardPrimitiveStructure h f₀ s = .ret p)
    (sys : LatticeSystem) (n num : ℕ) (codes : List ℕ) (table : List (SymmOp ℝ)) (hR : sys ≠ .Rhombohedral)
    (hsys : InSystem ref.lattice sys) (hent : IsTableEntry sys n num codes) (htab : TableOps num codes table)
    (hgood : num ∉ crateBad)
    (hiff : ∀ (Q : Mat3 ℝ) (u : Vec3 ℝ), CrystalSymmetry s Q (p.lattice * u) ↔
      ∃ o ∈ table, Q * p.lattice = p.lattice * castRot o.rotation ∧ IntVec (u - o.translation)) :
    ∃ sym ops N, amapGet? sgNumToSymbol num = some sym ∧ ∀ fuel ≥ N, sa.getSpaceGroupInfo h fuel s = .ret (num, sym, ops) := by
  obtain ⟨N₁, hN₁⟩ := C35_primitive_holohedry_returns (K := ℝ)
  have hp' : sa.getStandardPrimitiveStructure h (f₀ + (N₁ + 2)) s = .ret p := (standardLe sa h f₀ (N₁ + 2) s).of_ret hp
  obtain ⟨prim, nig, ch, b, k1, k2, k3, k4, key⟩ := clean_system sa h hv _ s ref p hc hf hsize hcl hp'
  obtain ⟨pg, hpg⟩ := hN₁ (f₀ + (N₁ + 2)) (by omega) h hv b
  obtain ⟨hfull, hsy⟩ := key pg hpg
  have hb := (hsy sys hR).1 hsys
  obtain ⟨psame, plat, pdet, pprim, psearch, pfine, -⟩ := clean_pipeline hv hc hf hsize k1 k2 hp'
  have spsame : SameAtoms s p := sameAtoms_trans hsame psame
  have hne := clean_species hc psame
  have hsym : HasSymmetry p sa.dtol pg.operations table := by
    refine hasSymmetry_of_iff pprim pdet hfull (resolved_congr psame plat hres) fun Q u => ?_
    rw [← hiff]
    exact ⟨crystalSymmetry_congr (sameAtoms_symm spsame), crystalSymmetry_congr spsame⟩
  have hfine := fineTol_of_long plat pdet hlong pfine
  obtain ⟨c1, c2⟩ := clean_svAbove hc (hf _ k1) k2
  obtain ⟨sym, gens, total, e1, e2, e3, e4, -⟩ := (C59_reported_number sa h hv _ s prim nig p ch b k1 k2 k3 k4 hp' (by omega) hne psearch
    hfine pg hpg sys hb n num codes table hent htab hsym).1 hgood c1 c2
  have hperm := sameOps_rotations e3
  have hnd : (gens.map fun o => o.rotation).Nodup := hperm.nodup_iff.2 (table_rotations hent htab)
  have hrot : ∀ op ∈ gens, ∃ Q t, CrystalSymmetry s Q t ∧ Q * p.lattice = p.lattice * overK ℝ (intRot op.rotation) := by
    intro op hop
    obtain ⟨o, ho, e⟩ := List.mem_map.1 (hperm.mem_iff.1 (List.mem_map.2 ⟨op, hop, rfl⟩))
    obtain ⟨Q, hQ, hml, e'⟩ := hfull.2 _ (hsym.exact o ho).1
    refine ⟨Q, p.lattice * o.translation, (hiff _ _).2 ⟨o, ho, by rw [castRot_overK]; exact e', by rw [sub_self]; exact intVec_zero⟩, ?_⟩
    rw [← e]
    exact e'
  obtain ⟨N₂, hN₂⟩ := final_change_returns pdet hc.det_ne hsd plat spsame pprim hk hsm pfine hrot hnd e4
  obtain ⟨ops, hops⟩ := hN₂ (f₀ + (N₁ + 2) + N₂) (by omega)
  have hp2 := (standardLe sa h _ N₂ s).of_ret hp'
  have hpg2 := (primitiveHolohedry_le h _ N₂ b).of_ret hpg
  obtain ⟨sym', gens', total', e1', e2', -, e4', e5'⟩ := (C59_reported_number sa h hv _ s prim nig p ch b k1 k2 k3 k4 hp2 (by omega) hne
    psearch hfine pg hpg2 sys hb n num codes table hent htab hsym).1 hgood c1 c2
  rw [(primitiveOps_le sa h _ N₂ p b).of_ret e2] at e2'
  cases e2'
  rw [e1] at e1'
  cases e1'
  have htt : total' = total := mat_mul_injective pdet (e4'.trans e4.symm)
  rw [htt, hops, Outcome.ret_bind] at e5'
  refine ⟨sym, ops, f₀ + (N₁ + 2) + N₂, e1, fun fuel hf => ?_⟩
  obtain ⟨k, rfl⟩ := Nat.exists_eq_add_of_le hf
  exact (infoLe sa h _ k s).of_ret e5'

/-- **C76 (a group that is found).** Let the input be clean, without pseudosymmetry at the tolerance, with a lattice whose shape is
clear-cut, whose vectors are at least `48` tolerances long and whose isometries have small matrices.  If the symmetry group of the
crystal is, in the basis of the standard primitive cell, the table of the group `num` in the system of its lattice, and the product of
operations of the crate is right for this group, then `get_space_group_info` returns `num`. -/
theorem C76_group_found (sa : SymmetryAnalyzer ℝ) (h : HashOrders ℝ) (hv : h.Valid) (f₀ : ℕ) (s p : Structure ℝ)
    (hc : CleanInput s sa.dtol) (hsize : 81 * cellSize s ≤ (200000000 * sa.dtol) ^ 2)
    (hcl : ClearLattice s.lattice (eps tol1em5 |s.volume|)) (hres : Resolved s sa.dtol) (hlong : LongVectors s.lattice (48 * sa.dtol))
    (hsm : SmallMatrices s.lattice) (hp : sa.getStandardPrimitiveStructure h f₀ s = .ret p)
    (sys : LatticeSystem) (n num : ℕ) (codes : List ℕ) (table : List (SymmOp ℝ)) (hR : sys ≠ .Rhombohedral)
    (hsys : InSystem s.lattice sys) (hent : IsTableEntry sys n num codes) (htab : TableOps num codes table)
    (hgood : num ∉ crateBad)
    (hiff : ∀ (Q : Mat3 ℝ) (u : Vec3 ℝ), CrystalSymmetry s Q (p.lattice * u) ↔
      ∃ o ∈ table, Q * p.lattice = p.lattice * castRot o.rotation ∧ IntVec (u - o.translation)) :
    ∃ sym ops N, amapGet? sgNumToSymbol num = some sym ∧ ∀ fuel ≥ N, sa.getSpaceGroupInfo h fuel s = .ret (num, sym, ops) :=
  found_of_cell sa h hv f₀ s s p hc (clean_finds (r := sa.reducer) hv.minEle hc) (fun _ _ => Iff.rfl) hc.det_ne
    (by linarith [abs_nonneg s.volume]) hsize hcl hres hlong (smallSymmetries_of (clean_primitiveCell hc) hsm) hp sys n num codes
    table hR hsys hent htab hgood hiff

/-- the complete answer for a crystal in any cell, in terms of a clean primitive cell. -/
theorem reported_iff_of_cell (sa : SymmetryAnalyzer ℝ) (h : HashOrders ℝ) (hv : h.Valid) (f₀ : ℕ) (s ref p : Structure ℝ)
    (hc : CleanInput ref sa.dtol) (hf : Finds sa.reducer h.minEle s ref) (hsame : SameAtoms s ref) (hsd : s.lattice.det ≠ 0)
    (hk : |s.volume| ≤ 24 * |ref.volume|) (hsize : 81 * cellSize ref ≤ (200000000 * sa.dtol) ^ 2)
    (hcl : ClearLattice ref.lattice (eps tol1em5 |ref.volume|)) (hres : Resolved ref sa.dtol) (hgrid : GridOrigin ref)
    (hlong : LongVectors ref.lattice (48 * sa.dtol)) (hsm : SmallSymmetries s)
    (hp : sa.getStandardPrimitiveStructure h f₀ s = .ret p) (num : ℕ) :
    (∃ fuel sym ops, sa.getSpaceGroupInfo h fuel s = .ret (num, sym, ops)) ↔
      num ∉ crateBad ∧ ∃ (sys : LatticeSystem) (n : ℕ) (codes : List ℕ) (table : List (SymmOp ℝ)),
        sys ≠ .Rhombohedral ∧ InSystem ref.lattice sys ∧ IsTableEntry sys n num codes ∧ TableOps num codes table ∧
        ∀ (Q : Mat3 ℝ) (u : Vec3 ℝ), CrystalSymmetry s Q (p.lattice * u) ↔ ∃ o ∈ table,
          Q * p.lattice = p.lattice * castRot o.rotation ∧ IntVec (u - o.translation) := by
  constructor
  · rintro ⟨fuel, sym, ops, hr0⟩
    obtain ⟨N₁, hN₁⟩ := C35_primitive_holohedry_returns (K := ℝ)
    have hr := (infoLe sa h fuel (f₀ + N₁ + 2) s).of_ret hr0
    obtain ⟨prim, nig, p', ch, b, gens, sg, sys, codes, table, total, k1, k2, k3, k4, k5, k6, k7, k8, k9, k10, k11, k12, -, -⟩ :=
      info_steps hv hr fun _ _ k1 => clean_svAbove hc (hf _ k1)
    have hpp : p' = p := by
      have := (standardLe sa h f₀ (fuel + N₁ + 2) s).of_ret hp
      rw [show f₀ + (fuel + N₁ + 2) = fuel + (f₀ + N₁ + 2) by omega, k5] at this
      exact Outcome.ret.inj this
    subst hpp
    obtain ⟨prim', nig', ch', b', g1, g2, g3, g4, key⟩ := clean_system sa h hv _ s ref p' hc hf hsize hcl k5
    rw [k1] at g1
    cases g1
    rw [k2] at g2
    cases g2
    rw [k3] at g3
    cases g3
    rw [k4] at g4
    cases g4
    obtain ⟨psame, plat, pdet, pprim, psearch, pfine, -⟩ := clean_pipeline hv hc hf hsize k1 k2 k5
    have spsame : SameAtoms s p' := sameAtoms_trans hsame psame
    obtain ⟨pg, hpg⟩ := hN₁ (fuel + (f₀ + N₁ + 2)) (by omega) h hv b
    obtain ⟨hfull, hsy⟩ := key pg hpg
    obtain ⟨hsg, hnd, hG2, hG1, hiff⟩ := exact_core hv psearch pprim pdet hpg hfull pfine (resolved_congr psame plat hres)
      (gridOrigin_congr psame plat hgrid) k6 k7 k10 k11 k12
    subst hsg
    obtain ⟨prim', nig', p2, ch', b', gens', sg', g1, g2, g3, g4, g5, g6, g7, hb⟩ := C58_centring_and_class sa h hv _ s num sym ops hr
    rw [k1] at g1
    cases g1
    rw [k2] at g2
    cases g2
    rw [k3] at g3
    cases g3
    rw [k4] at g4
    cases g4
    rw [k5] at g5
    cases g5
    rw [k6] at g6
    cases g6
    rw [k7] at g7
    cases g7
    have hsym := hasSymmetry_of_iff pprim pdet hfull (resolved_congr psame plat hres) hiff
    have hbad := ((C59_reported_number sa h hv _ s prim nig p' ch b k1 k2 k3 k4 k5 (by omega) (clean_species hc psame) psearch
      (fineTol_of_long plat pdet hlong pfine) pg hpg sys k8 _ num codes table k10 k11 hsym).2 num sym ops hr).1
    refine ⟨hbad, sys, _, codes, table, system_cases k8, ((hsy sys (system_cases k8)).2 (hb hnd).2.1 k8), k10, k11, fun Q u => ?_⟩
    rw [← hiff]
    exact ⟨crystalSymmetry_congr spsame, crystalSymmetry_congr (sameAtoms_symm spsame)⟩
  · rintro ⟨hgood, sys, n, codes, table, hR, hsys, hent, htab, hiff⟩
    obtain ⟨sym, ops, N, -, hN⟩ := found_of_cell sa h hv f₀ s ref p hc hf hsame hsd hk hsize hcl hres hlong hsm hp sys n num codes table hR hsys hent htab
      hgood hiff
    exact ⟨N, sym, ops, hN N le_rfl⟩

/-- **C76 (the complete answer).** Under the same assumptions and with the origin at a position of the tables, a group is reported if
and only if it is the group in the tables of the system of the lattice whose operations are exactly the symmetries of the crystal, and
the product of operations of the crate is right for this group. -/
theorem C76_reported_iff (sa : SymmetryAnalyzer ℝ) (h : HashOrders ℝ) (hv : h.Valid) (f₀ : ℕ) (s p : Structure ℝ)
    (hc : CleanInput s sa.dtol) (hsize : 81 * cellSize s ≤ (200000000 * sa.dtol) ^ 2)
    (hcl : ClearLattice s.lattice (eps tol1em5 |s.volume|)) (hres : Resolved s sa.dtol) (hgrid : GridOrigin s)
    (hlong : LongVectors s.lattice (48 * sa.dtol)) (hsm : SmallMatrices s.lattice)
    (hp : sa.getStandardPrimitiveStructure h f₀ s = .ret p) (num : ℕ) :
    (∃ fuel sym ops, sa.getSpaceGroupInfo h fuel s = .ret (num, sym, ops)) ↔
      num ∉ crateBad ∧ ∃ (sys : LatticeSystem) (n : ℕ) (codes : List ℕ) (table : List (SymmOp ℝ)),
        sys ≠ .Rhombohedral ∧ InSystem s.lattice sys ∧ IsTableEntry sys n num codes ∧ TableOps num codes table ∧
        ∀ (Q : Mat3 ℝ) (u : Vec3 ℝ), CrystalSymmetry s Q (p.lattice * u) ↔ ∃ o ∈ table,
          Q * p.lattice = p.lattice * castRot o.rotation ∧ IntVec (u - o.translation) :=
  reported_iff_of_cell sa h hv f₀ s s p hc (clean_finds (r := sa.reducer) hv.minEle hc) (fun _ _ => Iff.rfl) hc.det_ne
    (by linarith [abs_nonneg s.volume]) hsize hcl hres hgrid hlong (smallSymmetries_of (clean_primitiveCell hc) hsm) hp num

/-- the table of the lattice group, as operations. -/
theorem latticeGroup_table {h : HashOrders ℝ} (hv : h.Valid) {fuel : ℕ} {b : BravaisType} {pg : PointGroup} (h1 : b ≠ .mI) (h2 : b ≠ .hR)
    (hpg : primitiveHolohedry (K := ℝ) h fuel b = .ret pg) :
    ∃ sys n codes table, b.latticeSystem? = some sys ∧ IsTableEntry sys n (latticeGroup b) codes ∧
      TableOps (latticeGroup b) codes table ∧ ∀ o : SymmOp ℝ, o ∈ table ↔ o.rotation ∈ pg.operations ∧ o.translation = 0 := by
  obtain ⟨sys, n, codes, hsys, hent, hz⟩ := latticeEntry_spec h1 h2
  obtain ⟨table, htab⟩ := tableOps_exists (K := ℝ) hent
  refine ⟨sys, n, codes, table, hsys, hent, htab, fun o => ?_⟩
  have hall : table.Perm (pg.operations.map fun W => (⟨W, 0⟩ : SymmOp ℝ)) := by
    rw [tableOps_eq htab]
    refine ((hz.map _).trans (List.Perm.of_eq ?_)).trans ((holo_perm hv hpg).map _).symm
    rw [List.map_map, List.map_map]
    refine List.map_congr_left fun x _ => ?_
    simp only [Function.comp, opK, Int.cast_zero, zero_div]
    rfl
  rw [hall.mem_iff, List.mem_map]
  constructor
  · rintro ⟨W, hW, rfl⟩
    exact ⟨hW, rfl⟩
  · rintro ⟨hW, h0⟩
    exact ⟨_, hW, by rw [← h0]⟩

theorem latticeGroup_good : ∀ b, latticeGroup b ∉ crateBad := by
  intro b
  cases b <;> decide

/-- holohedral crystals in any cell, in terms of a clean primitive cell. -/
theorem holohedral_of_cell (sa : SymmetryAnalyzer ℝ) (h : HashOrders ℝ) (hv : h.Valid) (s ref : Structure ℝ)
    (hc : CleanInput ref sa.dtol) (hf : Finds sa.reducer h.minEle s ref) (hsame : SameAtoms s ref) (hsd : s.lattice.det ≠ 0)
    (hk : |s.volume| ≤ 24 * |ref.volume|) (hsize : 81 * cellSize ref ≤ (200000000 * sa.dtol) ^ 2)
    (hcl : ClearLattice ref.lattice (eps tol1em5 |ref.volume|)) (hres : Resolved ref sa.dtol)
    (hlong : LongVectors ref.lattice (48 * sa.dtol)) (hsm : SmallSymmetries s)
    (hholo : ∀ Q, Orthogonal Q → MapsLattice Q ref.lattice → CrystalSymmetry s Q 0) (prim nig : Structure ℝ) (ch : ℕ) (b : BravaisType)
    (k1 : sa.reducer.findPrimitiveCell h.minEle s = .ret prim) (k2 : sa.reducer.niggliReduce prim tol1em5 = .ret nig)
    (k3 : getLatticeCharacter nig tol1em5 = .ret ch) (k4 : amapGet? latticeCharToBravais ch = some b) (hb1 : b ≠ .mI) (hb2 : b ≠ .hR) :
    ∃ sym ops N, amapGet? sgNumToSymbol (latticeGroup b) = some sym ∧
      ∀ fuel ≥ N, sa.getSpaceGroupInfo h fuel s = .ret (latticeGroup b, sym, ops) := by
  obtain ⟨N, k, conv, p, hret, -⟩ := clean_standard sa h hv hc hf k1 k2 k3
  obtain ⟨N₁, hN₁⟩ := C35_primitive_holohedry_returns (K := ℝ)
  have hp := (hret (N + N₁) (by omega)).2
  obtain ⟨prim', nig', ch', b', g1, g2, g3, g4, key⟩ := clean_system sa h hv _ s ref p hc hf hsize hcl hp
  rw [k1] at g1
  cases g1
  rw [k2] at g2
  cases g2
  rw [k3] at g3
  cases g3
  rw [k4] at g4
  cases g4
  obtain ⟨psame, plat, pdet, pprim, psearch, pfine, -⟩ := clean_pipeline hv hc hf hsize k1 k2 hp
  have spsame : SameAtoms s p := sameAtoms_trans hsame psame
  obtain ⟨pg, hpg⟩ := hN₁ (N + N₁) (by omega) h hv b
  obtain ⟨hfull, hsy⟩ := key pg hpg
  obtain ⟨sys, n, codes, table, hsys, hent, htab, hmem⟩ := latticeGroup_table hv hb1 hb2 hpg
  refine found_of_cell sa h hv _ s ref p hc hf hsame hsd hk hsize hcl hres hlong hsm hp sys n _ codes table (system_cases hsys)
    ((hsy sys (system_cases hsys)).2 hb2 hsys) hent htab (latticeGroup_good b) fun Q u => ?_
  have hshift : ∀ {Q t t'}, CrystalSymmetry p Q t → CrystalSymmetry p Q t' → ∃ m : Vec3 ℝ, IntVec m ∧ t = t' + p.lattice * m := by
    intro Q t t' h1 h2
    obtain ⟨m, hm, e⟩ := pprim (t - t') fun e x hx => by
      have hx' : x = Q * (Q.transpose * (x - t')) + t' := by
        rw [← Mat3.mul_mulVec, orthogonal_right h1.1, Mat3.one_mulVec]; abel
      rw [hx'] at hx
      have h3 := (h1.2 e _).1 ((h2.2 e _).2 hx)
      rw [← Mat3.mul_mulVec, orthogonal_right h1.1, Mat3.one_mulVec] at h3
      rwa [show x - t' + t = x + (t - t') by abel] at h3
    exact ⟨m, hm, by rw [← e]; abel⟩
  constructor
  · intro hs
    have hs' := crystalSymmetry_congr spsame hs
    have hml := symmetry_mapsLattice pprim hs'
    obtain ⟨W, hW, e⟩ := hfull.1 Q hs.1 hml
    have h0 := crystalSymmetry_congr spsame (hholo Q hs.1 (mapsLattice_congr (fun v => (plat v).symm) hml))
    obtain ⟨m, hm, e'⟩ := hshift hs' h0
    rw [zero_add] at e'
    refine ⟨⟨W, 0⟩, (hmem _).2 ⟨hW, rfl⟩, by rw [castRot_overK]; exact e, ?_⟩
    rw [mulVec_injective pdet e']
    simpa using hm
  · rintro ⟨o, ho, e, hi⟩
    obtain ⟨hW, h0⟩ := (hmem o).1 ho
    obtain ⟨Q', hQ', hml, e'⟩ := hfull.2 _ hW
    rw [castRot_overK, ← e'] at e
    have hQQ : Q = Q' := by
      have := congrArg (fun M => M * p.lattice.adjDiv p.lattice.det) e
      simpa only [mul_assoc, Mat3.mul_adjDiv pdet, mul_one] using this
    subst hQQ
    rw [h0, sub_zero] at hi
    have h1 := crystalSymmetry_congr spsame (hholo Q hQ' (mapsLattice_congr (fun v => (plat v).symm) hml))
    apply crystalSymmetry_congr (sameAtoms_symm spsame)
    refine ⟨hQ', fun e x => ?_⟩
    rw [h1.2 e x, add_zero]
    constructor
    · rintro ⟨q, hq, m, hm, e2⟩
      exact ⟨q, hq, m + u, intVec_sum hm hi, by rw [e2, ← Mat3.mulVec_add, add_assoc]⟩
    · rintro ⟨q, hq, m, hm, e2⟩
      refine ⟨q, hq, m - u, intVec_subV hm hi, ?_⟩
      rw [← add_sub_assoc, Mat3.mulVec_sub, ← e2]
      abel

/-- **C76 (holohedral crystals).** Under the same assumptions: if every isometry of the lattice about the origin maps the crystal onto
itself, the group reported is the symmorphic group of the lattice.  It is reported unless the Bravais type found is `mI` or `hR`. -/
theorem C76_holohedral (sa : SymmetryAnalyzer ℝ) (h : HashOrders ℝ) (hv : h.Valid) (s : Structure ℝ)
    (hc : CleanInput s sa.dtol) (hsize : 81 * cellSize s ≤ (200000000 * sa.dtol) ^ 2)
    (hcl : ClearLattice s.lattice (eps tol1em5 |s.volume|)) (hres : Resolved s sa.dtol)
    (hlong : LongVectors s.lattice (48 * sa.dtol)) (hsm : SmallMatrices s.lattice)
    (hholo : ∀ Q, Orthogonal Q → MapsLattice Q s.lattice → CrystalSymmetry s Q 0) (prim nig : Structure ℝ) (ch : ℕ) (b : BravaisType)
    (k1 : sa.reducer.findPrimitiveCell h.minEle s = .ret prim) (k2 : sa.reducer.niggliReduce prim tol1em5 = .ret nig)
    (k3 : getLatticeCharacter nig tol1em5 = .ret ch) (k4 : amapGet? latticeCharToBravais ch = some b) (hb1 : b ≠ .mI) (hb2 : b ≠ .hR) :
    ∃ sym ops N, amapGet? sgNumToSymbol (latticeGroup b) = some sym ∧
      ∀ fuel ≥ N, sa.getSpaceGroupInfo h fuel s = .ret (latticeGroup b, sym, ops) :=
  holohedral_of_cell sa h hv s s hc (clean_finds (r := sa.reducer) hv.minEle hc) (fun _ _ => Iff.rfl) hc.det_ne
    (by linarith [abs_nonneg s.volume]) hsize hcl hres hlong (smallSymmetries_of (clean_primitiveCell hc) hsm) hholo prim nig ch b k1 k2 k3
    k4 hb1 hb2

end CrystSymm
