import Verif.Props.RoundedSearch
import Verif.Props.CompleteCases

/-! # C86: crystals whose positions are fractions, stored in binary64 -/

set_option autoImplicit false
set_option linter.unusedSectionVars false

namespace CrystSymm

open Spec SymmetryAnalyzer

section
variable {ρ : Rounding} {dtol : RNum ρ} {r A : ℝ} {s : Structure (RNum ρ)}

/-- sites that are apart in the ideal structure are apart in the stored one. -/
theorem Approximates.separated {ideal : Structure ℝ} {η : ℝ} (h : Approximates s ideal η) (hη : 0 ≤ η) (ho : Sorted s)
    (hb : SearchBounds s.lattice dtol r A) (hnoise : 100 * A * η ≤ dtol.val)
    (hsep : Separated ideal (5 / 4 * dtol.val)) : Separated (exactStructure s) (9 / 8 * dtol.val) := by
  have hp := hb.pos
  have hl' : ideal.species.length = ideal.fracCoords.length := by
    rw [h.species, h.count, ho.sameLength]
  intro a b e p q ha hb' hne w hw
  by_contra hle
  rw [not_lt, ← mag_le_iff (by linarith)] at hle
  obtain ⟨hae, rfl⟩ := pos_of_site ha
  obtain ⟨hbe, rfl⟩ := pos_of_site hb'
  have d1 : DistMod (valM s.lattice) (4 * (9 / 8 * dtol.val)) (valV (posOf s.fracCoords a))
      (valV (posOf s.fracCoords b)) := ⟨w, hw, by simpa only [exactStructure, posOf_valV] using hle⟩
  obtain ⟨w', hw', hd'⟩ := ((hb.dist (h.pos hη a)).symm.trans d1).trans (hb.dist (h.pos hη b))
  have h1 := hsep a b e _ _ (site_pos hl' (by rw [h.species]; exact hae)) (site_pos hl' (by rw [h.species]; exact hbe))
    hne w' hw'
  rw [h.lattice, ← not_le, ← mag_le_iff (by linarith)] at h1
  exact h1 (hd'.trans (by linarith))

/-- the crystal with positions `v / N`, each coordinate rounded. -/
noncomputable def storedGrid (L : Mat3 (RNum ρ)) (N : ℤ) (nm : ℕ → String) (zs : List (ℕ × Vec3 ℤ)) :
    Structure (RNum ρ) where
  lattice := L
  species := zs.map fun p => nm p.1
  fracCoords := zs.map fun p => (gridPos N p.2).map RNum.round
  coords := zs.map fun p => L * ((gridPos N p.2).map RNum.round : Vec3 (RNum ρ))

/-- every position lies in the cell or on its boundary. -/
def InCellZ (N : ℤ) (zs : List (ℕ × Vec3 ℤ)) : Prop :=
  ∀ p ∈ zs, (0 ≤ p.2.x ∧ p.2.x ≤ N) ∧ (0 ≤ p.2.y ∧ p.2.y ≤ N) ∧ 0 ≤ p.2.z ∧ p.2.z ≤ N
end

theorem grid_unit {N x : ℤ} (hN : 0 < N) (h : 0 ≤ x ∧ x ≤ N) : |(x : ℝ) / N| ≤ 1 := by
  have hNr : (0 : ℝ) < N := by exact_mod_cast hN
  have h0 : (0 : ℝ) ≤ x := by exact_mod_cast h.1
  have h1 : (x : ℝ) ≤ N := by exact_mod_cast h.2
  rw [abs_of_nonneg (by positivity), div_le_one hNr]
  exact h1

theorem round64_close {x : ℝ} (h : |x| ≤ 1) : |(RNum.round x : RNum binary64).val - x| ≤ 1 / 2 ^ 53 :=
  fl64_err (lt_of_le_of_lt h (by norm_num))

theorem round64_le {x : ℝ} (h : |x| ≤ 1) : |(RNum.round x : RNum binary64).val| ≤ 2 := by
  have h1 := round64_close h
  norm_num at h1
  rw [abs_le] at *
  constructor <;> linarith [h.1, h.2, h1.1, h1.2]

/-- **C86 (binary64).** A crystal whose positions are multiples of `1/N`, stored with its coordinates rounded to binary64,
in a cell whose entries are at most `A ≤ 16000` tolerances and whose symmetry operations are those of a table entry
(`gridCheck`, a computation with integers): the search returns the `n` operations; unless the entry is one of the 21 of
`crateBad` they are closed and the entry is identified, and otherwise nothing is. -/
theorem C86_binary64 {L : Mat3 (RNum binary64)} {dtol : RNum binary64} {A : ℝ} {N k : ℤ} {nm : ℕ → String}
    {z0 : ℕ × Vec3 ℤ} {rest : List (ℕ × Vec3 ℤ)} (c : GridCase (valM L) (5 / 4 * dtol.val) N k nm z0 rest)
    (hin : InCellZ N (z0 :: rest)) (hA : 1 ≤ A) (hL : EntriesWithin L A) (htol : A ≤ 16000 * dtol.val)
    {b : BravaisType} {sys : LatticeSystem} {n num : ℕ}
    {codes : List ℕ} (hent : IsTableEntry sys n num codes)
    (hchk : gridCheck N k z0 (z0 :: rest) ((holoCodes b).map decZ) (groupZ (num, codes)) = true)
    (atol : RNum binary64) :
    ∃ M, ∀ fuel ≥ M, ∀ h : HashOrders (RNum binary64), h.Valid → ∃ gens,
      (⟨dtol, atol⟩ : SymmetryAnalyzer (RNum binary64)).getPrimitiveSpaceGroupOps h fuel
        (storedGrid L N nm (z0 :: rest)) b = .ret gens ∧ gens.length = n ∧
      (num ∉ crateBad → SpaceGroup.fromGenerators fuel gens (Structure.fracTols L dtol) = .ret gens ∧
        ∃ sym, amapGet? sgNumToSymbol num = some sym ∧
          identifySpaceGroup h gens sys (Structure.fracTols L dtol) = .ret (some (num, sym))) ∧
      (num ∈ crateBad → ∀ sg, SpaceGroup.fromGenerators fuel gens (Structure.fracTols L dtol) = .ret sg →
        ∀ sys' x, identifySpaceGroup h sg sys' (Structure.fracTols L dtol) ≠ .ret (some x)) := by
  have hN : 0 < N := by have := c.twelve; have := c.pos; omega
  obtain ⟨M, hM⟩ := C35_primitive_holohedry_returns (K := ℝ)
  refine ⟨max M 2, fun fuel hf h hv => ?_⟩
  obtain ⟨h0, hfine⟩ := c.fine
  have hp : 0 < dtol.val := by linarith
  have hb : SearchBounds L dtol (1 / 2 ^ 26) A := by
    refine ⟨relative_binary64, by positivity, by norm_num, hA, hL, ?_, by linarith, fun v hv => ?_⟩
    · norm_num; linarith
    · obtain ⟨f1, -⟩ := hfine v hv
      nlinarith
  have hs := c.searchable
  have ho : Sorted (storedGrid L N nm (z0 :: rest)) :=
    ⟨by simp [storedGrid], by simpa [storedGrid] using c.few, c.sorted⟩
  have hid : Approximates (storedGrid L N nm (z0 :: rest)) (gridStructure (valM L) N nm (z0 :: rest)) (1 / 2 ^ 53) := by
    refine ⟨rfl, rfl, by simp [storedGrid, gridStructure], fun i p q hp hq => ?_⟩
    simp only [storedGrid, gridStructure, List.getElem?_map, Option.map_eq_some_iff] at hp hq
    obtain ⟨a, ha, rfl⟩ := hp
    obtain ⟨a', ha', rfl⟩ := hq
    rw [ha, Option.some.injEq] at ha'
    subst ha'
    obtain ⟨i1, i2, i3⟩ := hin a (List.mem_of_getElem? ha)
    refine ⟨0, intVec_zero, ?_, ?_, ?_⟩ <;>
      simp only [valV, gridPos, Vec3.map, Vec3.sub_x, Vec3.sub_y, Vec3.sub_z, Vec3.zero_x, Vec3.zero_y, Vec3.zero_z, sub_zero]
    · exact round64_close (grid_unit hN i1)
    · exact round64_close (grid_unit hN i2)
    · exact round64_close (grid_unit hN i3)
  have hη : (0 : ℝ) ≤ 1 / 2 ^ 53 := by positivity
  have hnoise : 100 * A * (1 / 2 ^ 53) ≤ dtol.val := by norm_num; linarith
  have hr : SearchReady (storedGrid L N nm (z0 :: rest)) dtol (1 / 2 ^ 26) A := by
    refine ⟨ho, hb, fun p hp => ?_, hid.separated hη ho hb hnoise hs.separated⟩
    simp only [storedGrid, List.mem_map] at hp
    obtain ⟨a, ha, rfl⟩ := hp
    obtain ⟨i1, i2, i3⟩ := hin a ha
    exact ⟨round64_le (grid_unit hN i1), round64_le (grid_unit hN i2), round64_le (grid_unit hN i3)⟩
  have hv' : (exactOrders h).Valid := ⟨fun _ => .refl _, hv.pointOps, fun _ => .refl _, fun _ => .refl _,
    fun _ _ => .refl _, fun _ => .refl _⟩
  obtain ⟨pg, hpg'⟩ := hM fuel (le_trans (le_max_left _ _) hf) _ hv' b
  obtain ⟨hδ, hd⟩ := hb.delta
  have hpg : primitiveHolohedry (K := RNum binary64) h fuel b = .ret pg := by
    rw [C86_holohedry hδ (hd.trans (by norm_num)) h (exactOrders h) rfl hv.pointOps]
    exact hpg'
  obtain ⟨table, htab, hlen, -⟩ := C39_tables_are_groups (K := ℝ) sys n num codes hent
  have hsym : HasSymmetry (gridStructure (valM L) N nm (z0 :: rest)) (5 / 4 * dtol.val) pg.operations table :=
    hasSymmetry_of_grid c.twelve c.pos (by simp) c.names (gridStructure_sites _ _ _ _) h0
      (fun v hv => c.short v (hv.trans (by nlinarith))) hv' hpg' htab hchk
  have he : ∀ k : ℝ, 0 ≤ k → k ≤ 49 → EdgesAtLeast L dtol k := by
    intro k hk0 hk v hv
    obtain ⟨f1, -⟩ := hfine v hv
    have : k * dtol.val ≤ 60 * dtol.val := by nlinarith
    have := pow_le_pow_left₀ (by positivity) this 2
    nlinarith
  obtain ⟨gens, hgens, ⟨m, hpm, hf2⟩, hcl, hident⟩ := C86_group_identified ⟨dtol, atol⟩ h hv fuel
    (le_trans (le_max_right _ _) hf) _ b hr (by simp [storedGrid]) (he 25 (by norm_num) (by norm_num)) pg hpg _ _ hη hid
    hnoise sys n num codes table hent htab hsym
  refine ⟨gens, hgens, ?_, fun hg => ⟨hcl hg, hident⟩, fun hbad sg hsg sys' x => ?_⟩
  · rw [hf2.length_eq, hpm.length_eq, hlen]
  · exact C86_bad_group_not_identified ⟨dtol, atol⟩ h hv fuel _ b hr (he 49 (by norm_num) le_rfl) pg hpg _ _ hη
      (by norm_num) hid hnoise sys n num codes table hent htab hsym hbad gens sg hgens hsg sys' x

theorem diagonal_within {a b c : RNum binary64} {A : ℝ} (ha : |a.val| ≤ A) (hb : |b.val| ≤ A) (hc : |c.val| ≤ A) :
    EntriesWithin (⟨a, 0, 0, 0, b, 0, 0, 0, c⟩ : Mat3 (RNum binary64)) A := by
  have z : |(0 : RNum binary64).val| ≤ A := by
    rw [show (0 : RNum binary64).val = 0 from RNum.val_zero, abs_zero]
    exact (abs_nonneg _).trans ha
  intro e he
  simp only [Mat3.toListCM, List.mem_cons, List.not_mem_nil, or_false] at he
  rcases he with rfl | rfl | rfl | rfl | rfl | rfl | rfl | rfl | rfl <;> assumption

/-- species `A` at the origin and `B` a third of the way up, in a cell of 8 by 10 by 12, all stored in binary64, with the
default tolerance `0.05` of the crate: the four operations of `Pmm2` (25) are found and identified.  Neither a third nor
the tolerance is representable. -/
example (atol : RNum binary64) : ∃ e8 e10 e12 : RNum binary64, e8.val = 8 ∧ e10.val = 10 ∧ e12.val = 12 ∧
    let L : Mat3 (RNum binary64) := ⟨e8, 0, 0, 0, e10, 0, 0, 0, e12⟩
    let dtol : RNum binary64 := RNum.round (1 / 20)
    ∃ M, ∀ fuel ≥ M, ∀ h : HashOrders (RNum binary64), h.Valid → ∃ gens sym,
      (⟨dtol, atol⟩ : SymmetryAnalyzer (RNum binary64)).getPrimitiveSpaceGroupOps h fuel
        (storedGrid L 12 ab [(0, ⟨0, 0, 0⟩), (1, ⟨0, 0, 4⟩)]) .oP = .ret gens ∧ gens.length = 4 ∧
      SpaceGroup.fromGenerators fuel gens (Structure.fracTols L dtol) = .ret gens ∧
      identifySpaceGroup h gens .Orthorhombic (Structure.fracTols L dtol) = .ret (some (25, sym)) := by
  have f8 : fl64 8 = 8 := fl64_of_grid (j := 3) (k := 8 * 2 ^ 49) (by norm_num) (by norm_num) (by norm_num)
  have f10 : fl64 10 = 10 := fl64_of_grid (j := 3) (k := 10 * 2 ^ 49) (by norm_num) (by norm_num) (by norm_num)
  have f12 : fl64 12 = 12 := fl64_of_grid (j := 3) (k := 12 * 2 ^ 49) (by norm_num) (by norm_num) (by norm_num)
  refine ⟨⟨8, f8⟩, ⟨10, f10⟩, ⟨12, f12⟩, rfl, rfl, rfl, ?_⟩
  intro L dtol
  have hL : valM L = ⟨8, 0, 0, 0, 10, 0, 0, 0, 12⟩ := by
    have z : (0 : RNum binary64).val = 0 := RNum.val_zero
    ext <;> first | rfl | exact z
  have hd := round64_close (x := 1 / 20) (by norm_num [abs_le])
  change |dtol.val - _| ≤ _ at hd
  norm_num at hd
  rw [abs_le] at hd
  obtain ⟨d1, d2⟩ := hd
  obtain ⟨codes, hent, hchk⟩ := entryChecks_spec (num := 25) (sys := .Orthorhombic) (n := 4) (N := 12) (k := 1)
    (z0 := (0, ⟨0, 0, 0⟩)) (rest := [(1, ⟨0, 0, 4⟩)]) (b := .oP) (by decide +kernel)
  have c : GridCase (valM L) (5 / 4 * dtol.val) 12 1 ab (0, ⟨0, 0, 0⟩) [(1, ⟨0, 0, 4⟩)] := by
    rw [hL]
    refine ⟨rfl, one_pos, by decide, by decide, by decide, by decide, ⟨by linarith, ?_⟩, ?_⟩
    · rintro v (rfl | rfl | rfl) <;> norm_num [lenSq, Mat3.col0, Mat3.col1, Mat3.col2] <;> constructor <;> nlinarith
    · intro v hv
      obtain ⟨h1, h2, h3⟩ := comp_le (by linarith) hv
      simp only [Mat3.mulVec_x, Mat3.mulVec_y, Mat3.mulVec_z, abs_le] at h1 h2 h3
      simp only [abs_lt]
      norm_num
      refine ⟨⟨?_, ?_⟩, ⟨?_, ?_⟩, ?_, ?_⟩ <;> linarith [h1.1, h1.2, h2.1, h2.2, h3.1, h3.2]
  obtain ⟨M, hM⟩ := C86_binary64 c (by
      intro p hp
      simp only [List.mem_cons, List.not_mem_nil, or_false] at hp
      rcases hp with rfl | rfl <;> norm_num) (by norm_num)
    (diagonal_within (A := 12) (by norm_num [RNum.val]) (by norm_num [RNum.val]) (by norm_num [RNum.val])) (by linarith)
    hent hchk atol
  refine ⟨M, fun fuel hf h hv => ?_⟩
  obtain ⟨gens, g1, g2, g3, -⟩ := hM fuel hf h hv
  obtain ⟨g4, sym, -, g5⟩ := g3 (by decide)
  exact ⟨gens, sym, g1, g2, g4, g5⟩

end CrystSymm
