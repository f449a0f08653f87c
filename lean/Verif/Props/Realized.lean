import Verif.Proofs.GridStandard

/-! # C81: the numbers that are reported -/

set_option autoImplicit false
set_option linter.unusedSectionVars false

namespace CrystSymm

open Spec Reducer SymmetryAnalyzer PointGroup NiggliCert

/-- lattices of thirteen Bravais types, all but the rhombohedral and the second monoclinic centred one (columns in units of `48 c`). -/
def gridBasis : BravaisType → Mat3 ℤ
  | .aP => .ofCols ⟨3, 0, 0⟩ ⟨1, 4, 0⟩ ⟨1, 1, 5⟩
  | .mP => .ofCols ⟨3, 0, 0⟩ ⟨0, 4, 0⟩ ⟨-1, 0, 5⟩
  | .mC => .ofCols ⟨-2, 3, 0⟩ ⟨-2, -3, 0⟩ ⟨1, 0, 4⟩
  | .oP => .ofCols ⟨2, 0, 0⟩ ⟨0, 3, 0⟩ ⟨0, 0, 4⟩
  | .oC => .ofCols ⟨2, -3, 0⟩ ⟨2, 3, 0⟩ ⟨0, 0, 5⟩
  | .oI => .ofCols ⟨2, 0, 0⟩ ⟨1, 2, 3⟩ ⟨1, -2, 3⟩
  | .oF => .ofCols ⟨2, 0, 0⟩ ⟨1, 2, 0⟩ ⟨1, 0, 3⟩
  | .tP => .ofCols ⟨2, 0, 0⟩ ⟨0, 2, 0⟩ ⟨0, 0, 3⟩
  | .tI => .ofCols ⟨0, 2, 0⟩ ⟨2, 0, 0⟩ ⟨-1, -1, -2⟩
  | .hP => .ofCols ⟨1, -1, 0⟩ ⟨0, 1, -1⟩ ⟨1, 1, 1⟩
  | .cP => .ofCols ⟨1, 0, 0⟩ ⟨0, 1, 0⟩ ⟨0, 0, 1⟩
  | .cI => .ofCols ⟨1, 1, 1⟩ ⟨1, -1, -1⟩ ⟨-1, 1, -1⟩
  | .cF => .ofCols ⟨0, 1, 1⟩ ⟨1, 0, 1⟩ ⟨1, 1, 0⟩
  | _ => 1

/-- the basis of the standard primitive cell. -/
def gridStd : BravaisType → Mat3 ℤ
  | .oI => .ofCols ⟨0, 0, 1⟩ ⟨-1, 1, 0⟩ ⟨0, -1, 0⟩
  | .oF => .ofCols ⟨-1, 1, 1⟩ ⟨0, 0, 1⟩ ⟨0, 1, 0⟩
  | .tI => .ofCols ⟨0, 1, 1⟩ ⟨1, 0, 1⟩ ⟨0, 0, -1⟩
  | .cI => .ofCols ⟨0, 1, 0⟩ ⟨0, 0, 1⟩ ⟨1, 0, 0⟩
  | .cF => .ofCols ⟨0, 1, 0⟩ ⟨0, 0, 1⟩ ⟨1, 0, 0⟩
  | _ => 1

def gridInv : BravaisType → Mat3 ℤ
  | .oI => .ofCols ⟨0, -1, -1⟩ ⟨0, 0, -1⟩ ⟨1, 0, 0⟩
  | .oF => .ofCols ⟨-1, 1, 1⟩ ⟨0, 0, 1⟩ ⟨0, 1, 0⟩
  | .tI => .ofCols ⟨0, 1, 1⟩ ⟨1, 0, 1⟩ ⟨0, 0, -1⟩
  | .cI => .ofCols ⟨0, 0, 1⟩ ⟨1, 0, 0⟩ ⟨0, 1, 0⟩
  | .cF => .ofCols ⟨0, 0, 1⟩ ⟨1, 0, 0⟩ ⟨0, 1, 0⟩
  | _ => 1

set_option maxRecDepth 100000 in
theorem gridBasis_aP : GridBasis .aP (gridBasis .aP) (gridStd .aP) (gridInv .aP) where
  det := by decide
  niggli := by unfold NiggliBasis; constructor <;> decide
  first := by decide +kernel
  short := by decide +kernel
  bound := by decide +kernel
  second := by decide +kernel
  char0 := by decide +kernel
  bravais := by decide +kernel
  std := ⟨_, _, _, rfl, rfl, rfl, by decide, by decide⟩
  inv := by decide
  holo := by unfold FitsI8; decide +kernel
  one := by decide +kernel
  num := by decide

set_option maxRecDepth 100000 in
theorem gridBasis_mP : GridBasis .mP (gridBasis .mP) (gridStd .mP) (gridInv .mP) where
  det := by decide
  niggli := by unfold NiggliBasis; constructor <;> decide
  first := by decide +kernel
  short := by decide +kernel
  bound := by decide +kernel
  second := by decide +kernel
  char0 := by decide +kernel
  bravais := by decide +kernel
  std := ⟨_, _, _, rfl, rfl, rfl, by decide, by decide⟩
  inv := by decide
  holo := by unfold FitsI8; decide +kernel
  one := by decide +kernel
  num := by decide

set_option maxRecDepth 100000 in
theorem gridBasis_mC : GridBasis .mC (gridBasis .mC) (gridStd .mC) (gridInv .mC) where
  det := by decide
  niggli := by unfold NiggliBasis; constructor <;> decide
  first := by decide +kernel
  short := by decide +kernel
  bound := by decide +kernel
  second := by decide +kernel
  char0 := by decide +kernel
  bravais := by decide +kernel
  std := ⟨_, _, _, rfl, rfl, rfl, by decide, by decide⟩
  inv := by decide
  holo := by unfold FitsI8; decide +kernel
  one := by decide +kernel
  num := by decide

set_option maxRecDepth 100000 in
theorem gridBasis_oP : GridBasis .oP (gridBasis .oP) (gridStd .oP) (gridInv .oP) where
  det := by decide
  niggli := by unfold NiggliBasis; constructor <;> decide
  first := by decide +kernel
  short := by decide +kernel
  bound := by decide +kernel
  second := by decide +kernel
  char0 := by decide +kernel
  bravais := by decide +kernel
  std := ⟨_, _, _, rfl, rfl, rfl, by decide, by decide⟩
  inv := by decide
  holo := by unfold FitsI8; decide +kernel
  one := by decide +kernel
  num := by decide

set_option maxRecDepth 100000 in
theorem gridBasis_oC : GridBasis .oC (gridBasis .oC) (gridStd .oC) (gridInv .oC) where
  det := by decide
  niggli := by unfold NiggliBasis; constructor <;> decide
  first := by decide +kernel
  short := by decide +kernel
  bound := by decide +kernel
  second := by decide +kernel
  char0 := by decide +kernel
  bravais := by decide +kernel
  std := ⟨_, _, _, rfl, rfl, rfl, by decide, by decide⟩
  inv := by decide
  holo := by unfold FitsI8; decide +kernel
  one := by decide +kernel
  num := by decide

set_option maxRecDepth 100000 in
theorem gridBasis_oI : GridBasis .oI (gridBasis .oI) (gridStd .oI) (gridInv .oI) where
  det := by decide
  niggli := by unfold NiggliBasis; constructor <;> decide
  first := by decide +kernel
  short := by decide +kernel
  bound := by decide +kernel
  second := by decide +kernel
  char0 := by decide +kernel
  bravais := by decide +kernel
  std := ⟨_, _, _, rfl, rfl, rfl, by decide, by decide⟩
  inv := by decide
  holo := by unfold FitsI8; decide +kernel
  one := by decide +kernel
  num := by decide

set_option maxRecDepth 100000 in
theorem gridBasis_oF : GridBasis .oF (gridBasis .oF) (gridStd .oF) (gridInv .oF) where
  det := by decide
  niggli := by unfold NiggliBasis; constructor <;> decide
  first := by decide +kernel
  short := by decide +kernel
  bound := by decide +kernel
  second := by decide +kernel
  char0 := by decide +kernel
  bravais := by decide +kernel
  std := ⟨_, _, _, rfl, rfl, rfl, by decide, by decide⟩
  inv := by decide
  holo := by unfold FitsI8; decide +kernel
  one := by decide +kernel
  num := by decide

set_option maxRecDepth 100000 in
theorem gridBasis_tP : GridBasis .tP (gridBasis .tP) (gridStd .tP) (gridInv .tP) where
  det := by decide
  niggli := by unfold NiggliBasis; constructor <;> decide
  first := by decide +kernel
  short := by decide +kernel
  bound := by decide +kernel
  second := by decide +kernel
  char0 := by decide +kernel
  bravais := by decide +kernel
  std := ⟨_, _, _, rfl, rfl, rfl, by decide, by decide⟩
  inv := by decide
  holo := by unfold FitsI8; decide +kernel
  one := by decide +kernel
  num := by decide

set_option maxRecDepth 100000 in
theorem gridBasis_tI : GridBasis .tI (gridBasis .tI) (gridStd .tI) (gridInv .tI) where
  det := by decide
  niggli := by unfold NiggliBasis; constructor <;> decide
  first := by decide +kernel
  short := by decide +kernel
  bound := by decide +kernel
  second := by decide +kernel
  char0 := by decide +kernel
  bravais := by decide +kernel
  std := ⟨_, _, _, rfl, rfl, rfl, by decide, by decide⟩
  inv := by decide
  holo := by unfold FitsI8; decide +kernel
  one := by decide +kernel
  num := by decide

set_option maxRecDepth 100000 in
theorem gridBasis_hP : GridBasis .hP (gridBasis .hP) (gridStd .hP) (gridInv .hP) where
  det := by decide
  niggli := by unfold NiggliBasis; constructor <;> decide
  first := by decide +kernel
  short := by decide +kernel
  bound := by decide +kernel
  second := by decide +kernel
  char0 := by decide +kernel
  bravais := by decide +kernel
  std := ⟨_, _, _, rfl, rfl, rfl, by decide, by decide⟩
  inv := by decide
  holo := by unfold FitsI8; decide +kernel
  one := by decide +kernel
  num := by decide

set_option maxRecDepth 100000 in
theorem gridBasis_cP : GridBasis .cP (gridBasis .cP) (gridStd .cP) (gridInv .cP) where
  det := by decide
  niggli := by unfold NiggliBasis; constructor <;> decide
  first := by decide +kernel
  short := by decide +kernel
  bound := by decide +kernel
  second := by decide +kernel
  char0 := by decide +kernel
  bravais := by decide +kernel
  std := ⟨_, _, _, rfl, rfl, rfl, by decide, by decide⟩
  inv := by decide
  holo := by unfold FitsI8; decide +kernel
  one := by decide +kernel
  num := by decide

set_option maxRecDepth 100000 in
theorem gridBasis_cI : GridBasis .cI (gridBasis .cI) (gridStd .cI) (gridInv .cI) where
  det := by decide
  niggli := by unfold NiggliBasis; constructor <;> decide
  first := by decide +kernel
  short := by decide +kernel
  bound := by decide +kernel
  second := by decide +kernel
  char0 := by decide +kernel
  bravais := by decide +kernel
  std := ⟨_, _, _, rfl, rfl, rfl, by decide, by decide⟩
  inv := by decide
  holo := by unfold FitsI8; decide +kernel
  one := by decide +kernel
  num := by decide

set_option maxRecDepth 100000 in
theorem gridBasis_cF : GridBasis .cF (gridBasis .cF) (gridStd .cF) (gridInv .cF) where
  det := by decide
  niggli := by unfold NiggliBasis; constructor <;> decide
  first := by decide +kernel
  short := by decide +kernel
  bound := by decide +kernel
  second := by decide +kernel
  char0 := by decide +kernel
  bravais := by decide +kernel
  std := ⟨_, _, _, rfl, rfl, rfl, by decide, by decide⟩
  inv := by decide
  holo := by unfold FitsI8; decide +kernel
  one := by decide +kernel
  num := by decide

/-- the numbers of the groups with rotations of the lattice. -/
def gridNumbers : BravaisType → List ℕ
  | .aP => [1, 2]
  | .mP => [3, 4, 6, 7, 10, 11, 13, 14]
  | .mC => [5, 8, 9, 12, 15]
  | .oP => [16, 17, 18, 19, 25, 26, 27, 28, 29, 30, 31, 32, 33, 34, 47, 48, 49, 50, 51, 52, 53, 54, 55, 56, 57, 58, 59, 60, 61, 62]
  | .oC => [20, 21, 35, 36, 37, 38, 39, 40, 41, 63, 64, 65, 66, 67, 68]
  | .oI => [23, 24, 44, 45, 46, 71, 72, 73, 74]
  | .oF => [22, 42, 43, 69, 70]
  | .tP => [75, 76, 77, 78, 81, 83, 84, 85, 86, 89, 90, 93, 94, 99, 100, 101, 102, 103, 104, 105, 106, 111, 112, 113, 114, 115, 116, 117, 118, 123, 124, 125, 126, 127, 128, 129, 130, 131, 132, 133, 134, 135, 136, 137, 138]
  | .tI => [79, 80, 82, 87, 88, 97, 98, 107, 108, 109, 110, 119, 120, 121, 122, 139, 140, 141, 142]
  | .hP => [143, 144, 145, 147, 149, 150, 156, 157, 158, 159, 168, 169, 170, 171, 172, 173, 174, 162, 163, 164, 165, 175, 176, 177, 182, 183, 184, 185, 186, 187, 188, 189, 190, 191, 192, 193, 194]
  | .cP => [195, 200, 201, 207, 208, 215, 218, 221, 222, 223, 224]
  | .cI => [197, 204, 211, 217, 229]
  | .cF => [196, 202, 203, 209, 210, 216, 219, 225, 226, 227, 228]
  | _ => []

set_option maxRecDepth 100000 in
theorem gridNumbers_aP : (entriesOf .aP).map Prod.fst = gridNumbers .aP := by decide +kernel

set_option maxRecDepth 100000 in
theorem gridNumbers_mP : (entriesOf .mP).map Prod.fst = gridNumbers .mP := by decide +kernel

set_option maxRecDepth 100000 in
theorem gridNumbers_mC : (entriesOf .mC).map Prod.fst = gridNumbers .mC := by decide +kernel

set_option maxRecDepth 100000 in
theorem gridNumbers_oP : (entriesOf .oP).map Prod.fst = gridNumbers .oP := by decide +kernel

set_option maxRecDepth 100000 in
theorem gridNumbers_oC : (entriesOf .oC).map Prod.fst = gridNumbers .oC := by decide +kernel

set_option maxRecDepth 100000 in
theorem gridNumbers_oI : (entriesOf .oI).map Prod.fst = gridNumbers .oI := by decide +kernel

set_option maxRecDepth 100000 in
theorem gridNumbers_oF : (entriesOf .oF).map Prod.fst = gridNumbers .oF := by decide +kernel

set_option maxRecDepth 100000 in
theorem gridNumbers_tP : (entriesOf .tP).map Prod.fst = gridNumbers .tP := by decide +kernel

set_option maxRecDepth 100000 in
theorem gridNumbers_tI : (entriesOf .tI).map Prod.fst = gridNumbers .tI := by decide +kernel

set_option maxRecDepth 100000 in
theorem gridNumbers_hP : (entriesOf .hP).map Prod.fst = gridNumbers .hP := by decide +kernel

set_option maxRecDepth 100000 in
theorem gridNumbers_cP : (entriesOf .cP).map Prod.fst = gridNumbers .cP := by decide +kernel

set_option maxRecDepth 100000 in
theorem gridNumbers_cI : (entriesOf .cI).map Prod.fst = gridNumbers .cI := by decide +kernel

set_option maxRecDepth 100000 in
theorem gridNumbers_cF : (entriesOf .cF).map Prod.fst = gridNumbers .cF := by decide +kernel

def gridTypes : List BravaisType := [.aP, .mP, .mC, .oP, .oC, .oI, .oF, .tP, .tI, .hP, .cP, .cI, .cF]

theorem gridNumbers_eq {b : BravaisType} (hb : b ∈ gridTypes) : (entriesOf b).map Prod.fst = gridNumbers b := by
  simp only [gridTypes, List.mem_cons, List.not_mem_nil, or_false] at hb
  rcases hb with rfl | rfl | rfl | rfl | rfl | rfl | rfl | rfl | rfl | rfl | rfl | rfl | rfl
  · exact gridNumbers_aP
  · exact gridNumbers_mP
  · exact gridNumbers_mC
  · exact gridNumbers_oP
  · exact gridNumbers_oC
  · exact gridNumbers_oI
  · exact gridNumbers_oF
  · exact gridNumbers_tP
  · exact gridNumbers_tI
  · exact gridNumbers_hP
  · exact gridNumbers_cP
  · exact gridNumbers_cI
  · exact gridNumbers_cF

theorem gridBasis_ok {b : BravaisType} (hb : b ∈ gridTypes) : GridBasis b (gridBasis b) (gridStd b) (gridInv b) := by
  simp only [gridTypes, List.mem_cons, List.not_mem_nil, or_false] at hb
  rcases hb with rfl | rfl | rfl | rfl | rfl | rfl | rfl | rfl | rfl | rfl | rfl | rfl | rfl
  · exact gridBasis_aP
  · exact gridBasis_mP
  · exact gridBasis_mC
  · exact gridBasis_oP
  · exact gridBasis_oC
  · exact gridBasis_oI
  · exact gridBasis_oF
  · exact gridBasis_tP
  · exact gridBasis_tI
  · exact gridBasis_hP
  · exact gridBasis_cP
  · exact gridBasis_cI
  · exact gridBasis_cF

theorem orbitsOk_check {b : BravaisType} {lo hi : ℕ} (h : orbitsOk b lo hi = true) {e : ℕ × List ℕ} (he : e ∈ entriesOf b) (h1 : lo ≤ e.1)
    (h2 : e.1 ≤ hi) : orbitCheck (keyW firstPoint) (keyW secondPoint) b e = true := by
  unfold orbitsOk at h
  rw [allR_iff] at h
  have := h e he
  rw [show Nat.ble lo e.1 = true from Nat.ble_eq_true_of_le h1, show Nat.ble e.1 hi = true from Nat.ble_eq_true_of_le h2] at this
  exact this

theorem gridNumbers_range : ∀ b ∈ gridTypes, ∀ n ∈ gridNumbers b, 1 ≤ n ∧ n ≤ 230 := by decide

theorem grid_orbits {b : BravaisType} (hb : b ∈ gridTypes) {e : ℕ × List ℕ} (he : e ∈ entriesOf b) :
    Orbits b e (orbitOf e firstPoint) (orbitOf e secondPoint) firstPoint := by
  apply orbits_of_check
  have hn : e.1 ∈ gridNumbers b := by
    rw [← gridNumbers_eq hb]
    exact List.mem_map.2 ⟨e, he, rfl⟩
  obtain ⟨l, u⟩ := gridNumbers_range b hb _ hn
  have hlow := orbits_low
  simp only [Bool.and_eq_true] at hlow
  obtain ⟨⟨⟨⟨⟨⟨o1, o2⟩, o3⟩, o4⟩, o5⟩, o6⟩, o7⟩ := hlow
  simp only [gridTypes, List.mem_cons, List.not_mem_nil, or_false] at hb
  rcases hb with rfl | rfl | rfl | rfl | rfl | rfl | rfl | rfl | rfl | rfl | rfl | rfl | rfl
  · exact orbitsOk_check o1 he l u
  · exact orbitsOk_check o2 he l u
  · exact orbitsOk_check o3 he l u
  · exact orbitsOk_check o4 he l u
  · exact orbitsOk_check o5 he l u
  · exact orbitsOk_check o6 he l u
  · exact orbitsOk_check o7 he l u
  · rcases le_or_gt e.1 130 with h | h
    · exact orbitsOk_check orbits_tP1 he l h
    · exact orbitsOk_check orbits_tP2 he h u
  · exact orbitsOk_check orbits_tI he l u
  · rcases le_or_gt e.1 190 with h | h
    · exact orbitsOk_check orbits_hP1 he l h
    · exact orbitsOk_check orbits_hP2 he h u
  · rcases le_or_gt e.1 220 with h | h
    · exact orbitsOk_check orbits_cP1 he l h
    · rcases le_or_gt e.1 222 with h' | h'
      · exact orbitsOk_check orbits_cP2 he h h'
      · exact orbitsOk_check orbits_cP3 he h' u
  · exact orbitsOk_check orbits_cI he l u
  · rcases le_or_gt e.1 224 with h | h
    · exact orbitsOk_check orbits_cF1 he l h
    · rcases le_or_gt e.1 226 with h' | h'
      · exact orbitsOk_check orbits_cF2 he h h'
      · exact orbitsOk_check orbits_cF3 he h' u

set_option maxRecDepth 100000 in
theorem table_lengths : (sgNumToFullMatrices.all fun g => g.2.all fun q => q.2.all fun e => Nat.ble e.2.length 48) = true := by decide +kernel

theorem grid_length {b : BravaisType} {e : ℕ × List ℕ} (he : e ∈ entriesOf b) : (groupZ e).length ≤ 48 := by
  unfold entriesOf at he
  split at he
  · rename_i groups hgr
    obtain ⟨sys, t1, t2⟩ := Option.bind_eq_some_iff.1 hgr
    obtain ⟨q, hq, hmem⟩ := List.mem_flatMap.1 he
    have h1 := (List.mem_filter.1 (by unfold fitting at hmem; exact (List.mem_filter.1 hmem).1)).1
    have := List.all_eq_true.1 (List.all_eq_true.1 (List.all_eq_true.1 table_lengths _ (amapGet?_mem t2)) _ hq) _ h1
    have h2 := Nat.le_of_ble_eq_true this
    unfold groupZ
    simpa using h2
  · cases he

/-- a crystal with the table `e`: two species, each on one general orbit of the group, in a lattice of the type `b`. -/
noncomputable def gridCrystal (c : ℝ) (b : BravaisType) (e : ℕ × List ℕ) : Structure ℝ :=
  gridCell c (gridBasis b) (gridStd b) (orbitOf e firstPoint) (orbitOf e secondPoint)

/-- the space-group numbers that are never reported. -/
def unreported : List ℕ := [91, 92, 95, 96, 146, 148, 151, 152, 153, 154, 155, 160, 161, 166, 167, 178, 179, 180, 181, 198, 199, 205, 206, 212,
  213, 214, 220, 230]

theorem unreported_iff (n : ℕ) : n ∈ unreported ↔ n ∈ crateBad ∨ n ∈ rhombohedralNumbers := by
  have h1 : ∀ n ∈ unreported, n ∈ crateBad ∨ n ∈ rhombohedralNumbers := by decide
  have h2 : ∀ n ∈ crateBad, n ∈ unreported := by decide
  have h3 : ∀ n ∈ rhombohedralNumbers, n ∈ unreported := by decide
  exact ⟨h1 n, fun h => h.elim (h2 n) (h3 n)⟩

set_option maxRecDepth 100000 in
theorem number_found : ∀ n ∈ List.range' 1 230, n ∈ unreported ∨ ∃ b ∈ gridTypes, n ∈ gridNumbers b := by decide +kernel

/-- **C81 (each of the others occurs).** -/
theorem C81_each_number (num : ℕ) (h1 : 1 ≤ num) (h2 : num ≤ 230) (hnum : num ∉ unreported) {c : ℝ} (hc : 3 ≤ c) (hc' : c ≤ 20) :
    ∃ s : Structure ℝ, s.lattice.det ≠ 0 ∧ ∀ (h : HashOrders ℝ) (_ : h.Valid) (atol : ℝ),
      CleanCrystal ⟨1 / 20, atol⟩ h s s ∧ ∃ sym ops N, amapGet? sgNumToSymbol num = some sym ∧ ∀ fuel ≥ N,
        (⟨1 / 20, atol⟩ : SymmetryAnalyzer ℝ).getSpaceGroupInfo h fuel s = .ret (num, sym, ops) := by
  rcases number_found num (by rw [List.mem_range'_1]; omega) with h | ⟨b, hb, hn⟩
  · exact absurd h hnum
  · rw [← gridNumbers_eq hb] at hn
    obtain ⟨e, he, rfl⟩ := List.mem_map.1 hn
    have hR : b ≠ .hR := by
      rintro rfl
      revert hb
      decide
    have ho := grid_orbits hb he
    have hlen := grid_length he
    exact ⟨gridCrystal c b e, (grid_clean hc (gridBasis_ok hb) ho hlen).det_ne, fun h hv atol =>
      grid_answer hc hc' (gridBasis_ok hb) hR ho hlen he hv atol⟩

/-- **C81 (no other occurs).** -/
theorem C81_no_other (sa : SymmetryAnalyzer ℝ) (h : HashOrders ℝ) (hv : h.Valid) (fuel : ℕ) (s ref : Structure ℝ)
    (hc : CleanCrystal sa h s ref) (num : ℕ) (sym : String) (ops : List (SymmOp ℝ))
    (hr : sa.getSpaceGroupInfo h fuel s = .ret (num, sym, ops)) : 1 ≤ num ∧ num ≤ 230 ∧ num ∉ unreported := by
  obtain ⟨prim, nig, p, ch, b, gens, sg, sys, codes, table, total, k1, k2, k3, k4, k5, k6, k7, k8, k9, -⟩ :=
    info_steps hv hr fun _ _ k1 => clean_svAbove hc.clean (hc.found _ k1)
  have hmem : num ∈ sgNumToSymbol.map Prod.fst := List.mem_map.2 ⟨_, amapGet?_mem k9, rfl⟩
  rw [symbols_once.1, List.mem_range'_1] at hmem
  refine ⟨by omega, by omega, fun hin => ?_⟩
  rcases (unreported_iff num).1 hin with h0 | h0
  · exact ((reported_iff_of_cell sa h hv fuel _ _ p hc.clean hc.found hc.same hc.nonsing hc.index hc.size hc.clear hc.resolved hc.grid hc.long
      hc.small k5 num).1 ⟨fuel, sym, ops, hr⟩).1 h0
  · exact C43_false_never_rhombohedral sa h hv fuel s num sym ops hr h0

/-- **C81.** The numbers reported for clean crystals at the default tolerance: all from 1 to 230 but 28. -/
theorem C81_numbers (h : HashOrders ℝ) (hv : h.Valid) (atol : ℝ) (num : ℕ) :
    (∃ (s ref : Structure ℝ) (fuel : ℕ) (sym : String) (ops : List (SymmOp ℝ)), CleanCrystal ⟨1 / 20, atol⟩ h s ref ∧
      (⟨1 / 20, atol⟩ : SymmetryAnalyzer ℝ).getSpaceGroupInfo h fuel s = .ret (num, sym, ops)) ↔
    1 ≤ num ∧ num ≤ 230 ∧ num ∉ unreported := by
  constructor
  · rintro ⟨s, ref, fuel, sym, ops, hc, hr⟩
    exact C81_no_other _ h hv fuel s ref hc num sym ops hr
  · rintro ⟨h1, h2, h3⟩
    obtain ⟨s, -, hs⟩ := C81_each_number num h1 h2 h3 (c := 3) le_rfl (by norm_num)
    obtain ⟨hC, sym, ops, N, -, hN⟩ := hs h hv atol
    exact ⟨s, s, N, sym, ops, hC, hN N le_rfl⟩

/-- there are 202 of them. -/
example : ((List.range' 1 230).filter fun n => n ∉ unreported).length = 202 := by decide +kernel

/-- group 19 (`P2₁2₁2₁`, the most frequent one of chiral molecules): eight atoms in a box of 288 × 432 × 576. -/
example (h : HashOrders ℝ) (hv : h.Valid) : ∃ s : Structure ℝ, ∃ ops N, ∀ fuel ≥ N,
    (⟨1 / 20, 5⟩ : SymmetryAnalyzer ℝ).getSpaceGroupInfo h fuel s = .ret (19, "P2_12_121", ops) := by
  obtain ⟨s, -, hs⟩ := C81_each_number 19 (by norm_num) (by norm_num) (by decide) (c := 3) le_rfl (by norm_num)
  obtain ⟨-, sym, ops, N, e, hN⟩ := hs h hv 5
  have : amapGet? sgNumToSymbol 19 = some "P2_12_121" := by decide +kernel
  rw [e] at this
  cases this
  exact ⟨s, ops, N, hN⟩

end CrystSymm
