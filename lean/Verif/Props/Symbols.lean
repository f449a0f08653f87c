import Verif.Proofs.Symbols
import Verif.Props.Identify

/-! # C61: the symbol reported with a number describes the operations of the group -/

set_option autoImplicit false
set_option linter.unusedSectionVars false

namespace CrystSymm

open Spec SymmetryAnalyzer PointGroup

set_option maxRecDepth 100000 in
theorem symbols_checked : ∀ p ∈ sgNumToFullMatrices, ∀ q ∈ p.2, ∀ e ∈ q.2,
    e.1 = 19 ∨ e.1 = 24 ∨ entrySymbolOk e = true := by decide +kernel

set_option maxRecDepth 100000 in
theorem symbol_letters : ∀ p ∈ sgNumToSymbol, ∃ c ∈ [Centering.P, .A, .C, .I, .F, .R],
    p.2.toList.head? = some (centringLetter c) := by decide +kernel

section
variable {K : Type} [Field K] [LinearOrder K] [IsStrictOrderedRing K] [FloorRing K]

/-- the basis of the primitive cell for `A`, with the axes in the order of the returned operations. -/
theorem basisA : PrimitiveBasisOf .A (primMatrix (basisZ 'A') : Mat3 K) := by
  intro v
  rw [primBasis_A (K := K) rfl v]
  constructor
  · rintro ⟨n, ⟨i, j, k, rfl⟩, rfl⟩
    refine ⟨⟨j, k, i⟩, ⟨j, k, i, rfl⟩, ?_⟩
    ext <;> simp [primMatrix, basisZ, Mat3.divS, Mat3.map, lit]
  · rintro ⟨n, ⟨i, j, k, rfl⟩, rfl⟩
    refine ⟨⟨k, i, j⟩, ⟨k, i, j, rfl⟩, ?_⟩
    ext <;> simp [primMatrix, basisZ, Mat3.divS, Mat3.map, lit]

theorem basisZ_spec : ∀ c ∈ [Centering.P, .A, .C, .I, .F, .R],
    PrimitiveBasisOf c (primMatrix (basisZ (centringLetter c)) : Mat3 K) ∧ (basisZ (centringLetter c)).2 ≠ 0 ∧
      0 < (primMatrix (basisZ (centringLetter c)) : Mat3 K).det ∧
      (c ≠ .A → amapGet? centeringToPrimTrans c = some (basisZ (centringLetter c))) := by
  intro c hc
  simp only [List.mem_cons, List.not_mem_nil, or_false] at hc
  rcases hc with rfl | rfl | rfl | rfl | rfl | rfl
  · have e : amapGet? centeringToPrimTrans .P = some (basisZ (centringLetter .P)) := by decide
    refine ⟨primBasis e, by decide, ?_, fun _ => e⟩
    have e' : basisZ (centringLetter .P) = (⟨1, 0, 0, 0, 1, 0, 0, 0, 1⟩, 1) := by decide
    rw [e']; simp [primMatrix, Mat3.divS, Mat3.map, Mat3.det, lit]
  · refine ⟨basisA, by decide, ?_, fun h => absurd rfl h⟩
    have e' : basisZ (centringLetter .A) = (⟨0, 0, 2, 1, -1, 0, 1, 1, 0⟩, 2) := by decide
    rw [e']; simp [primMatrix, Mat3.divS, Mat3.map, Mat3.det, lit]; norm_num
  · have e : amapGet? centeringToPrimTrans .C = some (basisZ (centringLetter .C)) := by decide
    refine ⟨primBasis e, by decide, ?_, fun _ => e⟩
    have e' : basisZ (centringLetter .C) = (⟨1, 1, 0, -1, 1, 0, 0, 0, 2⟩, 2) := by decide
    rw [e']; simp [primMatrix, Mat3.divS, Mat3.map, Mat3.det, lit]; norm_num
  · have e : amapGet? centeringToPrimTrans .I = some (basisZ (centringLetter .I)) := by decide
    refine ⟨primBasis e, by decide, ?_, fun _ => e⟩
    have e' : basisZ (centringLetter .I) = (⟨-1, 1, 1, 1, -1, 1, 1, 1, -1⟩, 2) := by decide
    rw [e']; simp [primMatrix, Mat3.divS, Mat3.map, Mat3.det, lit]; norm_num
  · have e : amapGet? centeringToPrimTrans .F = some (basisZ (centringLetter .F)) := by decide
    refine ⟨primBasis e, by decide, ?_, fun _ => e⟩
    have e' : basisZ (centringLetter .F) = (⟨0, 1, 1, 1, 0, 1, 1, 1, 0⟩, 2) := by decide
    rw [e']; simp [primMatrix, Mat3.divS, Mat3.map, Mat3.det, lit]
  · have e : amapGet? centeringToPrimTrans .R = some (basisZ (centringLetter .R)) := by decide
    refine ⟨primBasis e, by decide, ?_, fun _ => e⟩
    have e' : basisZ (centringLetter .R) = (⟨2, -1, -1, 1, 1, -2, 1, 1, 1⟩, 3) := by decide
    rw [e']; simp [primMatrix, Mat3.divS, Mat3.map, Mat3.det, lit]; norm_num

/-- **C61.** Full claim: the symbol stored for a number is the Hermann–Mauguin symbol of its operations, that is, it
starts with the letter of a centring `c`, and in a conventional basis, of which the columns of `M` are a primitive basis
for `c`, the components of the symbol describe the operations (with lattice translations) along the symmetry directions
of the crystal system: rotation and screw axes, rotoinversions, reflection and glide planes.  `M` is the matrix of the
code for `c`, except for `A`.  Proved for all numbers but 19 and 24, for which it is false
(`C61_false_two_symbols`). -/
theorem C61_symbol_describes_operations_partial (sys : LatticeSystem) (n num : ℕ) (codes : List ℕ)
    (h : IsTableEntry sys n num codes) (h19 : num ≠ 19) (h24 : num ≠ 24) (table : List (SymmOp K))
    (ht : TableOps num codes table) :
    ∃ (sym : String) (c : Centering) (rest : List Char) (M : Mat3 K),
      amapGet? sgNumToSymbol num = some sym ∧ sym.toList = centringLetter c :: rest ∧
      PrimitiveBasisOf c M ∧ 0 < M.det ∧ (c ≠ .A → ∃ m, amapGet? centeringToPrimTrans c = some m ∧ M = primMatrix m) ∧
      SymbolFits num (table.map operOf) M rest := by
  obtain ⟨-, h1, h2⟩ := entry_system h
  obtain ⟨sym, hs⟩ := symbol_exists h1 h2
  obtain ⟨c, hc, hl⟩ := symbol_letters _ (amapGet?_mem hs)
  obtain ⟨groups, cands, e1, e2, e3⟩ := h
  have hk := ((symbols_checked _ e1 _ e2 _ e3).resolve_left h19).resolve_left h24
  unfold entrySymbolOk at hk
  rw [hs, Option.map_some] at hk
  obtain ⟨b1, b2, b3, b4⟩ := basisZ_spec (K := K) c hc
  simp only at hl
  cases hcs : sym.toList with
  | nil => rw [hcs] at hl; simp at hl
  | cons a rest =>
    rw [hcs] at hl hk
    simp only [List.head?_cons, Option.some.injEq] at hl
    subst hl
    refine ⟨sym, c, rest, primMatrix (basisZ (centringLetter c)), hs, hcs, b1, b3, fun hA => ⟨_, b4 hA, rfl⟩, ?_⟩
    rw [tableOps_oper ht]
    exact symbolFitsZ_spec b2 hk

/-- **C61 (identification).** The same for the symbol that the identification returns, and the operations that were
identified match the operations which the symbol describes. -/
theorem C61_identified_symbol_partial (h : HashOrders K) (hv : h.Valid) (ops : List (SymmOp K)) (sys : LatticeSystem)
    (tols : Vec3 K) (num : ℕ) (sym : String) (hr : identifySpaceGroup h ops sys tols = .ret (some (num, sym)))
    (h19 : num ≠ 19) (h24 : num ≠ 24) :
    ∃ (c : Centering) (rest : List Char) (M : Mat3 K) (table : List (SymmOp K)),
      sym.toList = centringLetter c :: rest ∧ PrimitiveBasisOf c M ∧ 0 < M.det ∧
      SymbolFits num (table.map operOf) M rest ∧ ∀ op ∈ ops, ∃ o ∈ table, ApproxSame op o tols := by
  obtain ⟨-, -, hs, -, codes, table, hent, ht, hall⟩ := C40_identification_sound h hv ops sys tols num sym hr
  obtain ⟨sym', c, rest, M, e1, e2, e3, e4, -, e5⟩ :=
    C61_symbol_describes_operations_partial sys _ num codes hent h19 h24 table ht
  rw [hs] at e1
  injection e1 with e1
  subst e1
  exact ⟨c, rest, M, table, e2, e3, e4, e5, hall⟩

set_option maxRecDepth 100000 in
theorem no_inversion : ∀ p ∈ sgNumToFullMatrices, ∀ q ∈ p.2, ∀ e ∈ q.2, e.1 = 19 ∨ e.1 = 24 →
    ∀ o ∈ groupZ e, o.1 ≠ negMat 1 := by decide +kernel

/-- **C61 is false** for the groups 19 (`P2_12_12_1`) and 24 (`I2_12_12_1`): an underscore is missing from their symbols
`P2_12_121` and `I2_12_121`, which therefore describe the operations in no basis. -/
theorem C61_false_two_symbols :
    amapGet? sgNumToSymbol 19 = some "P2_12_121" ∧ amapGet? sgNumToSymbol 24 = some "I2_12_121" ∧
    ∀ (sys : LatticeSystem) (n num : ℕ) (codes : List ℕ), IsTableEntry sys n num codes → num = 19 ∨ num = 24 →
      ∀ (table : List (SymmOp K)), TableOps num codes table → ∀ M : Mat3 K,
        ¬ SymbolFits num (table.map operOf) M "2_12_121".toList := by
  refine ⟨by decide, by decide, ?_⟩
  rintro sys n num codes ⟨groups, cands, e1, e2, e3⟩ hn table ht M hf
  have hx := hf.extra [.axis 1 0] (by rcases hn with rfl | rfl <;> decide)
  obtain ⟨-, o, ho, he⟩ := hx
  rw [tableOps_oper ht] at ho
  obtain ⟨z, hz, rfl⟩ := List.mem_map.1 ho
  exact no_inversion _ e1 _ e2 _ e3 hn z hz he

end

/-- `P2_1/c`: its symbol is read as nothing along `a`, a screw axis and a glide plane along `b`, nothing along `c`. -/
example : components "12_1/c1".toList = [[.axis 1 0], [.axis 2 1, .plane 'c'], [.axis 1 0]] ∧
    classSymbol "12_1/c1".toList = "2/m" ∧ amapGet? sgNumToSymbol 14 = some "P12_1/c1" := by decide +kernel

/-- `P4_1` is the symbol of group 76, and the symbol `P4_3` of its mirror image is rejected by the check. -/
example : IsTableEntry .Tetragonal 4 76 [47264, 16484, 129884, 81932] ∧ amapGet? sgNumToSymbol 76 = some "P4_1" ∧
    symbolFitsZ 76 (groupZ (76, [47264, 16484, 129884, 81932])) 1 1 "4_1".toList = true ∧
    symbolFitsZ 76 (groupZ (76, [47264, 16484, 129884, 81932])) 1 1 "4_3".toList = false := by
  refine ⟨⟨[(4, sgTableTetragonal4), (8, sgTableTetragonal8), (16, sgTableTetragonal16)], sgTableTetragonal4,
    by simp [sgNumToFullMatrices], by simp, ?_⟩, ?_⟩ <;> decide +kernel

end CrystSymm
