import Verif.Proofs.Centring
import Verif.Props.ChangeBasis

/-! # C32: the tables of conventional and primitive transformations -/

set_option autoImplicit false
set_option linter.unusedSectionVars false

namespace CrystSymm

open Spec SymmetryAnalyzer

/-- what the kernel checks for one lattice character: the product of the two tabulated transformations is
integral of determinant `±1`, and the determinant of the first is the centring multiplicity up to sign. -/
def charTableOk (ch : ℕ) : Bool :=
  match amapGet? latticeCharToConvTrans ch, amapGet? latticeCharToBravais ch with
  | some m, some b =>
    (match b.centering? with
      | some c =>
        (match amapGet? centeringToPrimTrans c with
          | some p =>
            let t : Mat3 ℤ := (intRot m).transpose
            let q := t * p.1
            let n : Mat3 ℤ := q.map fun e => e / p.2
            decide (p.2 ≠ 0) && decide (n.map (fun e => e * p.2) = q) &&
              (decide (n.det = 1) || decide (n.det = -1)) &&
              decide (t.det.natAbs = (centringVectors c).2.length)
          | none => false)
      | none => false)
  | _, _ => false

theorem charTableOk_all : ∀ ch ∈ List.range' 1 44, charTableOk ch = true := by decide +kernel

section
variable {K : Type} [Field K] [LinearOrder K] [IsStrictOrderedRing K] [FloorRing K] [FTrans K]

/-- **C32.** For each of the 44 characters both tables have an entry; the columns of the primitive matrix `P`
generate exactly the lattice centred as the Bravais type says; `T * P` is an integer matrix of determinant `±1`;
and the conventional cell `L * T` has the centring multiplicity times the volume of the primitive cell
`L * T * P`. -/
theorem C32_tables_consistent (ch : ℕ) (h1 : 1 ≤ ch) (h44 : ch ≤ 44) :
    ∃ (m : Mat3 Int8) (P : Mat3 K) (b : BravaisType) (c : Centering) (n : Mat3 ℤ),
      amapGet? latticeCharToConvTrans ch = some m ∧ primitiveTransformationMatrix ch = .ret (P, b) ∧
      b.centering? = some c ∧ PrimitiveBasisOf c P ∧
      (castRot m).transpose * P = overK K n ∧ (n.det = 1 ∨ n.det = -1) ∧
      ∀ L : Mat3 K, |(L * (castRot m).transpose : Mat3 K).det| =
        ((centringVectors c).2.length : K) * |(L * (castRot m).transpose * P : Mat3 K).det| := by
  have h := charTableOk_all ch (by rw [List.mem_range']; exact ⟨ch - 1, by omega, by omega⟩)
  unfold charTableOk at h
  split at h
  · rename_i m b hm hb
    split at h
    · rename_i c hc
      split at h
      · rename_i p hp
        simp only [Bool.and_eq_true, decide_eq_true_eq, Bool.or_eq_true] at h
        obtain ⟨⟨⟨hp0, hq⟩, hdet⟩, hmul⟩ := h
        set t : Mat3 ℤ := (intRot m).transpose with ht
        set n : Mat3 ℤ := (t * p.1).map fun e => e / p.2 with hn
        have hp0' : (p.2 : K) ≠ 0 := by exact_mod_cast hp0
        have ht' : ((castRot m).transpose : Mat3 K) = overK K t := by
          rw [castRot_overK, ht]; rfl
        have hprod : (castRot m).transpose * (primMatrix p : Mat3 K) = overK K n := by
          have e := congrArg (overK K) hq
          rw [overK_mul] at e
          rw [ht', primMatrix_eq]
          have l : ∀ a b : Mat3 K, ∀ d : K, a * b.divS d = (a * b).divS d := by
            intro a b d; ext <;> simp [Mat3.divS, Mat3.map] <;> ring
          rw [l, ← e]
          ext <;> simp only [overK, Mat3.divS, Mat3.map, Int.cast_mul] <;> field_simp
        refine ⟨m, primMatrix p, b, c, n, hm, ?_, hc, primBasis hp, hprod, hdet, ?_⟩
        · unfold primitiveTransformationMatrix
          rw [hb]
          simp only [Outcome.ofOption, Outcome.ret_bind]
          rw [hc]
          simp only [Outcome.ret_bind]
          rw [hp]
          rfl
        · intro L
          rw [mul_assoc, hprod, Mat3.det_mul, Mat3.det_mul, det_overK, abs_mul, abs_mul, ht', det_overK]
          have hn1 : |((n.det : ℤ) : K)| = 1 := by
            rcases hdet with h | h <;> rw [h] <;> simp
          have ht1 : |((t.det : ℤ) : K)| = (centringVectors c).2.length := by
            rw [← hmul, Nat.cast_natAbs, Int.cast_abs]
          rw [hn1, ht1]
          ring
      · exact absurd h (by simp)
    · exact absurd h (by simp)
  · exact absurd h (by simp)

/-- **C32 (same lattice).** The standard primitive cell `L * T * P` spans the same lattice as the reduced
cell `L`. -/
theorem C32_same_lattice (ch : ℕ) (h1 : 1 ≤ ch) (h44 : ch ≤ 44) (m : Mat3 Int8) (P : Mat3 K) (b : BravaisType)
    (hm : amapGet? latticeCharToConvTrans ch = some m)
    (hP : primitiveTransformationMatrix ch = .ret (P, b)) (L : Mat3 K) :
    SameLattice L (L * (castRot m).transpose * P) := by
  obtain ⟨m', P', b', c, n, e1, e2, -, -, e3, e4, -⟩ := C32_tables_consistent (K := K) ch h1 h44
  rw [hm] at e1
  rw [hP] at e2
  simp only [Option.some.injEq, Outcome.ret.injEq, Prod.mk.injEq] at e1 e2
  obtain ⟨rfl, rfl⟩ := e2
  subst e1
  rw [mul_assoc, e3]
  exact sameLattice_mul e4

/-- **C32 (nothing else).** There is no other lattice character. -/
theorem C32_no_other_character (ch : ℕ) (h : ch = 0 ∨ 44 < ch) :
    amapGet? latticeCharToConvTrans ch = none ∧ amapGet? latticeCharToBravais ch = none := by
  have hk : ∀ p ∈ latticeCharToConvTrans, 1 ≤ p.1 ∧ p.1 ≤ 44 := by decide
  have hk' : ∀ p ∈ latticeCharToBravais, 1 ≤ p.1 ∧ p.1 ≤ 44 := by decide
  unfold amapGet?
  constructor <;> rw [Option.map_eq_none_iff, List.find?_eq_none] <;> intro p hp
  · have := hk p hp
    simp only [decide_eq_true_eq]
    omega
  · have := hk' p hp
    simp only [decide_eq_true_eq]
    omega

end

/-- **C32 (handedness).** The change of basis keeps the handedness for every character except 17, where it
reverses it. -/
theorem C32_handedness (ch : ℕ) (h1 : 1 ≤ ch) (h44 : ch ≤ 44) (m : Mat3 Int8)
    (hm : amapGet? latticeCharToConvTrans ch = some m) :
    (ch ≠ 17 → 0 < (intRot m).transpose.det) ∧ (ch = 17 → (intRot m).transpose.det = -2) := by
  have h : ∀ ch ∈ List.range' 1 44, ∀ m, amapGet? latticeCharToConvTrans ch = some m →
      (ch ≠ 17 → 0 < (intRot m).transpose.det) ∧ (ch = 17 → (intRot m).transpose.det = -2) := by
    have hk : ∀ p ∈ latticeCharToConvTrans,
        (p.1 ≠ 17 → 0 < (intRot p.2).transpose.det) ∧ (p.1 = 17 → (intRot p.2).transpose.det = -2) := by
      decide +kernel
    intro ch _ m hm
    unfold amapGet? at hm
    rw [Option.map_eq_some_iff] at hm
    obtain ⟨p, hp, rfl⟩ := hm
    have := hk p (List.mem_of_find?_eq_some hp)
    rw [show p.1 = ch by simpa using List.find?_some hp] at this
    exact this
  exact h ch (by rw [List.mem_range']; exact ⟨ch - 1, by omega, by omega⟩) m hm

/-- a case: character 15 (body-centred tetragonal), `T * P` and the volumes. -/
example : ∃ (m : Mat3 Int8) (P : Mat3 ℚ), amapGet? latticeCharToConvTrans 15 = some m ∧
    P = ⟨-1 / 2, 1 / 2, 1 / 2, 1 / 2, -1 / 2, 1 / 2, 1 / 2, 1 / 2, -1 / 2⟩ ∧
    (castRot m).transpose * P = ⟨0, 1, 0, 1, 0, 0, 1, 1, -1⟩ ∧
    ((castRot m).transpose : Mat3 ℚ).det = 2 := by
  refine ⟨_, _, rfl, rfl, ?_, ?_⟩ <;> decide +kernel

end CrystSymm
