import Verif.Proofs.ChangeBasis
import Verif.Model.Analyzer
import Mathlib.Tactic.FieldSimp
import Mathlib.Algebra.Ring.Int.Parity

/-! # The primitive matrices generate the centred lattices -/

set_option autoImplicit false
set_option linter.unusedSectionVars false

namespace CrystSymm

open Spec SymmetryAnalyzer

section
variable {K : Type} [Field K] [LinearOrder K] [IsStrictOrderedRing K]

theorem primBasis_P {m} (h : amapGet? centeringToPrimTrans .P = some m) :
    PrimitiveBasisOf .P (primMatrix m : Mat3 K) := by
  have e : m = (⟨1, 0, 0, 0, 1, 0, 0, 0, 1⟩, 1) := (Option.some.inj h).symm
  subst e
  intro v
  constructor
  · rintro ⟨w, hw, i, j, k, rfl⟩
    simp only [centringVectors, List.mem_cons, List.not_mem_nil, or_false] at hw ⊢
    subst hw
    refine ⟨_, ⟨i, j, k, rfl⟩, ?_⟩
    ext <;> simp [primMatrix, Mat3.divS, Mat3.map, lit]
  · rintro ⟨n, ⟨i, j, k, rfl⟩, rfl⟩
    refine ⟨⟨0, 0, 0⟩, by simp [centringVectors], i, j, k, ?_⟩
    ext <;> simp [primMatrix, Mat3.divS, Mat3.map, lit, centringVectors]

theorem primBasis_A {m} (h : amapGet? centeringToPrimTrans .A = some m) :
    PrimitiveBasisOf .A (primMatrix m : Mat3 K) := by
  have e : m = (⟨2, 0, 0, 0, 1, -1, 0, 1, 1⟩, 2) := (Option.some.inj h).symm
  subst e
  intro v
  constructor
  · rintro ⟨w, hw, i, j, k, rfl⟩
    simp only [centringVectors, List.mem_cons, List.not_mem_nil, or_false] at hw ⊢
    rcases hw with rfl | rfl
    · refine ⟨_, ⟨i, j + k, k - j, rfl⟩, ?_⟩
      ext <;> simp [primMatrix, Mat3.divS, Mat3.map, lit] <;> ring
    · refine ⟨_, ⟨i, j + k + 1, k - j, rfl⟩, ?_⟩
      ext <;> simp [primMatrix, Mat3.divS, Mat3.map, lit] <;> ring
  · rintro ⟨n, ⟨a, b, c, rfl⟩, rfl⟩
    rcases Int.even_or_odd' (b + c) with ⟨e, he | he⟩
    · obtain rfl : b = 2 * e - c := by omega
      refine ⟨⟨0, 0, 0⟩, by simp [centringVectors], a, e - c, e, ?_⟩
      ext <;> simp [primMatrix, Mat3.divS, Mat3.map, lit, centringVectors] <;> ring
    · obtain rfl : b = 2 * e + 1 - c := by omega
      refine ⟨⟨0, 1, 1⟩, by simp [centringVectors], a, e - c, e, ?_⟩
      ext <;> simp [primMatrix, Mat3.divS, Mat3.map, lit, centringVectors] <;> ring

theorem primBasis_B {m} (h : amapGet? centeringToPrimTrans .B = some m) :
    PrimitiveBasisOf .B (primMatrix m : Mat3 K) := by
  have e : m = (⟨1, 0, -1, 0, 2, 0, 1, 0, 1⟩, 2) := (Option.some.inj h).symm
  subst e
  intro v
  constructor
  · rintro ⟨w, hw, i, j, k, rfl⟩
    simp only [centringVectors, List.mem_cons, List.not_mem_nil, or_false] at hw ⊢
    rcases hw with rfl | rfl
    · refine ⟨_, ⟨i + k, j, k - i, rfl⟩, ?_⟩
      ext <;> simp [primMatrix, Mat3.divS, Mat3.map, lit] <;> ring
    · refine ⟨_, ⟨i + k + 1, j, k - i, rfl⟩, ?_⟩
      ext <;> simp [primMatrix, Mat3.divS, Mat3.map, lit] <;> ring
  · rintro ⟨n, ⟨a, b, c, rfl⟩, rfl⟩
    rcases Int.even_or_odd' (a + c) with ⟨e, he | he⟩
    · obtain rfl : a = 2 * e - c := by omega
      refine ⟨⟨0, 0, 0⟩, by simp [centringVectors], e - c, b, e, ?_⟩
      ext <;> simp [primMatrix, Mat3.divS, Mat3.map, lit, centringVectors] <;> ring
    · obtain rfl : a = 2 * e + 1 - c := by omega
      refine ⟨⟨1, 0, 1⟩, by simp [centringVectors], e - c, b, e, ?_⟩
      ext <;> simp [primMatrix, Mat3.divS, Mat3.map, lit, centringVectors] <;> ring

theorem primBasis_C {m} (h : amapGet? centeringToPrimTrans .C = some m) :
    PrimitiveBasisOf .C (primMatrix m : Mat3 K) := by
  have e : m = (⟨1, 1, 0, -1, 1, 0, 0, 0, 2⟩, 2) := (Option.some.inj h).symm
  subst e
  intro v
  constructor
  · rintro ⟨w, hw, i, j, k, rfl⟩
    simp only [centringVectors, List.mem_cons, List.not_mem_nil, or_false] at hw ⊢
    rcases hw with rfl | rfl
    · refine ⟨_, ⟨i - j, i + j, k, rfl⟩, ?_⟩
      ext <;> simp [primMatrix, Mat3.divS, Mat3.map, lit] <;> ring
    · refine ⟨_, ⟨i - j, i + j + 1, k, rfl⟩, ?_⟩
      ext <;> simp [primMatrix, Mat3.divS, Mat3.map, lit] <;> ring
  · rintro ⟨n, ⟨a, b, c, rfl⟩, rfl⟩
    rcases Int.even_or_odd' (a + b) with ⟨e, he | he⟩
    · obtain rfl : b = 2 * e - a := by omega
      refine ⟨⟨0, 0, 0⟩, by simp [centringVectors], e, e - a, c, ?_⟩
      ext <;> simp [primMatrix, Mat3.divS, Mat3.map, lit, centringVectors] <;> ring
    · obtain rfl : b = 2 * e + 1 - a := by omega
      refine ⟨⟨1, 1, 0⟩, by simp [centringVectors], e, e - a, c, ?_⟩
      ext <;> simp [primMatrix, Mat3.divS, Mat3.map, lit, centringVectors] <;> ring

theorem primBasis_I {m} (h : amapGet? centeringToPrimTrans .I = some m) :
    PrimitiveBasisOf .I (primMatrix m : Mat3 K) := by
  have e : m = (⟨-1, 1, 1, 1, -1, 1, 1, 1, -1⟩, 2) := (Option.some.inj h).symm
  subst e
  intro v
  constructor
  · rintro ⟨w, hw, i, j, k, rfl⟩
    simp only [centringVectors, List.mem_cons, List.not_mem_nil, or_false] at hw ⊢
    rcases hw with rfl | rfl
    · refine ⟨_, ⟨j + k, i + k, i + j, rfl⟩, ?_⟩
      ext <;> simp [primMatrix, Mat3.divS, Mat3.map, lit] <;> ring
    · refine ⟨_, ⟨j + k + 1, i + k + 1, i + j + 1, rfl⟩, ?_⟩
      ext <;> simp [primMatrix, Mat3.divS, Mat3.map, lit] <;> ring
  · rintro ⟨n, ⟨a, b, c, rfl⟩, rfl⟩
    rcases Int.even_or_odd' (a + b + c) with ⟨e, he | he⟩
    · obtain rfl : c = 2 * e - a - b := by omega
      refine ⟨⟨0, 0, 0⟩, by simp [centringVectors], e - a, e - b, a + b - e, ?_⟩
      ext <;> simp [primMatrix, Mat3.divS, Mat3.map, lit, centringVectors] <;> ring
    · obtain rfl : c = 2 * e + 1 - a - b := by omega
      refine ⟨⟨1, 1, 1⟩, by simp [centringVectors], e - a, e - b, a + b - e - 1, ?_⟩
      ext <;> simp [primMatrix, Mat3.divS, Mat3.map, lit, centringVectors] <;> ring

theorem primBasis_F {m} (h : amapGet? centeringToPrimTrans .F = some m) :
    PrimitiveBasisOf .F (primMatrix m : Mat3 K) := by
  have e : m = (⟨0, 1, 1, 1, 0, 1, 1, 1, 0⟩, 2) := (Option.some.inj h).symm
  subst e
  intro v
  constructor
  · rintro ⟨w, hw, i, j, k, rfl⟩
    simp only [centringVectors, List.mem_cons, List.not_mem_nil, or_false] at hw ⊢
    rcases hw with rfl | rfl | rfl | rfl
    · refine ⟨_, ⟨-i + j + k, i - j + k, i + j - k, rfl⟩, ?_⟩
      ext <;> simp [primMatrix, Mat3.divS, Mat3.map, lit] <;> ring
    · refine ⟨_, ⟨-i + j + k + 1, i - j + k, i + j - k, rfl⟩, ?_⟩
      ext <;> simp [primMatrix, Mat3.divS, Mat3.map, lit] <;> ring
    · refine ⟨_, ⟨-i + j + k, i - j + k + 1, i + j - k, rfl⟩, ?_⟩
      ext <;> simp [primMatrix, Mat3.divS, Mat3.map, lit] <;> ring
    · refine ⟨_, ⟨-i + j + k, i - j + k, i + j - k + 1, rfl⟩, ?_⟩
      ext <;> simp [primMatrix, Mat3.divS, Mat3.map, lit] <;> ring
  · rintro ⟨n, ⟨a, b, c, rfl⟩, rfl⟩
    have key : ∀ w : Vec3 ℤ, w ∈ (centringVectors .F).2 → ∀ i j k : ℤ, b + c = 2 * i + w.x →
        a + c = 2 * j + w.y → a + b = 2 * k + w.z →
        CentredPoint .F ((primMatrix (⟨0, 1, 1, 1, 0, 1, 1, 1, 0⟩, 2) : Mat3 K) * (⟨a, b, c⟩ : Vec3 K)) := by
      intro w hw i j k h1 h2 h3
      have h1' : (b : K) + c = 2 * i + w.x := by exact_mod_cast h1
      have h2' : (a : K) + c = 2 * j + w.y := by exact_mod_cast h2
      have h3' : (a : K) + b = 2 * k + w.z := by exact_mod_cast h3
      refine ⟨w, hw, i, j, k, ?_⟩
      ext
      · simp [primMatrix, Mat3.divS, Mat3.map, lit, centringVectors]; linear_combination h1' / 2
      · simp [primMatrix, Mat3.divS, Mat3.map, lit, centringVectors]; linear_combination h2' / 2
      · simp [primMatrix, Mat3.divS, Mat3.map, lit, centringVectors]; linear_combination h3' / 2
    have hbc : (b + c) % 2 = 0 ∨ (b + c) % 2 = 1 := by omega
    have hac : (a + c) % 2 = 0 ∨ (a + c) % 2 = 1 := by omega
    rcases hbc with hbc | hbc <;> rcases hac with hac | hac
    · exact key ⟨0, 0, 0⟩ (by simp [centringVectors]) ((b + c) / 2) ((a + c) / 2) ((a + b) / 2)
        (by simp only; omega) (by simp only; omega) (by simp only; omega)
    · exact key ⟨0, 1, 1⟩ (by simp [centringVectors]) ((b + c) / 2) ((a + c) / 2) ((a + b) / 2)
        (by simp only; omega) (by simp only; omega) (by simp only; omega)
    · exact key ⟨1, 0, 1⟩ (by simp [centringVectors]) ((b + c) / 2) ((a + c) / 2) ((a + b) / 2)
        (by simp only; omega) (by simp only; omega) (by simp only; omega)
    · exact key ⟨1, 1, 0⟩ (by simp [centringVectors]) ((b + c) / 2) ((a + c) / 2) ((a + b) / 2)
        (by simp only; omega) (by simp only; omega) (by simp only; omega)

theorem primBasis_R {m} (h : amapGet? centeringToPrimTrans .R = some m) :
    PrimitiveBasisOf .R (primMatrix m : Mat3 K) := by
  have e : m = (⟨2, -1, -1, 1, 1, -2, 1, 1, 1⟩, 3) := (Option.some.inj h).symm
  subst e
  intro v
  constructor
  · rintro ⟨w, hw, i, j, k, rfl⟩
    simp only [centringVectors, List.mem_cons, List.not_mem_nil, or_false] at hw ⊢
    rcases hw with rfl | rfl | rfl
    · refine ⟨_, ⟨i + k, -i + j + k, -j + k, rfl⟩, ?_⟩
      ext <;> simp [primMatrix, Mat3.divS, Mat3.map, lit] <;> ring
    · refine ⟨_, ⟨i + k + 1, -i + j + k, -j + k, rfl⟩, ?_⟩
      ext <;> simp [primMatrix, Mat3.divS, Mat3.map, lit] <;> ring
    · refine ⟨_, ⟨i + k + 1, -i + j + k + 1, -j + k, rfl⟩, ?_⟩
      ext <;> simp [primMatrix, Mat3.divS, Mat3.map, lit] <;> ring
  · rintro ⟨n, ⟨a, b, c, rfl⟩, rfl⟩
    have hs : (a + b + c) % 3 = 0 ∨ (a + b + c) % 3 = 1 ∨ (a + b + c) % 3 = 2 := by omega
    rcases hs with hs | hs | hs
    · obtain ⟨e, he⟩ : ∃ e, a = 3 * e - b - c := ⟨(a + b + c) / 3, by omega⟩
      subst he
      refine ⟨⟨0, 0, 0⟩, by simp [centringVectors], 2 * e - b - c, e - c, e, ?_⟩
      ext <;> simp [primMatrix, Mat3.divS, Mat3.map, lit, centringVectors] <;> ring
    · obtain ⟨e, he⟩ : ∃ e, a = 3 * e + 1 - b - c := ⟨(a + b + c) / 3, by omega⟩
      subst he
      refine ⟨⟨2, 1, 1⟩, by simp [centringVectors], 2 * e - b - c, e - c, e, ?_⟩
      ext <;> simp [primMatrix, Mat3.divS, Mat3.map, lit, centringVectors] <;> ring
    · obtain ⟨e, he⟩ : ∃ e, a = 3 * e + 2 - b - c := ⟨(a + b + c) / 3, by omega⟩
      subst he
      refine ⟨⟨1, 2, 2⟩, by simp [centringVectors], 2 * e + 1 - b - c, e - c, e, ?_⟩
      ext <;> simp [primMatrix, Mat3.divS, Mat3.map, lit, centringVectors] <;> ring

theorem primBasis {c : Centering} {m} (h : amapGet? centeringToPrimTrans c = some m) :
    PrimitiveBasisOf c (primMatrix m : Mat3 K) := by
  cases c
  exacts [primBasis_P h, primBasis_A h, primBasis_B h, primBasis_C h, primBasis_I h, primBasis_F h,
    primBasis_R h]

end

end CrystSymm
