import Verif.Proofs.Normalize
import Verif.Proofs.LinAlg
import Verif.Spec.Affine

set_option autoImplicit false

/-! # Lemmas on `SymmOp` -/

set_option linter.unusedSectionVars false

namespace CrystSymm

open Spec

theorem mat3Int8_mul_assoc (a b c : Mat3 Int8) : a * b * c = a * (b * c) := by
  ext <;> simp only [Mat3.mul_m11, Mat3.mul_m12, Mat3.mul_m13, Mat3.mul_m21, Mat3.mul_m22, Mat3.mul_m23,
    Mat3.mul_m31, Mat3.mul_m32, Mat3.mul_m33] <;> grind

theorem mat3Int8_one_mul (a : Mat3 Int8) : 1 * a = a := by
  ext <;> simp [Int8.zero_mul, Int8.one_mul, Int8.add_zero, Int8.zero_add]

theorem mat3Int8_mul_one (a : Mat3 Int8) : a * 1 = a := by
  ext <;> simp [Int8.mul_zero, Int8.mul_one, Int8.add_zero, Int8.zero_add]

section
variable {K : Type} [Field K] [LinearOrder K] [IsStrictOrderedRing K] [FloorRing K]

/-- a component passes the tolerance test exactly when it is near an integer. -/
theorem abs_normComp_lt_iff {tol : K} (h0 : 0 < tol) (h1 : tol ≤ 1 / 2) (d : K) :
    |normComp tol d| < tol ↔ NearInt d tol := by
  obtain ⟨lo, hi⟩ := normComp_mem h0.le (by linarith) d
  obtain ⟨m, hm⟩ := normComp_sameMod1 tol d
  constructor
  · intro h
    refine ⟨-m, ?_⟩
    rw [show d - ((-m : ℤ) : K) = normComp tol d by push_cast; linarith]
    exact h
  · rintro ⟨n, hn⟩
    rw [abs_lt] at hn
    have e : normComp tol d = d - n + ((m + n : ℤ) : K) := by push_cast; linarith
    rcases lt_trichotomy (m + n) 0 with hk | hk | hk
    · have : ((m + n : ℤ) : K) ≤ -1 := by exact_mod_cast (by omega : m + n ≤ -1)
      linarith
    · rw [e, hk, abs_lt]; push_cast; constructor <;> linarith
    · have : (1 : K) ≤ ((m + n : ℤ) : K) := by exact_mod_cast (by omega : 1 ≤ m + n)
      linarith

theorem allWithin_iff (d tols : Vec3 K) :
    SymmOp.allWithin d tols = true ↔ |d.x| < tols.x ∧ |d.y| < tols.y ∧ |d.z| < tols.z := by
  unfold SymmOp.allWithin
  simp only [Bool.and_eq_true, decide_eq_true_eq, and_assoc]
  rfl

theorem allWithin_normFracVec_iff {tols : Vec3 K} (hx : 0 < tols.x ∧ tols.x ≤ 1 / 2)
    (hy : 0 < tols.y ∧ tols.y ≤ 1 / 2) (hz : 0 < tols.z ∧ tols.z ≤ 1 / 2) (d : Vec3 K) :
    SymmOp.allWithin (normFracVec tols d) tols = true ↔
      NearInt d.x tols.x ∧ NearInt d.y tols.y ∧ NearInt d.z tols.z := by
  rw [allWithin_iff]
  simp only [normFracVec]
  rw [abs_normComp_lt_iff hx.1 hx.2, abs_normComp_lt_iff hy.1 hy.2, abs_normComp_lt_iff hz.1 hz.2]

theorem nearInt_neg {x t : K} (h : NearInt x t) : NearInt (-x) t := by
  obtain ⟨n, hn⟩ := h
  refine ⟨-n, ?_⟩
  rw [show -x - ((-n : ℤ) : K) = -(x - n) by push_cast; ring, abs_neg]
  exact hn

theorem nearInt_zero {t : K} (h : 0 < t) : NearInt 0 t := ⟨0, by simpa using h⟩

theorem nearInt_of_sameMod1 {x y t : K} (h : SameMod1 x y) (hn : NearInt x t) : NearInt y t := by
  obtain ⟨m, hm⟩ := h
  obtain ⟨n, hn⟩ := hn
  refine ⟨n - m, ?_⟩
  rw [show y - ((n - m : ℤ) : K) = x - n by push_cast; linarith]
  exact hn

end

end CrystSymm
