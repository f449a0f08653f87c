import Mathlib.Algebra.Order.Field.Basic
import Mathlib.Tactic.Ring
import Mathlib.Tactic.Linarith
import Mathlib.Tactic.LinearCombination

set_option autoImplicit false
set_option linter.unusedSectionVars false

/-! # Shortest lattice vectors of a Niggli cell

Lower bounds for the squared length `A x² + B y² + C z² ± …` of an integer vector, and when they are attained. -/

namespace CrystSymm.NiggliMin

variable {K : Type} [Field K] [LinearOrder K] [IsStrictOrderedRing K]

/-- all coordinates are `-1, 0, 1`. -/
def SmallZ (x y z : ℤ) : Prop := (-1 ≤ x ∧ x ≤ 1) ∧ (-1 ≤ y ∧ y ≤ 1) ∧ (-1 ≤ z ∧ z ≤ 1)

theorem sq_ge {n : ℤ} (h : n ≠ 0) : (1 : K) ≤ (n : K) * n := by
  have : (1 : ℤ) ≤ n * n := by
    rcases lt_or_gt_of_ne h with h | h <;> nlinarith
  exact_mod_cast this

theorem sq_ge4 {n : ℤ} (h : ¬ (-1 ≤ n ∧ n ≤ 1)) : (4 : K) ≤ (n : K) * n := by
  have : (4 : ℤ) ≤ n * n := by
    rcases not_and_or.1 h with h | h <;> nlinarith
  exact_mod_cast this

theorem sq_nn (n : ℤ) : (0 : K) ≤ (n : K) * n := mul_self_nonneg _

/-- `k t ≤ 0` with `k ≥ 0`, `t ≥ 1`. -/
theorem zero_of {k t : K} (hk : 0 ≤ k) (ht : 1 ≤ t) (h : k * t ≤ 0) : k = 0 := by
  nlinarith

theorem mul_sq_sub {k : K} (hk : 0 ≤ k) {n : ℤ} (h : n ≠ 0) : 0 ≤ k * ((n : K) * n - 1) :=
  mul_nonneg hk (by linarith [sq_ge (K := K) h])

theorem mul_sq {k : K} (hk : 0 ≤ k) (n : ℤ) : 0 ≤ k * ((n : K) * n) := mul_nonneg hk (sq_nn n)

/-- `k (n² - 1) = 0` with `k > 0`. -/
theorem one_of {k : K} (hk : 0 < k) {n : ℤ} (h : k * ((n : K) * n - 1) ≤ 0) (hn : n ≠ 0) : n = 1 ∨ n = -1 := by
  by_contra hc
  have : ¬ (-1 ≤ n ∧ n ≤ 1) := by omega
  have := sq_ge4 (K := K) this
  nlinarith

theorem big_of {k : K} (hk : 0 ≤ k) {n : ℤ} (hn : ¬ (-1 ≤ n ∧ n ≤ 1)) (h : k * ((n : K) * n - 1) ≤ 0) : k = 0 :=
  zero_of hk (by linarith [sq_ge4 (K := K) hn]) h

theorem big_of' {k : K} (hk : 0 ≤ k) {n : ℤ} (hn : ¬ (-1 ≤ n ∧ n ≤ 1)) (h : k * ((n : K) * n) ≤ 0) : k = 0 :=
  zero_of hk (by linarith [sq_ge4 (K := K) hn]) h

/-- two axes. -/
theorem min2 {A B r : K} (hA : 0 < A) (hB : A ≤ B) (hr : 0 ≤ r) (hrA : r ≤ A) (x y : ℤ) (hy : y ≠ 0) :
    B ≤ A * (x * x) + B * (y * y) - r * (x * y) ∧
      (A * (x * x) + B * (y * y) - r * (x * y) = B → SmallZ x y 0) := by
  have h1 := mul_sq (k := A - r / 2) (by linarith) x
  have h2 := mul_sq_sub (k := B - r / 2) (by linarith) hy
  by_cases hxy : x = y
  · subst hxy
    have h3 := mul_sq_sub (k := A - r / 2) (by linarith) hy
    refine ⟨by linarith, fun h => ?_⟩
    by_contra hc
    have hx : ¬ (-1 ≤ x ∧ x ≤ 1) := fun h => hc ⟨h, h, by omega⟩
    linarith [big_of (k := A - r / 2) (by linarith) hx (by linarith)]
  · have h3 := mul_sq_sub (k := r / 2) (by linarith) (sub_ne_zero.2 hxy)
    push_cast at h3
    refine ⟨by linarith, fun h => ?_⟩
    refine ⟨?_, ?_, by omega⟩
    · by_contra hx
      linarith [big_of' (k := A - r / 2) (by linarith) hx (by linarith)]
    · by_contra hx
      linarith [big_of (k := B - r / 2) (by linarith) hx (by linarith)]

set_option maxHeartbeats 1000000 in
/-- three axes, type II. -/
theorem min3_II {A B C p q r : K} (hA : 0 < A) (hB : A ≤ B) (hC : B ≤ C) (hp : 0 ≤ p) (hq : 0 ≤ q) (hr : 0 ≤ r)
    (hpB : p ≤ B) (hqA : q ≤ A) (hrA : r ≤ A) (hs : p + q + r ≤ A + B) (x y z : ℤ) (hz : z ≠ 0) :
    C ≤ A * (x * x) + B * (y * y) + C * (z * z) - p * (y * z) - q * (x * z) - r * (x * y) ∧
      (A * (x * x) + B * (y * y) + C * (z * z) - p * (y * z) - q * (x * z) - r * (x * y) = C → SmallZ x y z) := by
  have eα : 0 ≤ A - (q + r) / 2 := by linarith
  have eβ : 0 ≤ B - (p + r) / 2 := by linarith
  have eγ : 0 ≤ C - (p + q) / 2 := by linarith
  have ep : 0 ≤ p / 2 := by linarith
  have eq' : 0 ≤ q / 2 := by linarith
  have er : 0 ≤ r / 2 := by linarith
  have a0 := mul_sq eα x
  have b0 := mul_sq eβ y
  have c1 := mul_sq_sub eγ hz
  have r0 := mul_sq er (x - y)
  push_cast at r0
  by_cases hyz : y = z
  · subst hyz
    by_cases hxz : x = y
    · subst hxz
      have a1 := mul_sq_sub eα hz
      have b1 := mul_sq_sub eβ hz
      refine ⟨by linarith, fun h => ?_⟩
      by_contra hc
      have hx : ¬ (-1 ≤ x ∧ x ≤ 1) := fun h => hc ⟨h, h, h⟩
      linarith [big_of eα hx (by linarith), big_of eβ hx (by linarith)]
    · have b1 := mul_sq_sub eβ hz
      have q1 := mul_sq_sub eq' (sub_ne_zero.2 hxz)
      have r1 := mul_sq_sub er (sub_ne_zero.2 hxz)
      push_cast at q1 r1
      refine ⟨by linarith, fun h => ?_⟩
      have hy : -1 ≤ y ∧ y ≤ 1 := by
        by_contra hy
        linarith [big_of eγ hy (by linarith), big_of eβ hy (by linarith)]
      refine ⟨?_, hy, hy⟩
      by_contra hx
      linarith [big_of' eα hx (by linarith)]
  · have p1 := mul_sq_sub ep (sub_ne_zero.2 hyz)
    push_cast at p1
    by_cases hxz : x = z
    · subst hxz
      have a1 := mul_sq_sub eα hz
      have r1 := mul_sq_sub er (sub_ne_zero.2 (Ne.symm hyz))
      push_cast at r1
      refine ⟨by linarith, fun h => ?_⟩
      have hx : -1 ≤ x ∧ x ≤ 1 := by
        by_contra hx
        linarith [big_of eγ hx (by linarith), big_of eα hx (by linarith)]
      refine ⟨hx, ?_, hx⟩
      by_contra hy
      linarith [big_of' eβ hy (by linarith)]
    · have q1 := mul_sq_sub eq' (sub_ne_zero.2 hxz)
      push_cast at q1
      refine ⟨by linarith, fun h => ?_⟩
      have hx : -1 ≤ x ∧ x ≤ 1 := by
        by_contra hx
        have h1 := big_of' eα hx (by linarith)
        by_cases hxy : x = y
        · subst hxy
          linarith [big_of' eβ hx (by linarith)]
        · have := zero_of er (sq_ge (sub_ne_zero.2 hxy)) (by push_cast; linarith)
          linarith
      have hy : -1 ≤ y ∧ y ≤ 1 := by
        by_contra hy
        have h1 := big_of' eβ hy (by linarith)
        have hxy : x - y ≠ 0 := by omega
        have := zero_of er (sq_ge hxy) (by push_cast; linarith)
        linarith
      refine ⟨hx, hy, ?_⟩
      by_contra hz'
      have h1 := big_of eγ hz' (by linarith)
      have hx0 : x = 0 := by
        by_contra hx0
        have := zero_of eα (sq_ge hx0) (by linarith)
        linarith
      subst hx0
      have : ¬ (-1 ≤ (0 - z) ∧ (0 - z) ≤ 1) := by omega
      push_cast at *
      have := big_of eq' this (by push_cast; linarith)
      linarith

set_option maxHeartbeats 1000000 in
/-- three axes, type I (with `-z` for `z`). -/
theorem min3_I {A B C p q r : K} (hA : 0 < A) (hB : A ≤ B) (hC : B ≤ C) (hp : 0 < p) (hq : 0 < q) (hr : 0 < r)
    (hpB : p ≤ B) (hqA : q ≤ A) (hrA : r ≤ A) (x y z : ℤ) (hz : z ≠ 0) :
    C ≤ A * (x * x) + B * (y * y) + C * (z * z) - p * (y * z) - q * (x * z) + r * (x * y) ∧
      (A * (x * x) + B * (y * y) + C * (z * z) - p * (y * z) - q * (x * z) + r * (x * y) = C → SmallZ x y z) := by
  have eα : 0 ≤ A - (q + r) / 2 := by linarith
  have eβ : 0 ≤ B - (p + r) / 2 := by linarith
  have eγ : 0 ≤ C - (p + q) / 2 := by linarith
  have ep : 0 < p / 2 := by linarith
  have eq' : 0 < q / 2 := by linarith
  have er : 0 < r / 2 := by linarith
  have a0 := mul_sq eα x
  have b0 := mul_sq eβ y
  have c1 := mul_sq_sub eγ hz
  have r0 := mul_sq er.le (x + y)
  push_cast at r0
  by_cases hyz : y = z
  · subst hyz
    have b1 := mul_sq_sub eβ hz
    by_cases hxz : x = y
    · subst hxz
      have a1 := mul_sq_sub eα hz
      have r1 := mul_sq_sub (k := 2 * r) (by linarith) hz
      exact ⟨by linarith, fun h => by linarith⟩
    · have q1 := mul_sq_sub eq'.le (sub_ne_zero.2 hxz)
      by_cases hxy : x + y = 0
      · obtain rfl : x = -y := by omega
        have a1 := mul_sq_sub eα hz
        have q2 := mul_sq_sub (k := 2 * q) (by linarith) hz
        push_cast at *
        exact ⟨by linarith, fun h => by linarith⟩
      · have r1 := mul_sq_sub er.le hxy
        push_cast at q1 r1
        refine ⟨by linarith, fun h => ?_⟩
        have e1 := one_of eq' (n := x - y) (by push_cast; linarith) (sub_ne_zero.2 hxz)
        have e2 := one_of er (n := x + y) (by push_cast; linarith) hxy
        unfold SmallZ
        omega
  · have p1 := mul_sq_sub ep.le (sub_ne_zero.2 hyz)
    push_cast at p1
    by_cases hxz : x = z
    · subst hxz
      have a1 := mul_sq_sub eα hz
      by_cases hxy : x + y = 0
      · obtain rfl : y = -x := by omega
        have b1 := mul_sq_sub eβ hz
        have q2 := mul_sq_sub (k := 2 * p) (by linarith) hz
        push_cast at *
        exact ⟨by linarith, fun h => by linarith⟩
      · have r1 := mul_sq_sub er.le hxy
        push_cast at r1
        refine ⟨by linarith, fun h => ?_⟩
        have e1 := one_of ep (n := y - x) (by push_cast; linarith) (sub_ne_zero.2 hyz)
        have e2 := one_of er (n := x + y) (by push_cast; linarith) hxy
        unfold SmallZ
        omega
    · have q1 := mul_sq_sub eq'.le (sub_ne_zero.2 hxz)
      push_cast at q1
      refine ⟨by linarith, fun h => ?_⟩
      have e1 := one_of ep (n := y - z) (by push_cast; linarith) (sub_ne_zero.2 hyz)
      have e2 := one_of eq' (n := x - z) (by push_cast; linarith) (sub_ne_zero.2 hxz)
      have e3 : x + y = 0 := by
        by_contra hxy
        have := zero_of er.le (sq_ge hxy) (by push_cast; linarith)
        linarith
      unfold SmallZ
      omega

end CrystSymm.NiggliMin
