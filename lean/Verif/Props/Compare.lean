import Verif.Model.Utils
import Verif.Spec.Basic
import Mathlib.Tactic.Linarith
import Mathlib.Tactic.NormNum

set_option autoImplicit false

/-! # C04: tolerant comparison primitives -/

set_option linter.unusedSectionVars false

namespace CrystSymm

open Spec

/-- **C04 (symmetry, any scalar type incl. f64).** -/
theorem C04_cust_eq_symm {K : Type} [Sub K] [LT K] [DecidableLT K] (a b e : K) :
    custEq a b e = custEq b a e := by
  unfold custEq; rw [Bool.or_comm]

section
variable {K : Type} [Field K] [LinearOrder K] [IsStrictOrderedRing K] [FloorRing K]

/-- **C04 (`cust_eq`).** -/
theorem C04_cust_eq_iff (a b e : K) : custEq a b e = true ↔ |a - b| ≤ e := by
  simp only [custEq, Bool.not_eq_true', Bool.or_eq_false_iff, decide_eq_false_iff_not, not_lt, abs_le]
  constructor <;> rintro ⟨h1, h2⟩ <;> constructor <;> linarith

/-- **C04 (reflexivity).** -/
theorem C04_cust_eq_refl (a e : K) (h : 0 ≤ e) : custEq a a e = true := by
  rw [C04_cust_eq_iff]; simpa using h

/-- entry of a matrix by its two indices. -/
def Mat3.at (m : Mat3 K) (i j : Fin 3) : K :=
  match i, j with
  | 0, 0 => m.m11 | 0, 1 => m.m12 | 0, 2 => m.m13
  | 1, 0 => m.m21 | 1, 1 => m.m22 | 1, 2 => m.m23
  | 2, 0 => m.m31 | 2, 1 => m.m32 | 2, 2 => m.m33

/-- **C04 (`compare_matrices`).** With nine tolerances (listed column by column) the comparison does not
panic and is true exactly when all nine entries agree within their tolerance. -/
theorem C04_compare_matrices_iff (a b t : Mat3 K) :
    compareMatrices a b t.toListCM = .ret (decide (∀ i j, |a.at i j - b.at i j| ≤ t.at i j)) := by
  have key : (∀ i j, |a.at i j - b.at i j| ≤ t.at i j) ↔
      (custEq a.m11 b.m11 t.m11 ∧ custEq a.m21 b.m21 t.m21 ∧ custEq a.m31 b.m31 t.m31 ∧
       custEq a.m12 b.m12 t.m12 ∧ custEq a.m22 b.m22 t.m22 ∧ custEq a.m32 b.m32 t.m32 ∧
       custEq a.m13 b.m13 t.m13 ∧ custEq a.m23 b.m23 t.m23 ∧ custEq a.m33 b.m33 t.m33) := by
    simp only [Fin.forall_fin_succ, Fin.isEmpty.forall_iff, C04_cust_eq_iff, Mat3.at]
    tauto
  rw [show decide (∀ i j, |a.at i j - b.at i j| ≤ t.at i j) = decide _ from decide_eq_decide.2 key]
  simp only [compareMatrices, Mat3.toListCM, compareEntries]
  split <;> rename_i h1
  swap; · simp [h1]
  split <;> rename_i h2
  swap; · simp [h2]
  split <;> rename_i h3
  swap; · simp [h3]
  split <;> rename_i h4
  swap; · simp [h4]
  split <;> rename_i h5
  swap; · simp [h5]
  split <;> rename_i h6
  swap; · simp [h6]
  split <;> rename_i h7
  swap; · simp [h7]
  split <;> rename_i h8
  swap; · simp [h8]
  split <;> rename_i h9
  swap; · simp [h9]
  simp [h1, h2, h3, h4, h5, h6, h7, h8, h9]

/-- fewer than nine tolerances: panic, unless an earlier entry already differs. -/
example : compareMatrices (1 : Mat3 ℚ) 1 [1, 1, 1] = .panic "index out of bounds" ∧
    compareMatrices (1 : Mat3 ℚ) ⟨5, 0, 0, 0, 1, 0, 0, 0, 1⟩ [1, 1, 1] = .ret false := by decide +kernel

theorem numNegativeZero_foldl (e : K) (l : List K) (p q : ℕ) :
    l.foldl (numNegativeZeroStep e) (Int8.ofNat p, Int8.ofNat q)
      = (Int8.ofNat (p + l.countP (fun v => decide (v < -e))),
         Int8.ofNat (q + l.countP (fun v => decide (-e ≤ v ∧ v < e)))) := by
  induction l generalizing p q with
  | nil => simp
  | cons v l ih =>
    rw [List.foldl_cons]
    by_cases h1 : v < -e
    · have h1' : v < (-1 : K) * e := by linarith
      have h2 : ¬(-e ≤ v ∧ v < e) := fun h => absurd h1 (not_lt.2 h.1)
      rw [numNegativeZeroStep, if_pos h1']
      simp only
      rw [show Int8.ofNat p + 1 = Int8.ofNat (p + 1) by rw [Int8.ofNat_add]; rfl, ih,
        List.countP_cons_of_pos (by simpa using h1), List.countP_cons_of_neg (by simpa using h2)]
      congr 2; omega
    · have h1' : ¬ v < (-1 : K) * e := by rw [neg_one_mul]; exact h1
      rw [numNegativeZeroStep, if_neg h1']
      by_cases h2 : v < e
      · have h3 : -e ≤ v ∧ v < e := ⟨not_lt.1 h1, h2⟩
        rw [if_pos h2]
        simp only
        rw [show Int8.ofNat q + 1 = Int8.ofNat (q + 1) by rw [Int8.ofNat_add]; rfl, ih,
          List.countP_cons_of_neg (by simpa using h1), List.countP_cons_of_pos (by simpa using h3)]
        congr 2; omega
      · have h3 : ¬(-e ≤ v ∧ v < e) := fun h => h2 h.2
        rw [if_neg h2, ih, List.countP_cons_of_neg (by simpa using h1),
          List.countP_cons_of_neg (by simpa using h3)]

/-- **C04 (`num_negative_zero`).** The two numbers count the entries below `-eps` and those in
`[-eps, eps)`; the counters do not overflow for fewer than 128 values. -/
theorem C04_num_negative_zero (l : List K) (e : K) (h : l.length < 128) :
    (numNegativeZero l e).1.toInt = l.countP (fun v => decide (v < -e)) ∧
    (numNegativeZero l e).2.toInt = l.countP (fun v => decide (-e ≤ v ∧ v < e)) := by
  have := numNegativeZero_foldl e l 0 0
  unfold numNegativeZero
  rw [show ((0 : Int8), (0 : Int8)) = (Int8.ofNat 0, Int8.ofNat 0) from rfl, this]
  simp only [Nat.zero_add]
  exact ⟨Int8.toInt_ofNat_of_lt (lt_of_le_of_lt List.countP_le_length h),
    Int8.toInt_ofNat_of_lt (lt_of_le_of_lt List.countP_le_length h)⟩

/-- **C04 (partition).** Together with the entries `≥ eps` (for `eps ≥ 0`) every value is counted once. -/
theorem C04_num_negative_zero_partition (l : List K) (e : K) (he : 0 ≤ e) (h : l.length < 128) :
    (numNegativeZero l e).1.toInt + (numNegativeZero l e).2.toInt
      + l.countP (fun v => decide (e ≤ v)) = l.length := by
  obtain ⟨h1, h2⟩ := C04_num_negative_zero l e h
  rw [h1, h2]
  clear h h1 h2
  induction l with
  | nil => simp
  | cons v l ih =>
    simp only [List.countP_cons, List.length_cons, decide_eq_true_eq]
    push_cast
    rcases lt_or_ge v (-e) with c | c
    · rw [if_pos c, if_neg (by rintro ⟨x, _⟩; linarith), if_neg (by linarith)]; omega
    · rcases lt_or_ge v e with d | d
      · rw [if_neg (by linarith), if_pos ⟨c, d⟩, if_neg (by linarith)]; omega
      · rw [if_neg (by linarith), if_neg (by rintro ⟨_, x⟩; linarith), if_pos d]; omega

/-- the repository's own example; and the bound 128 is needed. -/
example : numNegativeZero [(1 / 10 : ℚ), 2 / 10, 3 / 10, 1 / 10000000, -1 / 10] (1 / 1000000) = (1, 1) ∧
    (numNegativeZero (List.replicate 128 (-1 : ℚ)) (1 / 10)).1.toInt = -128 := by decide +kernel

/-- **C04 (`approx_equal_iter`).** -/
theorem C04_approx_equal_iter_iff (a b : List K) (tol : K) (h : a.length = b.length) :
    approxEqualIter a b tol = .ret (decide (List.Forall₂ (fun x y => |x - y| < tol) a b)) := by
  unfold approxEqualIter
  rw [if_neg (by simpa using h)]
  congr 1
  rw [Bool.eq_iff_iff, decide_eq_true_eq, List.forall₂_iff_zip, List.all_eq_true]
  simp only [approxEqual, decide_eq_true_eq, h, true_and, Prod.forall]
  rfl

theorem C04_approx_equal_iter_panics_iff (a b : List K) (tol : K) :
    (∃ m, approxEqualIter a b tol = .panic m) ↔ a.length ≠ b.length := by
  unfold approxEqualIter
  split <;> simp_all

example : approxEqualIter [(1 : ℚ), 2] [1 + 1 / 1000, 2] (1 / 100) = .ret true ∧
    approxEqualIter [(1 : ℚ), 2] [1, 3] (1 / 100) = .ret false := by decide +kernel

end

end CrystSymm
