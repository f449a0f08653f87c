import Verif.Model.Utils
import Verif.Spec.Basic
import Mathlib.Tactic.Linarith
import Mathlib.Tactic.Ring
import Mathlib.Tactic.NormNum

set_option autoImplicit false

/-! # Lemmas on one component of `normalize_frac_vectors` -/

set_option linter.unusedSectionVars false

namespace CrystSymm

open Spec

section
variable {K : Type} [Field K] [LinearOrder K] [IsStrictOrderedRing K] [FloorRing K]

theorem fmod1_eq (x : K) : (FRound.fmod1 x : K) = x - (truncZ x : K) := rfl

theorem fmod1_nonneg {x : K} (h : 0 ≤ x) : 0 ≤ (FRound.fmod1 x : K) := by
  rw [fmod1_eq, truncZ, if_pos h]; linarith [Int.floor_le x]

theorem fmod1_nonpos {x : K} (h : ¬ 0 ≤ x) : (FRound.fmod1 x : K) ≤ 0 := by
  rw [fmod1_eq, truncZ, if_neg h]; linarith [Int.le_ceil x]

theorem fmod1_lt_one (x : K) : (FRound.fmod1 x : K) < 1 := by
  rw [fmod1_eq, truncZ]
  split
  · linarith [Int.lt_floor_add_one x]
  · linarith [Int.le_ceil x]

theorem neg_one_lt_fmod1 (x : K) : -1 < (FRound.fmod1 x : K) := by
  rw [fmod1_eq, truncZ]
  split
  · linarith [Int.floor_le x]
  · linarith [Int.ceil_lt_add_one x]

theorem truncZ_of_abs_lt_one {x : K} (h1 : -1 < x) (h2 : x < 1) : truncZ x = 0 := by
  rw [truncZ]
  split
  · rw [Int.floor_eq_zero_iff]; constructor <;> simpa using ‹_›
  · rw [Int.ceil_eq_zero_iff]; constructor <;> simp_all [le_of_lt]

theorem fmod1_of_abs_lt_one {x : K} (h1 : -1 < x) (h2 : x < 1) : (FRound.fmod1 x : K) = x := by
  rw [fmod1_eq, truncZ_of_abs_lt_one h1 h2]; simp

theorem normComp_sameMod1 (tol v : K) : SameMod1 (normComp tol v) v := by
  unfold normComp SameMod1
  simp only [fmod1_eq]
  split
  · exact ⟨1 - truncZ v, by push_cast; ring⟩
  · split
    · exact ⟨-1 - truncZ v, by push_cast; ring⟩
    · exact ⟨-truncZ v, by push_cast; ring⟩

theorem normComp_mem {tol : K} (h0 : 0 ≤ tol) (h1 : tol ≤ 1) (v : K) :
    -tol ≤ normComp tol v ∧ normComp tol v ≤ 1 - tol := by
  have a := fmod1_lt_one v
  have b := neg_one_lt_fmod1 v
  unfold normComp
  simp only
  split
  · constructor <;> linarith
  · split
    · constructor <;> linarith
    · constructor <;> linarith

theorem normComp_lt_one {tol : K} (h0 : 0 ≤ tol) (v : K) : normComp tol v < 1 := by
  have a := fmod1_lt_one v
  unfold normComp
  simp only
  split
  · linarith
  · split <;> linarith

/-- a component that is already in range is left alone. -/
theorem normComp_of_mem {tol w : K} (h1 : tol < 1) (ha : -tol ≤ w)
    (hb : w ≤ 1 - tol) (hc : w < 1) : normComp tol w = w := by
  unfold normComp
  simp only
  rw [fmod1_of_abs_lt_one (by linarith) hc, if_neg (by linarith), if_neg (by linarith)]

theorem normComp_idem {tol : K} (h0 : 0 ≤ tol) (h1 : tol < 1) (v : K) :
    normComp tol (normComp tol v) = normComp tol v := by
  obtain ⟨a, b⟩ := normComp_mem h0 h1.le v
  exact normComp_of_mem h1 a b (normComp_lt_one h0 v)

theorem sameMod1_cases {x y : K} (h : SameMod1 x y) (h1 : -1 ≤ x - y) (h2 : x - y ≤ 1) :
    x = y ∨ x = y + 1 ∨ y = x + 1 := by
  obtain ⟨n, hn⟩ := h
  rw [hn] at h1 h2
  have h1' : (-1 : ℤ) ≤ n := by exact_mod_cast h1
  have h2' : n ≤ (1 : ℤ) := by exact_mod_cast h2
  have : n = -1 ∨ n = 0 ∨ n = 1 := by omega
  rcases this with rfl | rfl | rfl
  · right; right; push_cast at hn; linarith
  · left; push_cast at hn; linarith
  · right; left; push_cast at hn; linarith

theorem Spec.SameMod1.symm {x y : K} (h : SameMod1 x y) : SameMod1 y x := by
  obtain ⟨n, hn⟩ := h
  exact ⟨-n, by push_cast; rw [← hn]; ring⟩

theorem Spec.SameMod1.trans {x y z : K} (h : SameMod1 x y) (h' : SameMod1 y z) : SameMod1 x z := by
  obtain ⟨n, hn⟩ := h
  obtain ⟨m, hm⟩ := h'
  exact ⟨n + m, by push_cast; rw [← hn, ← hm]; ring⟩

theorem normComp_canonical {tol : K} (h0 : 0 ≤ tol) (h1 : tol ≤ 1) {x y : K} (h : SameMod1 x y) :
    normComp tol x = normComp tol y ∨
      (normComp tol x = -tol ∧ normComp tol y = 1 - tol) ∨
      (normComp tol x = 1 - tol ∧ normComp tol y = -tol) := by
  obtain ⟨a, b⟩ := normComp_mem h0 h1 x
  obtain ⟨c, d⟩ := normComp_mem h0 h1 y
  have hs : SameMod1 (normComp tol x) (normComp tol y) :=
    ((normComp_sameMod1 tol x).trans h).trans (normComp_sameMod1 tol y).symm
  rcases sameMod1_cases hs (by linarith) (by linarith) with e | e | e
  · exact .inl e
  · right; right; constructor <;> linarith
  · right; left; constructor <;> linarith

end

end CrystSymm
