import Verif.Spec.Binary64
import Verif.Spec.Rounding
import Mathlib.Tactic.Linarith
import Mathlib.Tactic.FieldSimp
import Mathlib.Tactic.Ring
import Mathlib.Tactic.Positivity
import Mathlib.Tactic.NormNum

set_option autoImplicit false

/-! # binary64 is a rounding -/

namespace CrystSymm

open Spec

theorem nearestEven_intCast (n : ℤ) : nearestEven (n : ℝ) = n := by
  unfold nearestEven
  rw [Int.floor_intCast, if_pos (by norm_num)]

theorem nearestEven_err (y : ℝ) : |(nearestEven y : ℝ) - y| ≤ 1 / 2 := by
  have h1 := Int.floor_le y
  have h2 := Int.lt_floor_add_one y
  unfold nearestEven
  rw [abs_le]
  split_ifs <;> push_cast <;> constructor <;> linarith

theorem nearestEven_mono {x y : ℝ} (h : x ≤ y) : nearestEven x ≤ nearestEven y := by
  have hf := Int.floor_mono h
  rcases hf.lt_or_eq with hlt | heq
  · have a : nearestEven x ≤ ⌊x⌋ + 1 := by unfold nearestEven; split_ifs <;> omega
    have b : ⌊y⌋ ≤ nearestEven y := by unfold nearestEven; split_ifs <;> omega
    omega
  · unfold nearestEven
    rw [← heq]
    split_ifs <;> first | omega | (exfalso; linarith)

theorem nearestEven_neg (y : ℝ) : nearestEven (-y) = -nearestEven y := by
  by_cases hi : y = (⌊y⌋ : ℝ)
  · rw [hi, nearestEven_intCast, ← Int.cast_neg, nearestEven_intCast]
  · have h1 := Int.floor_le y
    have h2 := Int.lt_floor_add_one y
    have h1' : (⌊y⌋ : ℝ) < y := lt_of_le_of_ne h1 (Ne.symm hi)
    have e : ⌊-y⌋ = -⌊y⌋ - 1 := by
      rw [Int.floor_eq_iff]; push_cast; constructor <;> linarith
    unfold nearestEven
    rw [e]
    push_cast
    have ev : Even (-⌊y⌋ - 1) ↔ ¬ Even ⌊y⌋ := by
      rw [Int.even_sub_one, even_neg]
    split_ifs <;> first | omega | (exfalso; linarith) | (exfalso; tauto)

theorem ulp64_pos (x : ℝ) : 0 < ulp64 x := by unfold ulp64; positivity

theorem exponent64_neg (x : ℝ) : exponent64 (-x) = exponent64 x := by unfold exponent64; rw [abs_neg]

theorem ulp64_neg (x : ℝ) : ulp64 (-x) = ulp64 x := by unfold ulp64; rw [exponent64_neg]

theorem exponent64_ge (x : ℝ) : -1022 ≤ exponent64 x := le_max_right _ _

theorem lt_exponent64 (x : ℝ) : |x| < 2 ^ (exponent64 x + 1) := by
  have h := Int.lt_zpow_succ_log_self (b := 2) (by norm_num) |x|
  push_cast at h
  refine h.trans_le (zpow_le_zpow_right₀ (by norm_num) ?_)
  have := le_max_left (Int.log 2 |x|) (-1022)
  unfold exponent64
  omega

theorem exponent64_le_of_lt {x : ℝ} (hx : x ≠ 0) {j : ℤ} (hj : -1022 ≤ j) (h : |x| < 2 ^ (j + 1)) :
    exponent64 x ≤ j := by
  unfold exponent64
  rw [max_le_iff]
  refine ⟨?_, hj⟩
  have hp : 0 < |x| := abs_pos.2 hx
  have h1 := Int.zpow_log_le_self (b := 2) (by norm_num) hp
  push_cast at h1
  have := (zpow_lt_zpow_iff_right₀ (by norm_num : (1 : ℝ) < 2)).1 (h1.trans_lt h)
  omega

theorem fl64_zero : fl64 0 = 0 := by
  unfold fl64
  rw [zero_div, ← Int.cast_zero, nearestEven_intCast]
  simp

theorem fl64_odd (x : ℝ) : fl64 (-x) = -fl64 x := by
  unfold fl64
  rw [ulp64_neg, neg_div, nearestEven_neg]
  push_cast
  ring

/-- numbers with at most 53 significant bits are representable. -/
theorem fl64_of_grid {x : ℝ} {j k : ℤ} (hj : -1022 ≤ j) (hk : x = k * 2 ^ (j - 52)) (h : |x| < 2 ^ (j + 1)) :
    fl64 x = x := by
  by_cases hx : x = 0
  · rw [hx, fl64_zero]
  · have he := exponent64_le_of_lt hx hj h
    obtain ⟨d, hd⟩ : ∃ d : ℕ, j = exponent64 x + d := ⟨(j - exponent64 x).toNat, by omega⟩
    have hu := ulp64_pos x
    have e : x / ulp64 x = ((k * 2 ^ d : ℤ) : ℝ) := by
      have e2 : (2 : ℝ) ^ (j - 52) = 2 ^ d * ulp64 x := by
        unfold ulp64
        rw [show j - 52 = (d : ℤ) + (exponent64 x - 52) by omega, zpow_add₀ (by norm_num), zpow_natCast]
      rw [div_eq_iff hu.ne']
      conv_lhs => rw [hk, e2]
      push_cast
      ring
    unfold fl64
    rw [e, nearestEven_intCast, ← e, div_mul_cancel₀ _ hu.ne']

theorem fl64_grid (x : ℝ) : fl64 x = nearestEven (x / ulp64 x) * 2 ^ (exponent64 x - 52) := rfl

theorem nearest_abs_le (x : ℝ) : |nearestEven (x / ulp64 x)| ≤ 2 ^ 53 := by
  have hu := ulp64_pos x
  have h := lt_exponent64 x
  have e : (2 : ℝ) ^ (exponent64 x + 1) = 2 ^ 53 * ulp64 x := by
    unfold ulp64
    rw [show exponent64 x + 1 = ((53 : ℕ) : ℤ) + (exponent64 x - 52) by push_cast; ring, zpow_add₀ (by norm_num), zpow_natCast]
  rw [e] at h
  have h2 : |x / ulp64 x| ≤ 2 ^ 53 := by
    rw [abs_div, abs_of_pos hu, div_le_iff₀ hu]; exact h.le
  rw [abs_le] at h2 ⊢
  constructor
  · have := nearestEven_mono (x := ((-2 ^ 53 : ℤ) : ℝ)) (y := x / ulp64 x) (by push_cast; linarith [h2.1])
    rwa [nearestEven_intCast] at this
  · have := nearestEven_mono (x := x / ulp64 x) (y := ((2 ^ 53 : ℤ) : ℝ)) (by push_cast; linarith [h2.2])
    rwa [nearestEven_intCast] at this

theorem fl64_idem (x : ℝ) : fl64 (fl64 x) = fl64 x := by
  have hb := nearest_abs_le x
  rcases hb.lt_or_eq with hlt | heq
  · refine fl64_of_grid (exponent64_ge x) (fl64_grid x) ?_
    rw [fl64_grid, abs_mul, abs_of_pos (a := (2 : ℝ) ^ _) (by positivity)]
    have h' : |((nearestEven (x / ulp64 x) : ℤ) : ℝ)| < 2 ^ 53 := by exact_mod_cast hlt
    calc _ < 2 ^ 53 * (2 : ℝ) ^ (exponent64 x - 52) := by
          apply mul_lt_mul_of_pos_right h'; positivity
      _ = 2 ^ (exponent64 x + 1) := by
          rw [show exponent64 x + 1 = ((53 : ℕ) : ℤ) + (exponent64 x - 52) by push_cast; ring, zpow_add₀ (by norm_num),
            zpow_natCast]
  · have hg := exponent64_ge x
    have key : ∃ s : ℤ, |s| ≤ 1 ∧ nearestEven (x / ulp64 x) = s * 2 ^ 53 := by
      rcases (abs_eq (by positivity)).1 heq with h | h
      · exact ⟨1, by norm_num, by rw [h]; norm_num⟩
      · exact ⟨-1, by norm_num, by rw [h]; norm_num⟩
    obtain ⟨s, hs, hn⟩ := key
    have e : fl64 x = ((s * 2 ^ 52 : ℤ) : ℝ) * 2 ^ (exponent64 x + 1 - 52) := by
      rw [fl64_grid, hn, show exponent64 x + 1 - 52 = 1 + (exponent64 x - 52) by ring, zpow_add₀ (by norm_num)]
      push_cast
      ring
    refine fl64_of_grid (j := exponent64 x + 1) (by omega) e ?_
    rw [e, abs_mul, abs_of_pos (a := (2 : ℝ) ^ _) (by positivity)]
    have h' : |((s * 2 ^ 52 : ℤ) : ℝ)| ≤ 2 ^ 52 := by
      rw [Int.cast_mul, abs_mul]
      have h1 : |(s : ℝ)| ≤ 1 := by exact_mod_cast hs
      have h2 : |((2 ^ 52 : ℤ) : ℝ)| = 2 ^ 52 := by norm_num
      rw [h2]
      linarith
    calc _ ≤ 2 ^ 52 * (2 : ℝ) ^ (exponent64 x + 1 - 52) := by
          apply mul_le_mul_of_nonneg_right h'; positivity
      _ = 2 ^ (exponent64 x + 1) := by
          rw [show exponent64 x + 1 = ((52 : ℕ) : ℤ) + (exponent64 x + 1 - 52) by push_cast; ring]
          rw [zpow_add₀ (by norm_num), zpow_natCast]
          ring_nf
      _ < 2 ^ (exponent64 x + 1 + 1) := by
          apply zpow_lt_zpow_right₀ (by norm_num); omega

theorem fl64_nonneg {x : ℝ} (h : 0 ≤ x) : 0 ≤ fl64 x := by
  have hu := ulp64_pos x
  have := nearestEven_mono (x := ((0 : ℤ) : ℝ)) (y := x / ulp64 x) (by push_cast; positivity)
  rw [nearestEven_intCast] at this
  unfold fl64
  have : (0 : ℝ) ≤ nearestEven (x / ulp64 x) := by exact_mod_cast this
  positivity

theorem fl64_le_pow (x : ℝ) : fl64 x ≤ 2 ^ (exponent64 x + 1) := by
  have h := (abs_le.1 (nearest_abs_le x)).2
  have h' : ((nearestEven (x / ulp64 x) : ℤ) : ℝ) ≤ 2 ^ 53 := by exact_mod_cast h
  rw [fl64_grid]
  calc _ ≤ 2 ^ 53 * (2 : ℝ) ^ (exponent64 x - 52) := by
        apply mul_le_mul_of_nonneg_right h'; positivity
    _ = 2 ^ (exponent64 x + 1) := by
        rw [show exponent64 x + 1 = ((53 : ℕ) : ℤ) + (exponent64 x - 52) by push_cast; ring, zpow_add₀ (by norm_num),
          zpow_natCast]

theorem pow_le_fl64 {x : ℝ} (hx : 0 < x) (he : -1022 < exponent64 x) : 2 ^ exponent64 x ≤ fl64 x := by
  have h1 := Int.zpow_log_le_self (b := 2) (by norm_num) (abs_pos.2 hx.ne')
  have e : exponent64 x = Int.log 2 |x| := by
    unfold exponent64 at he ⊢
    rcases max_choice (Int.log 2 |x|) (-1022) with h | h <;> rw [h] at he ⊢
    omega
  push_cast at h1
  rw [← e, abs_of_pos hx] at h1
  have hu := ulp64_pos x
  have e2 : (2 : ℝ) ^ exponent64 x = 2 ^ 52 * ulp64 x := by
    unfold ulp64
    conv_lhs => rw [show exponent64 x = ((52 : ℕ) : ℤ) + (exponent64 x - 52) by push_cast; ring]
    rw [zpow_add₀ (by norm_num), zpow_natCast]
  have := nearestEven_mono (x := ((2 ^ 52 : ℤ) : ℝ)) (y := x / ulp64 x) (by
    rw [le_div_iff₀ hu]; push_cast; linarith)
  rw [nearestEven_intCast] at this
  have h' : (2 : ℝ) ^ 52 ≤ nearestEven (x / ulp64 x) := by exact_mod_cast this
  rw [e2]
  exact mul_le_mul_of_nonneg_right h' hu.le

theorem exponent64_mono {x y : ℝ} (hx : 0 < x) (h : x ≤ y) : exponent64 x ≤ exponent64 y := by
  unfold exponent64
  refine max_le_max ?_ le_rfl
  rw [abs_of_pos hx, abs_of_pos (hx.trans_le h)]
  exact Int.log_mono_right hx h

theorem fl64_mono_pos {x y : ℝ} (hx : 0 < x) (h : x ≤ y) : fl64 x ≤ fl64 y := by
  rcases (exponent64_mono hx h).lt_or_eq with hlt | heq
  · have hg := exponent64_ge x
    refine (fl64_le_pow x).trans (le_trans ?_ (pow_le_fl64 (hx.trans_le h) (by omega)))
    exact zpow_le_zpow_right₀ (by norm_num) (by omega)
  · have hu : ulp64 x = ulp64 y := by unfold ulp64; rw [heq]
    have hp := ulp64_pos y
    unfold fl64
    rw [hu]
    have := nearestEven_mono (div_le_div_of_nonneg_right h hp.le)
    have h' : ((nearestEven (x / ulp64 y) : ℤ) : ℝ) ≤ nearestEven (y / ulp64 y) := by exact_mod_cast this
    exact mul_le_mul_of_nonneg_right h' hp.le

theorem fl64_mono {x y : ℝ} (h : x ≤ y) : fl64 x ≤ fl64 y := by
  rcases lt_trichotomy x 0 with hx | hx | hx
  · rcases lt_or_ge y 0 with hy | hy
    · have := fl64_mono_pos (x := -y) (y := -x) (by linarith) (by linarith)
      rw [fl64_odd, fl64_odd] at this
      linarith
    · have := fl64_nonneg (x := -x) (by linarith)
      rw [fl64_odd] at this
      linarith [fl64_nonneg hy]
  · subst hx
    rw [fl64_zero]; exact fl64_nonneg h
  · exact fl64_mono_pos hx h

theorem fl64_one : fl64 1 = 1 := by
  refine fl64_of_grid (j := 0) (k := 2 ^ 52) (by norm_num) ?_ (by norm_num)
  push_cast
  norm_num

theorem fl64_fmod (x : ℝ) (h : fl64 x = x) : fl64 (x - (truncZ x : ℝ)) = x - (truncZ x : ℝ) := by
  have hx : x = nearestEven (x / ulp64 x) * 2 ^ (exponent64 x - 52) := by
    rw [← fl64_grid, h]
  generalize nearestEven (x / ulp64 x) = k at hx
  have hlt := lt_exponent64 x
  rcases le_or_gt 52 (exponent64 x) with h52 | h52
  · obtain ⟨d, hd⟩ : ∃ d : ℕ, exponent64 x - 52 = d := ⟨(exponent64 x - 52).toNat, by omega⟩
    have e : x = ((k * 2 ^ d : ℤ) : ℝ) := by
      rw [hd, zpow_natCast] at hx; push_cast; exact hx
    have : (truncZ x : ℝ) = x := by
      conv_lhs => rw [e]
      conv_rhs => rw [e]
      unfold truncZ
      rw [Int.floor_intCast, Int.ceil_intCast, ite_self]
    rw [this, sub_self, fl64_zero]
  · obtain ⟨d, hd⟩ : ∃ d : ℕ, 52 - exponent64 x = d := ⟨(52 - exponent64 x).toNat, by omega⟩
    have e1 : (1 : ℝ) = 2 ^ d * 2 ^ (exponent64 x - 52) := by
      rw [← zpow_natCast, ← zpow_add₀ (by norm_num), ← hd]
      simp
    refine fl64_of_grid (j := exponent64 x) (k := k - truncZ x * 2 ^ d) (exponent64_ge x) ?_ ?_
    · push_cast
      rw [sub_mul, mul_assoc, ← e1, mul_one, ← hx]
    · refine lt_of_le_of_lt ?_ hlt
      unfold truncZ
      split
      · rename_i h0
        have a := Int.floor_le x
        have b := Int.lt_floor_add_one x
        have c : (0 : ℝ) ≤ ⌊x⌋ := by exact_mod_cast Int.floor_nonneg.2 h0
        rw [abs_of_nonneg h0, abs_of_nonneg (by linarith)]
        linarith
      · rename_i h0
        have h0 := not_le.1 h0
        have a := Int.le_ceil x
        have b := Int.ceil_lt_add_one x
        have c : (⌈x⌉ : ℝ) ≤ 0 := by exact_mod_cast Int.ceil_le.2 (by push_cast; exact h0.le)
        rw [abs_of_neg h0, abs_of_nonpos (by linarith)]
        linarith

/-- IEEE-754 binary64, round to nearest even. -/
noncomputable def binary64 : Rounding where
  fl := fl64
  mono _ _ h := fl64_mono h
  idem := fl64_idem
  odd := fl64_odd
  one := fl64_one
  fmod := fl64_fmod

/-- below 2 the rounding error is at most `2^-53`. -/
theorem fl64_err {x : ℝ} (h : |x| < 2) : |fl64 x - x| ≤ 1 / 2 ^ 53 := by
  by_cases hx : x = 0
  · subst hx; rw [fl64_zero]; norm_num
  · have he := exponent64_le_of_lt hx (j := 0) (by norm_num) (by norm_num; exact h)
    have hu := ulp64_pos x
    have hu' : ulp64 x ≤ 1 / 2 ^ 52 := by
      unfold ulp64
      calc (2 : ℝ) ^ (exponent64 x - 52) ≤ 2 ^ (-52 : ℤ) := zpow_le_zpow_right₀ (by norm_num) (by omega)
        _ = 1 / 2 ^ 52 := by norm_num
    have hn := nearestEven_err (x / ulp64 x)
    have e : fl64 x - x = (nearestEven (x / ulp64 x) - x / ulp64 x) * ulp64 x := by
      unfold fl64; field_simp
    rw [e, abs_mul, abs_of_pos hu]
    calc _ ≤ 1 / 2 * (1 / 2 ^ 52 : ℝ) := mul_le_mul hn hu' hu.le (by norm_num)
      _ = 1 / 2 ^ 53 := by norm_num

end CrystSymm
