import Verif.Proofs.Normalize
import Verif.Proofs.Round
import Verif.Proofs.Binary64

set_option autoImplicit false

/-! # C03: normalisation in rounded arithmetic -/

namespace CrystSymm

open Spec

section
variable {ρ : Rounding}

theorem fl_zero (ρ : Rounding) : ρ.fl 0 = 0 := by
  have := ρ.odd 0
  rw [neg_zero] at this
  linarith

@[simp] theorem RNum.val_add (a b : RNum ρ) : (a + b).val = ρ.fl (a.val + b.val) := rfl
@[simp] theorem RNum.val_sub (a b : RNum ρ) : (a - b).val = ρ.fl (a.val - b.val) := rfl
@[simp] theorem RNum.val_mul (a b : RNum ρ) : (a * b).val = ρ.fl (a.val * b.val) := rfl
@[simp] theorem RNum.val_one : (1 : RNum ρ).val = 1 := ρ.one
@[simp] theorem RNum.val_neg (a : RNum ρ) : (-a).val = -a.val := by
  change ρ.fl (-a.val) = _
  rw [ρ.odd]; congr 1; exact a.2
theorem RNum.fl_val (a : RNum ρ) : ρ.fl a.val = a.val := a.2
theorem RNum.lt_iff (a b : RNum ρ) : a < b ↔ a.val < b.val := Iff.rfl
theorem RNum.le_iff (a b : RNum ρ) : a ≤ b ↔ a.val ≤ b.val := Iff.rfl
theorem RNum.val_fmod1 (a : RNum ρ) : (FRound.fmod1 a : RNum ρ).val = FRound.fmod1 a.val := rfl

theorem normComp_rounded (tol v : RNum ρ) (h0 : 0 ≤ tol.val) (h1 : tol.val ≤ 1) :
    (-tol ≤ normComp tol v ∧ normComp tol v ≤ 1 - tol) ∧
    ∃ e : ℝ, SameMod1 e v.val ∧ (normComp tol v).val = ρ.fl e ∧ |e| < 1 := by
  have hlt := fmod1_lt_one v.val
  have hgt := neg_one_lt_fmod1 v.val
  have hneg : ((-1 : RNum ρ) * tol).val = -tol.val := by
    rw [RNum.val_mul, RNum.val_neg, RNum.val_one, neg_one_mul, ρ.odd, RNum.fl_val]
  simp only [RNum.le_iff, RNum.val_neg, RNum.val_sub, RNum.val_one]
  unfold normComp
  simp only
  split
  · rename_i h
    rw [RNum.lt_iff, hneg, RNum.val_fmod1] at h
    rw [RNum.val_add, RNum.val_one, RNum.val_fmod1]
    refine ⟨⟨?_, ρ.mono _ _ (by linarith)⟩, FRound.fmod1 v.val + 1, ⟨1 - truncZ v.val, ?_⟩, rfl, ?_⟩
    · have := ρ.mono 0 (FRound.fmod1 v.val + 1) (by linarith)
      rw [fl_zero] at this
      linarith
    · rw [fmod1_eq]; push_cast; ring
    · rw [abs_lt]; constructor <;> linarith
  · rename_i hn
    rw [RNum.lt_iff, hneg, RNum.val_fmod1] at hn
    split
    · rename_i h
      rw [RNum.lt_iff, RNum.val_sub, RNum.val_one, RNum.val_fmod1] at h
      rw [RNum.val_sub, RNum.val_one, RNum.val_fmod1]
      have h' : 1 - tol.val < FRound.fmod1 v.val := by
        by_contra hc
        have := ρ.mono _ _ (not_lt.1 hc)
        have hfix : ρ.fl (FRound.fmod1 v.val) = FRound.fmod1 v.val := (FRound.fmod1 v : RNum ρ).2
        linarith
      refine ⟨⟨?_, ρ.mono _ _ (by linarith)⟩, FRound.fmod1 v.val - 1, ⟨-1 - truncZ v.val, ?_⟩, rfl, ?_⟩
      · have := ρ.mono (-tol.val) (FRound.fmod1 v.val - 1) (by linarith)
        rw [ρ.odd, RNum.fl_val] at this
        exact this
      · rw [fmod1_eq]; push_cast; ring
      · rw [abs_lt]; constructor <;> linarith
    · rename_i h
      rw [RNum.lt_iff, RNum.val_sub, RNum.val_one, RNum.val_fmod1] at h
      rw [RNum.val_fmod1]
      refine ⟨⟨by linarith, by linarith⟩, FRound.fmod1 v.val, ⟨-truncZ v.val, ?_⟩, ?_, ?_⟩
      · rw [fmod1_eq]; push_cast; ring
      · exact ((FRound.fmod1 v : RNum ρ).2).symm
      · rw [abs_lt]; constructor <;> linarith

/-- **C03.** For every rounding, with all additions and subtractions rounded, every component of the
result lies between `-tol` and the rounded `1 - tol`, and it is the rounding of a number that differs
from the input component by an integer. -/
theorem C03_normalize_range_rounded (vecs : List (Vec3 (RNum ρ))) (tols : Vec3 (RNum ρ))
    (hx : 0 ≤ tols.x.val ∧ tols.x.val ≤ 1) (hy : 0 ≤ tols.y.val ∧ tols.y.val ≤ 1)
    (hz : 0 ≤ tols.z.val ∧ tols.z.val ≤ 1) :
    List.Forall₂ (fun out inp : Vec3 (RNum ρ) =>
      (-tols.x ≤ out.x ∧ out.x ≤ 1 - tols.x) ∧ (-tols.y ≤ out.y ∧ out.y ≤ 1 - tols.y) ∧
      (-tols.z ≤ out.z ∧ out.z ≤ 1 - tols.z) ∧
      (∃ e : Vec3 ℝ, SamePoint e ⟨inp.x.val, inp.y.val, inp.z.val⟩ ∧
        out.x.val = ρ.fl e.x ∧ out.y.val = ρ.fl e.y ∧ out.z.val = ρ.fl e.z))
      (normalizeFracVectors vecs tols) vecs := by
  unfold normalizeFracVectors
  rw [List.forall₂_map_left_iff, List.forall₂_same]
  intro v _
  obtain ⟨rx, ex, sx, fx, -⟩ := normComp_rounded tols.x v.x hx.1 hx.2
  obtain ⟨ry, ey, sy, fy, -⟩ := normComp_rounded tols.y v.y hy.1 hy.2
  obtain ⟨rz, ez, sz, fz, -⟩ := normComp_rounded tols.z v.z hz.1 hz.2
  exact ⟨rx, ry, rz, ⟨ex, ey, ez⟩, ⟨sx, sy, sz⟩, fx, fy, fz⟩

end

/-- **C03 (binary64).** In IEEE double precision every component of the result lies between `-tol` and the rounded
`1 - tol`, and it differs by at most `2^-53` from a number of magnitude less than one that differs from the input component by
an integer.  (All intermediate results are below two in magnitude, so nothing overflows.) -/
theorem C03_normalize_range_binary64 (vecs : List (Vec3 (RNum binary64))) (tols : Vec3 (RNum binary64))
    (hx : 0 ≤ tols.x.val ∧ tols.x.val ≤ 1) (hy : 0 ≤ tols.y.val ∧ tols.y.val ≤ 1)
    (hz : 0 ≤ tols.z.val ∧ tols.z.val ≤ 1) :
    List.Forall₂ (fun out inp : Vec3 (RNum binary64) =>
      (-tols.x.val ≤ out.x.val ∧ out.x.val ≤ fl64 (1 - tols.x.val)) ∧
      (-tols.y.val ≤ out.y.val ∧ out.y.val ≤ fl64 (1 - tols.y.val)) ∧
      (-tols.z.val ≤ out.z.val ∧ out.z.val ≤ fl64 (1 - tols.z.val)) ∧
      ∃ e : Vec3 ℝ, SamePoint e ⟨inp.x.val, inp.y.val, inp.z.val⟩ ∧ |e.x| < 1 ∧ |e.y| < 1 ∧ |e.z| < 1 ∧
        |out.x.val - e.x| ≤ 1 / 2 ^ 53 ∧ |out.y.val - e.y| ≤ 1 / 2 ^ 53 ∧ |out.z.val - e.z| ≤ 1 / 2 ^ 53)
      (normalizeFracVectors vecs tols) vecs := by
  unfold normalizeFracVectors
  rw [List.forall₂_map_left_iff, List.forall₂_same]
  intro v _
  obtain ⟨rx, ex, sx, fx, bx⟩ := normComp_rounded tols.x v.x hx.1 hx.2
  obtain ⟨ry, ey, sy, fy, by'⟩ := normComp_rounded tols.y v.y hy.1 hy.2
  obtain ⟨rz, ez, sz, fz, bz⟩ := normComp_rounded tols.z v.z hz.1 hz.2
  simp only [RNum.le_iff, RNum.val_neg, RNum.val_sub, RNum.val_one] at rx ry rz
  refine ⟨rx, ry, rz, ⟨ex, ey, ez⟩, ⟨sx, sy, sz⟩, bx, by', bz, ?_, ?_, ?_⟩
  · change |(normComp tols.x v.x).val - ex| ≤ _
    rw [fx]; exact fl64_err (by linarith)
  · change |(normComp tols.y v.y).val - ey| ≤ _
    rw [fy]; exact fl64_err (by linarith)
  · change |(normComp tols.z v.z).val - ez| ≤ _
    rw [fz]; exact fl64_err (by linarith)

/-- binary64 does round: adding `2^-53` to 1 is lost, a coordinate just below zero is normalised to 1 exactly. -/
example : fl64 (1 + 1 / 2 ^ 53) = 1 ∧ fl64 (-(1 / 2 ^ 60)) = -(1 / 2 ^ 60) ∧
    ∀ t v : RNum binary64, t.val = 0 → v.val = -(1 / 2 ^ 60) → (normComp t v).val = 1 := by
  have ex : ∀ (x : ℝ) (j : ℤ), 0 < x → -1022 ≤ j → 2 ^ j ≤ x → x < 2 ^ (j + 1) → exponent64 x = j := by
    intro x j h0 hj h1 h2
    apply le_antisymm (exponent64_le_of_lt h0.ne' hj (by rwa [abs_of_pos h0]))
    refine le_trans ?_ (le_max_left _ _)
    rw [abs_of_pos h0, ← Int.zpow_le_iff_le_log (by norm_num) h0]
    exact_mod_cast h1
  refine ⟨?_, fl64_of_grid (j := -60) (k := -2 ^ 52) (by norm_num) (by norm_num) (by norm_num), ?_⟩
  · have e := ex (1 + 1 / 2 ^ 53) 0 (by norm_num) (by norm_num) (by norm_num) (by norm_num)
    unfold fl64 ulp64
    rw [e]
    have h : ((1 : ℝ) + 1 / 2 ^ 53) / 2 ^ ((0 : ℤ) - 52) = 4503599627370496 + 1 / 2 := by norm_num
    have hf : ⌊((4503599627370496 : ℝ) + 1 / 2)⌋ = 4503599627370496 := by
      rw [Int.floor_eq_iff]; norm_num
    rw [h]
    unfold nearestEven
    rw [hf, if_neg (by norm_num), if_neg (by norm_num), if_pos (by decide)]
    norm_num
  · intro t v ht hv
    have e := ex (1 - 1 / 2 ^ 60) (-1) (by norm_num) (by norm_num) (by norm_num) (by norm_num)
    have hf1 : FRound.fmod1 (-(1 / 2 ^ 60) : ℝ) = -(1 / 2 ^ 60) := by
      rw [fmod1_eq]
      have : truncZ (-(1 / 2 ^ 60) : ℝ) = 0 := by
        unfold truncZ
        rw [if_neg (by norm_num), Int.ceil_eq_iff]; norm_num
      rw [this]; simp
    unfold normComp
    simp only
    rw [if_pos]
    · rw [RNum.val_add, RNum.val_one, RNum.val_fmod1, hv, hf1]
      change fl64 _ = 1
      rw [show (-(1 / 2 ^ 60) : ℝ) + 1 = 1 - 1 / 2 ^ 60 by ring]
      unfold fl64 ulp64
      rw [e]
      have h : ((1 : ℝ) - 1 / 2 ^ 60) / 2 ^ ((-1 : ℤ) - 52) = 9007199254740991 + 127 / 128 := by norm_num
      have hf : ⌊((9007199254740991 : ℝ) + 127 / 128)⌋ = 9007199254740991 := by
        rw [Int.floor_eq_iff]; norm_num
      rw [h]
      unfold nearestEven
      rw [hf, if_neg (by norm_num), if_pos (by norm_num)]
      norm_num
    · rw [RNum.lt_iff, RNum.val_mul, RNum.val_fmod1, hv, hf1, ht, mul_zero]
      change _ < fl64 0
      rw [fl64_zero]
      norm_num

/-! ### A rounding: binary fixed point with `p` fractional bits, ties away from zero -/

/-- fixed-point rounding with `p` fractional bits. -/
noncomputable def fixedPoint (p : ℕ) : Rounding where
  fl x := roundZ (x * 2 ^ p) / 2 ^ p
  mono x y h := by
    have hp : (0 : ℝ) < 2 ^ p := by positivity
    have : roundZ (x * 2 ^ p) ≤ roundZ (y * 2 ^ p) := roundZ_mono (by nlinarith)
    have h' : ((roundZ (x * 2 ^ p) : ℤ) : ℝ) ≤ roundZ (y * 2 ^ p) := by exact_mod_cast this
    exact div_le_div_of_nonneg_right h' hp.le
  idem x := by
    have hp : (2 : ℝ) ^ p ≠ 0 := by positivity
    rw [div_mul_cancel₀ _ hp, roundZ_intCast]
  odd x := by rw [neg_mul, roundZ_neg]; push_cast; ring
  one := by
    have hp : (2 : ℝ) ^ p ≠ 0 := by positivity
    have : (1 : ℝ) * 2 ^ p = ((2 ^ p : ℤ) : ℝ) := by push_cast; ring
    rw [this, roundZ_intCast]; push_cast; field_simp
  fmod x h := by
    have hp : (2 : ℝ) ^ p ≠ 0 := by positivity
    have e : (x - (truncZ x : ℝ)) * 2 ^ p = ((roundZ (x * 2 ^ p) - truncZ x * 2 ^ p : ℤ) : ℝ) := by
      push_cast
      rw [sub_mul]
      congr 1
      rw [div_eq_iff hp] at h
      exact h.symm
    rw [e, roundZ_intCast, ← e]; field_simp

/-- this rounding does round. -/
example : (fixedPoint 1).fl (1 / 4) = 1 / 2 ∧ (fixedPoint 1).fl (1 / 4) ≠ 1 / 4 := by
  have : (fixedPoint 1).fl (1 / 4) = 1 / 2 := by
    show ((roundZ ((1 : ℝ) / 4 * 2 ^ 1) : ℤ) : ℝ) / 2 ^ 1 = 1 / 2
    have : roundZ ((1 : ℝ) / 4 * 2 ^ 1) = 1 := by
      unfold roundZ; rw [if_pos (by norm_num)]; norm_num
    rw [this]; norm_num
  rw [this]; norm_num

/-- an instance of C03 with a tolerance at which the second branch fires: `v = 3/2 ↦ -1/2`. -/
example : ∃ tol v : RNum (fixedPoint 1), 0 ≤ tol.val ∧ tol.val ≤ 1 ∧ v.val = 3 / 2 ∧ tol.val = 1 :=
  ⟨⟨1, (fixedPoint 1).one⟩, ⟨3 / 2, by
    show ((roundZ ((3 : ℝ) / 2 * 2 ^ 1) : ℤ) : ℝ) / 2 ^ 1 = 3 / 2
    have : (3 : ℝ) / 2 * 2 ^ 1 = ((3 : ℤ) : ℝ) := by norm_num
    rw [this, roundZ_intCast]; norm_num⟩, by simp [RNum.val], by simp [RNum.val], rfl, rfl⟩

end CrystSymm
