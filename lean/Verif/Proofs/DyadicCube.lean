import Verif.Proofs.CubicCell
import Verif.Proofs.RoundedTwin
import Verif.Proofs.RoundedNiggli

set_option autoImplicit false
set_option linter.unusedSectionVars false

/-! # The selection of three translations in rounded arithmetic, on multiples of a power of two -/

namespace CrystSymm

open Spec Reducer

section
variable {ρ : Rounding}

/-- the multiple `n / 1024`. -/
noncomputable def dy (n : ℤ) : RNum ρ := RNum.round ((n : ℝ) / 1024)

/-- the vector `m / 1024 * w`. -/
noncomputable def dyv (m : ℤ) (w : Vec3 ℤ) : Vec3 (RNum ρ) := ⟨dy (m * w.x), dy (m * w.y), dy (m * w.z)⟩

/-- multiples of 1/1024 are exact, square roots are accurate, and the edge `2 γ` is a power of two. -/
structure DyadicCube (ρ : Rounding) (γ κ : ℤ) : Prop where
  exact : ExactMult ρ (1 / 1024) (2 ^ 50)
  acc : Accurate ρ (1 / 100)
  pos : 1 ≤ γ
  le : γ ≤ 32
  inv : γ * κ = 512

/-- all components at most 6. -/
def Fits (w : Vec3 ℤ) : Prop := |w.x| ≤ 6 ∧ |w.y| ≤ 6 ∧ |w.z| ≤ 6

instance (w : Vec3 ℤ) : Decidable (Fits w) := by unfold Fits; infer_instance

variable {γ κ : ℤ}

theorem val_dy (h : ExactMult ρ (1 / 1024) (2 ^ 50)) {n : ℤ} (hn : |n| ≤ 2 ^ 50) : (dy n : RNum ρ).val = (n : ℝ) / 1024 := by
  show ρ.fl ((n : ℝ) / 1024) = _
  have := h n hn
  rwa [mul_one_div] at this

theorem dy_zero : (dy 0 : RNum ρ) = 0 := by
  apply RNum.ext
  show ρ.fl (((0 : ℤ) : ℝ) / 1024) = _
  rw [Int.cast_zero, zero_div, fl_zero, RNum.val_zero]

theorem dy_one : (dy 1024 : RNum ρ) = 1 := by
  apply RNum.ext
  show ρ.fl (((1024 : ℤ) : ℝ) / 1024) = _
  rw [show ((1024 : ℤ) : ℝ) / 1024 = 1 by norm_num, ρ.one, RNum.val_one]

theorem dy_neg (n : ℤ) : (dy (-n) : RNum ρ) = -dy n := by
  apply RNum.ext
  rw [RNum.val_neg]
  show ρ.fl (((-n : ℤ) : ℝ) / 1024) = -ρ.fl ((n : ℝ) / 1024)
  rw [← ρ.odd]
  push_cast
  ring_nf

theorem dy_add (h : ExactMult ρ (1 / 1024) (2 ^ 50)) {i j : ℤ} (hi : |i| ≤ 2 ^ 50) (hj : |j| ≤ 2 ^ 50) :
    (dy i : RNum ρ) + dy j = dy (i + j) := by
  apply RNum.ext
  rw [RNum.val_add, val_dy h hi, val_dy h hj]
  show _ = ρ.fl (((i + j : ℤ) : ℝ) / 1024)
  push_cast
  ring_nf

theorem dy_sub (h : ExactMult ρ (1 / 1024) (2 ^ 50)) {i j : ℤ} (hi : |i| ≤ 2 ^ 50) (hj : |j| ≤ 2 ^ 50) :
    (dy i : RNum ρ) - dy j = dy (i - j) := by
  apply RNum.ext
  rw [RNum.val_sub, val_dy h hi, val_dy h hj]
  show _ = ρ.fl (((i - j : ℤ) : ℝ) / 1024)
  push_cast
  ring_nf

theorem dy_mul (h : ExactMult ρ (1 / 1024) (2 ^ 50)) {i j k : ℤ} (hk : i * j = 1024 * k) (hi : |i| ≤ 2 ^ 50) (hj : |j| ≤ 2 ^ 50) :
    (dy i : RNum ρ) * dy j = dy k := by
  apply RNum.ext
  rw [RNum.val_mul, val_dy h hi, val_dy h hj]
  show _ = ρ.fl ((k : ℝ) / 1024)
  have : (i : ℝ) * j = 1024 * k := by exact_mod_cast hk
  congr 1
  rw [div_mul_div_comm, this]
  field_simp

/-! ## Bounds -/

theorem abs_mul_le' {a b A B : ℤ} (ha : |a| ≤ A) (hb : |b| ≤ B) : |a * b| ≤ A * B := by
  rw [abs_mul]
  exact mul_le_mul ha hb (abs_nonneg _) (le_trans (abs_nonneg _) ha)

theorem DyadicCube.small (h : DyadicCube ρ γ κ) : |1024 * γ| ≤ 2 ^ 15 ∧ |1024 * γ ^ 2| ≤ 2 ^ 20 ∧ |1024 * γ ^ 3| ≤ 2 ^ 25 ∧ |1024 * γ ^ 4| ≤ 2 ^ 30 := by
  have h1 := h.pos
  have h2 := h.le
  have p2 : γ ^ 2 ≤ 32 ^ 2 := pow_le_pow_left₀ (by omega) h2 2
  have p3 : γ ^ 3 ≤ 32 ^ 3 := pow_le_pow_left₀ (by omega) h2 3
  have p4 : γ ^ 4 ≤ 32 ^ 4 := pow_le_pow_left₀ (by omega) h2 4
  have q2 : 0 ≤ γ ^ 2 := by positivity
  have q3 : 0 ≤ γ ^ 3 := pow_nonneg (by omega) 3
  have q4 : 0 ≤ γ ^ 4 := by positivity
  norm_num at p2 p3 p4
  refine ⟨?_, ?_, ?_, ?_⟩ <;> rw [abs_of_nonneg (by omega)] <;> omega

theorem cross_bound {u v : Vec3 ℤ} (hu : Fits u) (hv : Fits v) : |(u.cross v).x| ≤ 72 ∧ |(u.cross v).y| ≤ 72 ∧ |(u.cross v).z| ≤ 72 := by
  obtain ⟨a1, a2, a3⟩ := hu
  obtain ⟨b1, b2, b3⟩ := hv
  have key : ∀ {a b c d : ℤ}, |a| ≤ 6 → |b| ≤ 6 → |c| ≤ 6 → |d| ≤ 6 → |a * b - c * d| ≤ 72 := by
    intro a b c d ha hb hc hd
    have h1 := abs_mul_le' ha hb
    have h2 := abs_mul_le' hc hd
    have := abs_sub (a * b) (c * d)
    omega
  exact ⟨key a2 b3 a3 b2, key a3 b1 a1 b3, key a1 b2 a2 b1⟩

variable (h : DyadicCube ρ γ κ)
include h

theorem dyv_cross {u v : Vec3 ℤ} (hu : Fits u) (hv : Fits v) :
    (dyv (1024 * γ) u : Vec3 (RNum ρ)).cross (dyv (1024 * γ) v) = dyv (1024 * γ ^ 2) (u.cross v) := by
  obtain ⟨s1, s2, -, -⟩ := h.small
  have key : ∀ {a b c d : ℤ}, |a| ≤ 6 → |b| ≤ 6 → |c| ≤ 6 → |d| ≤ 6 →
      (dy (1024 * γ * a) : RNum ρ) * dy (1024 * γ * b) - dy (1024 * γ * c) * dy (1024 * γ * d) = dy (1024 * γ ^ 2 * (a * b - c * d)) := by
    intro a b c d ha hb hc hd
    have ea := abs_mul_le' s1 ha
    have eb := abs_mul_le' s1 hb
    have ec := abs_mul_le' s1 hc
    have ed := abs_mul_le' s1 hd
    have m1 := abs_mul_le' s2 (abs_mul_le' ha hb)
    have m2 := abs_mul_le' s2 (abs_mul_le' hc hd)
    rw [dy_mul h.exact (k := 1024 * γ ^ 2 * (a * b)) (by ring) (by omega) (by omega),
      dy_mul h.exact (k := 1024 * γ ^ 2 * (c * d)) (by ring) (by omega) (by omega), dy_sub h.exact (by omega) (by omega)]
    congr 1
    ring
  obtain ⟨a1, a2, a3⟩ := hu
  obtain ⟨b1, b2, b3⟩ := hv
  simp only [Vec3.cross, dyv]
  rw [key a2 b3 a3 b2, key a3 b1 a1 b3, key a1 b2 a2 b1]

/-- the square of the length. -/
theorem dyv_normSq {m M : ℤ} (hM : m * m = 1024 * M) (hm : |m| ≤ 2 ^ 20) (hM' : |M| ≤ 2 ^ 30) {w : Vec3 ℤ}
    (hw : |w.x| ≤ 72 ∧ |w.y| ≤ 72 ∧ |w.z| ≤ 72) : ((dyv m w : Vec3 (RNum ρ)).normSq).val = M * normZ w / 1024 := by
  obtain ⟨a1, a2, a3⟩ := hw
  have ea := abs_mul_le' hm a1
  have eb := abs_mul_le' hm a2
  have ec := abs_mul_le' hm a3
  have m1 := abs_mul_le' hM' (abs_mul_le' a1 a1)
  have m2 := abs_mul_le' hM' (abs_mul_le' a2 a2)
  have m3 := abs_mul_le' hM' (abs_mul_le' a3 a3)
  have m4 := abs_add_le (M * (w.x * w.x)) (M * (w.y * w.y))
  have m5 := abs_add_le (M * (w.x * w.x) + M * (w.y * w.y)) (M * (w.z * w.z))
  simp only [Vec3.normSq, Vec3.dot, dyv]
  rw [dy_mul h.exact (k := M * (w.x * w.x)) (by linear_combination (w.x * w.x) * hM) (by omega) (by omega),
    dy_mul h.exact (k := M * (w.y * w.y)) (by linear_combination (w.y * w.y) * hM) (by omega) (by omega),
    dy_mul h.exact (k := M * (w.z * w.z)) (by linear_combination (w.z * w.z) * hM) (by omega) (by omega),
    dy_add h.exact (by omega) (by omega), dy_add h.exact (by omega) (by omega), val_dy h.exact (by omega), normZ_cast]
  push_cast
  ring

theorem dyv_dot {w v : Vec3 ℤ} (hw : |w.x| ≤ 72 ∧ |w.y| ≤ 72 ∧ |w.z| ≤ 72) (hv : Fits v) :
    ((dyv (1024 * γ ^ 2) w : Vec3 (RNum ρ)).dot (dyv (1024 * γ) v)).val = (γ : ℝ) ^ 3 * (w.dot v : ℤ) := by
  obtain ⟨s1, s2, s3, -⟩ := h.small
  obtain ⟨a1, a2, a3⟩ := hw
  obtain ⟨b1, b2, b3⟩ := hv
  have ea := abs_mul_le' s2 a1
  have eb := abs_mul_le' s2 a2
  have ec := abs_mul_le' s2 a3
  have fa := abs_mul_le' s1 b1
  have fb := abs_mul_le' s1 b2
  have fc := abs_mul_le' s1 b3
  have m1 := abs_mul_le' s3 (abs_mul_le' a1 b1)
  have m2 := abs_mul_le' s3 (abs_mul_le' a2 b2)
  have m3 := abs_mul_le' s3 (abs_mul_le' a3 b3)
  have m4 := abs_add_le (1024 * γ ^ 3 * (w.x * v.x)) (1024 * γ ^ 3 * (w.y * v.y))
  have m5 := abs_add_le (1024 * γ ^ 3 * (w.x * v.x) + 1024 * γ ^ 3 * (w.y * v.y)) (1024 * γ ^ 3 * (w.z * v.z))
  simp only [Vec3.dot, dyv]
  rw [dy_mul h.exact (k := 1024 * γ ^ 3 * (w.x * v.x)) (by ring) (by omega) (by omega),
    dy_mul h.exact (k := 1024 * γ ^ 3 * (w.y * v.y)) (by ring) (by omega) (by omega),
    dy_mul h.exact (k := 1024 * γ ^ 3 * (w.z * v.z)) (by ring) (by omega) (by omega),
    dy_add h.exact (by omega) (by omega), dy_add h.exact (by omega) (by omega), val_dy h.exact (by omega)]
  push_cast
  ring

/-- the length: the rounded square root. -/
theorem dyv_mag {g : ℤ} (hg : 0 ≤ g) (hm : |1024 * g| ≤ 2 ^ 20) (hM' : |1024 * g ^ 2| ≤ 2 ^ 30) {w : Vec3 ℤ}
    (hw : |w.x| ≤ 72 ∧ |w.y| ≤ 72 ∧ |w.z| ≤ 72) : ((dyv (1024 * g) w : Vec3 (RNum ρ)).mag).val = ρ.fl (g * √(normZ w)) := by
  show ρ.fl (Real.sqrt ((dyv (1024 * g) w : Vec3 (RNum ρ)).normSq).val) = _
  rw [dyv_normSq h (M := 1024 * g ^ 2) (by ring) hm hM' hw]
  congr 1
  have hg' : (0 : ℝ) ≤ g := by exact_mod_cast hg
  rw [show ((1024 * g ^ 2 : ℤ) : ℝ) * (normZ w : ℝ) / 1024 = (g : ℝ) ^ 2 * normZ w by push_cast; ring,
    Real.sqrt_mul (sq_nonneg _), Real.sqrt_sq hg']

theorem fits_norm {w : Vec3 ℤ} (hw : Fits w) : normZ w ≤ 108 := by
  obtain ⟨a1, a2, a3⟩ := hw
  have m1 := abs_mul_le' a1 a1
  have m2 := abs_mul_le' a2 a2
  have m3 := abs_mul_le' a3 a3
  unfold normZ
  rw [abs_le] at m1 m2 m3
  omega

/-- lengths are compared without error. -/
theorem dyv_mag_le {u v : Vec3 ℤ} (hu : Fits u) (hv : Fits v) :
    (dyv (1024 * γ) u : Vec3 (RNum ρ)).mag ≤ (dyv (1024 * γ) v : Vec3 (RNum ρ)).mag ↔ normZ u ≤ normZ v := by
  obtain ⟨s1, s2, -, -⟩ := h.small
  have h1 := h.pos
  have g1 : (1 : ℝ) ≤ γ := by exact_mod_cast h1
  have g2 : (γ : ℝ) ≤ 32 := by exact_mod_cast h.le
  have w72 : ∀ {w : Vec3 ℤ}, Fits w → |w.x| ≤ 72 ∧ |w.y| ≤ 72 ∧ |w.z| ≤ 72 := fun hw => by
    obtain ⟨a, b, c⟩ := hw; omega
  rw [RNum.le_iff, dyv_mag h (by omega) (by omega) (by omega) (w72 hu), dyv_mag h (by omega) (by omega) (by omega) (w72 hv)]
  constructor
  · intro hle
    by_contra hlt
    rw [not_le] at hlt
    have b1 : √(normZ u : ℝ) ≤ 11 := by
      rw [Real.sqrt_le_left (by norm_num)]
      have : (normZ u : ℝ) ≤ 108 := by exact_mod_cast fits_norm h hu
      linarith
    have b2 : √(normZ v : ℝ) ≤ 11 := by
      rw [Real.sqrt_le_left (by norm_num)]
      have : (normZ v : ℝ) ≤ 108 := by exact_mod_cast fits_norm h hv
      linarith
    have n1 := Real.sqrt_nonneg (normZ u : ℝ)
    have n2 := Real.sqrt_nonneg (normZ v : ℝ)
    have e1 := Real.mul_self_sqrt (Nat.cast_nonneg (α := ℝ) (normZ u))
    have e2 := Real.mul_self_sqrt (Nat.cast_nonneg (α := ℝ) (normZ v))
    have hz : (normZ v : ℝ) + 1 ≤ normZ u := by exact_mod_cast hlt
    have diff : (1 : ℝ) / 22 ≤ √(normZ u : ℝ) - √(normZ v : ℝ) := by
      have : 1 ≤ (√(normZ u : ℝ) - √(normZ v : ℝ)) * (√(normZ u : ℝ) + √(normZ v : ℝ)) := by nlinarith
      have hpos : 0 < √(normZ u : ℝ) - √(normZ v : ℝ) := by
        by_contra hn
        nlinarith
      nlinarith
    have r1 := h.acc (γ * √(normZ u)) (by rw [abs_of_nonneg (by positivity)]; nlinarith)
    have r2 := h.acc (γ * √(normZ v)) (by rw [abs_of_nonneg (by positivity)]; nlinarith)
    rw [abs_le] at r1 r2
    have : (1 : ℝ) / 22 ≤ γ * √(normZ u : ℝ) - γ * √(normZ v : ℝ) := by nlinarith
    linarith [r1.1, r2.2]
  · intro hle
    apply ρ.mono
    apply mul_le_mul_of_nonneg_left _ (by linarith)
    exact Real.sqrt_le_sqrt (by exact_mod_cast hle)

theorem sortByMag_dy {N : ℕ} {l : List (Vec3 ℤ)} (hf : ∀ v ∈ l, Fits v) (hN : ∀ v ∈ l, normZ v < N) :
    sortByMag (l.map (dyv (ρ := ρ) (1024 * γ))) = (bucketSort normZ N l).map (dyv (1024 * γ)) := by
  unfold sortByMag
  rw [← mergeSort_eq_buckets normZ hN, List.map_mergeSort]
  intro a ha b hb
  rw [decide_eq_decide]
  exact (dyv_mag_le h (hf a ha) (hf b hb)).symm

theorem fl_int {n : ℤ} (hn : |n| ≤ 2 ^ 40) : ρ.fl n = n := by
  have := h.exact (1024 * n) (by rw [abs_mul, show |(1024 : ℤ)| = 1024 from rfl]; omega)
  push_cast at this
  rwa [show (1024 : ℝ) * n * (1 / 1024) = n by ring] at this

theorem secondScan_dy {d : RNum ρ} (hd : 0 ≤ d.val) (hd1 : d.val < 1) {first : Vec3 ℤ} (hf : Fits first) (l : List (Vec3 ℤ))
    (hl : ∀ v ∈ l, Fits v) (n : ℕ) {w : Vec3 ℤ} (hw : |w.x| ≤ 72 ∧ |w.y| ≤ 72 ∧ |w.z| ≤ 72) :
    secondScan d (dyv (1024 * γ) first) (l.map (dyv (1024 * γ))) n (dyv (1024 * γ ^ 2) w) =
      ((secondZ first l n w).1, dyv (1024 * γ ^ 2) (secondZ first l n w).2) ∧
    |(secondZ first l n w).2.x| ≤ 72 ∧ |(secondZ first l n w).2.y| ≤ 72 ∧ |(secondZ first l n w).2.z| ≤ 72 := by
  obtain ⟨s1, s2, s3, s4⟩ := h.small
  induction l generalizing n w with
  | nil => exact ⟨rfl, hw⟩
  | cons v vs ih =>
    have hv := hl v (by simp)
    have cb := cross_bound hf hv
    have hm := dyv_mag h (g := γ ^ 2) (by positivity) s2 (by rw [← pow_mul]; exact s4) cb
    simp only [List.map_cons, secondScan, secondZ, dyv_cross h hf hv]
    by_cases h0 : first.cross v = 0
    · rw [if_neg, if_pos h0]
      · exact ih (fun v hv => hl v (by simp [hv])) (n + 1) cb
      · rw [RNum.lt_iff, RNum.val_abs, hm, h0, show normZ 0 = 0 from rfl, Nat.cast_zero, Real.sqrt_zero, mul_zero, fl_zero, abs_zero]
        exact not_lt.2 hd
    · rw [if_pos, if_neg h0]
      · exact ⟨rfl, cb⟩
      · rw [RNum.lt_iff, RNum.val_abs, hm]
        refine lt_of_lt_of_le hd1 (le_trans ?_ (le_abs_self _))
        rw [← ρ.one]
        apply ρ.mono
        have g1 : (1 : ℝ) ≤ γ := by exact_mod_cast h.pos
        have : (1 : ℝ) ≤ √(normZ (first.cross v)) := by
          rw [Real.one_le_sqrt]
          exact_mod_cast one_le_normZ h0
        push_cast
        nlinarith [one_le_pow₀ (n := 2) g1]

theorem thirdScan_dy {d : RNum ρ} (hd : 0 ≤ d.val) (hd1 : d.val < 1) {w : Vec3 ℤ} (hw : |w.x| ≤ 72 ∧ |w.y| ≤ 72 ∧ |w.z| ≤ 72) (k : ℕ)
    (l : List (Vec3 ℤ)) (hl : ∀ v ∈ l, Fits v) (n : ℕ) :
    thirdScan d (dyv (1024 * γ ^ 2) w) k (l.map (dyv (1024 * γ))) n = thirdZ w k l n := by
  induction l generalizing n with
  | nil => rfl
  | cons v vs ih =>
    have g1 : (1 : ℝ) ≤ γ := by exact_mod_cast h.pos
    have g3 : (1 : ℝ) ≤ (γ : ℝ) ^ 3 := one_le_pow₀ g1
    simp only [List.map_cons, thirdScan, thirdZ]
    by_cases h0 : 0 < w.dot v
    · have h1 : (1 : ℝ) ≤ (w.dot v : ℤ) := by exact_mod_cast h0
      rw [if_pos (by rw [RNum.lt_iff, dyv_dot h hw (hl v (by simp))]; nlinarith), if_pos h0]
    · have h1 : ((w.dot v : ℤ) : ℝ) ≤ 0 := by exact_mod_cast not_lt.1 h0
      rw [if_neg (by rw [RNum.lt_iff, dyv_dot h hw (hl v (by simp))]; nlinarith), if_neg h0, ih fun v hv => hl v (by simp [hv])]

theorem bucketSort_mem {N : ℕ} {l : List (Vec3 ℤ)} {v : Vec3 ℤ} (hv : v ∈ bucketSort normZ N l) : v ∈ l := by
  unfold bucketSort at hv
  obtain ⟨k, -, hk⟩ := List.mem_flatMap.1 hv
  exact List.mem_of_mem_filter hk

/-- the selection in rounded arithmetic agrees with the selection in integer arithmetic. -/
theorem getShortest_dy {d : RNum ρ} (hd : 0 ≤ d.val) (hd1 : d.val < 1) {N : ℕ} {l : List (Vec3 ℤ)} (hfit : ∀ v ∈ l, Fits v)
    (hN : ∀ v ∈ l, normZ v < N) {x y z : Vec3 ℤ} (hx : shortestZ N l = some (x, y, z)) :
    getShortestTranslationVecs d (l.map (dyv (1024 * γ))) = .ret (dyv (1024 * γ) x, dyv (1024 * γ) y, dyv (1024 * γ) z) := by
  unfold shortestZ at hx
  unfold getShortestTranslationVecs
  simp only at hx ⊢
  rw [sortByMag_dy h hfit hN]
  have hfm : ∀ v ∈ bucketSort normZ N l, Fits v := fun v hv => hfit v (bucketSort_mem h hv)
  set m := bucketSort normZ N l with hm
  obtain ⟨first, hf, hx⟩ := Option.bind_eq_some_iff.1 hx
  rw [List.getElem?_map, hf]
  simp only [Option.map_some, Outcome.ofOption, Outcome.bind]
  have hz : (0 : Vec3 (RNum ρ)) = dyv (1024 * γ ^ 2) 0 := by
    have e : ∀ n : ℤ, (dy (n * 0) : RNum ρ) = 0 := fun n => by rw [mul_zero, dy_zero]
    exact (Vec3.ext (e _) (e _) (e _)).symm
  obtain ⟨hsec, hb⟩ := secondScan_dy h hd hd1 (hfm first (List.mem_of_getElem? hf)) (m.drop 1)
    (fun v hv => hfm v (List.mem_of_mem_drop hv)) 0 (w := 0) (by decide)
  rw [← List.map_drop, hz, hsec]
  split_ifs at hx with hlen
  rw [List.length_map, if_neg hlen]
  simp only
  rw [← List.map_drop, thirdScan_dy h hd hd1 hb _ _ (fun v hv => hfm v (List.mem_of_mem_drop hv))]
  obtain ⟨second, hs, hx⟩ := Option.bind_eq_some_iff.1 hx
  obtain ⟨third, ht, hx⟩ := Option.bind_eq_some_iff.1 hx
  rw [List.getElem?_map, hs, List.getElem?_map, ht]
  simp only [Option.map_some]
  cases hx
  rfl

end

end CrystSymm
