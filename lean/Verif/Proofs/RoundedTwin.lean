import Verif.Proofs.RoundedTrans
import Verif.Proofs.RoundedNiggli
import Verif.Proofs.NiggliRun

set_option autoImplicit false
set_option linter.unusedSectionVars false

/-! # The Niggli loop on integer multiples of a unit: rounded and exact arithmetic take the same steps -/

namespace CrystSymm

open Spec Reducer

section
variable {ρ : Rounding}

/-- the multiples of `γ` up to `B` are representable. -/
def ExactMult (ρ : Rounding) (γ : ℝ) (B : ℤ) : Prop := ∀ n : ℤ, |n| ≤ B → ρ.fl (n * γ) = n * γ

/-- multiples of `γ`, exactly. -/
def timesUnit (γ : ℝ) (N : Mat3 ℤ) : Mat3 ℝ := N.map fun (n : ℤ) => (n : ℝ) * γ

/-- the entries are these multiples of `γ`. -/
def IsMul (γ : ℝ) (M : Mat3 (RNum ρ)) (N : Mat3 ℤ) : Prop := valM M = timesUnit γ N

theorem ExactMult.mono {γ : ℝ} {B B' : ℤ} (h : ExactMult ρ γ B') (hB : B ≤ B') : ExactMult ρ γ B := fun n hn => h n (hn.trans hB)

theorem mul_dot {B1 B2 : ℤ} {γ1 γ2 : ℝ} (hx : ExactMult ρ (γ1 * γ2) (3 * B1 * B2)) {x1 x2 x3 y1 y2 y3 : RNum ρ} {n1 n2 n3 c1 c2 c3 : ℤ}
    (e1 : x1.val = n1 * γ1) (e2 : x2.val = n2 * γ1) (e3 : x3.val = n3 * γ1) (f1 : y1.val = c1 * γ2) (f2 : y2.val = c2 * γ2)
    (f3 : y3.val = c3 * γ2) (b1 : |n1| ≤ B1) (b2 : |n2| ≤ B1) (b3 : |n3| ≤ B1) (w1 : |c1| ≤ B2) (w2 : |c2| ≤ B2) (w3 : |c3| ≤ B2) :
    (x1 * y1 + x2 * y2 + x3 * y3).val = (n1 * c1 + n2 * c2 + n3 * c3 : ℤ) * (γ1 * γ2) ∧
      |n1 * c1 + n2 * c2 + n3 * c3| ≤ 3 * B1 * B2 := by
  have hB : 0 ≤ B1 := (abs_nonneg _).trans b1
  have hB2 : 0 ≤ B2 := (abs_nonneg _).trans w1
  have hBB := mul_nonneg hB hB2
  have p1 : |n1 * c1| ≤ B1 * B2 := by rw [abs_mul]; exact mul_le_mul b1 w1 (abs_nonneg _) hB
  have p2 : |n2 * c2| ≤ B1 * B2 := by rw [abs_mul]; exact mul_le_mul b2 w2 (abs_nonneg _) hB
  have p3 : |n3 * c3| ≤ B1 * B2 := by rw [abs_mul]; exact mul_le_mul b3 w3 (abs_nonneg _) hB
  have s1 := abs_add_le (n1 * c1) (n2 * c2)
  have s2 := abs_add_le (n1 * c1 + n2 * c2) (n3 * c3)
  have prod : ∀ {x y : RNum ρ} {n c : ℤ}, x.val = n * γ1 → y.val = c * γ2 → |n * c| ≤ B1 * B2 → (x * y).val = (n * c : ℤ) * (γ1 * γ2) := by
    intro x y n c hx' hy h
    rw [RNum.val_mul, hx', hy, show (n : ℝ) * γ1 * (c * γ2) = (n * c : ℤ) * (γ1 * γ2) by push_cast; ring]
    exact hx _ (by linarith)
  have g4 : (x1 * y1 + x2 * y2).val = (n1 * c1 + n2 * c2 : ℤ) * (γ1 * γ2) := by
    rw [RNum.val_add, prod e1 f1 p1, prod e2 f2 p2, ← add_mul, ← Int.cast_add]; exact hx _ (by linarith)
  refine ⟨?_, by linarith⟩
  rw [RNum.val_add, g4, prod e3 f3 p3, ← add_mul, ← Int.cast_add]; exact hx _ (by linarith)

theorem IsMul.entries {γ : ℝ} {M : Mat3 (RNum ρ)} {N : Mat3 ℤ} (h : IsMul γ M N) :
    (M.m11.val = N.m11 * γ ∧ M.m12.val = N.m12 * γ ∧ M.m13.val = N.m13 * γ) ∧
      (M.m21.val = N.m21 * γ ∧ M.m22.val = N.m22 * γ ∧ M.m23.val = N.m23 * γ) ∧
      (M.m31.val = N.m31 * γ ∧ M.m32.val = N.m32 * γ ∧ M.m33.val = N.m33 * γ) := by
  unfold IsMul at h
  exact ⟨⟨congrArg Mat3.m11 h, congrArg Mat3.m12 h, congrArg Mat3.m13 h⟩, ⟨congrArg Mat3.m21 h, congrArg Mat3.m22 h, congrArg Mat3.m23 h⟩,
    ⟨congrArg Mat3.m31 h, congrArg Mat3.m32 h, congrArg Mat3.m33 h⟩⟩

theorem IsMul.mul {B1 B2 : ℤ} {γ1 γ2 : ℝ} (hx : ExactMult ρ (γ1 * γ2) (3 * B1 * B2)) {T m : Mat3 (RNum ρ)} {N C : Mat3 ℤ}
    (h1 : IsMul γ1 T N) (h2 : IsMul γ2 m C) (hN : EntLe N B1) (hC : EntLe C B2) :
    IsMul (γ1 * γ2) (T * m) (N * C) ∧ EntLe (N * C) (3 * B1 * B2) := by
  obtain ⟨⟨a1, a2, a3⟩, ⟨a4, a5, a6⟩, ⟨a7, a8, a9⟩⟩ := hN
  obtain ⟨⟨c1, c2, c3⟩, ⟨c4, c5, c6⟩, ⟨c7, c8, c9⟩⟩ := hC
  obtain ⟨⟨t1, t2, t3⟩, ⟨t4, t5, t6⟩, ⟨t7, t8, t9⟩⟩ := h1.entries
  obtain ⟨⟨u1, u2, u3⟩, ⟨u4, u5, u6⟩, ⟨u7, u8, u9⟩⟩ := h2.entries
  have r1 := mul_dot hx t1 t2 t3 u1 u4 u7 a1 a2 a3 c1 c4 c7
  have r2 := mul_dot hx t1 t2 t3 u2 u5 u8 a1 a2 a3 c2 c5 c8
  have r3 := mul_dot hx t1 t2 t3 u3 u6 u9 a1 a2 a3 c3 c6 c9
  have r4 := mul_dot hx t4 t5 t6 u1 u4 u7 a4 a5 a6 c1 c4 c7
  have r5 := mul_dot hx t4 t5 t6 u2 u5 u8 a4 a5 a6 c2 c5 c8
  have r6 := mul_dot hx t4 t5 t6 u3 u6 u9 a4 a5 a6 c3 c6 c9
  have r7 := mul_dot hx t7 t8 t9 u1 u4 u7 a7 a8 a9 c1 c4 c7
  have r8 := mul_dot hx t7 t8 t9 u2 u5 u8 a7 a8 a9 c2 c5 c8
  have r9 := mul_dot hx t7 t8 t9 u3 u6 u9 a7 a8 a9 c3 c6 c9
  exact ⟨Mat3.ext r1.1 r2.1 r3.1 r4.1 r5.1 r6.1 r7.1 r8.1 r9.1, ⟨r1.2, r2.2, r3.2⟩, ⟨r4.2, r5.2, r6.2⟩, ⟨r7.2, r8.2, r9.2⟩⟩

theorem IsMul.transpose {γ : ℝ} {M : Mat3 (RNum ρ)} {N : Mat3 ℤ} (h : IsMul γ M N) : IsMul γ M.transpose N.transpose := by
  obtain ⟨⟨t1, t2, t3⟩, ⟨t4, t5, t6⟩, ⟨t7, t8, t9⟩⟩ := h.entries
  exact Mat3.ext t1 t4 t7 t2 t5 t8 t3 t6 t9

theorem EntLe.transpose {N : Mat3 ℤ} {B : ℤ} (h : EntLe N B) : EntLe N.transpose B := by
  obtain ⟨⟨a1, a2, a3⟩, ⟨a4, a5, a6⟩, ⟨a7, a8, a9⟩⟩ := h
  exact ⟨⟨a1, a4, a7⟩, ⟨a2, a5, a8⟩, ⟨a3, a6, a9⟩⟩

theorem timesUnit_mul (γ1 γ2 : ℝ) (N C : Mat3 ℤ) : timesUnit γ1 N * timesUnit γ2 C = timesUnit (γ1 * γ2) (N * C) := by
  unfold timesUnit
  ext <;> simp [Mat3.map] <;> ring

theorem timesUnit_transpose (γ : ℝ) (N : Mat3 ℤ) : (timesUnit γ N).transpose = timesUnit γ N.transpose := rfl

/-! ## Step matrices -/

/-- the same matrix of signs and zeros in both arithmetics. -/
def MTwin (m : Mat3 (RNum ρ)) (mE : Mat3 ℝ) : Prop := ∃ C : Mat3 ℤ, IsMul 1 m C ∧ mE = timesUnit 1 C ∧ EntLe C 1

theorem mTwin_of {m : Mat3 (RNum ρ)} {C : Mat3 ℤ} {mE : Mat3 ℝ} (h : IsInts m C) (hE : mE = C.map fun (n : ℤ) => (n : ℝ)) (hC : EntLe C 1) :
    MTwin m mE := by
  have e : timesUnit 1 C = C.map fun (n : ℤ) => (n : ℝ) := by unfold timesUnit; simp
  exact ⟨C, by unfold IsMul; rw [e]; exact h, by rw [e]; exact hE, hC⟩

theorem twin_c1 : MTwin (c1 : Mat3 (RNum ρ)) c1 := mTwin_of c1_ints (by ext <;> simp [c1, Mat3.map]) (by decide)
theorem twin_c2 : MTwin (c2 : Mat3 (RNum ρ)) c2 := mTwin_of c2_ints (by ext <;> simp [c2, Mat3.map]) (by decide)
theorem twin_c8 : MTwin (c8 : Mat3 (RNum ρ)) c8 := mTwin_of c8_ints (by ext <;> simp [c8, Mat3.map]) (by decide)

theorem twin_signum {x : RNum ρ} {y : ℝ} (h : x.val = y) :
    ∃ n : ℤ, (n = 1 ∨ n = -1) ∧ ((-1 : RNum ρ) * FRound.signum x).val = n ∧ (-1 : ℝ) * FRound.signum y = n := by
  have e : (FRound.signum x : RNum ρ) = RNum.round (FRound.signum x.val) := rfl
  rw [e, h, signum_eq]
  split
  · refine ⟨1, Or.inl rfl, ?_, by norm_num⟩
    have : (RNum.round (-1) : RNum ρ) = -1 := RNum.ext (by
      rw [RNum.val_neg, RNum.val_one]; show ρ.fl _ = _; rw [ρ.odd, ρ.one])
    rw [this, RNum.neg_mul', RNum.one_mul', RNum.neg_neg']; exact val_1
  · exact ⟨-1, Or.inr rfl, by
      have : (RNum.round 1 : RNum ρ) = 1 := rfl
      rw [this, RNum.mul_one']; exact val_m1, by norm_num⟩

theorem twin_c5 {x : RNum ρ} {y : ℝ} (h : x.val = y) : MTwin (c5 x) (c5 y) := by
  obtain ⟨n, hn, e, f⟩ := twin_signum h
  refine mTwin_of (C := ⟨1, 0, 0, 0, 1, n, 0, 0, 1⟩) (isInts_of val_1 val_0 val_0 val_0 val_1 e val_0 val_0 val_1)
    (by unfold c5; rw [f]; ext <;> simp [Mat3.map]) ?_
  rcases hn with rfl | rfl <;> decide
theorem twin_c6 {x : RNum ρ} {y : ℝ} (h : x.val = y) : MTwin (c6 x) (c6 y) := by
  obtain ⟨n, hn, e, f⟩ := twin_signum h
  refine mTwin_of (C := ⟨1, 0, n, 0, 1, 0, 0, 0, 1⟩) (isInts_of val_1 val_0 e val_0 val_1 val_0 val_0 val_0 val_1)
    (by unfold c6; rw [f]; ext <;> simp [Mat3.map]) ?_
  rcases hn with rfl | rfl <;> decide
theorem twin_c7 {x : RNum ρ} {y : ℝ} (h : x.val = y) : MTwin (c7 x) (c7 y) := by
  obtain ⟨n, hn, e, f⟩ := twin_signum h
  refine mTwin_of (C := ⟨1, n, 0, 0, 1, 0, 0, 0, 1⟩) (isInts_of val_1 e val_0 val_0 val_1 val_0 val_0 val_0 val_1)
    (by unfold c7; rw [f]; ext <;> simp [Mat3.map]) ?_
  rcases hn with rfl | rfl <;> decide

/-- the same sign. -/
def SignTwin (x : RNum ρ) (y : ℝ) : Prop := (x = 1 ∧ y = 1) ∨ (x = -1 ∧ y = -1)

theorem SignTwin.int {x : RNum ρ} {y : ℝ} (h : SignTwin x y) : ∃ n : ℤ, (n = 1 ∨ n = -1) ∧ x.val = n ∧ y = n := by
  rcases h with ⟨rfl, rfl⟩ | ⟨rfl, rfl⟩
  · exact ⟨1, Or.inl rfl, val_1, by norm_num⟩
  · exact ⟨-1, Or.inr rfl, val_m1, by norm_num⟩

theorem twin_c34 {s : RNum ρ × RNum ρ × RNum ρ} {t : ℝ × ℝ × ℝ} (h1 : SignTwin s.1 t.1) (h2 : SignTwin s.2.1 t.2.1)
    (h3 : SignTwin s.2.2 t.2.2) : MTwin (c34 s) (c34 t) := by
  obtain ⟨n1, k1, e1, f1⟩ := h1.int
  obtain ⟨n2, k2, e2, f2⟩ := h2.int
  obtain ⟨n3, k3, e3, f3⟩ := h3.int
  refine mTwin_of (C := ⟨n1, 0, 0, 0, n2, 0, 0, 0, n3⟩) (isInts_of e1 val_0 val_0 val_0 e2 val_0 val_0 val_0 e3)
    (by unfold c34; rw [f1, f2, f3]; ext <;> simp [Mat3.map]) ?_
  rcases k1 with rfl | rfl <;> rcases k2 with rfl | rfl <;> rcases k3 with rfl | rfl <;> decide

/-! ## Comparisons -/

/-- the same multiple of `γ`, at most `B`. -/
def NumTwin (γ : ℝ) (B : ℤ) (x : RNum ρ) (y : ℝ) : Prop := ∃ n : ℤ, x.val = n * γ ∧ y = n * γ ∧ |n| ≤ B

/-- what the comparisons need: a positive tolerance of at most a quarter of the unit in both arithmetics, and representable quarters. -/
structure TwinEps (γ : ℝ) (B : ℤ) (ε : RNum ρ) (ε' : ℝ) : Prop where
  γ0 : 0 < γ
  B1 : 1 ≤ B
  e0 : 0 < ε.val
  e1 : ε.val ≤ γ / 4
  f0 : 0 < ε'
  f1 : ε' ≤ γ / 4
  ex : ExactMult ρ (γ / 4) (8 * B)

variable {γ : ℝ} {B : ℤ} {ε : RNum ρ} {ε' : ℝ}

theorem TwinEps.fl (h : TwinEps γ B ε ε') {n : ℤ} (hn : |n| ≤ 2 * B) : ρ.fl (n * γ) = n * γ := by
  have := h.ex (4 * n) (by rw [abs_mul]; norm_num; linarith)
  rwa [show ((4 * n : ℤ) : ℝ) * (γ / 4) = n * γ by push_cast; ring] at this

theorem lt_unit (h : TwinEps γ B ε ε') {n m : ℤ} : (m : ℝ) * γ < n * γ ↔ m < n := by
  rw [mul_lt_mul_iff_left₀ h.γ0]; exact_mod_cast Iff.rfl

theorem gt_rnum (h : TwinEps γ B ε ε') {x y : RNum ρ} {n m : ℤ} (hx : x.val = n * γ) (hy : y.val = m * γ) (hm : |m| ≤ B) :
    y < x - ε ↔ m < n := by
  show y.val < (x - ε).val ↔ _
  constructor
  · intro h1
    have h2 := lt_of_lt_of_le h1 (RNum.sub_le_self (x := x) h.e0.le)
    rw [hx, hy, lt_unit h] at h2
    exact h2
  · intro h1
    have hB := h.B1
    have h3 : ρ.fl ((4 * m + 3 : ℤ) * (γ / 4)) = (4 * m + 3 : ℤ) * (γ / 4) := h.ex _ (by
      rw [abs_le] at hm ⊢; constructor <;> linarith [hm.1, hm.2])
    have h4 : ((m : ℝ) + 1) ≤ n := by exact_mod_cast h1
    have h5 : ((4 * m + 3 : ℤ) : ℝ) * (γ / 4) ≤ x.val - ε.val := by
      have := mul_le_mul_of_nonneg_right h4 h.γ0.le
      have := h.e1
      rw [hx]; push_cast; linarith
    have h6 := ρ.mono _ _ h5
    rw [h3] at h6
    rw [RNum.val_sub, hy]
    have := h.γ0
    push_cast at h6
    linarith

theorem gt_real (h : TwinEps γ B ε ε') {n m : ℤ} : (m : ℝ) * γ < n * γ - ε' ↔ m < n := by
  constructor
  · intro h1
    rw [← lt_unit h]; linarith [h.f0]
  · intro h1
    have h4 : ((m : ℝ) + 1) ≤ n := by exact_mod_cast h1
    have := mul_le_mul_of_nonneg_right h4 h.γ0.le
    linarith [h.f1, h.γ0]

theorem neg_rnum (h : TwinEps γ B ε ε') {x : RNum ρ} {n : ℤ} (hx : x.val = n * γ) : x < -ε ↔ n < 0 := by
  show x.val < (-ε).val ↔ _
  rw [RNum.val_neg, hx]
  constructor
  · intro h1
    have : (n : ℝ) * γ < (0 : ℤ) * γ := by push_cast; linarith [h.e0]
    exact (lt_unit h).1 this
  · intro h1
    have h4 : (n : ℝ) ≤ -1 := by exact_mod_cast Int.le_sub_one_of_lt h1
    have := mul_le_mul_of_nonneg_right h4 h.γ0.le
    linarith [h.e1, h.γ0]

theorem neg_real (h : TwinEps γ B ε ε') {n : ℤ} : (n : ℝ) * γ < -ε' ↔ n < 0 := by
  constructor
  · intro h1
    have : (n : ℝ) * γ < (0 : ℤ) * γ := by push_cast; linarith [h.f0]
    exact (lt_unit h).1 this
  · intro h1
    have h4 : (n : ℝ) ≤ -1 := by exact_mod_cast Int.le_sub_one_of_lt h1
    have := mul_le_mul_of_nonneg_right h4 h.γ0.le
    linarith [h.f1, h.γ0]

theorem small_rnum (h : TwinEps γ B ε ε') {x : RNum ρ} {n : ℤ} (hx : x.val = n * γ) : x < ε ↔ n ≤ 0 := by
  show x.val < ε.val ↔ _
  rw [hx]
  constructor
  · intro h1
    have : (n : ℝ) * γ < (1 : ℤ) * γ := by push_cast; linarith [h.e1, h.γ0]
    have := (lt_unit h).1 this
    omega
  · intro h1
    have h4 : (n : ℝ) ≤ 0 := by exact_mod_cast h1
    have := mul_le_mul_of_nonneg_right h4 h.γ0.le
    linarith [h.e0]

theorem small_real (h : TwinEps γ B ε ε') {n : ℤ} : (n : ℝ) * γ < ε' ↔ n ≤ 0 := by
  constructor
  · intro h1
    have : (n : ℝ) * γ < (1 : ℤ) * γ := by push_cast; linarith [h.f1, h.γ0]
    have := (lt_unit h).1 this
    omega
  · intro h1
    have h4 : (n : ℝ) ≤ 0 := by exact_mod_cast h1
    have := mul_le_mul_of_nonneg_right h4 h.γ0.le
    linarith [h.f0]

theorem subGt_twin (h : TwinEps γ B ε ε') {x x' : RNum ρ} {y y' : ℝ} (h1 : NumTwin γ B x y) (h2 : NumTwin γ B x' y') :
    subGt (some ε) x x' = subGt (some ε') y y' := by
  obtain ⟨n, e1, f1, -⟩ := h1
  obtain ⟨m, e2, f2, b2⟩ := h2
  subst f1 f2
  show decide (x' < x - ε) = decide _
  rw [decide_eq_decide, gt_rnum h e1 e2 b2, gt_real h]

theorem ltNeg_twin (h : TwinEps γ B ε ε') {x : RNum ρ} {y : ℝ} (h1 : NumTwin γ B x y) : ltNeg (some ε) x = ltNeg (some ε') y := by
  obtain ⟨n, e1, f1, -⟩ := h1
  subst f1
  show decide (x < -ε) = decide _
  rw [decide_eq_decide, neg_rnum h e1, neg_real h]

theorem eqE_twin (h : TwinEps γ B ε ε') {x x' : RNum ρ} {y y' : ℝ} (h1 : NumTwin γ B x y) (h2 : NumTwin γ B x' y') :
    eqE (some ε) x x' = eqE (some ε') y y' := by
  have g1 := subGt_twin h h1 h2
  have g2 := subGt_twin h h2 h1
  show (!(subGt (some ε) x' x || subGt (some ε) x x')) = (!(subGt (some ε') y' y || subGt (some ε') y y'))
  rw [g1, g2]

/-- the sign of a number in both arithmetics. -/
theorem three_twin (h : TwinEps γ B ε ε') {x : RNum ρ} {y : ℝ} (h1 : NumTwin γ B x y) :
    ((x < -ε ∧ x < ε ∧ ¬ 0 < x - ε) ∧ (y < -ε' ∧ y < ε' ∧ ¬ 0 < y - ε')) ∨
      ((¬ x < -ε ∧ x < ε ∧ ¬ 0 < x - ε) ∧ (¬ y < -ε' ∧ y < ε' ∧ ¬ 0 < y - ε')) ∨
      ((¬ x < -ε ∧ ¬ x < ε ∧ 0 < x - ε) ∧ (¬ y < -ε' ∧ ¬ y < ε' ∧ 0 < y - ε')) := by
  obtain ⟨n, e1, f1, -⟩ := h1
  subst f1
  have z : (0 : RNum ρ).val = (0 : ℤ) * γ := by rw [RNum.val_zero]; simp
  have zr : (0 : ℝ) < n * γ - ε' ↔ 0 < n := by
    have := gt_real h (n := n) (m := 0)
    simpa using this
  have zz : (0 : RNum ρ) < x - ε ↔ 0 < n := gt_rnum h e1 z (by simp; linarith [h.B1])
  rw [neg_rnum h e1, small_rnum h e1, zz, neg_real h, small_real h, zr]
  omega

set_option maxHeartbeats 4000000 in
set_option linter.unusedSimpArgs false in
theorem signs_twin (h : TwinEps γ B ε ε') (h1 : ε.val < 1) (h2 : ε' < 1) {x y z : RNum ρ} {x' y' z' : ℝ} (hx : NumTwin γ B x x') (hy : NumTwin γ B y y')
    (hz : NumTwin γ B z z') : SignTwin (signs (some ε) x y z).1 (signs (some ε') x' y' z').1 ∧
      SignTwin (signs (some ε) x y z).2.1 (signs (some ε') x' y' z').2.1 ∧
      SignTwin (signs (some ε) x y z).2.2 (signs (some ε') x' y' z').2.2 := by
  have hA : ¬ (1 : RNum ρ) < -ε := by
    show ¬ (1 : RNum ρ).val < (-ε).val
    rw [RNum.val_one, RNum.val_neg]; linarith [h.e0]
  have hB : (-1 : RNum ρ) < -ε := by
    show (-1 : RNum ρ).val < (-ε).val
    rw [RNum.val_neg, RNum.val_neg, RNum.val_one]; linarith
  have hA' : ¬ (1 : ℝ) < -ε' := by linarith [h.f0]
  have hB' : (-1 : ℝ) < -ε' := by linarith
  have hm : (-1 : RNum ρ) * ε = -ε := by rw [RNum.neg_mul', RNum.one_mul']
  generalize hs : signs (some ε) x y z = s
  generalize ht : signs (some ε') x' y' z' = t
  rcases three_twin h hx with ⟨⟨hx1, hx2, hx3⟩, gx1, gx2, gx3⟩ | ⟨⟨hx1, hx2, hx3⟩, gx1, gx2, gx3⟩ | ⟨⟨hx1, hx2, hx3⟩, gx1, gx2, gx3⟩ <;>
  rcases three_twin h hy with ⟨⟨hy1, hy2, hy3⟩, gy1, gy2, gy3⟩ | ⟨⟨hy1, hy2, hy3⟩, gy1, gy2, gy3⟩ | ⟨⟨hy1, hy2, hy3⟩, gy1, gy2, gy3⟩ <;>
  rcases three_twin h hz with ⟨⟨hz1, hz2, hz3⟩, gz1, gz2, gz3⟩ | ⟨⟨hz1, hz2, hz3⟩, gz1, gz2, gz3⟩ | ⟨⟨hz1, hz2, hz3⟩, gz1, gz2, gz3⟩ <;>
  · simp only [signs, isTypeI, nnzE, numNegativeZero, numNegativeZeroStep, List.foldl, hm, ltNeg, subGt,
      decide_eq_true_eq, if_true, if_false, RNum.mul_one', RNum.one_mul', RNum.neg_mul', RNum.neg_neg', decide_true, decide_false,
      Bool.not_true, Bool.not_false, Bool.false_eq_true, hx1, hx2, hx3, hy1, hy2, hy3, hz1, hz2, hz3, hA, hB] at hs
    simp only [signs, isTypeI, nnzE, numNegativeZero, numNegativeZeroStep, List.foldl, neg_one_mul, ltNeg, subGt,
      decide_eq_true_eq, if_true, if_false, mul_one, one_mul, neg_mul, neg_neg, decide_true, decide_false,
      Bool.not_true, Bool.not_false, Bool.false_eq_true, gx1, gx2, gx3, gy1, gy2, gy3, gz1, gz2, gz3, hA', hB'] at ht
    simp [hA, hB] at hs
    simp [hA', hB'] at ht
    subst hs ht
    simp [SignTwin]

end

end CrystSymm
