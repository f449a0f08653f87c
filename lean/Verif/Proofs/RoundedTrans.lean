import Verif.Proofs.RoundedBox

set_option autoImplicit false
set_option linter.unusedSectionVars false

/-! # The change of basis made by the Niggli reduction in rounded arithmetic -/

namespace CrystSymm

open Spec Reducer

section
variable {ρ : Rounding}

/-- the integers up to `B` are representable. -/
def ExactInts (ρ : Rounding) (B : ℤ) : Prop := ∀ n : ℤ, |n| ≤ B → ρ.fl n = n

/-- all entries are at most `B`. -/
def EntLe (N : Mat3 ℤ) (B : ℤ) : Prop :=
  (|N.m11| ≤ B ∧ |N.m12| ≤ B ∧ |N.m13| ≤ B) ∧ (|N.m21| ≤ B ∧ |N.m22| ≤ B ∧ |N.m23| ≤ B) ∧
    (|N.m31| ≤ B ∧ |N.m32| ≤ B ∧ |N.m33| ≤ B)

/-- the sums of the magnitudes of the columns are at most `w`. -/
def ColLe (C : Mat3 ℤ) (w : ℤ) : Prop :=
  |C.m11| + |C.m21| + |C.m31| ≤ w ∧ |C.m12| + |C.m22| + |C.m32| ≤ w ∧ |C.m13| + |C.m23| + |C.m33| ≤ w

instance (N : Mat3 ℤ) (B : ℤ) : Decidable (EntLe N B) := by unfold EntLe; infer_instance
instance (N : Mat3 ℤ) (B : ℤ) : Decidable (ColLe N B) := by unfold ColLe; infer_instance

/-- the entries are these integers, exactly. -/
def IsInts (M : Mat3 (RNum ρ)) (N : Mat3 ℤ) : Prop := valM M = N.map fun (n : ℤ) => (n : ℝ)

theorem int_dot {B w : ℤ} (hx : ExactInts ρ (B * w)) {x1 x2 x3 y1 y2 y3 : RNum ρ} {n1 n2 n3 c1 c2 c3 : ℤ}
    (e1 : x1.val = n1) (e2 : x2.val = n2) (e3 : x3.val = n3) (f1 : y1.val = c1) (f2 : y2.val = c2) (f3 : y3.val = c3)
    (b1 : |n1| ≤ B) (b2 : |n2| ≤ B) (b3 : |n3| ≤ B) (hw : |c1| + |c2| + |c3| ≤ w) :
    (x1 * y1 + x2 * y2 + x3 * y3).val = (n1 * c1 + n2 * c2 + n3 * c3 : ℤ) ∧ |n1 * c1 + n2 * c2 + n3 * c3| ≤ B * w := by
  have hB : 0 ≤ B := (abs_nonneg _).trans b1
  have p1 : |n1 * c1| ≤ B * |c1| := by rw [abs_mul]; exact mul_le_mul_of_nonneg_right b1 (abs_nonneg _)
  have p2 : |n2 * c2| ≤ B * |c2| := by rw [abs_mul]; exact mul_le_mul_of_nonneg_right b2 (abs_nonneg _)
  have p3 : |n3 * c3| ≤ B * |c3| := by rw [abs_mul]; exact mul_le_mul_of_nonneg_right b3 (abs_nonneg _)
  have hw' := mul_le_mul_of_nonneg_left hw hB
  have q1 := mul_nonneg hB (abs_nonneg c1)
  have q2 := mul_nonneg hB (abs_nonneg c2)
  have q3 := mul_nonneg hB (abs_nonneg c3)
  have s1 := abs_add_le (n1 * c1) (n2 * c2)
  have s2 := abs_add_le (n1 * c1 + n2 * c2) (n3 * c3)
  have g1 : (x1 * y1).val = (n1 * c1 : ℤ) := by
    rw [RNum.val_mul, e1, f1, ← Int.cast_mul]; exact hx _ (by linarith)
  have g2 : (x2 * y2).val = (n2 * c2 : ℤ) := by
    rw [RNum.val_mul, e2, f2, ← Int.cast_mul]; exact hx _ (by linarith)
  have g3 : (x3 * y3).val = (n3 * c3 : ℤ) := by
    rw [RNum.val_mul, e3, f3, ← Int.cast_mul]; exact hx _ (by linarith)
  have g4 : (x1 * y1 + x2 * y2).val = (n1 * c1 + n2 * c2 : ℤ) := by
    rw [RNum.val_add, g1, g2, ← Int.cast_add]; exact hx _ (by linarith)
  refine ⟨?_, by linarith⟩
  rw [RNum.val_add, g4, g3, ← Int.cast_add]; exact hx _ (by linarith)

theorem IsInts.mul {B w : ℤ} (hx : ExactInts ρ (B * w)) {T m : Mat3 (RNum ρ)} {N C : Mat3 ℤ} (h1 : IsInts T N) (h2 : IsInts m C)
    (hN : EntLe N B) (hC : ColLe C w) : IsInts (T * m) (N * C) ∧ EntLe (N * C) (B * w) := by
  unfold IsInts at *
  obtain ⟨⟨a1, a2, a3⟩, ⟨a4, a5, a6⟩, ⟨a7, a8, a9⟩⟩ := hN
  obtain ⟨c1, c2, c3⟩ := hC
  have t1 := congrArg Mat3.m11 h1; have t2 := congrArg Mat3.m12 h1; have t3 := congrArg Mat3.m13 h1
  have t4 := congrArg Mat3.m21 h1; have t5 := congrArg Mat3.m22 h1; have t6 := congrArg Mat3.m23 h1
  have t7 := congrArg Mat3.m31 h1; have t8 := congrArg Mat3.m32 h1; have t9 := congrArg Mat3.m33 h1
  have u1 := congrArg Mat3.m11 h2; have u2 := congrArg Mat3.m12 h2; have u3 := congrArg Mat3.m13 h2
  have u4 := congrArg Mat3.m21 h2; have u5 := congrArg Mat3.m22 h2; have u6 := congrArg Mat3.m23 h2
  have u7 := congrArg Mat3.m31 h2; have u8 := congrArg Mat3.m32 h2; have u9 := congrArg Mat3.m33 h2
  simp only [valM, Mat3.map] at t1 t2 t3 t4 t5 t6 t7 t8 t9 u1 u2 u3 u4 u5 u6 u7 u8 u9
  have r1 := int_dot hx t1 t2 t3 u1 u4 u7 a1 a2 a3 c1
  have r2 := int_dot hx t1 t2 t3 u2 u5 u8 a1 a2 a3 c2
  have r3 := int_dot hx t1 t2 t3 u3 u6 u9 a1 a2 a3 c3
  have r4 := int_dot hx t4 t5 t6 u1 u4 u7 a4 a5 a6 c1
  have r5 := int_dot hx t4 t5 t6 u2 u5 u8 a4 a5 a6 c2
  have r6 := int_dot hx t4 t5 t6 u3 u6 u9 a4 a5 a6 c3
  have r7 := int_dot hx t7 t8 t9 u1 u4 u7 a7 a8 a9 c1
  have r8 := int_dot hx t7 t8 t9 u2 u5 u8 a7 a8 a9 c2
  have r9 := int_dot hx t7 t8 t9 u3 u6 u9 a7 a8 a9 c3
  refine ⟨?_, ⟨r1.2, r2.2, r3.2⟩, ⟨r4.2, r5.2, r6.2⟩, ⟨r7.2, r8.2, r9.2⟩⟩
  exact Mat3.ext r1.1 r2.1 r3.1 r4.1 r5.1 r6.1 r7.1 r8.1 r9.1

/-! ## The matrices of the steps -/

theorem isInts_of {a b c d e f g h i : RNum ρ} {a' b' c' d' e' f' g' h' i' : ℤ} (h1 : a.val = a') (h2 : b.val = b')
    (h3 : c.val = c') (h4 : d.val = d') (h5 : e.val = e') (h6 : f.val = f') (h7 : g.val = g') (h8 : h.val = h')
    (h9 : i.val = i') : IsInts (⟨a, b, c, d, e, f, g, h, i⟩ : Mat3 (RNum ρ)) ⟨a', b', c', d', e', f', g', h', i'⟩ := by
  show (⟨_, _, _, _, _, _, _, _, _⟩ : Mat3 ℝ) = ⟨_, _, _, _, _, _, _, _, _⟩
  rw [h1, h2, h3, h4, h5, h6, h7, h8, h9]

theorem val_m1 : (-1 : RNum ρ).val = ((-1 : ℤ) : ℝ) := by rw [RNum.val_neg, RNum.val_one]; norm_num
theorem val_1 : (1 : RNum ρ).val = ((1 : ℤ) : ℝ) := by rw [RNum.val_one]; norm_num
theorem val_0 : (0 : RNum ρ).val = ((0 : ℤ) : ℝ) := by rw [RNum.val_zero]; norm_num

theorem signum_rnum (x : RNum ρ) : (FRound.signum x : RNum ρ) = 1 ∨ (FRound.signum x : RNum ρ) = -1 := by
  have e : (FRound.signum x : RNum ρ) = RNum.round (FRound.signum x.val) := rfl
  rw [e]
  rcases lt_or_ge x.val 0 with h | h
  · right
    apply RNum.ext
    rw [RNum.val_neg, RNum.val_one]
    show ρ.fl _ = _
    rw [signum_eq, if_pos h, ρ.odd, ρ.one]
  · left
    apply RNum.ext
    rw [RNum.val_one]
    show ρ.fl _ = _
    rw [signum_eq, if_neg (not_lt.2 h), ρ.one]

theorem neg_signum (x : RNum ρ) : ∃ n : ℤ, (n = 1 ∨ n = -1) ∧ ((-1 : RNum ρ) * FRound.signum x).val = n := by
  rcases signum_rnum x with e | e <;> rw [e]
  · exact ⟨-1, Or.inr rfl, by rw [RNum.mul_one']; exact val_m1⟩
  · exact ⟨1, Or.inl rfl, by rw [RNum.neg_mul', RNum.one_mul', RNum.neg_neg']; exact val_1⟩

theorem c1_ints : IsInts (c1 : Mat3 (RNum ρ)) ⟨0, -1, 0, -1, 0, 0, 0, 0, -1⟩ :=
  isInts_of val_0 val_m1 val_0 val_m1 val_0 val_0 val_0 val_0 val_m1
theorem c2_ints : IsInts (c2 : Mat3 (RNum ρ)) ⟨-1, 0, 0, 0, 0, -1, 0, -1, 0⟩ :=
  isInts_of val_m1 val_0 val_0 val_0 val_0 val_m1 val_0 val_m1 val_0
theorem c8_ints : IsInts (c8 : Mat3 (RNum ρ)) ⟨1, 0, 1, 0, 1, 1, 0, 0, 1⟩ :=
  isInts_of val_1 val_0 val_1 val_0 val_1 val_1 val_0 val_0 val_1

/-- a step matrix: integers, determinant one, small columns. -/
def StepInts (m : Mat3 (RNum ρ)) (w : ℤ) : Prop := ∃ C : Mat3 ℤ, IsInts m C ∧ C.det = 1 ∧ ColLe C w

theorem c5_ints (x : RNum ρ) : StepInts (c5 x) 2 := by
  obtain ⟨n, hn, e⟩ := neg_signum x
  refine ⟨⟨1, 0, 0, 0, 1, n, 0, 0, 1⟩, isInts_of val_1 val_0 val_0 val_0 val_1 e val_0 val_0 val_1, ?_, ?_⟩ <;>
    rcases hn with rfl | rfl <;> decide
theorem c6_ints (x : RNum ρ) : StepInts (c6 x) 2 := by
  obtain ⟨n, hn, e⟩ := neg_signum x
  refine ⟨⟨1, 0, n, 0, 1, 0, 0, 0, 1⟩, isInts_of val_1 val_0 e val_0 val_1 val_0 val_0 val_0 val_1, ?_, ?_⟩ <;>
    rcases hn with rfl | rfl <;> decide
theorem c7_ints (x : RNum ρ) : StepInts (c7 x) 2 := by
  obtain ⟨n, hn, e⟩ := neg_signum x
  refine ⟨⟨1, n, 0, 0, 1, 0, 0, 0, 1⟩, isInts_of val_1 e val_0 val_0 val_1 val_0 val_0 val_0 val_1, ?_, ?_⟩ <;>
    rcases hn with rfl | rfl <;> decide

/-- one or minus one. -/
def SignR (x : RNum ρ) : Prop := x = 1 ∨ x = -1

theorem signR_ite (p : Prop) [Decidable p] : SignR (if p then (-1 : RNum ρ) else 1) := by
  split
  · exact Or.inr rfl
  · exact Or.inl rfl

theorem pick_signR (c : Bool) (p : SignVar) {i j k : RNum ρ} (hi : SignR i) (hj : SignR j) (hk : SignR k) :
    let s : RNum ρ × RNum ρ × RNum ρ := if c then
      match p with
      | .none => (i, j, k)
      | .i => (-1, j, k)
      | .j => (i, -1, k)
      | .k => (i, j, -1)
    else (i, j, k)
    SignR s.1 ∧ SignR s.2.1 ∧ SignR s.2.2 := by
  have h1 : SignR (-1 : RNum ρ) := Or.inr rfl
  cases c <;> cases p <;> simp_all

theorem signs_signR (e : Option (RNum ρ)) (x y z : RNum ρ) :
    SignR (signs e x y z).1 ∧ SignR (signs e x y z).2.1 ∧ SignR (signs e x y z).2.2 := by
  have h (p : Prop) [Decidable p] : SignR (if p then (-1 : RNum ρ) else 1) := signR_ite p
  unfold signs
  split
  · exact ⟨h _, h _, h _⟩
  · exact pick_signR _ _ (h _) (h _) (h _)

theorem SignR.int {x : RNum ρ} (h : SignR x) : ∃ n : ℤ, (n = 1 ∨ n = -1) ∧ x.val = n := by
  rcases h with rfl | rfl
  · exact ⟨1, Or.inl rfl, val_1⟩
  · exact ⟨-1, Or.inr rfl, val_m1⟩

theorem c34_ints {s : RNum ρ × RNum ρ × RNum ρ} (h : SignR s.1 ∧ SignR s.2.1 ∧ SignR s.2.2) :
    ∃ C : Mat3 ℤ, IsInts (c34 s) C ∧ (C.det = 1 ∨ C.det = -1) ∧ ColLe C 1 ∧ (s.1 * s.2.1 * s.2.2 = 1 → C.det = 1) := by
  obtain ⟨n1, h1, e1⟩ := h.1.int
  obtain ⟨n2, h2, e2⟩ := h.2.1.int
  obtain ⟨n3, h3, e3⟩ := h.2.2.int
  refine ⟨⟨n1, 0, 0, 0, n2, 0, 0, 0, n3⟩, isInts_of e1 val_0 val_0 val_0 e2 val_0 val_0 val_0 e3, ?_, ?_, ?_⟩
  · rcases h1 with rfl | rfl <;> rcases h2 with rfl | rfl <;> rcases h3 with rfl | rfl <;> decide
  · rcases h1 with rfl | rfl <;> rcases h2 with rfl | rfl <;> rcases h3 with rfl | rfl <;> decide
  · intro hp
    have hp' : (s.1 * s.2.1 * s.2.2).val = 1 := by rw [hp, RNum.val_one]
    have k1 : ρ.fl (-1) = -1 := by rw [ρ.odd, ρ.one]
    rw [RNum.val_mul, RNum.val_mul, e1, e2, e3] at hp'
    rcases h1 with rfl | rfl <;> rcases h2 with rfl | rfl <;> rcases h3 with rfl | rfl <;>
      first
      | decide
      | (exfalso; norm_num [ρ.one, k1] at hp')

/-! ## The handedness -/

theorem four_rnum (ε v : RNum ρ) (h0 : 0 ≤ ε.val) :
    (v < -ε ∧ v < ε ∧ ¬ 0 < v - ε) ∨ (¬ v < -ε ∧ v < ε ∧ ¬ 0 < v - ε) ∨ (¬ v < -ε ∧ ¬ v < ε ∧ ¬ 0 < v - ε) ∨
      (¬ v < -ε ∧ ¬ v < ε ∧ 0 < v - ε) := by
  have e1 : v < -ε ↔ v.val < -ε.val := by show v.val < (-ε).val ↔ _; rw [RNum.val_neg]
  have e2 : v < ε ↔ v.val < ε.val := Iff.rfl
  have e3 : v < ε → ¬ 0 < v - ε := by
    intro h
    show ¬ (0 : RNum ρ).val < (v - ε).val
    rw [RNum.val_sub, RNum.val_zero, not_lt, ← fl_zero (ρ := ρ)]
    exact ρ.mono _ _ (by rw [e2] at h; linarith)
  by_cases h2 : v < ε
  · by_cases h1 : v < -ε
    · exact Or.inl ⟨h1, h2, e3 h2⟩
    · exact Or.inr (Or.inl ⟨h1, h2, e3 h2⟩)
  · have h1 : ¬ v < -ε := by rw [e1]; rw [e2] at h2; linarith
    by_cases h3 : 0 < v - ε
    · exact Or.inr (Or.inr (Or.inr ⟨h1, h2, h3⟩))
    · exact Or.inr (Or.inr (Or.inl ⟨h1, h2, h3⟩))

set_option maxHeartbeats 4000000 in
set_option linter.unusedSimpArgs false in
theorem signs_rnum {ε : RNum ρ} (h0 : 0 ≤ ε.val) (h1 : ε.val < 1) (x y z : RNum ρ) :
    (signs (some ε) x y z).1 * (signs (some ε) x y z).2.1 * (signs (some ε) x y z).2.2 = 1 := by
  have hA : ¬ (1 : RNum ρ) < -ε := by
    show ¬ (1 : RNum ρ).val < (-ε).val
    rw [RNum.val_one, RNum.val_neg]; linarith
  have hB : (-1 : RNum ρ) < -ε := by
    show (-1 : RNum ρ).val < (-ε).val
    rw [RNum.val_neg, RNum.val_neg, RNum.val_one]; linarith
  have hm : (-1 : RNum ρ) * ε = -ε := by rw [RNum.neg_mul', RNum.one_mul']
  generalize hs : signs (some ε) x y z = s
  rcases four_rnum ε x h0 with ⟨hx1, hx2, hx3⟩ | ⟨hx1, hx2, hx3⟩ | ⟨hx1, hx2, hx3⟩ | ⟨hx1, hx2, hx3⟩ <;>
  rcases four_rnum ε y h0 with ⟨hy1, hy2, hy3⟩ | ⟨hy1, hy2, hy3⟩ | ⟨hy1, hy2, hy3⟩ | ⟨hy1, hy2, hy3⟩ <;>
  rcases four_rnum ε z h0 with ⟨hz1, hz2, hz3⟩ | ⟨hz1, hz2, hz3⟩ | ⟨hz1, hz2, hz3⟩ | ⟨hz1, hz2, hz3⟩ <;>
  · simp only [signs, isTypeI, nnzE, numNegativeZero, numNegativeZeroStep, List.foldl, hm, ltNeg, subGt,
      decide_eq_true_eq, if_true, if_false, RNum.mul_one', RNum.one_mul', RNum.neg_mul', RNum.neg_neg', decide_true, decide_false,
      Bool.not_true, Bool.not_false, Bool.false_eq_true, hx1, hx2, hx3, hy1, hy2, hy3, hz1, hz2, hz3, hA, hB] at hs
    simp [hA, hB] at hs
    subst hs
    simp only [RNum.mul_one', RNum.one_mul', RNum.neg_mul', RNum.neg_neg', RNum.mul_neg']

/-! ## The loop -/

/-- the accumulated change of basis is a matrix of integers at most `B` whose determinant satisfies `D`. -/
def TransInts (D : ℤ → Prop) (B : ℤ) (st : NigState (RNum ρ)) : Prop := ∃ N : Mat3 ℤ, IsInts st.trans N ∧ EntLe N B ∧ D N.det

theorem EntLe.mono {N : Mat3 ℤ} {B B' : ℤ} (h : EntLe N B) (hB : B ≤ B') : EntLe N B' := by
  obtain ⟨⟨a1, a2, a3⟩, ⟨a4, a5, a6⟩, ⟨a7, a8, a9⟩⟩ := h
  exact ⟨⟨a1.trans hB, a2.trans hB, a3.trans hB⟩, ⟨a4.trans hB, a5.trans hB, a6.trans hB⟩, ⟨a7.trans hB, a8.trans hB, a9.trans hB⟩⟩

theorem EntLe.nonneg {N : Mat3 ℤ} {B : ℤ} (h : EntLe N B) : 0 ≤ B := (abs_nonneg _).trans h.1.1

theorem ExactInts.mono {B B' : ℤ} (h : ExactInts ρ B') (hB : B ≤ B') : ExactInts ρ B := fun n hn => h n (hn.trans hB)

theorem ColLe.mono {C : Mat3 ℤ} {w w' : ℤ} (h : ColLe C w) (hw : w ≤ w') : ColLe C w' :=
  ⟨h.1.trans hw, h.2.1.trans hw, h.2.2.trans hw⟩

theorem TransInts.mono {D : ℤ → Prop} {B B' : ℤ} {st : NigState (RNum ρ)} (h : TransInts D B st) (hB : B ≤ B') :
    TransInts D B' st := by
  obtain ⟨N, h1, h2, h3⟩ := h
  exact ⟨N, h1, h2.mono hB, h3⟩

theorem TransInts.step {D : ℤ → Prop} (hD : ∀ a b, D a → D b → D (a * b)) {B w : ℤ} (hx : ExactInts ρ (B * w))
    {st : NigState (RNum ρ)} (h : TransInts D B st) {m : Mat3 (RNum ρ)} {C : Mat3 ℤ} (hm : IsInts m C) (hC : ColLe C w) (hd : D C.det) :
    TransInts D (B * w) (st.step m) := by
  obtain ⟨N, h1, h2, h3⟩ := h
  obtain ⟨q1, q2⟩ := IsInts.mul hx h1 hm h2 hC
  exact ⟨N * C, q1, q2, by rw [Mat3.det_mul]; exact hD _ _ h3 hd⟩

/-- the sign step keeps `D`. -/
def GoodSigns (D : ℤ → Prop) (e : Option (RNum ρ)) : Prop :=
  ∀ x y z : RNum ρ, ∃ C : Mat3 ℤ, IsInts (c34 (signs e x y z)) C ∧ D C.det ∧ ColLe C 1

theorem nigIter_ints {D : ℤ → Prop} (hD : ∀ a b, D a → D b → D (a * b)) (h1 : D 1) {e : Option (RNum ρ)} (hs : GoodSigns D e)
    {B : ℤ} (hx : ExactInts ρ (B * 3)) {st : NigState (RNum ρ)} (h : TransInts D B st) :
    (∀ st', nigIter e st = .inl st' → TransInts D (B * 3) st') ∧ (∀ st', nigIter e st = .inr st' → TransInts D (B * 3) st') := by
  have hB : 0 ≤ B := by obtain ⟨N, -, h2, -⟩ := h; exact h2.nonneg
  have hx1 : ExactInts ρ (B * 1) := hx.mono (by linarith)
  have hx2 : ExactInts ρ (B * 2) := hx.mono (by linarith)
  have h0 : TransInts D B (if condA1 e st then st.step c1 else st) := by
    split
    · exact (h.step hD hx1 c1_ints (by decide) (by rw [show Mat3.det (⟨0, -1, 0, -1, 0, 0, 0, 0, -1⟩ : Mat3 ℤ) = 1 by decide]; exact h1)).mono
        (by linarith)
    · exact h
  unfold nigIter
  simp only []
  generalize (if condA1 e st then st.step c1 else st) = s1 at h0
  split
  · have := (h0.step hD hx1 c2_ints (by decide)
      (by rw [show Mat3.det (⟨-1, 0, 0, 0, 0, -1, 0, -1, 0⟩ : Mat3 ℤ) = 1 by decide]; exact h1)).mono (show B * 1 ≤ B * 3 by linarith)
    simp only [Sum.inl.injEq, reduceCtorEq, false_imp_iff, implies_true, and_true]
    rintro _ rfl; exact this
  · obtain ⟨C, hC, hd, hw⟩ := hs s1.xi s1.eta s1.zeta
    have h2 := (h0.step hD hx1 hC hw hd).mono (show B * 1 ≤ B by linarith)
    generalize s1.step (c34 (signs e s1.xi s1.eta s1.zeta)) = s2 at h2
    have fin : ∀ {m : Mat3 (RNum ρ)}, StepInts m 2 → TransInts D (B * 3) (s2.step m) := by
      rintro m ⟨C, q1, q2, q3⟩
      exact (h2.step hD hx2 q1 q3 (by rw [q2]; exact h1)).mono (by linarith)
    split
    · simp only [Sum.inl.injEq, reduceCtorEq, false_imp_iff, implies_true, and_true]
      rintro _ rfl; exact fin (c5_ints _)
    · split
      · simp only [Sum.inl.injEq, reduceCtorEq, false_imp_iff, implies_true, and_true]
        rintro _ rfl; exact fin (c6_ints _)
      · split
        · simp only [Sum.inl.injEq, reduceCtorEq, false_imp_iff, implies_true, and_true]
          rintro _ rfl; exact fin (c7_ints _)
        · split
          · simp only [Sum.inl.injEq, reduceCtorEq, false_imp_iff, implies_true, and_true]
            rintro _ rfl
            exact h2.step hD hx c8_ints (by decide) (by rw [show Mat3.det (⟨1, 0, 1, 0, 1, 1, 0, 0, 1⟩ : Mat3 ℤ) = 1 by decide]; exact h1)
          · simp only [Sum.inr.injEq, reduceCtorEq, false_imp_iff, implies_true, true_and]
            rintro _ rfl; exact h2.mono (by linarith)

theorem nigLoop_ints {D : ℤ → Prop} (hD : ∀ a b, D a → D b → D (a * b)) (h1 : D 1) {e : Option (RNum ρ)} (hs : GoodSigns D e)
    (n : ℕ) {B : ℤ} (hx : ExactInts ρ (B * 3 ^ n)) {st st' : NigState (RNum ρ)} (h : TransInts D B st)
    (hl : nigLoop e n st = .ret st') : TransInts D (B * 3 ^ n) st' := by
  induction n generalizing st B with
  | zero => simp [nigLoop] at hl
  | succ n ih =>
    have hB : 0 ≤ B := by obtain ⟨N, -, h2, -⟩ := h; exact h2.nonneg
    have hp : (1 : ℤ) ≤ 3 ^ n := one_le_pow₀ (by norm_num)
    have hle : B * 3 ≤ B * 3 ^ (n + 1) := by rw [pow_succ]; nlinarith
    obtain ⟨g1, g2⟩ := nigIter_ints hD h1 hs (hx.mono hle) h
    rw [nigLoop] at hl
    have e3 : B * 3 * 3 ^ n = B * 3 ^ (n + 1) := by ring
    split at hl
    · next s2 he => rw [← e3]; exact ih (by rw [e3]; exact hx) (g1 _ he) hl
    · next s2 he =>
      simp only [Outcome.ret.injEq] at hl
      subst hl
      exact (g2 _ he).mono hle

theorem transInts_one {D : ℤ → Prop} (h1 : D 1) (G : Mat3 (RNum ρ)) : TransInts D 1 ⟨G, 1⟩ :=
  ⟨1, isInts_of val_1 val_0 val_0 val_0 val_1 val_0 val_0 val_0 val_1, by decide, by
    rw [show Mat3.det (1 : Mat3 ℤ) = 1 by decide]; exact h1⟩

theorem goodSigns_any (e : Option (RNum ρ)) : GoodSigns (fun d => d = 1 ∨ d = -1) e := by
  intro x y z
  obtain ⟨C, h1, h2, h3, -⟩ := c34_ints (signs_signR e x y z)
  exact ⟨C, h1, h2, h3⟩

theorem goodSigns_pos {e : Option (RNum ρ)} (he : ∀ ε, e = some ε → 0 ≤ ε.val ∧ ε.val < 1) : GoodSigns (fun d => d = 1) e := by
  intro x y z
  obtain ⟨C, h1, -, h3, h4⟩ := c34_ints (signs_signR e x y z)
  refine ⟨C, h1, h4 ?_, h3⟩
  cases e with
  | none =>
    have : signs none x y z = (1, 1, 1) := by simp [signs, isTypeI, nnzE, ltNeg]
    rw [this]; simp only [RNum.mul_one']
  | some ε => exact signs_rnum (he ε rfl).1 (he ε rfl).2 x y z

end

end CrystSymm
