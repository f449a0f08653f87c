import Verif.Proofs.RoundedSelect

/-! # Niggli reduction and lattice character of a box in rounded arithmetic -/

set_option autoImplicit false
set_option linter.unusedSectionVars false
set_option linter.unusedSimpArgs false

namespace CrystSymm

open Spec Reducer SymmetryAnalyzer

variable {ρ : Rounding}

theorem RNum.lt_def' {x y : RNum ρ} : x < y ↔ x.val < y.val := Iff.rfl

theorem RNum.abs_zero' : FRound.abs (0 : RNum ρ) = 0 := RNum.ext (by rw [RNum.val_abs, RNum.val_zero, abs_zero])

theorem RNum.sub_le_self {x ε : RNum ρ} (h : 0 ≤ ε.val) : (x - ε).val ≤ x.val := by
  rw [RNum.val_sub]
  refine (ρ.mono _ _ (show x.val - ε.val ≤ x.val by linarith)).trans (le_of_eq ?_)
  exact RNum.fl_val x

theorem RNum.sub_mono {x y ε : RNum ρ} (h : x.val ≤ y.val) : (x - ε).val ≤ (y - ε).val := by
  rw [RNum.val_sub, RNum.val_sub]
  exact ρ.mono _ _ (by linarith)

theorem RNum.add_ge_left {x y : RNum ρ} (h : 0 ≤ y.val) : x.val ≤ (x + y).val := by
  rw [RNum.val_add]
  refine le_trans (le_of_eq ?_) (ρ.mono _ _ (show x.val ≤ x.val + y.val by linarith))
  exact (RNum.fl_val x).symm

/-- how the squared edges compare with the tolerance. -/
structure EpsApart (p q s ε : RNum ρ) : Prop where
  e0 : 0 < ε.val
  p0 : 0 < (p - ε).val
  pq : p = q ∨ p.val < (q - ε).val
  qs : (p = q ∧ q = s) ∨ q.val < (s - ε).val

variable {p q s ε : RNum ρ}

theorem EpsApart.gt (h : EpsApart p q s ε) : ε.val < p.val := by
  by_contra hc
  have := h.p0
  rw [RNum.val_sub] at this
  have h2 := ρ.mono _ _ (show p.val - ε.val ≤ 0 by linarith)
  rw [fl_zero] at h2
  linarith

theorem EpsApart.le1 (h : EpsApart p q s ε) : p.val ≤ q.val := by
  rcases h.pq with e | e
  · rw [e]
  · exact (lt_of_lt_of_le e (RNum.sub_le_self h.e0.le)).le

theorem EpsApart.le2 (h : EpsApart p q s ε) : q.val ≤ s.val := by
  rcases h.qs with e | e
  · rw [e.2]
  · exact (lt_of_lt_of_le e (RNum.sub_le_self h.e0.le)).le

theorem custEq_false {x y : RNum ρ} (h : x.val < (y - ε).val) : custEq x y ε = false := by
  unfold custEq
  rw [decide_eq_true (show x < y - ε from h)]
  rfl

theorem custEq_false' {x y : RNum ρ} (h : y.val < (x - ε).val) : custEq x y ε = false := by
  unfold custEq
  rw [decide_eq_true (show y < x - ε from h), Bool.or_true]
  rfl

theorem custEq_refl {x : RNum ρ} (h : 0 ≤ ε.val) : custEq x x ε = true := by
  unfold custEq
  rw [decide_eq_false (show ¬ x < x - ε from not_lt.2 (RNum.sub_le_self h))]
  rfl

theorem sub_eps_neg : ((0 : RNum ρ) - ε).val = -ε.val := by rw [RNum.zero_sub', RNum.val_neg]

theorem eps_typeII (h : 0 < ε.val) : isTypeI (some ε) [(0 : RNum ρ), 0, 0] = false := by
  have h1 : ¬ (0 : RNum ρ) < (-1) * ε := by
    rw [RNum.lt_def', RNum.neg_mul', RNum.one_mul', RNum.val_neg, RNum.val_zero]
    linarith
  have h2 : (0 : RNum ρ) < ε := by rw [RNum.lt_def', RNum.val_zero]; exact h
  have e : nnzE (some ε) [(0 : RNum ρ), 0, 0] = (0, 3) := by
    simp only [nnzE, numNegativeZero, List.foldl, numNegativeZeroStep, if_neg h1, if_pos h2]
    rfl
  unfold isTypeI
  rw [e]
  rfl

theorem eps_signs (h : 0 < ε.val) : signs (some ε) (0 : RNum ρ) 0 0 = (1, 1, 1) := by
  have h1 : ¬ (0 : RNum ρ) < 0 - ε := by
    rw [RNum.lt_def', sub_eps_neg, RNum.val_zero]
    linarith
  have h2 : ¬ (1 : RNum ρ) < -ε := by
    rw [RNum.lt_def', RNum.val_neg, RNum.val_one]
    linarith
  unfold signs
  rw [eps_typeII h]
  simp [subGt, ltNeg, h1, h2]

theorem step_unit (m : NigState (RNum ρ)) {a b c a' b' c' : RNum ρ} (h1 : m.metric = rbox a b c) (h2 : m.trans = rbox a' b' c') :
    m.step (c34 (1, 1, 1)) = m := by
  have e : c34 ((1, 1, 1) : RNum ρ × RNum ρ × RNum ρ) = 1 := rfl
  rw [e]
  unfold NigState.step
  have t : (1 : Mat3 (RNum ρ)).transpose = 1 := rfl
  rw [t, h1, h2, rbox_one_mul, rbox_mul_one, rbox_mul_one, ← h1, ← h2]

/-- the loop ends at once. -/
theorem nigLoop_box (h : EpsApart p q s ε) (n : ℕ) :
    nigLoop (some ε) (n + 1) ⟨rbox p q s, 1⟩ = .ret ⟨rbox p q s, 1⟩ := by
  have g := h.gt
  have h0 := h.e0
  have z : lit 2 * (0 : RNum ρ) = 0 := RNum.mul_zero' _
  have l1 := h.le1
  have l2 := h.le2
  have s1 := RNum.sub_le_self (x := p) h0.le
  have s2 := RNum.sub_le_self (x := q) h0.le
  have q0 : 0 < (q - ε).val := lt_of_lt_of_le h.p0 (RNum.sub_mono l1)
  have zz : subGt (some ε) (FRound.abs (0 : RNum ρ)) (FRound.abs 0) = false := by
    refine decide_eq_false ?_
    rw [RNum.abs_zero', RNum.lt_def', sub_eps_neg, RNum.val_zero]
    linarith
  have c1 : condA1 (some ε) ⟨rbox p q s, 1⟩ = false := by
    simp only [condA1, NigState.a, NigState.b, NigState.xi, NigState.eta, rbox, z, zz, Bool.and_false, Bool.or_false]
    refine decide_eq_false ?_
    rw [RNum.lt_def']
    linarith
  have c2 : condA2 (some ε) ⟨rbox p q s, 1⟩ = false := by
    simp only [condA2, NigState.b, NigState.c, NigState.eta, NigState.zeta, rbox, z, zz, Bool.and_false, Bool.or_false]
    refine decide_eq_false ?_
    rw [RNum.lt_def']
    linarith
  have key : ∀ x : RNum ρ, ε.val < x.val → 0 < (x - ε).val → subGt (some ε) (FRound.abs (0 : RNum ρ)) x = false ∧
      eqE (some ε) 0 x = false ∧ eqE (some ε) 0 ((-1) * x) = false := by
    intro x hx hx2
    refine ⟨?_, ?_, ?_⟩
    · refine decide_eq_false ?_
      rw [RNum.abs_zero', RNum.lt_def', sub_eps_neg]
      linarith
    · exact custEq_false (by rw [RNum.val_zero]; exact hx2)
    · refine custEq_false' ?_
      rw [sub_eps_neg, RNum.neg_mul', RNum.one_mul', RNum.val_neg]
      linarith
  obtain ⟨p1, p2, p3⟩ := key p g h.p0
  obtain ⟨q1, q2, q3⟩ := key q (by linarith) q0
  have c5 : condA5 (some ε) ⟨rbox p q s, 1⟩ = false := by
    simp only [condA5, NigState.b, NigState.xi, rbox, z, q1, q2, q3, Bool.false_and, Bool.or_false]
  have c6 : condA6 (some ε) ⟨rbox p q s, 1⟩ = false := by
    simp only [condA6, NigState.a, NigState.eta, rbox, z, p1, p2, p3, Bool.false_and, Bool.or_false]
  have c7 : condA7 (some ε) ⟨rbox p q s, 1⟩ = false := by
    simp only [condA7, NigState.a, NigState.zeta, rbox, z, p1, p2, p3, Bool.false_and, Bool.or_false]
  have hs : boolSum (⟨rbox p q s, 1⟩ : NigState (RNum ρ)) = p + q := by
    simp only [boolSum, NigState.a, NigState.b, NigState.xi, NigState.eta, NigState.zeta, rbox, z, RNum.zero_add']
  have hpq : p.val ≤ (p + q).val := RNum.add_ge_left (by linarith)
  have c8 : condA8 (some ε) ⟨rbox p q s, 1⟩ = false := by
    unfold condA8
    rw [hs]
    have e1 : eqE (some ε) (p + q) 0 = false := custEq_false' (by
      rw [RNum.val_zero]
      exact lt_of_lt_of_le h.p0 (RNum.sub_mono hpq))
    rw [e1]
    simp only [ltNeg, Bool.false_and, Bool.or_false]
    refine decide_eq_false ?_
    rw [RNum.lt_def', RNum.val_neg]
    linarith
  have hi : nigIter (some ε) ⟨rbox p q s, 1⟩ = .inr ⟨rbox p q s, 1⟩ := by
    unfold nigIter
    simp only [c1, c2, Bool.false_eq_true, if_false]
    have e0 : signs (some ε) (NigState.xi ⟨rbox p q s, 1⟩) (NigState.eta ⟨rbox p q s, 1⟩)
        (NigState.zeta ⟨rbox p q s, 1⟩) = (1, 1, 1) := by
      simp only [NigState.xi, NigState.eta, NigState.zeta, rbox, z]
      exact eps_signs h0
    rw [e0, step_unit _ rfl rbox_one]
    simp only [c5, c6, c7, c8, Bool.false_eq_true, if_false]
  simp only [nigLoop, hi]

/-- the shape of a box with its Bravais type, its lattice system and its lattice character. -/
inductive BoxShape (p q s : RNum ρ) : BravaisType → LatticeSystem → ℕ → Prop
  | cubic : p = q → q = s → BoxShape p q s .cP .Cubic 3
  | tetragonal : p = q → q ≠ s → BoxShape p q s .tP .Tetragonal 11
  | orthorhombic : p ≠ q → q ≠ s → BoxShape p q s .oP .Orthorhombic 32

theorem character_box (h : EpsApart p q s ε) {bt : BravaisType} {sys : LatticeSystem} {ch : ℕ} (hs : BoxShape p q s bt sys ch) :
    characterOf (some ε) p q s 0 0 0 = .ret ch := by
  have h0 := h.e0.le
  unfold characterOf
  have e3 : eqE (some ε) (0 : RNum ρ) 0 = true := custEq_refl h0
  have er : ∀ x : RNum ρ, eqE (some ε) x x = true := fun x => custEq_refl h0
  rw [eps_typeII h.e0]
  cases hs with
  | cubic h1 h2 =>
    subst h1 h2
    simp [er, getFirstSet, defMatches, e3]
  | tetragonal h1 h2 =>
    subst h1
    have e2 : eqE (some ε) p s = false := by
      rcases h.qs with e | e
      · exact absurd e.2 h2
      · exact custEq_false e
    simp [er, e2, getSecondSet, defMatches, e3]
  | orthorhombic h1 h2 =>
    have e1 : eqE (some ε) p q = false := by
      rcases h.pq with e | e
      · exact absurd e h1
      · exact custEq_false e
    have e2 : eqE (some ε) q s = false := by
      rcases h.qs with e | e
      · exact absurd e.2 h2
      · exact custEq_false e
    simp [e1, e2, getFourthSet, defMatches, e3]

variable {a b c dtol : RNum ρ} {r A : ℝ}

theorem fl_err (h : BoxBounds a b c dtol r A) {x B : ℝ} (hB : 1 ≤ B) (hx : |x| ≤ B) : |ρ.fl x - x| ≤ r ^ 2 * B :=
  rel_le h.rel hB hx

theorem tiny_r2 (h : BoxBounds a b c dtol r A) : r ^ 2 ≤ 1 / 10 ^ 12 := h.search.r2.trans (by norm_num)

theorem square_err (h : BoxBounds a b c dtol r A) {x : RNum ρ} (h0 : 0 ≤ x.val) (hx : x.val ≤ A) :
    |(x * x).val - x.val * x.val| ≤ dtol.val / 16000000 := by
  have hA := h.A1
  have k : |x.val * x.val| ≤ A * A := by
    rw [abs_of_nonneg (mul_nonneg h0 h0)]
    exact mul_le_mul hx hx h0 (by linarith)
  refine (fl_err h (by nlinarith) k).trans (le_trans (le_of_eq (by ring)) h.Au)

theorem tol_val (h : BoxBounds a b c dtol r A) : |(tol1em5 : RNum ρ).val - 1 / 100000| ≤ 1 / 10 ^ 11 := by
  have hr := tiny_r2 h
  have h0 : 0 ≤ r ^ 2 := sq_nonneg r
  have e : (tol1em5 : RNum ρ).val = ρ.fl (1 / ρ.fl 100000) := by
    show ρ.fl (ρ.fl ((1 : ℤ) : ℝ) / ρ.fl ((100000 : ℤ) : ℝ)) = _
    rw [Int.cast_one, ρ.one]
    norm_num
  rw [e]
  have k := fl_err h (x := 100000) (B := 100000) (by norm_num) (by norm_num)
  set y := ρ.fl 100000
  have ky : |y - 100000| ≤ 1 / 10 ^ 7 := k.trans (by norm_num at hr ⊢; linarith)
  rw [abs_le] at ky
  norm_num at ky
  have hy : 0 < y := by linarith
  have k2 : |1 / y - 1 / 100000| ≤ 1 / 10 ^ 12 := by
    have : 1 / y - 1 / 100000 = (100000 - y) / (y * 100000) := by field_simp
    rw [this, abs_div, abs_of_pos (show 0 < y * 100000 by positivity), div_le_iff₀ (by positivity)]
    rw [abs_le]
    norm_num
    constructor <;> nlinarith
  have k3 := fl_err h (x := 1 / y) (B := 1) le_rfl (by
    rw [abs_le] at *; norm_num at k2 ⊢; constructor <;> linarith [k2.1, k2.2])
  rw [abs_le] at *
  norm_num at k2 k3 hr ⊢
  constructor <;> linarith [k2.1, k2.2, k3.1, k3.2]

theorem volume_bounds (h : BoxBounds a b c dtol r A) :
    1 / 27 ≤ (a * (b * c)).val ∧ (a * (b * c)).val ≤ (101 / 100 * A) ^ 3 := by
  obtain ⟨l1, l2, l3⟩ := h.lower
  obtain ⟨u1, u2, u3⟩ := h.upper
  have hA := h.A1
  have hr := tiny_r2 h
  have h0 : 0 ≤ r ^ 2 := sq_nonneg r
  have m1 : (1 / 2 : ℝ) * (1 / 2) ≤ b.val * c.val := mul_le_mul l2 l3 (by norm_num) (by linarith)
  have m2 : b.val * c.val ≤ A * A := mul_le_mul u2 u3 (by linarith) (by linarith)
  have hAA : 1 ≤ A * A := by nlinarith
  have k1 := fl_err h (x := b.val * c.val) (B := A * A) hAA (by rw [abs_of_nonneg (by linarith)]; exact m2)
  have k1' := h.rel (b.val * c.val)
  have n1 : (19 / 80 : ℝ) ≤ (b * c).val := by
    have hm : max 1 |b.val * c.val| ≤ 1 + b.val * c.val := by
      rw [abs_of_nonneg (by linarith)]
      exact max_le (by linarith) (by linarith)
    have := k1'.trans (mul_le_mul_of_nonneg_left hm h0)
    rw [abs_le] at this
    rw [RNum.val_mul]
    have h3 : r ^ 2 * (1 + b.val * c.val) ≤ 1 / 10 ^ 12 * (1 + b.val * c.val) :=
      mul_le_mul_of_nonneg_right hr (by linarith)
    norm_num at h3
    linarith [this.1]
  have n2 : (b * c).val ≤ 1001 / 1000 * (A * A) := by
    rw [RNum.val_mul]
    rw [abs_le] at k1
    have h3 : r ^ 2 * (A * A) ≤ 1 / 10 ^ 12 * (A * A) := mul_le_mul_of_nonneg_right hr (by linarith)
    norm_num at h3
    linarith [k1.2]
  set y := (b * c).val
  have m3 : (1 / 2 : ℝ) * (19 / 80) ≤ a.val * y := mul_le_mul l1 n1 (by norm_num) (by linarith)
  have m4 : a.val * y ≤ A * (1001 / 1000 * (A * A)) := mul_le_mul u1 n2 (by linarith) (by linarith)
  have hm : max 1 |a.val * y| ≤ 1 + a.val * y := by
    rw [abs_of_nonneg (by linarith)]
    exact max_le (by linarith) (by linarith)
  have k2 := (h.rel (a.val * y)).trans (mul_le_mul_of_nonneg_left hm h0)
  have h3 : r ^ 2 * (1 + a.val * y) ≤ 1 / 10 ^ 12 * (1 + a.val * y) := mul_le_mul_of_nonneg_right hr (by linarith)
  have hA3 : 1 ≤ A ^ 3 := one_le_pow₀ hA
  have e : (a * (b * c)).val = ρ.fl (a.val * y) := rfl
  have e3 : A * (1001 / 1000 * (A * A)) = 1001 / 1000 * A ^ 3 := by ring
  have e4 : (101 / 100 * A) ^ 3 = 1030301 / 1000000 * A ^ 3 := by ring
  rw [e, e4]
  rw [e3] at m4
  rw [abs_le] at k2
  norm_num at h3
  constructor <;> linarith [k2.1, k2.2]

/-- the tolerance of the reduction. -/
theorem box_eps (h : BoxBounds a b c dtol r A) : ∃ ε : RNum ρ, epsilonOf tol1em5 (a * (b * c)) = some ε ∧
    0 < ε.val ∧ ε.val ≤ dtol.val / 5 := by
  have hA := h.A1
  have hr := tiny_r2 h
  have h0 : 0 ≤ r ^ 2 := sq_nonneg r
  obtain ⟨v1, v2⟩ := volume_bounds h
  set v := (a * (b * c)).val with hv
  set x := v ^ ((1 : ℝ) / 3) with hx
  have e : epsilonOf tol1em5 (a * (b * c)) = some (tol1em5 * (RNum.round x : RNum ρ)) := by
    show ((if v < 0 then none else some (v ^ ((1 : ℝ) / 3))).map RNum.round).map _ = _
    rw [if_neg (by linarith)]
    rfl
  refine ⟨_, e, ?_⟩
  have x1 : 1 / 3 ≤ x := by
    have := Real.rpow_le_rpow (by norm_num) v1 (show (0 : ℝ) ≤ 1 / 3 by norm_num)
    refine le_trans (le_of_eq ?_) this
    rw [show (1 / 27 : ℝ) = (1 / 3) ^ (3 : ℕ) by norm_num, one_div 3, ← Nat.cast_ofNat (n := 3)]
    exact (Real.pow_rpow_inv_natCast (by norm_num) (by norm_num)).symm
  have x2 : x ≤ 101 / 100 * A := by
    have := Real.rpow_le_rpow (by linarith) v2 (show (0 : ℝ) ≤ 1 / 3 by norm_num)
    refine le_trans this (le_of_eq ?_)
    have e3 : ((1 : ℝ) / 3) = ((3 : ℕ) : ℝ)⁻¹ := by norm_num
    rw [e3]
    exact Real.pow_rpow_inv_natCast (by positivity) (by norm_num)
  have k1 := fl_err h (x := x) (B := 101 / 100 * A) (by linarith) (by rw [abs_of_nonneg (by linarith)]; exact x2)
  have k1' := h.rel x
  have hm : max 1 |x| ≤ 1 + x := by
    rw [abs_of_nonneg (by linarith)]
    exact max_le (by linarith) (by linarith)
  have k2 := k1'.trans (mul_le_mul_of_nonneg_left hm h0)
  have h3 : r ^ 2 * (1 + x) ≤ 1 / 10 ^ 12 * (1 + x) := mul_le_mul_of_nonneg_right hr (by linarith)
  have kt := tol_val h
  set t := (tol1em5 : RNum ρ).val with ht
  set y := ρ.fl x with hy
  have y1 : 1 / 4 ≤ y := by rw [abs_le] at k2; norm_num at h3; linarith [k2.1]
  have y2 : y ≤ 102 / 100 * A := by rw [abs_le] at k2; norm_num at h3; linarith [k2.2]
  have ev : (tol1em5 * (RNum.round x : RNum ρ)).val = ρ.fl (t * y) := rfl
  rw [abs_le] at kt
  norm_num at kt
  have t1 : 9 / 1000000 ≤ t := by linarith [kt.1]
  have t2 : t ≤ 11 / 1000000 := by linarith [kt.2]
  have p1 : (9 / 1000000 : ℝ) * (1 / 4) ≤ t * y := mul_le_mul t1 y1 (by norm_num) (by linarith)
  have p2 : t * y ≤ 11 / 1000000 * (102 / 100 * A) := mul_le_mul t2 y2 (by linarith) (by norm_num)
  have hm2 : max 1 |t * y| ≤ 1 + t * y := by
    rw [abs_of_nonneg (by linarith)]
    exact max_le (by linarith) (by linarith)
  have k3 := (h.rel (t * y)).trans (mul_le_mul_of_nonneg_left hm2 h0)
  have h4 : r ^ 2 * (1 + t * y) ≤ 1 / 10 ^ 12 * (1 + t * y) := mul_le_mul_of_nonneg_right hr (by linarith)
  rw [ev]
  rw [abs_le] at k3
  norm_num at h4
  have hres := h.res
  have hlo := h.lo
  constructor <;> linarith [k3.1, k3.2]

theorem box_apart (h : BoxBounds a b c dtol r A) {ε : RNum ρ} (h0 : 0 < ε.val) (h1 : ε.val ≤ dtol.val / 5) :
    EpsApart (a * a) (b * b) (c * c) ε := by
  obtain ⟨l1, l2, l3⟩ := h.lower
  obtain ⟨u1, u2, u3⟩ := h.upper
  have hA := h.A1
  have hAA : 1 ≤ A * A := by nlinarith
  have hlo := h.lo; have hhi := h.hi; have hea := h.ea; have hab := h.ab; have hbc := h.bc
  have le1 := h.le1; have le2 := h.le2
  have ka := square_err h (by linarith) u1
  have kb := square_err h (by linarith) u2
  have kc := square_err h (by linarith) u3
  rw [abs_le] at ka kb kc
  have d2 : 1 / 100 * dtol.val ≤ dtol.val * dtol.val := mul_le_mul_of_nonneg_right hlo (by linarith)
  have gap : ∀ x y : ℝ, 60 * dtol.val ≤ x → x + dtol.val / 2 ≤ y → x * x + 60 * (dtol.val * dtol.val) ≤ y * y := by
    intro x y hx hy
    have := mul_le_mul (show dtol.val / 2 ≤ y - x by linarith) (show 120 * dtol.val ≤ x + y by linarith) (by linarith)
      (by linarith)
    linarith
  have g0 : (60 * dtol.val) * (60 * dtol.val) ≤ a.val * a.val := mul_le_mul hea hea (by linarith) (by linarith)
  have sub : ∀ x y : RNum ρ, x.val ≤ 2 * (A * A) → y.val + dtol.val / 4 + ε.val ≤ x.val → 0 ≤ y.val → y.val < (x - ε).val := by
    intro x y hx hy hy0
    have k := fl_err h (x := x.val - ε.val) (B := 2 * (A * A)) (by linarith) (by rw [abs_of_nonneg (by linarith)]; linarith)
    have hu := h.Au
    have e : r ^ 2 * (2 * (A * A)) = 2 * (A * (A * r ^ 2)) := by ring
    rw [e, abs_le] at k
    rw [RNum.val_sub]
    linarith [k.1]
  have mA : ∀ x : ℝ, 0 ≤ x → x ≤ A → x * x ≤ A * A := fun x h0 hx => mul_le_mul hx hx h0 (by linarith)
  have a1 := mA a.val (by linarith) u1
  have b1 := mA b.val (by linarith) u2
  have c1 := mA c.val (by linarith) u3
  refine ⟨h0, ?_, ?_, ?_⟩
  · have := sub (a * a) 0 (by linarith [ka.2]) (by rw [RNum.val_zero]; linarith [ka.1]) (by rw [RNum.val_zero])
    rwa [RNum.val_zero] at this
  · rcases hab with e | e
    · exact Or.inl (by rw [e])
    · have g1 := gap a.val b.val hea e
      exact Or.inr (sub _ _ (by linarith [kb.2]) (by linarith [ka.2, kb.1]) (by linarith [ka.1]))
  · have g0' : a.val * a.val ≤ b.val * b.val := mul_le_mul le1 le1 (by linarith) (by linarith)
    rcases hbc with ⟨e, e'⟩ | e
    · exact Or.inl ⟨by rw [e], by rw [e']⟩
    · have g2 := gap b.val c.val (by linarith) e
      exact Or.inr (sub _ _ (by linarith [kc.2]) (by linarith [kb.2, kc.1]) (by linarith [kb.1]))

/-- the reduction changes nothing but the stored coordinates. -/
theorem niggli_box (h : BoxBounds a b c dtol r A) (rd : Reducer (RNum ρ)) (st : Structure (RNum ρ))
    (hl : st.lattice = rbox a b c) : rd.niggliReduce st tol1em5 = .ret (rebuild rd st (rbox a b c)) := by
  obtain ⟨ε, e, h0, h1⟩ := box_eps h
  unfold niggliReduce
  have ev : st.volume = a * (b * c) := by unfold Structure.volume; rw [hl, rbox_det]
  have em : st.metricTensor = rbox (a * a) (b * b) (c * c) := by
    unfold Structure.metricTensor; rw [hl, rbox_transpose, rbox_mul]
  rw [ev, em, e, nigLoop_box (box_apart h h0 h1) 99, Outcome.ret_bind, hl, rbox_mul_one]

/-- squares of different edges are different. -/
theorem shape_squares (h : BoxBounds a b c dtol r A) {bt : BravaisType} {sys : LatticeSystem} {ch : ℕ} (hs : BoxShape a b c bt sys ch) :
    BoxShape (a * a) (b * b) (c * c) bt sys ch := by
  obtain ⟨ε, -, h0, h1⟩ := box_eps h
  have k := box_apart h h0 h1
  have hlo := h.lo
  obtain ⟨l1, l2, l3⟩ := h.lower
  obtain ⟨u1, u2, u3⟩ := h.upper
  have hA := h.A1
  have hhi := h.hi
  have hea := h.ea
  have le1 := h.le1
  have ka := square_err h (by linarith) u1
  have kb := square_err h (by linarith) u2
  have kc := square_err h (by linarith) u3
  rw [abs_le] at ka kb kc
  have gap : ∀ x y : ℝ, 60 * dtol.val ≤ x → x + dtol.val / 2 ≤ y → x * x + 60 * (dtol.val * dtol.val) ≤ y * y := by
    intro x y hx hy
    have := mul_le_mul (show dtol.val / 2 ≤ y - x by linarith) (show 120 * dtol.val ≤ x + y by linarith) (by linarith)
      (by linarith)
    linarith
  have d2 : 1 / 100 * dtol.val ≤ dtol.val * dtol.val := mul_le_mul_of_nonneg_right hlo (by linarith)
  have n1 : a ≠ b → a * a ≠ b * b := by
    intro hab e
    have g := gap a.val b.val hea (h.ab.resolve_left hab)
    rw [e] at ka
    linarith [ka.1, kb.2, kb.1, ka.2]
  have n2 : b ≠ c → b * b ≠ c * c := by
    intro hab e
    have g := gap b.val c.val (by linarith) (h.bc.resolve_left fun x => hab x.2)
    rw [e] at kb
    linarith [kb.1, kc.2, kc.1, kb.2]
  cases hs with
  | cubic h1 h2 => exact .cubic (by rw [h1]) (by rw [h2])
  | tetragonal h1 h2 => exact .tetragonal (by rw [h1]) (n2 h2)
  | orthorhombic h1 h2 => exact .orthorhombic (n1 h1) (n2 h2)

theorem conv_box (h : BoxBounds a b c dtol r A) {bt : BravaisType} {sys : LatticeSystem} {ch : ℕ} (hs : BoxShape a b c bt sys ch)
    (st : Structure (RNum ρ)) (hl : st.lattice = rbox a b c) : conventionalTransformationMatrix st = .ret (1, ch) := by
  obtain ⟨ε, e, h0, h1⟩ := box_eps h
  unfold conventionalTransformationMatrix getLatticeCharacter
  have ev : st.volume = a * (b * c) := by unfold Structure.volume; rw [hl, rbox_det]
  have k : ∀ x : RNum ρ, 0 * x = 0 := RNum.zero_mul'
  have c1 : (rbox a b c).col0.normSq = a * a := by
    simp only [Mat3.col0, rbox, Vec3.normSq, Vec3.dot, RNum.zero_mul', RNum.mul_zero', RNum.add_zero', RNum.zero_add']
  have c2 : (rbox a b c).col1.normSq = b * b := by
    simp only [Mat3.col1, rbox, Vec3.normSq, Vec3.dot, RNum.zero_mul', RNum.mul_zero', RNum.add_zero', RNum.zero_add']
  have c3 : (rbox a b c).col2.normSq = c * c := by
    simp only [Mat3.col2, rbox, Vec3.normSq, Vec3.dot, RNum.zero_mul', RNum.mul_zero', RNum.add_zero', RNum.zero_add']
  have d1 : (rbox a b c).col1.dot (rbox a b c).col2 = 0 := by
    simp only [Mat3.col1, Mat3.col2, rbox, Vec3.dot, RNum.zero_mul', RNum.mul_zero', RNum.add_zero', RNum.zero_add']
  have d2 : (rbox a b c).col0.dot (rbox a b c).col2 = 0 := by
    simp only [Mat3.col0, Mat3.col2, rbox, Vec3.dot, RNum.zero_mul', RNum.mul_zero', RNum.add_zero', RNum.zero_add']
  have d3 : (rbox a b c).col0.dot (rbox a b c).col1 = 0 := by
    simp only [Mat3.col0, Mat3.col1, rbox, Vec3.dot, RNum.zero_mul', RNum.mul_zero', RNum.add_zero', RNum.zero_add']
  simp only []
  rw [ev, e, hl, c1, c2, c3, d1, d2, d3, character_box (box_apart h h0 h1) (shape_squares h hs), Outcome.ret_bind]
  have hm : amapGet? latticeCharToConvTrans ch = some ⟨1, 0, 0, 0, 1, 0, 0, 0, 1⟩ := by cases hs <;> decide
  rw [hm]
  simp only [Outcome.ofOption, Outcome.ret_bind]
  congr 2
  show (castRot _ : Mat3 (RNum ρ)).transpose = _
  have o : (lit (Int8.toInt 1) : RNum ρ) = 1 := RNum.lit_one
  have z : (lit (Int8.toInt 0) : RNum ρ) = 0 := RNum.lit_zero
  simp only [castRot, Mat3.map, Mat3.transpose, o, z]
  rfl

theorem prim_box {bt : BravaisType} {sys : LatticeSystem} {ch : ℕ} (hs : BoxShape a b c bt sys ch) :
    primitiveTransformationMatrix (K := RNum ρ) ch = .ret (1, bt) := by
  have h1 : amapGet? latticeCharToBravais ch = some bt := by cases hs <;> decide
  unfold primitiveTransformationMatrix
  rw [h1]
  simp only [Outcome.ofOption, Outcome.ret_bind]
  have h2 : BravaisType.centering? bt = some .P := by cases hs <;> decide
  rw [h2]
  simp only [Outcome.ret_bind]
  have h3 : amapGet? centeringToPrimTrans .P = some (⟨1, 0, 0, 0, 1, 0, 0, 0, 1⟩, 1) := by decide
  rw [h3]
  simp only [Outcome.ret_bind]
  congr 2
  simp only [primMatrix, Mat3.map, Mat3.divS, RNum.lit_one, RNum.lit_zero, RNum.div_one']
  rfl

end CrystSymm
