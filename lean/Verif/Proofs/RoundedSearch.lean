import Verif.Spec.Relative
import Verif.Props.RoundedOps
import Verif.Props.OpSearch

/-! # The search for operations in rounded arithmetic -/

set_option autoImplicit false
set_option linter.unusedSectionVars false

namespace CrystSymm

open Spec SymmetryAnalyzer

/-! ## Accuracy -/

/-- the relative rounding error of binary64. -/
theorem relative_binary64 : Relative binary64 ((1 / 2 ^ 26) ^ 2) := by
  intro x
  change |fl64 x - x| ≤ _
  by_cases hx : x = 0
  · subst hx; rw [fl64_zero]; norm_num
  have hu := ulp64_pos x
  have hm : (1 : ℝ) ≤ max 1 |x| := le_max_left _ _
  have hu' : ulp64 x ≤ 1 / 2 ^ 52 * max 1 |x| := by
    unfold ulp64
    have e1 : (2 : ℝ) ^ (exponent64 x - 52) = 2 ^ exponent64 x * (1 / 2 ^ 52) := by
      rw [zpow_sub₀ (by norm_num)]; norm_num [div_eq_mul_inv]
    have h2 : (2 : ℝ) ^ exponent64 x ≤ max 1 |x| := by
      unfold exponent64
      rcases max_cases (Int.log 2 |x|) (-1022) with ⟨h, -⟩ | ⟨h, -⟩ <;> rw [h]
      · exact (Int.zpow_log_le_self (by norm_num) (abs_pos.2 hx)).trans (le_max_right _ _)
      · exact le_trans (zpow_le_one_of_nonpos₀ (by norm_num) (by norm_num)) hm
    rw [e1, mul_comm]
    exact mul_le_mul_of_nonneg_left h2 (by norm_num)
  have hn := nearestEven_err (x / ulp64 x)
  have e : fl64 x - x = (nearestEven (x / ulp64 x) - x / ulp64 x) * ulp64 x := by
    unfold fl64; field_simp
  rw [e, abs_mul, abs_of_pos hu]
  calc _ ≤ 1 / 2 * (1 / 2 ^ 52 * max 1 |x| : ℝ) := mul_le_mul hn hu' hu.le (by norm_num)
    _ ≤ (1 / 2 ^ 26) ^ 2 * max 1 |x| := by
      rw [show ((1 / 2 ^ 26) ^ 2 : ℝ) = 1 / 2 ^ 52 by norm_num]
      have : (0 : ℝ) ≤ 1 / 2 ^ 52 * max 1 |x| := by positivity
      linarith

section
variable {ρ : Rounding} {ε : ℝ}

theorem relative_nonneg (h : Relative ρ ε) : 0 ≤ ε := by
  have := (abs_nonneg _).trans (h 0)
  simpa using this

theorem rel_le (h : Relative ρ ε) {x B : ℝ} (hB : 1 ≤ B) (hx : |x| ≤ B) : |ρ.fl x - x| ≤ ε * B :=
  (h x).trans (mul_le_mul_of_nonneg_left (max_le hB hx) (relative_nonneg h))

theorem accurate_of_relative (h : Relative ρ ε) : Accurate ρ (1024 * ε) := fun x hx => by
  have := rel_le h (by norm_num) hx
  linarith

theorem RNum.val_sqrt (a : RNum ρ) : (FTrans.sqrt a : RNum ρ).val = ρ.fl (Real.sqrt a.val) := rfl

/-! ## Lengths -/

theorem abs_mul_le {a b A B : ℝ} (ha : |a| ≤ A) (hb : |b| ≤ B) : |a * b| ≤ A * B := by
  rw [abs_mul]
  exact mul_le_mul ha hb (abs_nonneg _) ((abs_nonneg _).trans ha)

/-- a sum of three rounded products. -/
theorem dot_close (hε : Relative ρ ε) (h1 : ε ≤ 1 / 1000) {C : ℝ} (hC : 1 ≤ C) {p1 p2 p3 q1 q2 q3 : RNum ρ}
    (a1 : |p1.val * q1.val| ≤ C) (a2 : |p2.val * q2.val| ≤ C) (a3 : |p3.val * q3.val| ≤ C) :
    |(p1 * q1 + p2 * q2 + p3 * q3).val - (p1.val * q1.val + p2.val * q2.val + p3.val * q3.val)| ≤ 10 * (ε * C) ∧
      |(p1 * q1 + p2 * q2 + p3 * q3).val| ≤ 4 * C := by
  have h0 := relative_nonneg hε
  have b1 := rel_le hε hC a1
  have b2 := rel_le hε hC a2
  have b3 := rel_le hε hC a3
  rw [← RNum.val_mul] at b1 b2 b3
  have hq : ε * C ≤ C / 1000 := by
    have := mul_le_mul_of_nonneg_right h1 (by linarith : (0 : ℝ) ≤ C)
    linarith
  have hq0 : 0 ≤ ε * C := mul_nonneg h0 (by linarith)
  generalize p1 * q1 = s1 at *
  generalize p2 * q2 = s2 at *
  generalize p3 * q3 = s3 at *
  generalize p1.val * q1.val = t1 at *
  generalize p2.val * q2.val = t2 at *
  generalize p3.val * q3.val = t3 at *
  rw [abs_le] at a1 a2 a3 b1 b2 b3
  have c1 := rel_le hε (x := s1.val + s2.val) (B := 3 * C) (by linarith) (by rw [abs_le]; constructor <;> linarith)
  rw [← RNum.val_add, abs_le] at c1
  have c2 := rel_le hε (x := (s1 + s2).val + s3.val) (B := 4 * C) (by linarith)
    (by rw [abs_le]; constructor <;> linarith)
  rw [← RNum.val_add, abs_le] at c2
  constructor <;> rw [abs_le] <;> constructor <;> linarith

theorem abs_sqrt_sub (a b : ℝ) (hb : 0 ≤ b) : |Real.sqrt a - Real.sqrt b| ≤ Real.sqrt |a - b| := by
  have key : ∀ {x y : ℝ}, 0 ≤ y → x ≤ y + |a - b| → Real.sqrt x ≤ Real.sqrt y + Real.sqrt |a - b| := by
    intro x y hy h
    rw [Real.sqrt_le_left (by positivity)]
    have h1 := Real.sq_sqrt hy
    have h2 := Real.sq_sqrt (abs_nonneg (a - b))
    have h3 := mul_nonneg (Real.sqrt_nonneg y) (Real.sqrt_nonneg |a - b|)
    nlinarith
  rw [abs_le]
  constructor
  · rcases le_total 0 a with ha | ha
    · have := key (x := b) ha (by linarith [neg_abs_le (a - b)])
      linarith
    · rw [Real.sqrt_eq_zero_of_nonpos ha]
      have : Real.sqrt b ≤ Real.sqrt |a - b| := Real.sqrt_le_sqrt (by
        rw [abs_of_nonpos (by linarith)]; linarith)
      linarith
  · have := key (x := a) hb (by linarith [le_abs_self (a - b)])
    linarith

/-- the length of a vector of representable numbers. -/
theorem length_close {r : ℝ} (hε : Relative ρ (r ^ 2)) (h0 : 0 ≤ r) (h1 : r ≤ 1 / 2 ^ 20) {A : ℝ} (hA : 1 ≤ A)
    {v : Vec3 (RNum ρ)} (hx : |v.x.val| ≤ 7 * A) (hy : |v.y.val| ≤ 7 * A) (hz : |v.z.val| ≤ 7 * A) :
    |v.mag.val - (valV v).mag| ≤ 25 * A * r := by
  have hr2 : r ^ 2 ≤ 1 / 1000 := by
    have : r ^ 2 ≤ (1 / 2 ^ 20) ^ 2 := pow_le_pow_left₀ h0 h1 2
    exact this.trans (by norm_num)
  have hsq : ∀ {a : ℝ}, |a| ≤ 7 * A → |a * a| ≤ 49 * A ^ 2 := fun h => by
    have := abs_mul_le h h
    linarith
  have hC : (1 : ℝ) ≤ 49 * A ^ 2 := by nlinarith
  obtain ⟨d1, d2⟩ := dot_close hε hr2 hC (hsq hx) (hsq hy) (hsq hz)
  change |v.normSq.val - _| ≤ _ at d1
  change |v.normSq.val| ≤ _ at d2
  have e : v.mag.val = ρ.fl (Real.sqrt v.normSq.val) := rfl
  have eR : (valV v).mag = Real.sqrt (v.x.val * v.x.val + v.y.val * v.y.val + v.z.val * v.z.val) := rfl
  have s1 := abs_sqrt_sub v.normSq.val (v.x.val * v.x.val + v.y.val * v.y.val + v.z.val * v.z.val)
    (by nlinarith [mul_self_nonneg v.x.val, mul_self_nonneg v.y.val, mul_self_nonneg v.z.val])
  have s2 : Real.sqrt |v.normSq.val - (v.x.val * v.x.val + v.y.val * v.y.val + v.z.val * v.z.val)| ≤ 23 * A * r := by
    rw [Real.sqrt_le_left (by positivity)]
    refine d1.trans ?_
    nlinarith [mul_nonneg (sq_nonneg A) (sq_nonneg r)]
  have s3 : Real.sqrt v.normSq.val ≤ 14 * A := by
    rw [Real.sqrt_le_left (by linarith)]
    have := (le_abs_self _).trans d2
    nlinarith
  have s4 := rel_le hε (x := Real.sqrt v.normSq.val) (B := 14 * A) (by linarith)
    (by rw [abs_of_nonneg (Real.sqrt_nonneg _)]; exact s3)
  have s5 : r ^ 2 * (14 * A) ≤ 2 * A * r := by
    have : r * (A * r) ≤ 1 / 2 ^ 20 * (A * r) := mul_le_mul_of_nonneg_right h1 (by positivity)
    have h3 : 0 ≤ A * r := by positivity
    have h4 : r ^ 2 * (14 * A) = 14 * (r * (A * r)) := by ring
    rw [h4]
    norm_num at this ⊢
    linarith
  rw [e, eR]
  have s6 := s1.trans s2
  have s7 := s4.trans s5
  rw [abs_le] at *
  constructor <;> linarith [s6.1, s6.2, s7.1, s7.2]

theorem mag_le_sum (v : Vec3 ℝ) : v.mag ≤ |v.x| + |v.y| + |v.z| := by
  rw [mag_le_iff (by positivity)]
  unfold lenSq
  have h1 := sq_abs v.x
  have h2 := sq_abs v.y
  have h3 := sq_abs v.z
  have h4 := mul_nonneg (abs_nonneg v.x) (abs_nonneg v.y)
  have h5 := mul_nonneg (abs_nonneg v.x) (abs_nonneg v.z)
  have h6 := mul_nonneg (abs_nonneg v.y) (abs_nonneg v.z)
  nlinarith

theorem mag_close_of {u v : Vec3 ℝ} {c : ℝ} (hx : |u.x - v.x| ≤ c) (hy : |u.y - v.y| ≤ c) (hz : |u.z - v.z| ≤ c) :
    |u.mag - v.mag| ≤ 3 * c := by
  have h1 := (mag_le_sum (u - v)).trans (add_le_add (add_le_add hx hy) hz)
  have h2 := mag_add_le (u - v) v
  have h3 := mag_sub_le u (u - v)
  have e1 : u - v + v = u := by ext <;> simp
  have e2 : u - (u - v) = v := by ext <;> simp
  rw [e1] at h2
  rw [e2] at h3
  rw [abs_le]
  constructor <;> linarith

/-- the entries of the matrix are at most `A` in magnitude. -/
def EntriesWithin {ρ : Rounding} (L : Mat3 (RNum ρ)) (A : ℝ) : Prop := ∀ e ∈ L.toListCM, |e.val| ≤ A

theorem EntriesWithin.all {L : Mat3 (RNum ρ)} {A : ℝ} (h : EntriesWithin L A) :
    (|L.m11.val| ≤ A ∧ |L.m12.val| ≤ A ∧ |L.m13.val| ≤ A) ∧ (|L.m21.val| ≤ A ∧ |L.m22.val| ≤ A ∧ |L.m23.val| ≤ A) ∧
      |L.m31.val| ≤ A ∧ |L.m32.val| ≤ A ∧ |L.m33.val| ≤ A := by
  simp only [EntriesWithin, Mat3.toListCM, List.mem_cons, List.not_mem_nil, or_false, forall_eq_or_imp, forall_eq] at h
  tauto

/-- all components are at most `c` in magnitude. -/
def CompsLe (v : Vec3 ℝ) (c : ℝ) : Prop := |v.x| ≤ c ∧ |v.y| ≤ c ∧ |v.z| ≤ c

/-- the length of the image of a vector, compared with the exact length of the image of a close vector. -/
theorem image_close {r : ℝ} (hε : Relative ρ (r ^ 2)) (h0 : 0 ≤ r) (h1 : r ≤ 1 / 2 ^ 20) {A : ℝ} (hA : 1 ≤ A)
    {L : Mat3 (RNum ρ)} (hL : EntriesWithin L A) {n : Vec3 (RNum ρ)} (hn : CompsLe (valV n) (3 / 2)) {e : Vec3 ℝ}
    (he : CompsLe (valV n - e) (8192 * r ^ 2)) : |(L * n).mag.val - (valM L * e).mag| ≤ 26 * A * r := by
  have hr2 : r ^ 2 ≤ 1 / 1000 := by
    have : r ^ 2 ≤ (1 / 2 ^ 20) ^ 2 := pow_le_pow_left₀ h0 h1 2
    exact this.trans (by norm_num)
  obtain ⟨⟨m11, m12, m13⟩, ⟨m21, m22, m23⟩, m31, m32, m33⟩ := hL.all
  obtain ⟨n1, n2, n3⟩ := hn
  obtain ⟨e1, e2, e3⟩ := he
  simp only [valV, Vec3.map, Vec3.sub_x, Vec3.sub_y, Vec3.sub_z] at n1 n2 n3 e1 e2 e3
  have hC : (1 : ℝ) ≤ A * (3 / 2) := by linarith
  obtain ⟨x1, x2⟩ := dot_close hε hr2 hC (abs_mul_le m11 n1) (abs_mul_le m12 n2) (abs_mul_le m13 n3)
  obtain ⟨y1, y2⟩ := dot_close hε hr2 hC (abs_mul_le m21 n1) (abs_mul_le m22 n2) (abs_mul_le m23 n3)
  obtain ⟨z1, z2⟩ := dot_close hε hr2 hC (abs_mul_le m31 n1) (abs_mul_le m32 n2) (abs_mul_le m33 n3)
  have hl := length_close (v := L * n) hε h0 h1 hA (x2.trans (by linarith)) (y2.trans (by linarith))
    (z2.trans (by linarith))
  have hq : r ^ 2 * A ≤ 1 / 2 ^ 20 * (A * r) := by
    have : r * (A * r) ≤ 1 / 2 ^ 20 * (A * r) := mul_le_mul_of_nonneg_right h1 (by positivity)
    linarith [show r ^ 2 * A = r * (A * r) by ring]
  have hq0 : 0 ≤ r ^ 2 * A := by positivity
  have row : ∀ {a b c : RNum ρ}, |a.val| ≤ A → |b.val| ≤ A → |c.val| ≤ A →
      |(a * n.x + b * n.y + c * n.z).val - (a.val * n.x.val + b.val * n.y.val + c.val * n.z.val)| ≤
        10 * (r ^ 2 * (A * (3 / 2))) →
      |(a * n.x + b * n.y + c * n.z).val - (a.val * e.x + b.val * e.y + c.val * e.z)| ≤ 24591 * (r ^ 2 * A) := by
    intro a b c ha hb hc h
    have k1 := abs_mul_le ha e1
    have k2 := abs_mul_le hb e2
    have k3 := abs_mul_le hc e3
    rw [mul_sub] at k1 k2 k3
    rw [abs_le] at *
    constructor <;> linarith [h.1, h.2, k1.1, k1.2, k2.1, k2.2, k3.1, k3.2]
  have hm := mag_close_of (u := valV (L * n)) (v := valM L * e) (row m11 m12 m13 x1) (row m21 m22 m23 y1)
    (row m31 m32 m33 z1)
  have hAr : 0 ≤ A * r := by positivity
  norm_num at hq
  rw [abs_le] at *
  constructor <;> linarith [hl.1, hl.2, hm.1, hm.2]

/-! ## Tolerances -/

/-- what the search needs of the arithmetic, the lattice and the tolerance: the relative rounding error is at most `r²`,
no entry is larger than `A`, the tolerance is at least `4000 A r` and `A / 10⁶`, and at most a third of every edge. -/
structure SearchBounds (L : Mat3 (RNum ρ)) (dtol : RNum ρ) (r A : ℝ) : Prop where
  rel : Relative ρ (r ^ 2)
  r0 : 0 ≤ r
  r1 : r ≤ 1 / 2 ^ 20
  A1 : 1 ≤ A
  entries : EntriesWithin L A
  tol : 4000 * A * r ≤ dtol.val
  res : A ≤ 1000000 * dtol.val
  edges : ∀ v, v = (valM L).col0 ∨ v = (valM L).col1 ∨ v = (valM L).col2 → (3 * dtol.val) ^ 2 ≤ lenSq v

variable {L : Mat3 (RNum ρ)} {dtol : RNum ρ} {r A : ℝ}

theorem SearchBounds.pos (h : SearchBounds L dtol r A) : 0 < dtol.val := by
  have := h.res; have := h.A1; linarith

theorem SearchBounds.r2 (h : SearchBounds L dtol r A) : r ^ 2 ≤ 1 / 2 ^ 40 := by
  have : r ^ 2 ≤ (1 / 2 ^ 20) ^ 2 := pow_le_pow_left₀ h.r0 h.r1 2
  exact this.trans (by norm_num)

theorem SearchBounds.Ar (h : SearchBounds L dtol r A) : A * r ≤ dtol.val / 4000 := by
  have := h.tol; linarith

theorem SearchBounds.Ar2 (h : SearchBounds L dtol r A) : A * r ^ 2 ≤ dtol.val / 4000 / 2 ^ 20 := by
  have h1 := h.Ar
  have h0 := h.A1
  have hr := h.r0
  have : A * r * r ≤ A * r * (1 / 2 ^ 20) := mul_le_mul_of_nonneg_left h.r1 (by positivity)
  have e : A * r ^ 2 = A * r * r := by ring
  rw [e]
  linarith

theorem SearchBounds.col (h : SearchBounds L dtol r A) {v : Vec3 ℝ}
    (hv : v = (valM L).col0 ∨ v = (valM L).col1 ∨ v = (valM L).col2) : 3 * dtol.val ≤ v.mag ∧ v.mag ≤ 2 * A := by
  have hp := h.pos
  have hA := h.A1
  have h1 := h.edges v hv
  have hm := mag_nonneg v
  have hs : v.mag * v.mag = lenSq v := mag_mul_self v
  refine ⟨by nlinarith, ?_⟩
  rw [mag_le_iff (by linarith)]
  obtain ⟨⟨m11, m12, m13⟩, ⟨m21, m22, m23⟩, m31, m32, m33⟩ := h.entries.all
  have key : ∀ {a b c : ℝ}, |a| ≤ A → |b| ≤ A → |c| ≤ A → a ^ 2 + b ^ 2 + c ^ 2 ≤ (2 * A) ^ 2 := by
    intro a b c ha hb hc
    have h1 := sq_le_sq' (abs_le.1 ha).1 (abs_le.1 ha).2
    have h2 := sq_le_sq' (abs_le.1 hb).1 (abs_le.1 hb).2
    have h3 := sq_le_sq' (abs_le.1 hc).1 (abs_le.1 hc).2
    nlinarith
  rcases hv with rfl | rfl | rfl
  · exact le_trans (le_of_eq (by simp [lenSq, Mat3.col0, valM, Mat3.map]; ring)) (key m11 m21 m31)
  · exact le_trans (le_of_eq (by simp [lenSq, Mat3.col1, valM, Mat3.map]; ring)) (key m12 m22 m32)
  · exact le_trans (le_of_eq (by simp [lenSq, Mat3.col2, valM, Mat3.map]; ring)) (key m13 m23 m33)

/-- the image of a small vector is short. -/
theorem SearchBounds.short (h : SearchBounds L dtol r A) {e : Vec3 ℝ} {c : ℝ} (he : CompsLe e c) :
    (valM L * e).mag ≤ 6 * A * c := by
  refine (mag_mulVec_le _ e).trans ?_
  have hA := h.A1
  have c0 := (h.col (v := (valM L).col0) (Or.inl rfl)).2
  have c1 := (h.col (v := (valM L).col1) (Or.inr (Or.inl rfl))).2
  have c2 := (h.col (v := (valM L).col2) (Or.inr (Or.inr rfl))).2
  have a0 := mul_le_mul he.1 c0 (mag_nonneg _) ((abs_nonneg _).trans he.1)
  have a1 := mul_le_mul he.2.1 c1 (mag_nonneg _) ((abs_nonneg _).trans he.2.1)
  have a2 := mul_le_mul he.2.2 c2 (mag_nonneg _) ((abs_nonneg _).trans he.2.2)
  linarith

/-- one computed tolerance. -/
theorem SearchBounds.tol_close (h : SearchBounds L dtol r A) {v : Vec3 (RNum ρ)} (hx : |v.x.val| ≤ A)
    (hy : |v.y.val| ≤ A) (hz : |v.z.val| ≤ A)
    (hv : valV v = (valM L).col0 ∨ valV v = (valM L).col1 ∨ valV v = (valM L).col2) :
    99 / 100 * (dtol.val / (valV v).mag) ≤ (dtol / v.mag).val ∧
      (dtol / v.mag).val ≤ 101 / 100 * (dtol.val / (valV v).mag) := by
  have hA := h.A1
  have hp := h.pos
  have hl := length_close h.rel h.r0 h.r1 hA (v := v) (by linarith) (by linarith) (by linarith)
  obtain ⟨h3, h4⟩ := h.col hv
  have h5 : |v.mag.val - (valV v).mag| ≤ 1 / 160 * dtol.val := hl.trans (by linarith [h.Ar])
  rw [RNum.val_div]
  generalize v.mag.val = m' at *
  generalize (valV v).mag = m at *
  have hm : 0 < m := by linarith
  rw [abs_le] at h5
  have hm' : 0 < m' := by linarith
  have hq : 1 / 2000000 ≤ dtol.val / m := by
    rw [div_le_div_iff₀ (by norm_num) hm]
    linarith [h.res]
  have hq1 : dtol.val / m ≤ 1 / 3 := by
    rw [div_le_div_iff₀ hm (by norm_num)]
    linarith
  have b1 : 199 / 200 * (dtol.val / m) ≤ dtol.val / m' := by
    rw [← mul_div_assoc, div_le_div_iff₀ hm hm']
    nlinarith
  have b2 : dtol.val / m' ≤ 201 / 200 * (dtol.val / m) := by
    rw [← mul_div_assoc, div_le_div_iff₀ hm' hm]
    nlinarith
  have b3 := rel_le h.rel (x := dtol.val / m') (B := 1) le_rfl (by rw [abs_of_nonneg (by positivity)]; linarith)
  have h2 := h.r2
  rw [mul_one, abs_le] at b3
  norm_num at h2
  constructor <;> linarith

/-- the computed tolerances. -/
theorem SearchBounds.tols (h : SearchBounds L dtol r A) :
    let t := Structure.fracTols L dtol
    (0.49 * (dtol.val / A) ≤ t.x.val ∧ t.x.val ≤ 2 / 5) ∧ (0.49 * (dtol.val / A) ≤ t.y.val ∧ t.y.val ≤ 2 / 5) ∧
      (0.49 * (dtol.val / A) ≤ t.z.val ∧ t.z.val ≤ 2 / 5) := by
  obtain ⟨⟨m11, m12, m13⟩, ⟨m21, m22, m23⟩, m31, m32, m33⟩ := h.entries.all
  have hA := h.A1
  have hp := h.pos
  have key : ∀ {m t : ℝ}, 3 * dtol.val ≤ m ∧ m ≤ 2 * A → 99 / 100 * (dtol.val / m) ≤ t ∧ t ≤ 101 / 100 * (dtol.val / m) →
      0.49 * (dtol.val / A) ≤ t ∧ t ≤ 2 / 5 := by
    intro m t ⟨h1, h2⟩ ⟨h3, h4⟩
    have hm : 0 < m := by linarith
    have e1 : dtol.val / m ≤ 1 / 3 := by rw [div_le_div_iff₀ hm (by norm_num)]; linarith
    have e2 : 1 / 2 * (dtol.val / A) ≤ dtol.val / m := by
      rw [← mul_div_assoc, div_le_div_iff₀ (by linarith) hm]
      nlinarith
    have e3 : 0 < dtol.val / A := by positivity
    constructor <;> norm_num <;> linarith
  exact ⟨key (h.col (Or.inl rfl)) (h.tol_close (v := L.col0) m11 m21 m31 (Or.inl rfl)),
    key (h.col (Or.inr (Or.inl rfl))) (h.tol_close (v := L.col1) m12 m22 m32 (Or.inr (Or.inl rfl))),
    key (h.col (Or.inr (Or.inr rfl))) (h.tol_close (v := L.col2) m13 m23 m33 (Or.inr (Or.inr rfl)))⟩

theorem SearchBounds.tolOverA (h : SearchBounds L dtol r A) : 1 / 1000000 ≤ dtol.val / A := by
  have hA := h.A1
  rw [div_le_div_iff₀ (by norm_num) (by linarith)]
  linarith [h.res]

/-! ## Coincidence -/

theorem SearchBounds.double (h : SearchBounds L dtol r A) :
    |(dtol * lit 2 : RNum ρ).val - 2 * dtol.val| ≤ dtol.val / 1000 := by
  have hp := h.pos
  have h2 := h.r2
  have hA := h.A1
  have e : (dtol * lit 2 : RNum ρ).val = ρ.fl (dtol.val * ρ.fl 2) := by
    rw [RNum.val_mul]
    have : (lit 2 : RNum ρ).val = ρ.fl 2 := congrArg ρ.fl (by norm_num)
    rw [this]
  have b1 := rel_le h.rel (x := 2) (B := 2) (by norm_num) (by norm_num)
  have b2 : |dtol.val * ρ.fl 2 - 2 * dtol.val| ≤ dtol.val * (r ^ 2 * 2) := by
    have := abs_mul_le (abs_of_pos hp).le b1
    rwa [mul_sub, mul_comm dtol.val 2] at this
  have b3 := h.rel (dtol.val * ρ.fl 2)
  have hr := h.r0
  have b4 : r ^ 2 ≤ dtol.val / 4000 := by
    have := h.Ar2
    have h3 : 1 * r ^ 2 ≤ A * r ^ 2 := mul_le_mul_of_nonneg_right hA (sq_nonneg r)
    norm_num at this
    linarith
  have b5 : |dtol.val * ρ.fl 2| ≤ 3 * dtol.val := by
    have : dtol.val * (r ^ 2 * 2) ≤ dtol.val * 1 := by
      apply mul_le_mul_of_nonneg_left _ hp.le
      norm_num at h2
      linarith
    rw [abs_le] at *
    constructor <;> linarith [b2.1, b2.2]
  have b6 : r ^ 2 * max 1 |dtol.val * ρ.fl 2| ≤ dtol.val / 4000 + r ^ 2 * (3 * dtol.val) := by
    have : max 1 |dtol.val * ρ.fl 2| ≤ 1 + 3 * dtol.val := max_le (by linarith) (by linarith)
    have := mul_le_mul_of_nonneg_left this (sq_nonneg r)
    linarith
  have b7 : r ^ 2 * dtol.val ≤ 1 / 2 ^ 40 * dtol.val := mul_le_mul_of_nonneg_right h2 hp.le
  norm_num at b7
  rw [e]
  have b8 := b3.trans b6
  rw [abs_le] at *
  constructor <;> linarith [b2.1, b2.2, b8.1, b8.2]

theorem inBucket_rounded {tols : Vec3 (RNum ρ)} {c : Vec3 (RNum ρ)} {k : Vec3 Int} :
    inBucket L tols dtol c k = true ↔
      |(L * normFracVec tols (c - ofIntVec k)).mag.val| ≤ (dtol * lit 2 : RNum ρ).val := by
  unfold inBucket Structure.sitesCoincide
  simp only [decide_eq_true_eq]
  rw [← RNum.val_abs]
  rfl

/-- one component of the normalised difference. -/
theorem norm_diff {δ : ℝ} (hδ : Accurate ρ δ) {tol a b : RNum ρ} (h0 : 0 ≤ tol.val) (h1 : tol.val ≤ 2 / 5) (hd : δ ≤ 1 / 100)
    (ha : |a.val| ≤ 8) (hb : |b.val| ≤ 8) :
    (∃ n : ℤ, |(normComp tol (a - b)).val - (a.val - b.val - n)| ≤ 2 * δ) ∧ |(normComp tol (a - b)).val| ≤ 3 / 2 ∧
      ∀ (n : ℤ) (e : ℝ), a.val - b.val = n + e → |e| + 4 * δ < tol.val →
        |(normComp tol (a - b)).val - e| ≤ 2 * δ := by
  have hd0 := accurate_nonneg hδ
  have k1 := hδ (a.val - b.val) (by rw [abs_le] at *; constructor <;> linarith)
  rw [← RNum.val_sub] at k1
  obtain ⟨e0, ⟨m, hm⟩, he, l0, u0⟩ := normComp_cases hδ tol (a - b) h0 (by linarith)
  rw [abs_le] at k1 he
  refine ⟨⟨-m, ?_⟩, ?_, ?_⟩
  · push_cast
    rw [abs_le]
    constructor <;> linarith
  · rw [abs_le]
    constructor <;> linarith
  · intro n e hab ht
    have hz : m + n = 0 := by
      have he' := abs_le.1 (le_refl |e|)
      have a1 : (-1 : ℝ) < ((m + n : ℤ) : ℝ) := by push_cast; linarith
      have a2 : ((m + n : ℤ) : ℝ) < 1 := by push_cast; linarith
      have b1 : -1 < m + n := by exact_mod_cast a1
      have b2 : m + n < 1 := by exact_mod_cast a2
      omega
    have hz' : (m : ℝ) + n = 0 := by exact_mod_cast hz
    rw [abs_le]
    constructor <;> linarith

theorem SearchBounds.delta (h : SearchBounds L dtol r A) : Accurate ρ (1024 * r ^ 2) ∧ 1024 * r ^ 2 ≤ 1 / 1000000000 := by
  refine ⟨accurate_of_relative h.rel, ?_⟩
  have := h.r2
  norm_num at this
  linarith

/-- the normalised difference of two vectors. -/
theorem norm_vec {δ : ℝ} (hδ : Accurate ρ δ) {tols a b : Vec3 (RNum ρ)} (hx : 0 ≤ tols.x.val ∧ tols.x.val ≤ 2 / 5)
    (hy : 0 ≤ tols.y.val ∧ tols.y.val ≤ 2 / 5) (hz : 0 ≤ tols.z.val ∧ tols.z.val ≤ 2 / 5) (hd : δ ≤ 1 / 100)
    (ha : CompsLe (valV a) 8) (hb : CompsLe (valV b) 8) :
    CompsLe (valV (normFracVec tols (a - b))) (3 / 2) ∧
    (∃ w, IntVec w ∧ CompsLe (valV (normFracVec tols (a - b)) - (valV a - valV b - w)) (2 * δ)) ∧
      ∀ w e : Vec3 ℝ, IntVec w → valV a - valV b = w + e → |e.x| + 4 * δ < tols.x.val → |e.y| + 4 * δ < tols.y.val →
        |e.z| + 4 * δ < tols.z.val → CompsLe (valV (normFracVec tols (a - b)) - e) (2 * δ) := by
  obtain ⟨⟨i, ei⟩, ni, fi⟩ := norm_diff hδ hx.1 hx.2 hd ha.1 hb.1
  obtain ⟨⟨j, ej⟩, nj, fj⟩ := norm_diff hδ hy.1 hy.2 hd ha.2.1 hb.2.1
  obtain ⟨⟨l, el⟩, nl, fl⟩ := norm_diff hδ hz.1 hz.2 hd ha.2.2 hb.2.2
  refine ⟨⟨ni, nj, nl⟩, ⟨⟨i, j, l⟩, ⟨i, j, l, rfl⟩, ei, ej, el⟩, ?_⟩
  rintro _ e ⟨i', j', l', rfl⟩ hab tx ty tz
  exact ⟨fi i' e.x (congrArg Vec3.x hab) tx, fj j' e.y (congrArg Vec3.y hab) ty, fl l' e.z (congrArg Vec3.z hab) tz⟩

theorem CompsLe.mono {v : Vec3 ℝ} {c c' : ℝ} (h : CompsLe v c) (hc : c ≤ c') : CompsLe v c' :=
  ⟨h.1.trans hc, h.2.1.trans hc, h.2.2.trans hc⟩

/-- coinciding means closer than `2.01` tolerances. -/
theorem bucket_sound (h : SearchBounds L dtol r A) {c : Vec3 (RNum ρ)} {k : Vec3 Int} (hc : CompsLe (valV c) 8)
    (hk : CompsLe (valV (ofIntVec k : Vec3 (RNum ρ))) 8)
    (hb : inBucket L (Structure.fracTols L dtol) dtol c k = true) :
    ∃ w, IntVec w ∧ (valM L * (valV c - valV (ofIntVec k : Vec3 (RNum ρ)) - w)).mag ≤ 201 / 100 * dtol.val := by
  rw [inBucket_rounded] at hb
  obtain ⟨hδ, hd⟩ := h.delta
  obtain ⟨⟨x1, x2⟩, ⟨y1, y2⟩, ⟨z1, z2⟩⟩ := h.tols
  have hq : 0 ≤ dtol.val / A := by have := h.tolOverA; norm_num at this; linarith
  norm_num at x1 y1 z1
  generalize Structure.fracTols L dtol = tols at *
  obtain ⟨hn, ⟨w, hw, he⟩, -⟩ := norm_vec hδ ⟨by linarith, x2⟩ ⟨by linarith, y2⟩ ⟨by linarith, z2⟩ (by linarith) hc hk
  refine ⟨w, hw, ?_⟩
  have hi := image_close h.rel h.r0 h.r1 h.A1 h.entries hn (he.mono (by nlinarith [sq_nonneg r]))
  have h2 := h.double
  have h3 := h.Ar
  have h4 := h.pos
  rw [abs_le] at hb hi h2
  linarith [hb.2, hi.1, h2.2]

/-- what is closer than a tolerance coincides. -/
theorem bucket_complete (h : SearchBounds L dtol r A) {c : Vec3 (RNum ρ)} {k : Vec3 Int} (hc : CompsLe (valV c) 8)
    (hk : CompsLe (valV (ofIntVec k : Vec3 (RNum ρ))) 8) {w e : Vec3 ℝ} {ν : ℝ} (hw : IntVec w) (he : CompsLe e ν)
    (hν : 6 * A * ν ≤ dtol.val) (hce : valV c - valV (ofIntVec k : Vec3 (RNum ρ)) = w + e) :
    inBucket L (Structure.fracTols L dtol) dtol c k = true := by
  rw [inBucket_rounded]
  obtain ⟨hδ, hd⟩ := h.delta
  obtain ⟨⟨x1, x2⟩, ⟨y1, y2⟩, ⟨z1, z2⟩⟩ := h.tols
  have hA := h.A1
  have hq := h.tolOverA
  have hνq : ν ≤ 1 / 6 * (dtol.val / A) := by
    rw [← mul_div_assoc, le_div_iff₀ (by linarith)]
    linarith
  norm_num at x1 y1 z1 hq
  generalize Structure.fracTols L dtol = tols at *
  obtain ⟨hn, -, hf⟩ := norm_vec hδ ⟨by linarith, x2⟩ ⟨by linarith, y2⟩ ⟨by linarith, z2⟩ (by linarith) hc hk
  have he' := hf w e hw hce (by linarith [he.1]) (by linarith [he.2.1]) (by linarith [he.2.2])
  have hi := image_close h.rel h.r0 h.r1 h.A1 h.entries hn (he'.mono (by nlinarith [sq_nonneg r]))
  have h2 := h.double
  have h3 := h.Ar
  have h4 := h.pos
  have h5 := h.short he
  have h6 := mag_nonneg (valM L * e)
  rw [abs_le] at hi h2 ⊢
  constructor <;> linarith [hi.1, hi.2, h2.1, h2.2]

/-! ## Integer keys -/

theorem mult_close (hε : Relative ρ ε) : |(intConversionMult : RNum ρ).val - 1000000000| ≤ ε * 1000000000 := by
  have e : (intConversionMult : RNum ρ).val = ρ.fl 1000000000 := congrArg ρ.fl (by norm_num)
  rw [e]
  exact rel_le hε (by norm_num) (by norm_num)

/-- a key as a number. -/
theorem key_value (hε : Relative ρ ε) (h1 : ε ≤ 1 / 2 ^ 40) {k : ℤ} (hk : |(k : ℝ)| ≤ 3000000000) :
    |(lit k / intConversionMult : RNum ρ).val - k / 1000000000| ≤ 20 * ε := by
  have h0 := relative_nonneg hε
  have hm := mult_close hε
  have hc := rel_le hε (x := k) (B := 3000000000) (by norm_num) hk
  rw [RNum.val_div]
  change |ρ.fl (ρ.fl (k : ℝ) / (intConversionMult : RNum ρ).val) - _| ≤ _
  generalize (intConversionMult : RNum ρ).val = M at *
  generalize ρ.fl (k : ℝ) = κ at *
  norm_num at h1
  rw [abs_le] at hm hc hk
  have hM : 999999999 ≤ M := by linarith
  have hM0 : 0 < M := by linarith
  have q1 : |κ / M - k / 1000000000| ≤ 10 * ε := by
    have e : κ / M - k / 1000000000 = (κ * 1000000000 - k * M) / (M * 1000000000) := by
      field_simp
    rw [e, abs_div, abs_of_pos (by positivity : 0 < M * 1000000000), div_le_iff₀ (by positivity)]
    have b1 : |(k : ℝ) * (1000000000 - M)| ≤ 3000000000 * (ε * 1000000000) :=
      abs_mul_le (abs_le.2 hk) (by rw [abs_le]; constructor <;> linarith)
    have b2 : |(κ - k) * 1000000000| ≤ ε * 3000000000 * 1000000000 :=
      abs_mul_le (abs_le.2 hc) (by norm_num)
    have e2 : κ * 1000000000 - k * M = (κ - k) * 1000000000 + k * (1000000000 - M) := by ring
    rw [e2]
    refine (abs_add_le _ _).trans ((add_le_add b2 b1).trans ?_)
    have : ε * 999999999 ≤ ε * M := mul_le_mul_of_nonneg_left hM h0
    linarith
  have hkq : |(k : ℝ) / 1000000000| ≤ 3 := by
    rw [abs_le]
    constructor
    · rw [le_div_iff₀ (by norm_num)]; linarith
    · rw [div_le_iff₀ (by norm_num)]; linarith
  have q2 := rel_le hε (x := κ / M) (B := 4) (by norm_num) (by
    rw [abs_le] at *
    constructor <;> linarith [q1.1, q1.2, hkq.1, hkq.2])
  rw [abs_le] at *
  constructor <;> linarith [q1.1, q1.2, q2.1, q2.2]

theorem trunc_err (y : ℝ) : |y - (truncZ y : ℤ)| < 1 := by
  unfold truncZ
  split
  · rw [abs_lt]
    constructor <;> linarith [Int.floor_le y, Int.lt_floor_add_one y]
  · rw [abs_lt]
    constructor <;> linarith [Int.le_ceil y, Int.ceil_lt_add_one y]

/-- the key of a number. -/
theorem key_of (hε : Relative ρ ε) (h1 : ε ≤ 1 / 2 ^ 40) {x : RNum ρ} (hx : |x.val| ≤ 2) :
    |((FRound.toI64 (x * intConversionMult) : ℤ) : ℝ)| ≤ 3000000000 ∧
      |x.val - (lit (FRound.toI64 (x * intConversionMult)) / intConversionMult : RNum ρ).val| ≤ 1 / 900000000 := by
  have h0 := relative_nonneg hε
  have hm := mult_close hε
  have e1 : |x.val * (intConversionMult : RNum ρ).val - x.val * 1000000000| ≤ 2 * (ε * 1000000000) := by
    rw [← mul_sub]
    exact abs_mul_le hx hm
  have h1' := h1
  norm_num at h1'
  have e2 : |x.val * 1000000000| ≤ 2 * 1000000000 := abs_mul_le hx (by norm_num)
  have e3 := rel_le hε (x := x.val * (intConversionMult : RNum ρ).val) (B := 2100000000) (by norm_num) (by
    rw [abs_le] at *
    constructor <;> linarith [e1.1, e1.2, e2.1, e2.2])
  rw [← RNum.val_mul] at e3
  have e4 : |(x * intConversionMult : RNum ρ).val - x.val * 1000000000| ≤ 1 / 200 := by
    rw [RNum.val_mul] at *
    rw [abs_le] at *
    constructor <;> linarith [e1.1, e1.2, e3.1, e3.2]
  have ek : FRound.toI64 (x * intConversionMult) =
      satZ (-9223372036854775808) 9223372036854775807 (truncZ (x * intConversionMult : RNum ρ).val) := rfl
  rw [ek]
  generalize (x * intConversionMult : RNum ρ).val = y at *
  have ht := trunc_err y
  have hs : satZ (-9223372036854775808) 9223372036854775807 (truncZ y) = truncZ y := by
    rw [abs_lt] at ht
    rw [abs_le] at e4 e2
    have c1 : ((truncZ y : ℤ) : ℝ) < (2000000002 : ℤ) := by push_cast; linarith
    have c2 : ((-2000000002 : ℤ) : ℝ) < (truncZ y : ℤ) := by push_cast; linarith
    have d1 := Int.cast_lt.1 c1
    have d2 := Int.cast_lt.1 c2
    unfold satZ
    omega
  rw [hs]
  have hk : |((truncZ y : ℤ) : ℝ)| ≤ 3000000000 := by
    rw [abs_lt] at ht
    rw [abs_le] at *
    constructor <;> linarith [e4.1, e4.2, e2.1, e2.2]
  refine ⟨hk, ?_⟩
  have hv := key_value hε h1 hk
  have e5 : |x.val - ((truncZ y : ℤ) : ℝ) / 1000000000| ≤ 201 / 200 / 1000000000 := by
    have : x.val - ((truncZ y : ℤ) : ℝ) / 1000000000 = (x.val * 1000000000 - (truncZ y : ℤ)) / 1000000000 := by ring
    rw [this, abs_div, abs_of_pos (by norm_num : (0 : ℝ) < 1000000000)]
    apply div_le_div_of_nonneg_right _ (by norm_num)
    rw [abs_lt] at ht
    rw [abs_le] at *
    constructor <;> linarith [e4.1, e4.2]
  rw [abs_le] at *
  constructor <;> linarith [hv.1, hv.2, e5.1, e5.2]

/-! ## Candidates -/

theorem cast_small {m : Int8} (h : -1 ≤ m.toInt ∧ m.toInt ≤ 1) :
    (((m.toInt : ℤ) : RNum ρ)).val = m.toInt ∧ |(((m.toInt : ℤ) : RNum ρ)).val| ≤ 1 := by
  have : m.toInt = -1 ∨ m.toInt = 0 ∨ m.toInt = 1 := by omega
  rw [RNum.val_cast]
  rcases this with e | e | e <;> rw [e]
  · have : ρ.fl ((-1 : ℤ) : ℝ) = -1 := by push_cast; rw [ρ.odd, ρ.one]
    rw [this]; norm_num
  · have : ρ.fl ((0 : ℤ) : ℝ) = 0 := by push_cast; exact fl_zero ρ
    rw [this]; norm_num
  · have : ρ.fl ((1 : ℤ) : ℝ) = 1 := by push_cast; exact ρ.one
    rw [this]; norm_num

theorem rotate_row (hε : Relative ρ ε) (h1 : ε ≤ 1 / 1000) {m1 m2 m3 : Int8} (k1 : -1 ≤ m1.toInt ∧ m1.toInt ≤ 1)
    (k2 : -1 ≤ m2.toInt ∧ m2.toInt ≤ 1) (k3 : -1 ≤ m3.toInt ∧ m3.toInt ≤ 1) {v : Vec3 (RNum ρ)}
    (hv : CompsLe (valV v) 2) :
    |(((m1.toInt : ℤ) : RNum ρ) * v.x + ((m2.toInt : ℤ) : RNum ρ) * v.y + ((m3.toInt : ℤ) : RNum ρ) * v.z).val -
      ((m1.toInt : ℝ) * v.x.val + (m2.toInt : ℝ) * v.y.val + (m3.toInt : ℝ) * v.z.val)| ≤ 20 * ε ∧
    |(((m1.toInt : ℤ) : RNum ρ) * v.x + ((m2.toInt : ℤ) : RNum ρ) * v.y + ((m3.toInt : ℤ) : RNum ρ) * v.z).val| ≤ 8 := by
  obtain ⟨e1, b1⟩ := cast_small (ρ := ρ) k1
  obtain ⟨e2, b2⟩ := cast_small (ρ := ρ) k2
  obtain ⟨e3, b3⟩ := cast_small (ρ := ρ) k3
  obtain ⟨h2, h3⟩ := dot_close hε h1 (C := 1 * 2) (by norm_num) (abs_mul_le b1 hv.1) (abs_mul_le b2 hv.2.1)
    (abs_mul_le b3 hv.2.2)
  simp only [valV, Vec3.map] at *
  rw [e1, e2, e3] at h2
  exact ⟨by linarith, by linarith⟩

/-- the candidate of a pair of sites. -/
theorem cand_close (h : SearchBounds L dtol r A) {op : Mat3 Int8} (hop : SmallEntries (intRot op))
    {frac : List (Vec3 (RNum ρ))} (hf : ∀ i, CompsLe (valV (posOf frac i)) 2) (a b : ℕ) :
    CompsLe (valV (pairTrans (Structure.fracTols L dtol) frac op (a, b))) (3 / 2) ∧
    ∃ w, IntVec w ∧ CompsLe (valV (pairTrans (Structure.fracTols L dtol) frac op (a, b)) -
      (valV (posOf frac b) - (castRot op : Mat3 ℝ) * valV (posOf frac a) - w)) (3072 * r ^ 2) := by
  obtain ⟨hδ, hd⟩ := h.delta
  obtain ⟨⟨x1, x2⟩, ⟨y1, y2⟩, ⟨z1, z2⟩⟩ := h.tols
  have hq : 0 ≤ dtol.val / A := by have := h.tolOverA; norm_num at this; linarith
  norm_num at x1 y1 z1
  have hr2 : r ^ 2 ≤ 1 / 1000 := by have := h.r2; norm_num at this; linarith
  simp only [SmallEntries, intRot, castRot, Mat3.map, Mat3.toListCM, List.mem_cons, List.not_mem_nil, or_false,
    forall_eq_or_imp, forall_eq] at hop
  obtain ⟨h11, h21, h31, h12, h22, h32, h13, h23, h33⟩ := hop
  obtain ⟨rx1, rx2⟩ := rotate_row h.rel hr2 h11 h12 h13 (hf a)
  obtain ⟨ry1, ry2⟩ := rotate_row h.rel hr2 h21 h22 h23 (hf a)
  obtain ⟨rz1, rz2⟩ := rotate_row h.rel hr2 h31 h32 h33 (hf a)
  unfold pairTrans
  simp only
  generalize Structure.fracTols L dtol = tols at *
  obtain ⟨hn, ⟨w, hw, he⟩, -⟩ := norm_vec hδ (a := posOf frac b) (b := (castRot op : Mat3 (RNum ρ)) * posOf frac a)
    ⟨by linarith, x2⟩ ⟨by linarith, y2⟩ ⟨by linarith, z2⟩ (by linarith) ((hf b).mono (by norm_num)) ⟨rx2, ry2, rz2⟩
  refine ⟨hn, w, hw, ?_⟩
  have key : ∀ {n p c c' w : ℝ}, |n - (p - c - w)| ≤ 2 * (1024 * r ^ 2) → |c - c'| ≤ 20 * r ^ 2 →
      |n - (p - c' - w)| ≤ 3072 * r ^ 2 := by
    intro n p c c' w h1 h2
    have := sq_nonneg r
    rw [abs_le] at *
    constructor <;> linarith [h1.1, h1.2, h2.1, h2.2]
  exact ⟨key he.1 rx1, key he.2.1 ry1, key he.2.2 rz1⟩

end

/-! ## The search, for every scalar arithmetic -/

section
variable {K : Type} [Add K] [Sub K] [Mul K] [Div K] [Neg K] [Zero K] [One K] [IntCast K]
  [LT K] [LE K] [DecidableLT K] [DecidableLE K] [BEq K] [FRound K] [FTrans K]

/-- one position for each species, fewer than 65536, and the species in order. -/
structure Sorted (s : Structure K) : Prop where
  sameLength : s.species.length = s.fracCoords.length
  small : s.species.length < 65536
  sorted : s.species.Pairwise (· ≤ ·)

theorem primitiveOps_eq_any {sa : SymmetryAnalyzer K} {h : HashOrders K} (hv : h.Valid) {fuel : ℕ} {s : Structure K}
    {bravais : BravaisType} {ops : List (SymmOp K)} (hs : Sorted s)
    (hr : sa.getPrimitiveSpaceGroupOps h fuel s bravais = .ret ops) :
    ∃ pg es m, primitiveHolohedry (K := K) h fuel bravais = .ret pg ∧ s.species ≠ [] ∧ (∀ e, e ∈ es ↔ e ∈ s.species) ∧
      es.Nodup ∧ (m.map Prod.fst).Nodup ∧
      (∀ k, amapGet? m k = if k ∈ pg.operations then some ((sitePairs s.species es).map
          (pairTrans (Structure.fracTols s.lattice sa.dtol) s.fracCoords k)) else none) ∧
      ops = (h.opVecs m).flatMap (opsForRotation h s.lattice (Structure.fracTols s.lattice sa.dtol)
        sa.dtol s.species.length) := by
  unfold getPrimitiveSpaceGroupOps at hr
  simp only [Outcome.bind_eq_ret] at hr
  obtain ⟨pg, hpg, ⟨e, inds, counts⟩, hmin, entries, hent, hfin⟩ := hr
  have hn : s.numSites < 65536 := by
    have := hs.small; have h2 := hs.sameLength
    unfold Structure.numSites
    omega
  obtain ⟨⟨he0, -⟩, hi, hc⟩ := C19_get_min_element s h.minEle hv.minEle hn e inds counts hmin
  have hnd : (inds.map Prod.fst).Nodup := by
    unfold Structure.getMinElement at hmin
    simp only [Outcome.bind_eq_ret, Outcome.ret.injEq, Prod.mk.injEq] at hmin
    obtain ⟨_, _, _, rfl, _⟩ := hmin
    exact eleInds_nodup _
  have hip := hv.eleInds inds
  have hmem : ∀ p ∈ h.eleInds inds, p.1 ∈ s.species ∧ p.2 = s.species.idxOf p.1 := by
    intro p hp
    have h1 := hip.subset hp
    rw [show p = (p.1, p.2) from rfl, mem_iff_amapGet? hnd, hi] at h1
    split at h1
    · rename_i hm; exact ⟨hm, (Option.some.inj h1).symm⟩
    · simp at h1
  have hcand := candidateTranslations_eq (tols := Structure.fracTols s.lattice sa.dtol) hs.sorted
    hs.sameLength.symm hs.small hmem (fun e he => by rw [hc, if_pos he])
  rw [mapOutcome_ret _ (fun op => (op, (sitePairs s.species ((h.eleInds inds).map Prod.fst)).map
      (pairTrans (Structure.fracTols s.lattice sa.dtol) s.fracCoords op)))
    _ (fun op _ => by rw [hcand op]; rfl)] at hent
  have hent' := (Outcome.ret.inj hent).symm
  subst hent'
  obtain ⟨g1, g2⟩ := upsert_all_get (fun op => (sitePairs s.species ((h.eleInds inds).map Prod.fst)).map
      (pairTrans (Structure.fracTols s.lattice sa.dtol) s.fracCoords op)) pg.operations
  have hnum : s.numSites = s.species.length := by
    have h2 := hs.sameLength
    unfold Structure.numSites
    omega
  refine ⟨pg, (h.eleInds inds).map Prod.fst, _, hpg, List.ne_nil_of_mem he0, ?_, ?_, g1, g2, ?_⟩
  · intro e
    rw [(hip.map Prod.fst).mem_iff, mem_keys_iff_amapGet?, hi]
    by_cases he : e ∈ s.species <;> simp [he]
  · exact (hip.map Prod.fst).symm.nodup hnd
  · rw [← Outcome.ret.inj hfin, hnum]


theorem mem_primitiveOps_any {sa : SymmetryAnalyzer K} {h : HashOrders K} (hv : h.Valid) {fuel : ℕ} {s : Structure K}
    {bravais : BravaisType} {ops : List (SymmOp K)} (hs : Sorted s)
    (hr : sa.getPrimitiveSpaceGroupOps h fuel s bravais = .ret ops) :
    ∃ pg es, primitiveHolohedry (K := K) h fuel bravais = .ret pg ∧ s.species ≠ [] ∧ (∀ e, e ∈ es ↔ e ∈ s.species) ∧ es.Nodup ∧
      ∀ o, o ∈ ops ↔ ∃ op ∈ pg.operations, o ∈ opsForRotation h s.lattice (Structure.fracTols s.lattice sa.dtol)
        sa.dtol s.species.length (op, (sitePairs s.species es).map
          (pairTrans (Structure.fracTols s.lattice sa.dtol) s.fracCoords op)) := by
  obtain ⟨pg, es, m, hpg, hne, hes, hnd, g1, g2, rfl⟩ := primitiveOps_eq_any hv hs hr
  refine ⟨pg, es, hpg, hne, hes, hnd, fun o => ?_⟩
  rw [List.mem_flatMap]
  constructor
  · rintro ⟨p, hp, ho⟩
    have h1 := (hv.opVecs _).subset hp
    rw [show p = (p.1, p.2) from rfl, mem_iff_amapGet? g1, g2] at h1
    split at h1
    · rename_i hm
      refine ⟨p.1, hm, ?_⟩
      rw [Option.some.inj h1]
      exact ho
    · simp at h1
  · rintro ⟨op, hop, ho⟩
    refine ⟨_, (hv.opVecs _).symm.subset ?_, ho⟩
    rw [mem_iff_amapGet? g1, g2, if_pos hop]


theorem opsForRotation_rotation_any {h : HashOrders K} {L : Mat3 K} {tols : Vec3 K} {dtol : K} {n : ℕ}
    {p : Mat3 Int8 × List (Vec3 K)} {o : SymmOp K} (ho : o ∈ opsForRotation h L tols dtol n p) : o.rotation = p.1 := by
  unfold opsForRotation at ho
  simp only [List.mem_filterMap] at ho
  obtain ⟨q, -, ho⟩ := ho
  split at ho
  · rw [← Option.some.inj ho]
  · simp at ho


theorem zip_inBucket_any {L : Mat3 K} {tols : Vec3 K} {dtol : K} {f : ℕ × ℕ → Vec3 K}
    {pairs : List (ℕ × ℕ)} {ks : List (Vec3 Int)} (hb : Bucketed L tols dtol (pairs.map f) ks)
    (hself : ∀ c ∈ pairs.map f, inBucket L tols dtol c (toIntVec c) = true) :
    pairs.length = ks.length ∧ ∀ p k, (p, k) ∈ pairs.zip ks → inBucket L tols dtol (f p) k = true := by
  have h1 := hb.forall₂ hself
  rw [List.forall₂_map_left_iff, List.forall₂_iff_zip] at h1
  exact ⟨h1.1, fun p k hp => h1.2 hp⟩


theorem search_returns_any (sa : SymmetryAnalyzer K) {h : HashOrders K} (hv : h.Valid) {fuel : ℕ} {s : Structure K}
    {bravais : BravaisType} (hs : Sorted s) {pg : PointGroup}
    (hpg : primitiveHolohedry (K := K) h fuel bravais = .ret pg) (hne : s.species ≠ []) :
    ∃ ops, sa.getPrimitiveSpaceGroupOps h fuel s bravais = .ret ops := by
  obtain ⟨-, hm2⟩ := C19_get_min_element_panics_iff s h.minEle hv.minEle
  obtain ⟨⟨e, inds, counts⟩, hmin⟩ := hm2 hne
  have hn : s.numSites < 65536 := by
    have := hs.small; have h2 := hs.sameLength
    unfold Structure.numSites
    omega
  obtain ⟨⟨he0, -⟩, hi, hc⟩ := C19_get_min_element s h.minEle hv.minEle hn e inds counts hmin
  have hnd : (inds.map Prod.fst).Nodup := by
    have hmin' := hmin
    unfold Structure.getMinElement at hmin'
    simp only [Outcome.bind_eq_ret, Outcome.ret.injEq, Prod.mk.injEq] at hmin'
    obtain ⟨_, _, _, rfl, _⟩ := hmin'
    exact eleInds_nodup _
  have hmem : ∀ p ∈ h.eleInds inds, p.1 ∈ s.species ∧ p.2 = s.species.idxOf p.1 := by
    intro p hp
    have h1 := (hv.eleInds inds).subset hp
    rw [show p = (p.1, p.2) from rfl, mem_iff_amapGet? hnd, hi] at h1
    split at h1
    · rename_i hm; exact ⟨hm, (Option.some.inj h1).symm⟩
    · simp at h1
  have hcand := candidateTranslations_eq (tols := Structure.fracTols s.lattice sa.dtol) hs.sorted
    hs.sameLength.symm hs.small hmem (fun e he => by rw [hc, if_pos he])
  unfold getPrimitiveSpaceGroupOps
  simp only
  rw [hpg, Outcome.ret_bind, hmin, Outcome.ret_bind, mapOutcome_ret _ _ _ (fun op _ => by rw [hcand op]; rfl)]
  exact ⟨_, rfl⟩


theorem Bucketed.keys {L : Mat3 K} {tols : Vec3 K} {dtol : K} {cs : List (Vec3 K)} {ks : List (Vec3 Int)}
    (h : Bucketed L tols dtol cs ks) : ∀ k ∈ ks, ∃ c ∈ cs, k = toIntVec c := by
  induction h with
  | nil => simp
  | old hb hk hc ih =>
    intro k hk'
    rcases List.mem_append.1 hk' with h1 | h1
    · obtain ⟨c, hc, e⟩ := ih k h1; exact ⟨c, by simp [hc], e⟩
    · rw [List.mem_singleton.1 h1]
      obtain ⟨c, hc, e⟩ := ih _ hk; exact ⟨c, by simp [hc], e⟩
  | new hb hk ih =>
    intro k hk'
    rcases List.mem_append.1 hk' with h1 | h1
    · obtain ⟨c, hc, e⟩ := ih k h1; exact ⟨c, by simp [hc], e⟩
    · exact ⟨_, by simp, List.mem_singleton.1 h1⟩

/-- the candidates with the property `P` fill one bucket, when the buckets of these and those of the others exclude
each other. -/
theorem bucket_split {L : Mat3 K} {tols : Vec3 K} {dtol : K} {cs : List (Vec3 K)} {ks : List (Vec3 Int)}
    (hb : Bucketed L tols dtol cs ks) (P : Vec3 K → Bool) (Good Far : Vec3 Int → Prop)
    (hself : ∀ c ∈ cs, inBucket L tols dtol c (toIntVec c) = true)
    (hG : ∀ c ∈ cs, P c = true → Good (toIntVec c)) (hF : ∀ c ∈ cs, P c = false → Far (toIntVec c))
    (hGP : ∀ c ∈ cs, ∀ k ∈ ks, P c = true → Good k → inBucket L tols dtol c k = true)
    (hFP : ∀ c ∈ cs, ∀ k ∈ ks, P c = true → Far k → inBucket L tols dtol c k = false)
    (hGN : ∀ c ∈ cs, ∀ k ∈ ks, P c = false → Good k → inBucket L tols dtol c k = false) :
    ((∀ c ∈ cs, P c = false) ∧ ∀ k ∈ ks, Far k) ∨
    ∃ k0 ∈ ks, Good k0 ∧ ks.count k0 = cs.countP P ∧ ∀ k ∈ ks, k ≠ k0 → Far k := by
  induction hb with
  | nil => left; simp
  | @old cs ks c k hb hk hc ih =>
    have hcm : c ∈ cs ++ [c] := by simp
    have hks : ∀ k ∈ ks, k ∈ ks ++ [k] := fun k hk => by simp [hk]
    rcases ih (fun c hc => hself c (by simp [hc])) (fun c hc => hG c (by simp [hc])) (fun c hc => hF c (by simp [hc]))
      (fun c hc k hk => hGP c (by simp [hc]) k (by simp [hk])) (fun c hc k hk => hFP c (by simp [hc]) k (by simp [hk]))
      (fun c hc k hk => hGN c (by simp [hc]) k (by simp [hk])) with ⟨i1, i2⟩ | ⟨k0, h0, h1, h2, h3⟩
    · left
      have hPc : P c = false := by
        by_contra hne
        rw [Bool.not_eq_false] at hne
        have := hFP c hcm k (by simp) hne (i2 k hk)
        rw [hc] at this
        exact absurd this (by simp)
      refine ⟨fun x hx => ?_, fun x hx => ?_⟩
      · rcases List.mem_append.1 hx with hx | hx
        · exact i1 x hx
        · rw [List.mem_singleton.1 hx]; exact hPc
      · rcases List.mem_append.1 hx with hx | hx
        · exact i2 x hx
        · rw [List.mem_singleton.1 hx]; exact i2 k hk
    · right
      refine ⟨k0, by simp [h0], h1, ?_, ?_⟩
      · rw [List.count_append, List.countP_append, h2]
        congr 1
        cases hPc : P c with
        | true =>
          have : k = k0 := by
            by_contra hne
            have := hFP c hcm k (by simp) hPc (h3 k hk hne)
            rw [hc] at this
            exact absurd this (by simp)
          subst this
          simp [hPc]
        | false =>
          have : k ≠ k0 := by
            rintro rfl
            have := hGN c hcm k (by simp) hPc h1
            rw [hc] at this
            exact absurd this (by simp)
          simp [hPc, this]
      · intro x hx hne
        rcases List.mem_append.1 hx with hx | hx
        · exact h3 x hx hne
        · rw [List.mem_singleton.1 hx] at hne ⊢; exact h3 k hk hne
  | @new cs ks c hb hno ih =>
    have hcm : c ∈ cs ++ [c] := by simp
    rcases ih (fun c hc => hself c (by simp [hc])) (fun c hc => hG c (by simp [hc])) (fun c hc => hF c (by simp [hc]))
      (fun c hc k hk => hGP c (by simp [hc]) k (by simp [hk])) (fun c hc k hk => hFP c (by simp [hc]) k (by simp [hk]))
      (fun c hc k hk => hGN c (by simp [hc]) k (by simp [hk])) with ⟨i1, i2⟩ | ⟨k0, h0, h1, h2, h3⟩
    · cases hPc : P c with
      | true =>
        right
        refine ⟨toIntVec c, by simp, hG c hcm hPc, ?_, ?_⟩
        · have hn : toIntVec c ∉ ks := by
            intro hm
            have h4 := hFP c hcm _ (by simp) hPc (i2 _ hm)
            rw [hself c hcm] at h4
            exact absurd h4 (by simp)
          rw [List.count_append, List.countP_append, List.count_eq_zero_of_not_mem hn,
            List.countP_eq_zero.2 (by intro x hx; simp [i1 x hx])]
          simp [hPc]
        · intro x hx hne
          rcases List.mem_append.1 hx with hx | hx
          · exact i2 x hx
          · exact absurd (List.mem_singleton.1 hx) hne
      | false =>
        left
        refine ⟨fun x hx => ?_, fun x hx => ?_⟩
        · rcases List.mem_append.1 hx with hx | hx
          · exact i1 x hx
          · rw [List.mem_singleton.1 hx]; exact hPc
        · rcases List.mem_append.1 hx with hx | hx
          · exact i2 x hx
          · rw [List.mem_singleton.1 hx]; exact hF c hcm hPc
    · right
      have hPc : P c = false := by
        by_contra hne
        rw [Bool.not_eq_false] at hne
        have h4 := hGP c hcm k0 (by simp [h0]) hne h1
        rw [hno k0 h0] at h4
        exact absurd h4 (by simp)
      have hne : toIntVec c ≠ k0 := by
        intro he
        have h4 := hself c hcm
        rw [he, hno k0 h0] at h4
        exact absurd h4 (by simp)
      refine ⟨k0, by simp [h0], h1, ?_, ?_⟩
      · rw [List.count_append, List.countP_append, h2]
        simp [hPc, hne]
      · intro x hx hxne
        rcases List.mem_append.1 hx with hx | hx
        · exact h3 x hx hxne
        · rw [List.mem_singleton.1 hx]; exact hF c hcm hPc

end

end CrystSymm
