import Verif.Props.RoundedCases
import Verif.Proofs.Pinv

set_option autoImplicit false
set_option linter.unusedSectionVars false

/-! # Rounded arithmetic on rectangular boxes -/

namespace CrystSymm

open Spec

section
variable {ρ : Rounding}

/-! ## Zero and one -/

theorem RNum.zero_mul' (x : RNum ρ) : 0 * x = 0 := RNum.ext (by
  rw [RNum.val_mul, RNum.val_zero, zero_mul, fl_zero])
theorem RNum.mul_zero' (x : RNum ρ) : x * 0 = 0 := RNum.ext (by
  rw [RNum.val_mul, RNum.val_zero, mul_zero, fl_zero])
theorem RNum.add_zero' (x : RNum ρ) : x + 0 = x := RNum.ext (by
  rw [RNum.val_add, RNum.val_zero, add_zero, RNum.fl_val x])
theorem RNum.zero_add' (x : RNum ρ) : 0 + x = x := RNum.ext (by
  rw [RNum.val_add, RNum.val_zero, zero_add, RNum.fl_val x])
theorem RNum.sub_zero' (x : RNum ρ) : x - 0 = x := RNum.ext (by
  rw [RNum.val_sub, RNum.val_zero, sub_zero, RNum.fl_val x])
theorem RNum.zero_sub' (x : RNum ρ) : 0 - x = -x := RNum.ext (by
  rw [RNum.val_sub, RNum.val_zero, zero_sub, ρ.odd, RNum.fl_val x, RNum.val_neg])
theorem RNum.one_mul' (x : RNum ρ) : 1 * x = x := RNum.ext (by
  rw [RNum.val_mul, RNum.val_one, one_mul, RNum.fl_val x])
theorem RNum.mul_one' (x : RNum ρ) : x * 1 = x := RNum.ext (by
  rw [RNum.val_mul, RNum.val_one, mul_one, RNum.fl_val x])
theorem RNum.neg_mul' (x y : RNum ρ) : -x * y = -(x * y) := RNum.ext (by
  rw [RNum.val_mul, RNum.val_neg, RNum.val_neg, RNum.val_mul, neg_mul, ρ.odd])
theorem RNum.mul_neg' (x y : RNum ρ) : x * -y = -(x * y) := RNum.ext (by
  rw [RNum.val_mul, RNum.val_neg, RNum.val_neg, RNum.val_mul, mul_neg, ρ.odd])
theorem RNum.neg_neg' (x : RNum ρ) : - -x = x := RNum.ext (by rw [RNum.val_neg, RNum.val_neg, neg_neg])
theorem RNum.neg_zero' : -(0 : RNum ρ) = 0 := RNum.ext (by rw [RNum.val_neg, RNum.val_zero, neg_zero])
theorem RNum.div_one' (x : RNum ρ) : x / 1 = x := RNum.ext (by
  rw [RNum.val_div, RNum.val_one, div_one, RNum.fl_val x])
theorem RNum.zero_div' (x : RNum ρ) : 0 / x = 0 := RNum.ext (by
  rw [RNum.val_div, RNum.val_zero, zero_div, fl_zero])
theorem RNum.lit_one : (lit 1 : RNum ρ) = 1 := RNum.ext (by
  show ρ.fl ((1 : ℤ) : ℝ) = _
  rw [Int.cast_one, RNum.val_one, ρ.one])
theorem RNum.lit_zero : (lit 0 : RNum ρ) = 0 := RNum.ext (by
  show ρ.fl ((0 : ℤ) : ℝ) = _
  rw [Int.cast_zero, RNum.val_zero, fl_zero])
theorem RNum.div_self' {x : RNum ρ} (h : x.val ≠ 0) : x / x = 1 := RNum.ext (by
  rw [RNum.val_div, div_self h, RNum.val_one, ρ.one])

/-- the diagonal matrix. -/
def rbox (a b c : RNum ρ) : Mat3 (RNum ρ) := ⟨a, 0, 0, 0, b, 0, 0, 0, c⟩

theorem rbox_mulVec (a b c : RNum ρ) (v : Vec3 (RNum ρ)) : rbox a b c * v = ⟨a * v.x, b * v.y, c * v.z⟩ := by
  show Mat3.mulVec _ _ = _
  simp only [Mat3.mulVec, rbox, RNum.zero_mul', RNum.add_zero', RNum.zero_add']

theorem rbox_mul (a b c a' b' c' : RNum ρ) : rbox a b c * rbox a' b' c' = rbox (a * a') (b * b') (c * c') := by
  show (⟨_, _, _, _, _, _, _, _, _⟩ : Mat3 (RNum ρ)) = _
  simp only [rbox, RNum.zero_mul', RNum.mul_zero', RNum.add_zero', RNum.zero_add']

theorem rbox_one : (1 : Mat3 (RNum ρ)) = rbox 1 1 1 := rfl

theorem rbox_mul_one (a b c : RNum ρ) : rbox a b c * 1 = rbox a b c := by
  rw [rbox_one, rbox_mul]; simp only [RNum.mul_one']

theorem rbox_one_mul (a b c : RNum ρ) : (1 : Mat3 (RNum ρ)) * rbox a b c = rbox a b c := by
  rw [rbox_one, rbox_mul]; simp only [RNum.one_mul']

theorem one_mulVec' (v : Vec3 (RNum ρ)) : (1 : Mat3 (RNum ρ)) * v = v := by
  rw [rbox_one, rbox_mulVec]; simp only [RNum.one_mul']

theorem rbox_transpose (a b c : RNum ρ) : (rbox a b c).transpose = rbox a b c := rfl

theorem rbox_det (a b c : RNum ρ) : (rbox a b c).det = a * (b * c) := by
  simp only [Mat3.det, rbox, RNum.zero_mul', RNum.mul_zero', RNum.add_zero', RNum.sub_zero']

theorem rbox_adjDiv (a b c d : RNum ρ) :
    (rbox a b c).adjDiv d = rbox (b * c / d) (a * c / d) (a * b / d) := by
  simp only [Mat3.adjDiv, rbox, RNum.zero_mul', RNum.mul_zero', RNum.sub_zero', RNum.zero_div']

theorem rbox_tryInverse {a b c : RNum ρ} (h : (a * (b * c)).val ≠ 0) :
    (rbox a b c).tryInverse = some (rbox (b * c / (a * (b * c))) (a * c / (a * (b * c))) (a * b / (a * (b * c)))) := by
  unfold Mat3.tryInverse
  rw [rbox_det, rbox_adjDiv]
  have : ((a * (b * c)) == (0 : RNum ρ)) = false := by
    show decide ((a * (b * c)).val = (0 : RNum ρ).val) = false
    rw [RNum.val_zero, decide_eq_false_iff_not]
    exact h
  rw [this]
  rfl

theorem one_tryInverse : (1 : Mat3 (RNum ρ)).tryInverse = some 1 := by
  rw [rbox_one, rbox_tryInverse]
  · simp only [RNum.mul_one', RNum.div_one']
  · simp only [RNum.mul_one', RNum.val_one]
    exact one_ne_zero

theorem valM_rbox (a b c : RNum ρ) : valM (rbox a b c) = ⟨a.val, 0, 0, 0, b.val, 0, 0, 0, c.val⟩ := by
  simp only [valM, Mat3.map, rbox, RNum.val_zero]

/-- the pseudo-inverse of a diagonal lattice. -/
theorem rbox_pinv {a b c : RNum ρ} (ha : 1 / 1000000 < a.val) (hb : 1 / 1000000 < b.val) (hc : 1 / 1000000 < c.val) :
    FTrans.pinv (rbox a b c) = rbox (1 / a) (1 / b) (1 / c) := by
  show (FTrans.pinv (valM (rbox a b c))).map RNum.round = _
  rw [valM_rbox]
  have h1 := pinv_mul (svAbove_diag ha hb hc)
  have ha0 : a.val ≠ 0 := by intro h; rw [h] at ha; norm_num at ha
  have hb0 : b.val ≠ 0 := by intro h; rw [h] at hb; norm_num at hb
  have hc0 : c.val ≠ 0 := by intro h; rw [h] at hc; norm_num at hc
  have h2 : (FTrans.pinv (⟨a.val, 0, 0, 0, b.val, 0, 0, 0, c.val⟩ : Mat3 ℝ)) =
      ⟨1 / a.val, 0, 0, 0, 1 / b.val, 0, 0, 0, 1 / c.val⟩ := by
    generalize (FTrans.pinv (⟨a.val, 0, 0, 0, b.val, 0, 0, 0, c.val⟩ : Mat3 ℝ)) = P at *
    rw [Mat3.ext_iff] at h1
    simp only [Mat3.mul_m11, Mat3.mul_m12, Mat3.mul_m13, Mat3.mul_m21, Mat3.mul_m22, Mat3.mul_m23, Mat3.mul_m31,
      Mat3.mul_m32, Mat3.mul_m33, mul_zero, add_zero, zero_add] at h1
    obtain ⟨e1, e2, e3, e4, e5, e6, e7, e8, e9⟩ := h1
    have z : ∀ {x y o : ℝ}, x * y = o → y ≠ 0 → x = o / y := fun h h0 => (eq_div_iff h0).2 h
    have e2 : P.m12 * b.val = 0 := e2
    have e3 : P.m13 * c.val = 0 := e3
    have e4 : P.m21 * a.val = 0 := e4
    have e6 : P.m23 * c.val = 0 := e6
    have e7 : P.m31 * a.val = 0 := e7
    have e8 : P.m32 * b.val = 0 := e8
    ext
    · exact z e1 ha0
    · rw [z e2 hb0, zero_div]
    · rw [z e3 hc0, zero_div]
    · rw [z e4 ha0, zero_div]
    · exact z e5 hb0
    · rw [z e6 hc0, zero_div]
    · rw [z e7 ha0, zero_div]
    · rw [z e8 hb0, zero_div]
    · exact z e9 hc0
  rw [h2]
  have hz : (RNum.round 0 : RNum ρ) = 0 := rfl
  have hi : ∀ x : RNum ρ, (RNum.round (1 / x.val) : RNum ρ) = 1 / x := fun x => RNum.ext (by
    rw [RNum.val_div, RNum.val_one]; rfl)
  simp only [Mat3.map, rbox, hz, hi]

/-! ## Error bounds -/

/-- what is assumed of the arithmetic, the edges and the tolerance. -/
structure BoxBounds (a b c dtol : RNum ρ) (r A : ℝ) : Prop where
  rel : Relative ρ (r ^ 2)
  r0 : 0 ≤ r
  r1 : r ≤ 1 / 2 ^ 20
  A1 : 1 ≤ A
  tol : 4000 * A * r ≤ dtol.val
  lo : 1 / 100 ≤ dtol.val
  hi : dtol.val ≤ 1
  res : A ≤ 16000 * dtol.val
  ea : 60 * dtol.val ≤ a.val
  ab : a = b ∨ a.val + dtol.val / 2 ≤ b.val
  bc : (a = b ∧ b = c) ∨ b.val + dtol.val / 2 ≤ c.val
  cA : c.val ≤ A

variable {a b c dtol : RNum ρ} {r A : ℝ}

theorem BoxBounds.le1 (h : BoxBounds a b c dtol r A) : a.val ≤ b.val := by
  rcases h.ab with e | e
  · rw [e]
  · have := h.lo; linarith

theorem BoxBounds.le2 (h : BoxBounds a b c dtol r A) : b.val ≤ c.val := by
  rcases h.bc with e | e
  · rw [e.2]
  · have := h.lo; linarith

theorem BoxBounds.lower (h : BoxBounds a b c dtol r A) : 1 / 2 ≤ a.val ∧ 1 / 2 ≤ b.val ∧ 1 / 2 ≤ c.val := by
  have := h.lo; have := h.ea; have := h.le1; have := h.le2
  refine ⟨?_, ?_, ?_⟩ <;> linarith

theorem BoxBounds.upper (h : BoxBounds a b c dtol r A) : a.val ≤ A ∧ b.val ≤ A ∧ c.val ≤ A := by
  have := h.lo; have := h.le1; have := h.le2; have := h.cA
  refine ⟨?_, ?_, ?_⟩ <;> linarith

theorem BoxBounds.search (h : BoxBounds a b c dtol r A) : SearchBounds (rbox a b c) dtol r A := by
  obtain ⟨l1, l2, l3⟩ := h.lower
  obtain ⟨u1, u2, u3⟩ := h.upper
  have hA := h.A1
  have hp : 0 < dtol.val := by have := h.lo; linarith
  refine ⟨h.rel, h.r0, h.r1, h.A1, ?_, h.tol, by have := h.res; linarith, ?_⟩
  · intro e he
    have z : |(0 : RNum ρ).val| ≤ A := by rw [RNum.val_zero, abs_zero]; linarith
    simp only [Mat3.toListCM, rbox, List.mem_cons, List.not_mem_nil, or_false] at he
    rcases he with rfl | rfl | rfl | rfl | rfl | rfl | rfl | rfl | rfl <;>
      first | exact z | (rw [abs_le]; constructor <;> linarith)
  · have := h.ea; have := h.le1; have := h.le2
    rw [valM_rbox]
    intro v hv
    rcases hv with rfl | rfl | rfl <;> simp only [lenSq, Mat3.col0, Mat3.col1, Mat3.col2] <;> nlinarith

theorem BoxBounds.u0 (h : BoxBounds a b c dtol r A) : 0 ≤ A * r ^ 2 := by
  have := h.A1; positivity

theorem BoxBounds.u1 (h : BoxBounds a b c dtol r A) : A * r ^ 2 ≤ dtol.val / 4000000000 := by
  have h1 := h.search.Ar2
  have := h.lo
  norm_num at h1
  linarith

theorem BoxBounds.r2u (h : BoxBounds a b c dtol r A) : r ^ 2 ≤ A * r ^ 2 := by
  have := h.A1
  nlinarith [sq_nonneg r]

theorem BoxBounds.Au (h : BoxBounds a b c dtol r A) : A * (A * r ^ 2) ≤ dtol.val / 16000000 := by
  have h1 := h.search.Ar
  have h2 : 0 ≤ A * r := mul_nonneg (by have := h.A1; linarith) h.r0
  have h3 : (A * r) * (A * r) ≤ (dtol.val / 4000) * (dtol.val / 4000) := mul_le_mul h1 h1 h2 (h2.trans h1)
  have h4 := h.hi
  have h5 := h.lo
  nlinarith

/-- `1/a' * y`. -/
theorem quot_close (h : BoxBounds a b c dtol r A) {x y : RNum ρ} (hx : 1 / 2 ≤ x.val) (hy : |y.val| ≤ 3 * A) :
    |(1 / x * y).val - y.val / x.val| ≤ 15 * (A * r ^ 2) := by
  have hA := h.A1
  have hu := h.u0
  have hru := h.r2u
  have hx0 : 0 < x.val := by linarith
  have q2 : |1 / x.val| ≤ 2 := by
    rw [abs_of_nonneg (by positivity), div_le_iff₀ hx0]; linarith
  have e1 := rel_le h.rel (by norm_num : (1 : ℝ) ≤ 2) q2
  have hv : (1 / x : RNum ρ).val = ρ.fl (1 / x.val) := by rw [RNum.val_div, RNum.val_one]
  rw [← hv] at e1
  generalize (1 / x : RNum ρ) = q at *
  rw [RNum.val_mul]
  have r2 := h.search.r2
  norm_num at r2
  have e1' : |(q.val - 1 / x.val) * y.val| ≤ r ^ 2 * 2 * (3 * A) := abs_mul_le e1 hy
  have q3 : |q.val * y.val| ≤ 3 * (3 * A) := abs_mul_le (by
    rw [abs_le] at *; constructor <;> linarith [e1.1, e1.2, q2.1, q2.2]) hy
  have e2 := rel_le h.rel (by linarith) q3
  have e3 : q.val * y.val - y.val / x.val = (q.val - 1 / x.val) * y.val := by ring
  have k1 : r ^ 2 * 2 * (3 * A) = 6 * (A * r ^ 2) := by ring
  have k2 : r ^ 2 * (3 * (3 * A)) = 9 * (A * r ^ 2) := by ring
  rw [k1] at e1'
  rw [k2] at e2
  rw [← e3] at e1'
  rw [abs_le] at *
  constructor <;> linarith [e2.1, e2.2, e1'.1, e1'.2]

/-- the edges `x` and `x'` agree up to `k` units relatively. -/
def EdgeNear (k u : ℝ) (x x' : RNum ρ) : Prop := |x'.val - x.val| ≤ k * u * x.val

theorem ratio_close {k u x x' : ℝ} (hx : 0 < x) (hku0 : 0 ≤ k * u) (hku : k * u ≤ 1 / 100) (h : |x' - x| ≤ k * u * x) :
    |x / x' - 1| ≤ 2 * (k * u) := by
  have hx' : 0 < x' := by rw [abs_le] at h; nlinarith
  have : x / x' - 1 = (x - x') / x' := by field_simp
  rw [this, abs_div, abs_of_pos hx', div_le_iff₀ hx', abs_sub_comm]
  rw [abs_le] at h
  have h1 : x ≤ 2 * x' := by nlinarith [h.1]
  calc |x' - x| ≤ k * u * x := abs_le.2 h
    _ ≤ k * u * (2 * x') := mul_le_mul_of_nonneg_left h1 hku0
    _ = 2 * (k * u) * x' := by ring

/-- the entries of the transformation between nearly equal boxes. -/
theorem trans_close (h : BoxBounds a b c dtol r A) {x x' : RNum ρ} {k : ℝ} (hk : 0 ≤ k ∧ k ≤ 1000000) (hx : 0 < x.val) (hxA : x.val ≤ 2 * A)
    (hx' : 1 / 2 ≤ x'.val) (hn : EdgeNear k (A * r ^ 2) x x') :
    |(1 / x' * x).val - 1| ≤ (2 * k + 15) * (A * r ^ 2) := by
  have hA := h.A1
  have hu := h.u0
  have hu1 := h.u1
  have hd := h.hi
  have h1 := quot_close h hx' (y := x) (by rw [abs_of_pos hx]; linarith)
  have h2 := ratio_close hx (mul_nonneg hk.1 hu) (by nlinarith) hn
  rw [abs_le] at *
  constructor <;> linarith [h1.1, h1.2, h2.1, h2.2]

/-- a coordinate converted to Cartesian and back with a nearly equal edge. -/
theorem back_close (h : BoxBounds a b c dtol r A) {x x' y : RNum ρ} {k : ℝ} (hk : 0 ≤ k ∧ k ≤ 1000000) (hx : 1 / 2 ≤ x.val)
    (hxA : x.val ≤ A) (hx' : 1 / 2 ≤ x'.val) (hn : EdgeNear k (A * r ^ 2) x x') (hy : |y.val| ≤ 2) :
    |(1 / x' * (x * y)).val - y.val| ≤ (4 * k + 19) * (A * r ^ 2) := by
  have hA := h.A1
  have hu := h.u0
  have hu1 := h.u1
  have hd := h.hi
  have hxy : |x.val * y.val| ≤ A * 2 := abs_mul_le (by rw [abs_of_pos (by linarith)]; exact hxA) hy
  have e1 := rel_le h.rel (by linarith : 1 ≤ A * 2) hxy
  rw [← RNum.val_mul, show r ^ 2 * (A * 2) = 2 * (A * r ^ 2) by ring] at e1
  have hp : |(x * y).val| ≤ 3 * A := by
    rw [abs_le] at *
    constructor <;> linarith [e1.1, e1.2, hxy.1, hxy.2]
  have h1 := quot_close h hx' (y := x * y) hp
  have h2 := ratio_close (by linarith) (mul_nonneg hk.1 hu) (by nlinarith) hn
  have hx0 : 0 < x'.val := by linarith
  have e2 : (x * y).val / x'.val - y.val = ((x * y).val - x.val * y.val) / x'.val + (x.val / x'.val - 1) * y.val := by
    field_simp
    ring
  have e3 : |((x * y).val - x.val * y.val) / x'.val| ≤ 4 * (A * r ^ 2) := by
    rw [abs_div, abs_of_pos hx0, div_le_iff₀ hx0]
    nlinarith
  have e4 : |(x.val / x'.val - 1) * y.val| ≤ 2 * (k * (A * r ^ 2)) * 2 := abs_mul_le h2 hy
  have e5 : |(x * y).val / x'.val - y.val| ≤ 4 * (A * r ^ 2) + 2 * (k * (A * r ^ 2)) * 2 := by
    rw [e2]; exact (abs_add_le _ _).trans (add_le_add e3 e4)
  rw [abs_le] at *
  constructor <;> linarith [h1.1, h1.2, e5.1, e5.2]

/-- the edge computed by `find_primitive_cell`. -/
theorem edge_close (h : BoxBounds a b c dtol r A) {x : RNum ρ} (hx : 1 / 2 ≤ x.val) (hxA : x.val ≤ A) :
    EdgeNear 34 (A * r ^ 2) x (x * (1 / x * x)) := by
  have hA := h.A1
  have hu := h.u0
  have hu1 := h.u1
  have hd := h.hi
  have h1 := trans_close h (k := 0) ⟨le_rfl, by norm_num⟩ (by linarith) (by linarith) hx (x := x) (x' := x) (by
    unfold EdgeNear; simp)
  generalize (1 / x * x : RNum ρ) = t at *
  have hxt : |x.val * t.val| ≤ A * 2 := abs_mul_le (by rw [abs_of_pos (by linarith)]; exact hxA) (by
    rw [abs_le] at *; constructor <;> linarith [h1.1, h1.2])
  have e1 := rel_le h.rel (by linarith : 1 ≤ A * 2) hxt
  rw [← RNum.val_mul, show r ^ 2 * (A * 2) = 2 * (A * r ^ 2) by ring] at e1
  have e2 : |x.val * (t.val - 1)| ≤ x.val * ((2 * 0 + 15) * (A * r ^ 2)) :=
    abs_mul_le (by rw [abs_of_pos (by linarith)]) h1
  unfold EdgeNear
  have e3 : 2 * (A * r ^ 2) ≤ 4 * (A * r ^ 2) * x.val := by nlinarith
  have e4 : x.val * (t.val - 1) = x.val * t.val - x.val := by ring
  rw [e4] at e2
  rw [abs_le] at *
  have e5 : 0 ≤ A * r ^ 2 * x.val := by positivity
  constructor <;> linarith [e1.1, e1.2, e2.1, e2.2]

end

end CrystSymm
