import Verif.Proofs.RoundedPrim

/-! # Expressing the operations in the basis of the input, in rounded arithmetic -/

set_option autoImplicit false
set_option linter.unusedSectionVars false
set_option linter.unusedSimpArgs false

namespace CrystSymm

open Spec Reducer SymmetryAnalyzer

variable {ρ : Rounding} {a b c dtol : RNum ρ} {r A : ℝ}

theorem near_mul (hb : BoxBounds a b c dtol r A) {x y : RNum ρ} {p q : ℝ} (hp : p ≤ 1 / 10 ^ 6) (hq : q ≤ 1 / 10 ^ 6)
    (hx : |x.val - 1| ≤ p) (hy : |y.val - 1| ≤ q) : |(x * y).val - 1| ≤ p + q + 1 / 10 ^ 11 := by
  have hp0 := (abs_nonneg _).trans hx
  have hq0 := (abs_nonneg _).trans hy
  have e : x.val * y.val - 1 = (x.val - 1) * (y.val - 1) + (x.val - 1) + (y.val - 1) := by ring
  have h1 : |(x.val - 1) * (y.val - 1)| ≤ 1 / 10 ^ 6 * (1 / 10 ^ 6) := by
    rw [abs_mul]
    exact mul_le_mul (hx.trans hp) (hy.trans hq) (abs_nonneg _) (by positivity)
  have hr := tiny_r2 hb
  have k := fl_err hb (x := x.val * y.val) (B := 2) (by norm_num) (by
    have e2 : x.val * y.val = (x.val - 1) * (y.val - 1) + (x.val - 1) + (y.val - 1) + 1 := by ring
    rw [e2]
    rw [abs_le] at *
    norm_num at h1 hp hq
    constructor <;> linarith [h1.1, h1.2, hx.1, hx.2, hy.1, hy.2])
  rw [← RNum.val_mul] at k
  generalize (x * y).val = m at *
  rw [abs_le] at *
  norm_num at h1 hp hq hr ⊢
  constructor <;> linarith [h1.1, h1.2, hx.1, hx.2, hy.1, hy.2, k.1, k.2]

theorem near_div (hb : BoxBounds a b c dtol r A) {x y : RNum ρ} {p q : ℝ} (hp : p ≤ 1 / 10 ^ 6) (hq : q ≤ 1 / 10 ^ 6)
    (hx : |x.val - 1| ≤ p) (hy : |y.val - 1| ≤ q) : |(x / y).val - 1| ≤ p + q + 1 / 10 ^ 11 := by
  have hp0 := (abs_nonneg _).trans hx
  have hq0 := (abs_nonneg _).trans hy
  have hy0 : 999 / 1000 < y.val := by
    norm_num at hq
    rw [abs_le] at hy
    linarith [hy.1]
  have h1 : |x.val / y.val - 1| ≤ p + q + 4 / 10 ^ 12 := by
    have e : x.val / y.val - 1 = (x.val - y.val) / y.val := by
      rw [sub_div, div_self (by linarith)]
    rw [e, abs_div, abs_of_pos (by linarith : (0 : ℝ) < y.val), div_le_iff₀ (by linarith)]
    have h2 : |x.val - y.val| ≤ p + q := by
      rw [abs_le] at *
      constructor <;> linarith [hx.1, hx.2, hy.1, hy.2]
    refine h2.trans ?_
    have h3 : 1 - q ≤ y.val := by rw [abs_le] at hy; linarith [hy.1]
    refine le_trans ?_ (mul_le_mul_of_nonneg_left h3 (by positivity))
    have h4 : p * q ≤ 1 / 10 ^ 6 * (1 / 10 ^ 6) := mul_le_mul hp hq hq0 (by positivity)
    have h5 : q * q ≤ 1 / 10 ^ 6 * (1 / 10 ^ 6) := mul_le_mul hq hq hq0 (by positivity)
    norm_num at h4 h5 hq ⊢
    nlinarith
  have hr := tiny_r2 hb
  norm_num at h1 hp hq hr
  have k := fl_err hb (x := x.val / y.val) (B := 2) (by norm_num) (by
    rw [abs_le] at h1 ⊢
    constructor <;> linarith [h1.1, h1.2])
  have e : (x / y).val = ρ.fl (x.val / y.val) := RNum.val_div x y
  rw [← e] at k
  norm_num
  rw [abs_le] at *
  constructor <;> linarith [h1.1, h1.2, k.1, k.2]

/-- the entries of the transformation. -/
def NearUnit (t : RNum ρ) : Prop := |t.val - 1| ≤ 25 / 10 ^ 9

theorem invert_near (hb : BoxBounds a b c dtol r A) {x y z : RNum ρ} (hx : NearUnit x) (hy : NearUnit y) (hz : NearUnit z) :
    Structure.volumeRatio (rbox x y z) = 1 ∧ ∃ i j k : RNum ρ, (rbox x y z).tryInverse = some (rbox i j k) ∧
      |i.val - 1| ≤ 130 / 10 ^ 9 ∧ |j.val - 1| ≤ 130 / 10 ^ 9 ∧ |k.val - 1| ≤ 130 / 10 ^ 9 := by
  unfold NearUnit at *
  have hyz := near_mul hb (by norm_num) (by norm_num) hy hz
  have hxz := near_mul hb (by norm_num) (by norm_num) hx hz
  have hxy := near_mul hb (by norm_num) (by norm_num) hx hy
  have hd := near_mul hb (by norm_num) (by norm_num) hx hyz
  have hd0 : (x * (y * z)).val ≠ 0 := by
    intro h
    rw [h] at hd
    norm_num at hd
  refine ⟨?_, _, _, _, rbox_tryInverse hd0, (near_div hb (by norm_num) (by norm_num) hyz hd).trans (by norm_num),
    (near_div hb (by norm_num) (by norm_num) hxz hd).trans (by norm_num),
    (near_div hb (by norm_num) (by norm_num) hxy hd).trans (by norm_num)⟩
  unfold Structure.volumeRatio
  rw [rbox_det]
  generalize x * (y * z) = d at *
  refine ratio_of_hundred hb ?_
  have hr := tiny_r2 hb
  have h := lit_err hb (n := 100) (B := 100) (by norm_num) (by norm_num)
  have e : (FRound.abs d).val = d.val := by
    norm_num at hd
    rw [RNum.val_abs, abs_of_pos]
    rw [abs_le] at hd
    linarith [hd.1]
  push_cast at h
  generalize (lit 100 : RNum ρ) = l at *
  have h1 : |(FRound.abs d).val * l.val - 100| ≤ 1 / 100 := by
    rw [e]
    have : d.val * l.val - 100 = (d.val - 1) * (l.val - 100) + 100 * (d.val - 1) + (l.val - 100) := by ring
    rw [this]
    norm_num at hd hr
    have h2 : |(d.val - 1) * (l.val - 100)| ≤ 1 * (1 / 1000) := by
      rw [abs_mul]
      exact mul_le_mul (by linarith) (by linarith) (abs_nonneg _) (by norm_num)
    rw [abs_le] at *
    constructor <;> linarith [h2.1, h2.2, hd.1, hd.2, h.1, h.2]
  have k := fl_err hb (x := (FRound.abs d).val * l.val) (B := 200) (by norm_num) (by
    rw [abs_le] at *; constructor <;> linarith [h1.1, h1.2])
  rw [← RNum.val_mul] at k
  norm_num at hr
  rw [abs_le] at *
  rw [abs_lt]
  constructor <;> linarith [h1.1, h1.2, k.1, k.2]

/-! ## Rotations -/

/-- every entry is `0` or `±1`. -/
def EntriesOne (W : Mat3 Int8) : Prop := ∀ e ∈ W.toListCM, -1 ≤ e.toInt ∧ e.toInt ≤ 1

theorem cast_three {n : ℤ} (h : -1 ≤ n ∧ n ≤ 1) : ((n : ℤ) : RNum ρ) = -1 ∨ ((n : ℤ) : RNum ρ) = 0 ∨ ((n : ℤ) : RNum ρ) = 1 := by
  obtain ⟨h1, h2⟩ := h
  interval_cases n
  · left
    refine RNum.ext ?_
    show ρ.fl ((-1 : ℤ) : ℝ) = _
    rw [RNum.val_neg, RNum.val_one]
    push_cast
    rw [ρ.odd, ρ.one]
  · right; left; exact RNum.lit_zero
  · right; right; exact RNum.lit_one

theorem entry_near (hb : BoxBounds a b c dtol r A) {i t : RNum ρ} {n : ℤ} (hn : -1 ≤ n ∧ n ≤ 1)
    (hi : |i.val - 1| ≤ 130 / 10 ^ 9) (ht : NearUnit t) :
    |(i * ((n : ℤ) : RNum ρ) * t).val - n| ≤ 160 / 10 ^ 9 := by
  have k := near_mul hb (by norm_num) (by norm_num) hi ht
  obtain ⟨h1, h2⟩ := hn
  interval_cases n
  · have e : (((-1 : ℤ)) : RNum ρ) = -1 := by
      refine RNum.ext ?_
      show ρ.fl ((-1 : ℤ) : ℝ) = _
      rw [RNum.val_neg, RNum.val_one]
      push_cast
      rw [ρ.odd, ρ.one]
    rw [e, RNum.mul_neg', RNum.mul_one', RNum.neg_mul', RNum.val_neg]
    norm_num at k ⊢
    rw [abs_le] at *
    constructor <;> linarith [k.1, k.2]
  · have e : (((0 : ℤ)) : RNum ρ) = 0 := RNum.lit_zero
    rw [e, RNum.mul_zero', RNum.zero_mul', RNum.val_zero]
    norm_num
  · have e : (((1 : ℤ)) : RNum ρ) = 1 := RNum.lit_one
    rw [e, RNum.mul_one']
    norm_num at k ⊢
    linarith

theorem rbox_sandwich (i j k x y z : RNum ρ) (M : Mat3 (RNum ρ)) : rbox i j k * M * rbox x y z =
    ⟨i * M.m11 * x, i * M.m12 * y, i * M.m13 * z, j * M.m21 * x, j * M.m22 * y, j * M.m23 * z, k * M.m31 * x, k * M.m32 * y, k * M.m33 * z⟩ := by
  ext <;> simp [rbox, RNum.zero_mul', RNum.mul_zero', RNum.add_zero', RNum.zero_add']

theorem zeroTol_ge (hb : BoxBounds a b c dtol r A) : 9 / 10 ^ 7 ≤ (zeroTol : RNum ρ).val := by
  have hr := tiny_r2 hb
  have k := fl_err hb (x := 1000000) (B := 1000000) (by norm_num) (by norm_num)
  have e : (zeroTol : RNum ρ).val = ρ.fl (1 / ρ.fl 1000000) := by
    show ρ.fl (ρ.fl ((1 : ℤ) : ℝ) / ρ.fl ((1000000 : ℤ) : ℝ)) = _
    rw [Int.cast_one, ρ.one]
    norm_num
  rw [e]
  set y := ρ.fl 1000000
  rw [abs_le] at k
  norm_num at k hr
  have hy : y ≤ 1000001 := by linarith [k.2]
  have hy0 : 999 ≤ y := by linarith [k.1]
  have h1 : 1 / 1000001 ≤ 1 / y := one_div_le_one_div_of_le (by linarith) hy
  have h2 : 1 / y ≤ 1 / 999 := one_div_le_one_div_of_le (by norm_num) hy0
  have h3 : 0 < 1 / y := by positivity
  have k2 := fl_err hb (x := 1 / y) (B := 1) le_rfl (by rw [abs_of_pos h3]; linarith)
  rw [abs_le] at k2
  generalize ρ.fl (1 / y) = m at *
  norm_num
  linarith [k2.1]

theorem rotation_kept (hb : BoxBounds a b c dtol r A) {i j k x y z : RNum ρ} (hx : NearUnit x) (hy : NearUnit y) (hz : NearUnit z)
    (hi : |i.val - 1| ≤ 130 / 10 ^ 9) (hj : |j.val - 1| ≤ 130 / 10 ^ 9) (hk : |k.val - 1| ≤ 130 / 10 ^ 9) {W : Mat3 Int8}
    (hW : EntriesOne W) :
    SpaceGroup.someEntryIntegral (rbox i j k * castRot W * rbox x y z) = true ∧
      ((rbox i j k * castRot W * rbox x y z).map fun e => FRound.toI8 (FRound.round e)) = W := by
  have hW' : ∀ e ∈ W.toListCM, -1 ≤ e.toInt ∧ e.toInt ≤ 1 := hW
  simp only [Mat3.toListCM, List.forall_mem_cons, List.not_mem_nil, false_implies, implies_true, and_true] at hW'
  obtain ⟨w1, w2, w3, w4, w5, w6, w7, w8, w9⟩ := hW'
  rw [rbox_sandwich]
  have key : ∀ {v : RNum ρ} {n : Int8}, -1 ≤ n.toInt ∧ n.toInt ≤ 1 → |v.val - n.toInt| ≤ 160 / 10 ^ 9 →
      (FRound.toI8 (FRound.round v) : Int8) = n := by
    intro v n hn hv
    have := toI8_round_close hn.1 hn.2 (x := v) (lt_of_le_of_lt hv (by norm_num))
    exact Int8.toInt_inj.1 this
  constructor
  · unfold SpaceGroup.someEntryIntegral
    rw [List.any_eq_true]
    refine ⟨i * ((W.m11.toInt : ℤ) : RNum ρ) * x, by simp [Mat3.toListCM, castRot, Mat3.map], ?_⟩
    have e := entry_near hb w1 hi hx
    have hz := zeroTol_ge hb
    have hr := tiny_r2 hb
    generalize i * ((W.m11.toInt : ℤ) : RNum ρ) * x = v at *
    rw [Bool.or_eq_true, decide_eq_true_eq, decide_eq_true_eq, RNum.lt_def', RNum.lt_def', RNum.val_abs]
    norm_num at hz e hr
    obtain ⟨n1, n2⟩ := w1
    have n3 : W.m11.toInt = 0 ∨ W.m11.toInt = 1 ∨ W.m11.toInt = -1 := by omega
    rcases n3 with h | h | h
    · rw [h] at e
      left
      simp only [Int.cast_zero, sub_zero] at e
      linarith
    all_goals
      right
      rw [h] at e
      have hv : |(|v.val|) - 1| ≤ 1 / 6250000 := by
        push_cast at e
        rcases abs_cases v.val with ⟨h1, h2⟩ | ⟨h1, h2⟩ <;> rw [h1] <;> rw [abs_le] at * <;> constructor <;> linarith [e.1, e.2]
      have k := fl_err hb (x := |v.val| - 1) (B := 1) le_rfl (by linarith)
      have e2 : (FRound.abs v - 1 : RNum ρ).val = ρ.fl (|v.val| - 1) := by
        rw [RNum.val_sub, RNum.val_abs, RNum.val_one]
      rw [RNum.val_abs, e2]
      rw [abs_le] at k hv
      rw [abs_lt]
      constructor <;> linarith [k.1, k.2, hv.1, hv.2]
  · ext1
    · exact key w1 (entry_near hb w1 hi hx)
    all_goals
      simp only [Mat3.map, castRot]
      apply key
      · assumption
      · exact entry_near hb (by assumption) (by assumption) (by assumption)

/-! ## Translations -/

theorem shifted_entry (hb : BoxBounds a b c dtol r A) {i t l : RNum ρ} (hi : |i.val - 1| ≤ 130 / 10 ^ 9) (ht : |t.val| ≤ 2)
    (hl : l = lit 0 ∨ l = lit 1) :
    |(i * (t + l)).val| ≤ 8 ∧ ∃ n : ℤ, |(i * (t + l)).val - t.val - n| ≤ 5 / 10 ^ 7 := by
  have hr := tiny_r2 hb
  norm_num at hr hi
  obtain ⟨n, hn, hln⟩ : ∃ n : ℤ, (n = 0 ∨ n = 1) ∧ l.val = n := by
    rcases hl with rfl | rfl
    · exact ⟨0, .inl rfl, by rw [RNum.lit_zero, RNum.val_zero, Int.cast_zero]⟩
    · exact ⟨1, .inr rfl, by rw [RNum.lit_one, RNum.val_one, Int.cast_one]⟩
  have hn' : |(n : ℝ)| ≤ 1 := by rcases hn with rfl | rfl <;> norm_num
  have h1 := fl_err hb (x := t.val + l.val) (B := 8) (by norm_num) (by
    rw [hln]
    rw [abs_le] at *
    constructor <;> linarith [ht.1, ht.2, hn'.1, hn'.2])
  rw [← RNum.val_add] at h1
  generalize t + l = q at *
  rw [hln] at h1
  have hq : |q.val| ≤ 301 / 100 := by
    rw [abs_le] at *
    constructor <;> linarith [ht.1, ht.2, hn'.1, hn'.2, h1.1, h1.2]
  have h2 : |i.val * q.val - q.val| ≤ 13 / 100000000 * (301 / 100) := by
    have e : i.val * q.val - q.val = (i.val - 1) * q.val := by ring
    rw [e, abs_mul]
    exact mul_le_mul hi hq (abs_nonneg _) (by norm_num)
  have h3 := fl_err hb (x := i.val * q.val) (B := 8) (by norm_num) (by
    rw [abs_le] at *
    constructor <;> linarith [hq.1, hq.2, h2.1, h2.2])
  rw [← RNum.val_mul] at h3
  generalize i * q = m at *
  norm_num
  refine ⟨?_, n, ?_⟩
  · rw [abs_le] at *
    constructor <;> linarith [hq.1, hq.2, h2.1, h2.2, h3.1, h3.2]
  · rw [abs_le] at *
    constructor <;> linarith [h1.1, h1.2, h2.1, h2.2, h3.1, h3.2]

theorem shifted_vec (hb : BoxBounds a b c dtol r A) {i j k : RNum ρ} (hi : |i.val - 1| ≤ 130 / 10 ^ 9)
    (hj : |j.val - 1| ≤ 130 / 10 ^ 9) (hk : |k.val - 1| ≤ 130 / 10 ^ 9) {t l : Vec3 (RNum ρ)} (ht : CompsLe (valV t) 2)
    (hx : l.x = lit 0 ∨ l.x = lit 1) (hy : l.y = lit 0 ∨ l.y = lit 1) (hz : l.z = lit 0 ∨ l.z = lit 1) :
    CompsLe (valV (normFracVec (Structure.fracTols (rbox a b c) dtol) (rbox i j k * (t + l)))) (3 / 2) ∧
      CloseMod (51 / 10 ^ 8) (valV (normFracVec (Structure.fracTols (rbox a b c) dtol) (rbox i j k * (t + l)))) (valV t) := by
  obtain ⟨t1, t2, t3⟩ := ht
  obtain ⟨x1, n1, x2⟩ := shifted_entry hb hi t1 hx
  obtain ⟨y1, n2, y2⟩ := shifted_entry hb hj t2 hy
  obtain ⟨z1, n3, z2⟩ := shifted_entry hb hk t3 hz
  rw [rbox_mulVec]
  obtain ⟨k1, k2⟩ := norm_close hb.search (v := ⟨i * (t.x + l.x), j * (t.y + l.y), k * (t.z + l.z)⟩) ⟨x1, y1, z1⟩
  refine ⟨k1, (k2.trans (ν' := 5 / 10 ^ 7) ⟨⟨n1, n2, n3⟩, ⟨_, _, _, rfl⟩, x2, y2, z2⟩).mono ?_⟩
  have hr := tiny_r2 hb
  norm_num at hr ⊢
  linarith

theorem seen_near (hb : BoxBounds a b c dtol r A) {u v : Vec3 (RNum ρ)} (hu : CompsLe (valV u) (3 / 2)) (hv : CompsLe (valV v) (3 / 2))
    (h : CloseMod (2 / 10 ^ 6) (valV u) (valV v)) :
    SymmOp.allWithin (normFracVec (Structure.fracTols (rbox a b c) dtol) (u - v)) (Structure.fracTols (rbox a b c) dtol) = true := by
  obtain ⟨hδ, hd⟩ := hb.search.delta
  obtain ⟨⟨x1, x2⟩, ⟨y1, y2⟩, ⟨z1, z2⟩⟩ := hb.search.tols
  have hA := hb.A1
  have hq : 1 / 16000 ≤ dtol.val / A := by
    rw [div_le_div_iff₀ (by norm_num) (by linarith)]
    linarith [hb.res]
  generalize Structure.fracTols (rbox a b c) dtol = tols at *
  norm_num at x1 y1 z1 hd
  have key := approx_complete hδ (s := ⟨1, u⟩) (t := ⟨1, v⟩) (tols := tols) hu hv (by norm_num)
    ⟨⟨by linarith, by linarith⟩, ⟨by linarith, by linarith⟩, by linarith, by linarith⟩ (by
      obtain ⟨w, ⟨n1, n2, n3, rfl⟩, c1, c2, c3⟩ := h
      norm_num at c1 c2 c3
      refine ⟨rfl, ⟨n1, lt_of_le_of_lt c1 ?_⟩, ⟨n2, lt_of_le_of_lt c2 ?_⟩, ⟨n3, lt_of_le_of_lt c3 ?_⟩⟩ <;>
        simp only [widened] <;> linarith)
  unfold SymmOp.isApproxEq at key
  simpa using key

/-- the operation in the new basis. -/
def OpKept (o' o : SymmOp (RNum ρ)) : Prop :=
  o'.rotation = o.rotation ∧ CompsLe (valV o'.translation) (3 / 2) ∧
    CloseMod (6 / 10 ^ 7) (valV o'.translation) (valV o.translation)

theorem skip_candidates (tols : Vec3 (RNum ρ)) (inv : Mat3 (RNum ρ)) (o : SymmOp (RNum ρ)) (W : Mat3 Int8)
    (f : Vec3 (RNum ρ)) (l : List (Vec3 (RNum ρ))) (st : SpaceGroup.TransState (RNum ρ))
    (hf : f ∈ (amapGet? st.foundVectors W).getD [])
    (hl : ∀ v ∈ l, SymmOp.allWithin (normFracVec tols (normFracVec tols (inv * (o.translation + v)) - f)) tols = true) :
    ∃ fv, l.foldl (SpaceGroup.transCandidate tols inv o W) st = ⟨st.newOperations, fv, st.initialNumOps⟩ ∧
      ∀ W' ≠ W, amapGet? fv W' = amapGet? st.foundVectors W' := by
  induction l generalizing st with
  | nil => exact ⟨st.foundVectors, rfl, fun _ _ => rfl⟩
  | cons v l ih =>
    rw [List.forall_mem_cons] at hl
    rw [List.foldl_cons]
    have e : SpaceGroup.transCandidate tols inv o W st v =
        { st with foundVectors := amapUpsert st.foundVectors W [] id } := by
      unfold SpaceGroup.transCandidate
      simp only []
      rw [if_pos]
      unfold SpaceGroup.seen
      exact List.any_eq_true.2 ⟨f, hf, hl.1⟩
    rw [e]
    obtain ⟨fv, h1, h2⟩ := ih { st with foundVectors := amapUpsert st.foundVectors W [] id } (by
      simp only []
      rw [amapGet?_upsert, if_pos rfl]
      exact hf) hl.2
    refine ⟨fv, h1, fun W' hW' => ?_⟩
    rw [h2 W' hW']
    simp only []
    rw [amapGet?_upsert, if_neg (fun h => hW' h.symm)]

section
variable {i j k x y z : RNum ρ}

theorem transOp_kept (hb : BoxBounds a b c dtol r A) (hx : NearUnit x) (hy : NearUnit y) (hz : NearUnit z)
    (hi : |i.val - 1| ≤ 130 / 10 ^ 9) (hj : |j.val - 1| ≤ 130 / 10 ^ 9) (hk : |k.val - 1| ≤ 130 / 10 ^ 9)
    {o : SymmOp (RNum ρ)} (hW : EntriesOne o.rotation) (ht : TransLe 2 o) (st : SpaceGroup.TransState (RNum ρ))
    (h0 : (amapGet? st.foundVectors o.rotation).getD [] = []) :
    ∃ o' fv, SpaceGroup.transOp (Structure.fracTols (rbox a b c) dtol) (rbox i j k) (rbox x y z) (Structure.translationVecs 2) st o =
        ⟨st.newOperations ++ [o'], fv, st.initialNumOps⟩ ∧ OpKept o' o ∧
      ∀ W ≠ o.rotation, amapGet? fv W = amapGet? st.foundVectors W := by
  obtain ⟨r1, r2⟩ := rotation_kept hb hx hy hz hi hj hk hW
  have ht' : CompsLe (valV o.translation) 2 := ht
  have hvec := fun l h1 h2 h3 => shifted_vec hb hi hj hk (t := o.translation) (l := l) ht' h1 h2 h3
  obtain ⟨v1, v2⟩ := hvec ⟨lit 0, lit 0, lit 0⟩ (.inl rfl) (.inl rfl) (.inl rfl)
  obtain ⟨w1, w2⟩ := norm_close hb.search (v1.mono (by norm_num))
  have hw : CloseMod (6 / 10 ^ 7) (valV (normFracVec (Structure.fracTols (rbox a b c) dtol)
      (normFracVec (Structure.fracTols (rbox a b c) dtol) (rbox i j k * (o.translation + ⟨lit 0, lit 0, lit 0⟩))))) (valV o.translation) := by
    refine (w2.trans v2).mono ?_
    have hr := tiny_r2 hb
    norm_num at hr ⊢
    linarith
  have hseen : ∀ l : Vec3 (RNum ρ), (l.x = lit 0 ∨ l.x = lit 1) → (l.y = lit 0 ∨ l.y = lit 1) → (l.z = lit 0 ∨ l.z = lit 1) →
      SymmOp.allWithin (normFracVec (Structure.fracTols (rbox a b c) dtol)
        (normFracVec (Structure.fracTols (rbox a b c) dtol) (rbox i j k * (o.translation + l)) -
          normFracVec (Structure.fracTols (rbox a b c) dtol)
      (normFracVec (Structure.fracTols (rbox a b c) dtol) (rbox i j k * (o.translation + ⟨lit 0, lit 0, lit 0⟩)))))
        (Structure.fracTols (rbox a b c) dtol) = true := by
    intro l h1 h2 h3
    obtain ⟨u1, u2⟩ := hvec l h1 h2 h3
    refine seen_near hb u1 w1 ((u2.trans hw.symm).mono (by norm_num))
  generalize Structure.fracTols (rbox a b c) dtol = tols at *
  set f := normFracVec tols (normFracVec tols (rbox i j k * (o.translation + ⟨lit 0, lit 0, lit 0⟩))) with hf
  unfold SpaceGroup.transOp
  simp only []
  rw [r1, r2, translationVecs_two, List.foldl_cons]
  simp only [Bool.not_true, Bool.false_eq_true, if_false]
  have e : SpaceGroup.transCandidate tols (rbox i j k) o o.rotation st ⟨lit 0, lit 0, lit 0⟩ =
      { st with
        foundVectors := amapUpsert st.foundVectors o.rotation [] fun l => l ++ [f]
        newOperations := st.newOperations ++ [⟨o.rotation, f⟩] } := by
    unfold SpaceGroup.transCandidate
    simp only []
    rw [h0, if_neg]
    simp [SpaceGroup.seen]
  rw [e]
  obtain ⟨fv, g1, g2⟩ := skip_candidates tols (rbox i j k) o o.rotation f
    [⟨lit 0, lit 0, lit 1⟩, ⟨lit 0, lit 1, lit 0⟩, ⟨lit 0, lit 1, lit 1⟩, ⟨lit 1, lit 0, lit 0⟩, ⟨lit 1, lit 0, lit 1⟩,
      ⟨lit 1, lit 1, lit 0⟩, ⟨lit 1, lit 1, lit 1⟩]
    { st with
        foundVectors := amapUpsert st.foundVectors o.rotation [] fun l => l ++ [f]
        newOperations := st.newOperations ++ [⟨o.rotation, f⟩] } (by
      simp only []
      rw [amapGet?_upsert, if_pos rfl]
      simp) (by
      intro v hv
      simp only [List.mem_cons, List.not_mem_nil, or_false] at hv
      rcases hv with rfl | rfl | rfl | rfl | rfl | rfl | rfl <;> refine hseen _ ?_ ?_ ?_ <;> first | exact .inl rfl | exact .inr rfl)
  refine ⟨⟨o.rotation, f⟩, fv, g1, ⟨rfl, w1, hw⟩, fun W hW' => ?_⟩
  rw [g2 W hW']
  simp only []
  rw [amapGet?_upsert, if_neg (fun h => hW' h.symm)]

theorem transPass_kept (hb : BoxBounds a b c dtol r A) (hx : NearUnit x) (hy : NearUnit y) (hz : NearUnit z)
    (hi : |i.val - 1| ≤ 130 / 10 ^ 9) (hj : |j.val - 1| ≤ 130 / 10 ^ 9) (hk : |k.val - 1| ≤ 130 / 10 ^ 9)
    (ops : List (SymmOp (RNum ρ))) (hW : ∀ o ∈ ops, EntriesOne o.rotation ∧ TransLe 2 o)
    (hnd : (ops.map fun o => o.rotation).Nodup) (st : SpaceGroup.TransState (RNum ρ))
    (h0 : ∀ o ∈ ops, (amapGet? st.foundVectors o.rotation).getD [] = []) :
    ∃ ops' fv, ops.foldl (SpaceGroup.transOp (Structure.fracTols (rbox a b c) dtol) (rbox i j k) (rbox x y z) (Structure.translationVecs 2)) st =
        ⟨st.newOperations ++ ops', fv, st.initialNumOps⟩ ∧ List.Forall₂ OpKept ops' ops := by
  induction ops generalizing st with
  | nil => exact ⟨[], st.foundVectors, by simp, .nil⟩
  | cons o ops ih =>
    rw [List.forall_mem_cons] at hW h0
    rw [List.map_cons, List.nodup_cons] at hnd
    obtain ⟨o', fv, e, ho, hfv⟩ := transOp_kept hb hx hy hz hi hj hk hW.1.1 hW.1.2 st h0.1
    rw [List.foldl_cons, e]
    obtain ⟨ops', fv', e', h'⟩ := ih hW.2 hnd.2 ⟨st.newOperations ++ [o'], fv, st.initialNumOps⟩ (by
      intro p hp
      simp only []
      rw [hfv _ (fun h => hnd.1 (h ▸ List.mem_map_of_mem hp))]
      exact h0.2 p hp)
    refine ⟨o' :: ops', fv', ?_, .cons ho h'⟩
    rw [e']
    simp

theorem ops_quot_zero {n : ℕ} (hn : n ≠ 0) : SpaceGroup.opsQuotLt 0 (n : ℤ) (1 : RNum ρ) = true := by
  unfold SpaceGroup.opsQuotLt
  rw [if_neg (by exact_mod_cast hn)]
  refine decide_eq_true ?_
  have e : (lit ((0 : ℕ) : ℤ) : RNum ρ) = 0 := RNum.lit_zero
  rw [e, RNum.zero_div', RNum.lt_def', RNum.val_zero, RNum.val_one]
  norm_num

theorem ops_quot_full {n : ℕ} (hn : n ≠ 0) : SpaceGroup.opsQuotLt n (n : ℤ) (1 : RNum ρ) = false := by
  unfold SpaceGroup.opsQuotLt
  rw [if_neg (by exact_mod_cast hn)]
  refine decide_eq_false ?_
  have := lit_ge_one (ρ := ρ) (n := (n : ℤ)) (by omega)
  rw [RNum.div_self' (by linarith), RNum.lt_def']
  exact lt_irrefl _

/-- the operations keep their rotations, and their translations up to `6 · 10⁻⁷` and lattice vectors. -/
theorem group_kept (hb : BoxBounds a b c dtol r A) (hx : NearUnit x) (hy : NearUnit y) (hz : NearUnit z)
    (ops : List (SymmOp (RNum ρ))) (hne : ops ≠ []) (hW : ∀ o ∈ ops, EntriesOne o.rotation ∧ TransLe 2 o)
    (hnd : (ops.map fun o => o.rotation).Nodup) {fuel : ℕ} (hf : 2 ≤ fuel) :
    ∃ ops', SpaceGroup.applyTransformation fuel ops (rbox x y z) (Structure.fracTols (rbox a b c) dtol) = .ret ops' ∧
      List.Forall₂ OpKept ops' ops := by
  obtain ⟨n, rfl⟩ : ∃ n, fuel = n + 2 := ⟨fuel - 2, by omega⟩
  obtain ⟨hv, i, j, k, hinv, hi, hj, hk⟩ := invert_near hb hx hy hz
  obtain ⟨ops', fv, e, h⟩ := transPass_kept hb hx hy hz hi hj hk ops hW hnd ⟨[], [], ops.length⟩ (by
    intro o _
    simp [amapGet?_nil])
  have hl : ops.length ≠ 0 := by simpa using hne
  refine ⟨ops', ?_, h⟩
  unfold SpaceGroup.applyTransformation
  rw [hinv]
  simp only []
  rw [hv, SpaceGroup.transLoop]
  simp only [List.length_nil]
  rw [if_pos (ops_quot_zero hl), e, SpaceGroup.transLoop]
  simp only [List.nil_append]
  rw [h.length_eq, if_neg (by rw [ops_quot_full hl]; simp)]
  rfl

end

end CrystSymm
