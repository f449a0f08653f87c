import Verif.Proofs.RoundedStage

set_option autoImplicit false
set_option linter.unusedSectionVars false

/-! # The choice of the shortest vectors of a box in rounded arithmetic -/

namespace CrystSymm

open Spec Reducer

section
variable {α : Type}

/-- a stable sort keeps the order of elements with equal keys. -/
theorem mergeSort_stable (m : α → ℝ) (l : List α) (p : α → Bool) (hp : ∀ a ∈ l, ∀ b ∈ l, p a = true → p b = true → m a = m b) :
    (l.mergeSort fun u v => decide (m u ≤ m v)).filter p = l.filter p := by
  have ht : ∀ a b c : α, decide (m a ≤ m b) = true → decide (m b ≤ m c) = true → decide (m a ≤ m c) = true := by
    intro a b c h1 h2
    simp only [decide_eq_true_eq] at *
    exact h1.trans h2
  have hto : ∀ a b : α, (decide (m a ≤ m b) || decide (m b ≤ m a)) = true := by
    intro a b
    simp only [Bool.or_eq_true, decide_eq_true_eq]
    exact le_total _ _
  have h1 : (l.filter p).Pairwise fun a b => decide (m a ≤ m b) = true := by
    apply List.Pairwise.imp_of_mem (R := fun _ _ => True)
    · intro a b ha hb _
      rw [List.mem_filter] at ha hb
      simp [hp a ha.1 b hb.1 ha.2 hb.2]
    · exact List.pairwise_of_forall fun _ _ => trivial
  have h2 := List.sublist_mergeSort ht hto h1 List.filter_sublist
  have h3 := h2.filter p
  rw [List.filter_filter] at h3
  simp only [Bool.and_self] at h3
  symm
  apply h3.eq_of_length
  exact ((List.mergeSort_perm l _).filter _).length_eq.symm

/-- the first element with a property. -/
theorem split_first (p : α → Prop) [DecidablePred p] {l : List α} (h : ∃ a ∈ l, p a) :
    ∃ pre x post, l = pre ++ x :: post ∧ (∀ a ∈ pre, ¬ p a) ∧ p x := by
  induction l with
  | nil => simp at h
  | cons a l ih =>
    by_cases ha : p a
    · exact ⟨[], a, l, rfl, by simp, ha⟩
    · obtain ⟨b, hb, hpb⟩ := h
      rcases List.mem_cons.1 hb with rfl | hb
      · exact absurd hpb ha
      · obtain ⟨pre, x, post, rfl, h1, h2⟩ := ih ⟨b, hb, hpb⟩
        refine ⟨a :: pre, x, post, rfl, ?_, h2⟩
        intro c hc
        rcases List.mem_cons.1 hc with rfl | hc
        · exact ha
        · exact h1 c hc

end

section
variable {ρ : Rounding}

/-- `x`, `-x` or zero. -/
def signed (n : ℤ) (x : RNum ρ) : RNum ρ := if n = 0 then 0 else if 0 < n then x else -x

/-- the vector with the given signs. -/
def boxVec (a b c : RNum ρ) (e : Vec3 ℤ) : Vec3 (RNum ρ) := ⟨signed e.x a, signed e.y b, signed e.z c⟩

/-- the thirteen combinations. -/
def combBase : List (Vec3 ℤ) :=
  [⟨1, 0, 0⟩, ⟨0, 1, 0⟩, ⟨0, 0, 1⟩, ⟨1, 1, 0⟩, ⟨1, 0, 1⟩, ⟨0, 1, 1⟩, ⟨-1, 1, 0⟩, ⟨-1, 0, 1⟩,
   ⟨0, -1, 1⟩, ⟨1, 1, 1⟩, ⟨-1, 1, 1⟩, ⟨1, -1, 1⟩, ⟨1, 1, -1⟩]

/-- the signs of the candidates of `find_primitive_cell`. -/
def combLabels : List (Vec3 ℤ) := combBase.flatMap fun e => [e, ⟨-e.x, -e.y, -e.z⟩, ⟨-e.x, -e.y, -e.z⟩]

theorem signed_val {n : ℤ} (h : n = -1 ∨ n = 0 ∨ n = 1) (x : RNum ρ) : (signed n x).val = n * x.val := by
  rcases h with rfl | rfl | rfl <;> simp [signed, RNum.val_neg]

theorem signed_neg {n : ℤ} (x : RNum ρ) : signed (-n) x = -signed n x := by
  unfold signed
  by_cases h : n = 0
  · simp [h, RNum.neg_zero']
  · rcases lt_or_gt_of_ne h with h1 | h1
    · rw [if_neg (by omega), if_pos (by omega), if_neg h, if_neg (by omega), RNum.neg_neg']
    · rw [if_neg (by omega), if_neg (by omega), if_neg h, if_pos h1]

theorem mul_signed {n : ℤ} (x y : RNum ρ) : x * signed n y = signed n (x * y) := by
  unfold signed
  split
  · exact RNum.mul_zero' x
  · split
    · rfl
    · exact RNum.mul_neg' x y

theorem boxVec_neg (a b c : RNum ρ) (e : Vec3 ℤ) :
    Vec3.scale (-1) (boxVec a b c e) = boxVec a b c ⟨-e.x, -e.y, -e.z⟩ := by
  have h : ∀ x : RNum ρ, (-1 : RNum ρ) * x = -x := fun x => by rw [RNum.neg_mul', RNum.one_mul']
  simp only [Vec3.scale, boxVec, signed_neg, h]

theorem rbox_boxVec (a b c a' b' c' : RNum ρ) (e : Vec3 ℤ) :
    rbox a b c * boxVec a' b' c' e = boxVec (a * a') (b * b') (c * c') e := by
  rw [rbox_mulVec]
  simp only [boxVec, mul_signed]

theorem combBase_vecs (a b c : RNum ρ) :
    (baseCombVecs : List (Vec3 (RNum ρ))).map (fun v => (rbox a b c * v : Vec3 (RNum ρ))) = combBase.map (boxVec a b c) := by
  simp [baseCombVecs, combBase, rbox_mulVec, boxVec, signed, RNum.mul_one', RNum.mul_zero', RNum.mul_neg']

/-- entries are signs. -/
def Signs (e : Vec3 ℤ) : Prop :=
  (e.x = -1 ∨ e.x = 0 ∨ e.x = 1) ∧ (e.y = -1 ∨ e.y = 0 ∨ e.y = 1) ∧ (e.z = -1 ∨ e.z = 0 ∨ e.z = 1)

instance (e : Vec3 ℤ) : Decidable (Signs e) := by unfold Signs; infer_instance

theorem combLabels_signs : ∀ e ∈ combLabels, Signs e := by decide

theorem boxVec_val (a b c : RNum ρ) {e : Vec3 ℤ} (h : Signs e) :
    valV (boxVec a b c e) = ⟨e.x * a.val, e.y * b.val, e.z * c.val⟩ := by
  simp only [valV, Vec3.map, boxVec, signed_val h.1, signed_val h.2.1, signed_val h.2.2]

theorem boxVec_mag {r A : ℝ} (hε : Relative ρ (r ^ 2)) (h0 : 0 ≤ r) (h1 : r ≤ 1 / 2 ^ 20) (hA : 1 ≤ A) {a b c : RNum ρ}
    (ha : |a.val| ≤ A) (hb : |b.val| ≤ A) (hc : |c.val| ≤ A) {e : Vec3 ℤ} (h : Signs e) :
    |(boxVec a b c e).mag.val - (⟨e.x * a.val, e.y * b.val, e.z * c.val⟩ : Vec3 ℝ).mag| ≤ 25 * A * r := by
  have key : ∀ {n : ℤ} {x : RNum ρ}, (n = -1 ∨ n = 0 ∨ n = 1) → |x.val| ≤ A → |(signed n x).val| ≤ 7 * A := by
    intro n x hn hx
    rw [signed_val hn]
    have := abs_nonneg x.val
    rcases hn with rfl | rfl | rfl <;> simp <;> linarith
  have := length_close hε h0 h1 hA (v := boxVec a b c e) (key h.1 ha) (key h.2.1 hb) (key h.2.2 hc)
  rwa [boxVec_val a b c h] at this

theorem comb_list (a b c u v w : RNum ρ)
    (hz : ∀ e ∈ combLabels, (zeroTol : RNum ρ) < FRound.abs (boxVec u v w e).mag) :
    Structure.getCartCoords (rbox a b c) (combinationVecs (rbox u v w)) =
      combLabels.map (boxVec (a * u) (b * v) (c * w)) := by
  have h1 : combinationVecs (rbox u v w) = combLabels.map (boxVec u v w) := by
    unfold combinationVecs
    have e1 : ∀ g : Vec3 (RNum ρ) → List (Vec3 (RNum ρ)),
        (baseCombVecs : List (Vec3 (RNum ρ))).flatMap (fun comb => g (rbox u v w * comb)) =
          (combBase.map (boxVec u v w)).flatMap g := by
      intro g
      rw [← combBase_vecs, List.flatMap_map]
    rw [e1 (fun tv => [tv, Vec3.scale (-1) tv] ++ if zeroTol < FRound.abs (Vec3.scale (-1) tv).mag then
      [Vec3.scale (-1) tv] else []), List.flatMap_map]
    unfold combLabels
    rw [List.map_flatMap]
    refine List.flatMap_congr fun e he => ?_
    rw [boxVec_neg, if_pos (hz _ (by unfold combLabels; exact List.mem_flatMap.2 ⟨e, he, by simp⟩))]
    rfl
  rw [h1]
  unfold Structure.getCartCoords
  rw [List.map_map]
  refine List.map_congr_left fun e _ => ?_
  exact rbox_boxVec a b c u v w e

/-! ## Lengths -/

variable {a b c dtol : RNum ρ} {r A : ℝ}

theorem sq_sign {n : ℤ} (h : n = -1 ∨ n = 0 ∨ n = 1) : ((n : ℝ)) ^ 2 = if n = 0 then 0 else 1 := by
  rcases h with rfl | rfl | rfl <;> simp

theorem boxVec_mag_near (h : BoxBounds a b c dtol r A) {e : Vec3 ℤ} (he : Signs e) :
    |(boxVec a b c e).mag.val - Real.sqrt ((if e.x = 0 then 0 else a.val ^ 2) + (if e.y = 0 then 0 else b.val ^ 2)
      + (if e.z = 0 then 0 else c.val ^ 2))| ≤ dtol.val / 160 := by
  obtain ⟨l1, l2, l3⟩ := h.lower
  obtain ⟨u1, u2, u3⟩ := h.upper
  have h1 := boxVec_mag h.rel h.r0 h.r1 h.A1 (a := a) (b := b) (c := c) (by rw [abs_of_pos (by linarith)]; exact u1)
    (by rw [abs_of_pos (by linarith)]; exact u2) (by rw [abs_of_pos (by linarith)]; exact u3) he
  have e1 : lenSq (⟨e.x * a.val, e.y * b.val, e.z * c.val⟩ : Vec3 ℝ) = (if e.x = 0 then 0 else a.val ^ 2) +
      (if e.y = 0 then 0 else b.val ^ 2) + (if e.z = 0 then 0 else c.val ^ 2) := by
    have k : ∀ {n : ℤ} (x : ℝ), (n = -1 ∨ n = 0 ∨ n = 1) → (n * x) * (n * x) = if n = 0 then 0 else x ^ 2 := by
      intro n x hn
      rcases hn with rfl | rfl | rfl <;> simp <;> ring
    simp only [lenSq]
    rw [k _ he.1, k _ he.2.1, k _ he.2.2]
  rw [mag_eq, e1] at h1
  refine h1.trans ?_
  have := h.search.Ar
  linarith

/-- a vector with two nonzero components is longer than either. -/
theorem sqrt_gap (h : BoxBounds a b c dtol r A) {x q : ℝ} (hx0 : 0 < x) (hxA : x ≤ A) (hq : x ^ 2 + a.val ^ 2 ≤ q) :
    x + dtol.val / 40 ≤ Real.sqrt q := by
  have hA := h.res
  have ha := h.ea
  have hd := h.lo
  refine Real.le_sqrt_of_sq_le (le_trans ?_ hq)
  have k1 : x * dtol.val ≤ 16000 * dtol.val * dtol.val := mul_le_mul_of_nonneg_right (hxA.trans hA) (by linarith)
  have k2 : (60 * dtol.val) ^ 2 ≤ a.val ^ 2 := pow_le_pow_left₀ (by linarith) ha 2
  nlinarith

theorem boxVec_mag_neg (e : Vec3 ℤ) : (boxVec a b c ⟨-e.x, -e.y, -e.z⟩).mag = (boxVec a b c e).mag := by
  simp only [Vec3.mag, Vec3.normSq, Vec3.dot, boxVec, signed_neg, RNum.neg_mul', RNum.mul_neg', RNum.neg_neg']

theorem signs_axes : Signs ⟨1, 0, 0⟩ ∧ Signs ⟨0, 1, 0⟩ ∧ Signs ⟨0, 0, 1⟩ := by decide

theorem axis_mags (h : BoxBounds a b c dtol r A) :
    |(boxVec a b c ⟨1, 0, 0⟩).mag.val - a.val| ≤ dtol.val / 160 ∧ |(boxVec a b c ⟨0, 1, 0⟩).mag.val - b.val| ≤ dtol.val / 160 ∧
      |(boxVec a b c ⟨0, 0, 1⟩).mag.val - c.val| ≤ dtol.val / 160 := by
  obtain ⟨l1, l2, l3⟩ := h.lower
  have k1 := boxVec_mag_near h signs_axes.1
  have k2 := boxVec_mag_near h signs_axes.2.1
  have k3 := boxVec_mag_near h signs_axes.2.2
  simp only [one_ne_zero, if_true, if_false, add_zero, zero_add] at k1 k2 k3
  rw [Real.sqrt_sq (by linarith)] at k1 k2 k3
  exact ⟨k1, k2, k3⟩

/-- a vector with two nonzero components is longer than an axis along one of them or a shorter one. -/
theorem mag_long (h : BoxBounds a b c dtol r A) {e : Vec3 ℤ} (he : Signs e) {x : ℝ} (hx0 : 0 < x) (hxA : x ≤ A)
    (hq : x ^ 2 + a.val ^ 2 ≤ (if e.x = 0 then 0 else a.val ^ 2) + (if e.y = 0 then 0 else b.val ^ 2)
      + (if e.z = 0 then 0 else c.val ^ 2)) {m : ℝ} (hm : |m - x| ≤ dtol.val / 160) : m ≤ (boxVec a b c e).mag.val := by
  have hd := h.lo
  have k2 := boxVec_mag_near h he
  have k3 := sqrt_gap h hx0 hxA hq
  rw [abs_le] at hm k2
  linarith [hm.2, k2.1]

/-- the length of an axis depends on the edge only. -/
theorem axis_mag_eq (a b c : RNum ρ) {e : Vec3 ℤ} (he : Signs e) :
    (e.y = 0 → e.z = 0 → e.x ≠ 0 → (boxVec a b c e).mag = (boxVec a b c ⟨1, 0, 0⟩).mag) ∧
    (e.x = 0 → e.z = 0 → e.y ≠ 0 → (boxVec a b c e).mag = (boxVec a b c ⟨0, 1, 0⟩).mag) ∧
    (e.x = 0 → e.y = 0 → e.z ≠ 0 → (boxVec a b c e).mag = (boxVec a b c ⟨0, 0, 1⟩).mag) := by
  obtain ⟨x, y, z⟩ := e
  obtain ⟨h1, h2, h3⟩ := he
  simp only at h1 h2 h3 ⊢
  refine ⟨?_, ?_, ?_⟩
  · rintro rfl rfl hx
    rcases h1 with rfl | rfl | rfl
    · exact boxVec_mag_neg (a := a) (b := b) (c := c) ⟨1, 0, 0⟩
    · exact absurd rfl hx
    · rfl
  · rintro rfl rfl hx
    rcases h2 with rfl | rfl | rfl
    · exact boxVec_mag_neg (a := a) (b := b) (c := c) ⟨0, 1, 0⟩
    · exact absurd rfl hx
    · rfl
  · rintro rfl rfl hx
    rcases h3 with rfl | rfl | rfl
    · exact boxVec_mag_neg (a := a) (b := b) (c := c) ⟨0, 0, 1⟩
    · exact absurd rfl hx
    · rfl

theorem axes_le (h : BoxBounds a b c dtol r A) :
    (boxVec a b c ⟨1, 0, 0⟩).mag.val ≤ (boxVec a b c ⟨0, 1, 0⟩).mag.val ∧
      (boxVec a b c ⟨0, 1, 0⟩).mag.val ≤ (boxVec a b c ⟨0, 0, 1⟩).mag.val := by
  obtain ⟨k1, k2, k3⟩ := axis_mags h
  have hd := h.lo
  rw [abs_le] at k1 k2 k3
  constructor
  · rcases h.ab with e | e
    · have : (boxVec a b c ⟨1, 0, 0⟩).mag = (boxVec a b c ⟨0, 1, 0⟩).mag := by
        simp only [Vec3.mag, Vec3.normSq, Vec3.dot, boxVec, signed, e, one_ne_zero, if_true, if_false, zero_lt_one, RNum.zero_mul',
          RNum.add_zero', RNum.zero_add']
      rw [this]
    · linarith [k1.2, k2.1]
  · rcases h.bc with ⟨-, e⟩ | e
    · have : (boxVec a b c ⟨0, 1, 0⟩).mag = (boxVec a b c ⟨0, 0, 1⟩).mag := by
        simp only [Vec3.mag, Vec3.normSq, Vec3.dot, boxVec, signed, e, one_ne_zero, if_true, if_false, zero_lt_one, RNum.zero_mul',
          RNum.add_zero', RNum.zero_add']
      rw [this]
    · linarith [k2.2, k3.1]

theorem mag_third (h : BoxBounds a b c dtol r A) {e : Vec3 ℤ} (he : Signs e) (hz : e.z ≠ 0) :
    (boxVec a b c ⟨0, 0, 1⟩).mag.val ≤ (boxVec a b c e).mag.val := by
  obtain ⟨l1, l2, l3⟩ := h.lower
  obtain ⟨u1, u2, u3⟩ := h.upper
  by_cases hx : e.x = 0 ∧ e.y = 0
  · rw [(axis_mag_eq a b c he).2.2 hx.1 hx.2 hz]
  · refine mag_long h he (x := c.val) (by linarith) u3 ?_ (axis_mags h).2.2
    have := sq_nonneg a.val; have := sq_nonneg b.val
    have : a.val ^ 2 ≤ b.val ^ 2 := pow_le_pow_left₀ (by linarith) h.le1 2
    rw [if_neg hz]
    rcases not_and_or.1 hx with hx | hx <;> rw [if_neg hx] <;> split_ifs <;> linarith

theorem mag_second (h : BoxBounds a b c dtol r A) {e : Vec3 ℤ} (he : Signs e) (hn : e.y ≠ 0 ∨ e.z ≠ 0) :
    (boxVec a b c ⟨0, 1, 0⟩).mag.val ≤ (boxVec a b c e).mag.val := by
  obtain ⟨l1, l2, l3⟩ := h.lower
  obtain ⟨u1, u2, u3⟩ := h.upper
  by_cases hz : e.z = 0
  · have hy : e.y ≠ 0 := by tauto
    by_cases hx : e.x = 0
    · rw [(axis_mag_eq a b c he).2.1 hx hz hy]
    · refine mag_long h he (x := b.val) (by linarith) u2 ?_ (axis_mags h).2.1
      rw [if_neg hx, if_neg hy, if_pos hz]
      linarith
  · exact (axes_le h).2.trans (mag_third h he hz)

theorem mag_first (h : BoxBounds a b c dtol r A) {e : Vec3 ℤ} (he : Signs e) (hn : e.x ≠ 0 ∨ e.y ≠ 0 ∨ e.z ≠ 0) :
    (boxVec a b c ⟨1, 0, 0⟩).mag.val ≤ (boxVec a b c e).mag.val := by
  by_cases hy : e.y ≠ 0 ∨ e.z ≠ 0
  · exact (axes_le h).1.trans (mag_second h he hy)
  · simp only [not_or, not_not] at hy
    rw [(axis_mag_eq a b c he).1 hy.1 hy.2 (by tauto)]

/-! ## Products -/

theorem cross_first (v : Vec3 (RNum ρ)) :
    (boxVec a b c ⟨1, 0, 0⟩).cross v = ⟨0, -(a * v.z), a * v.y⟩ := by
  simp only [boxVec, signed, Vec3.cross, one_ne_zero, if_true, if_false, zero_lt_one, RNum.zero_mul', RNum.sub_zero',
    RNum.zero_sub']

theorem zero_mag : (⟨0, 0, 0⟩ : Vec3 (RNum ρ)).mag = 0 := by
  apply RNum.ext
  simp only [Vec3.mag, Vec3.normSq, Vec3.dot, RNum.zero_mul', RNum.add_zero', RNum.val_sqrt, RNum.val_zero, Real.sqrt_zero,
    fl_zero]

theorem area_val (h : BoxBounds a b c dtol r A) : 30 * dtol.val ≤ (a * b).val := by
  obtain ⟨l1, l2, l3⟩ := h.lower
  have hd := h.lo; have ha := h.ea; have hb := h.le1
  have k : |ρ.fl (a.val * b.val) - a.val * b.val| ≤ r ^ 2 * (1 + a.val * b.val) := by
    have hp : 0 ≤ a.val * b.val := by positivity
    refine rel_le h.rel (by linarith) ?_
    rw [abs_of_nonneg hp]; linarith
  rw [← RNum.val_mul] at k
  have r2 := h.search.r2
  norm_num at r2
  have k2 : 36 * dtol.val ≤ a.val * b.val := by nlinarith
  have k3 : r ^ 2 * (1 + a.val * b.val) ≤ 1 / 1000 * (1 + a.val * b.val) :=
    mul_le_mul_of_nonneg_right (by linarith) (by nlinarith)
  rw [abs_le] at k
  linarith [k.1]

theorem volume_val (h : BoxBounds a b c dtol r A) : dtol.val < (a * b * c).val := by
  obtain ⟨l1, l2, l3⟩ := h.lower
  have hd := h.lo
  have ha := area_val h
  have hp : 0 ≤ (a * b).val * c.val := mul_nonneg (by linarith) (by linarith)
  have k : |ρ.fl ((a * b).val * c.val) - (a * b).val * c.val| ≤ r ^ 2 * (1 + (a * b).val * c.val) := by
    refine rel_le h.rel (by linarith) ?_
    rw [abs_of_nonneg hp]; linarith
  rw [← RNum.val_mul (a * b) c] at k
  have r2 := h.search.r2
  norm_num at r2
  have k2 : 15 * dtol.val ≤ (a * b).val * c.val := by nlinarith
  have k3 : r ^ 2 * (1 + (a * b).val * c.val) ≤ 1 / 1000 * (1 + (a * b).val * c.val) :=
    mul_le_mul_of_nonneg_right (by linarith) (by linarith)
  rw [abs_le] at k
  linarith [k.1]

/-- the length of a vector along the third axis. -/
theorem axis_mag_large (h : BoxBounds a b c dtol r A) {p : RNum ρ} (hp : 30 * dtol.val ≤ p.val) :
    dtol.val < |(⟨0, 0, p⟩ : Vec3 (RNum ρ)).mag.val| := by
  have hd := h.lo
  have r2 := h.search.r2
  norm_num at r2
  have e1 : (⟨0, 0, p⟩ : Vec3 (RNum ρ)).mag.val = ρ.fl (Real.sqrt (p * p).val) := by
    simp only [Vec3.mag, Vec3.normSq, Vec3.dot, RNum.zero_mul', RNum.zero_add', RNum.val_sqrt]
  have k1 : |ρ.fl (p.val * p.val) - p.val * p.val| ≤ r ^ 2 * (1 + p.val * p.val) := by
    have h0 : 0 ≤ p.val * p.val := mul_self_nonneg _
    refine rel_le h.rel (by linarith) ?_
    rw [abs_of_nonneg h0]; linarith
  rw [← RNum.val_mul] at k1
  have k2 : r ^ 2 * (1 + p.val * p.val) ≤ 1 / 1000 * (1 + p.val * p.val) :=
    mul_le_mul_of_nonneg_right (by linarith) (by nlinarith)
  have k3 : (p.val / 2) ^ 2 ≤ (p * p).val := by
    rw [abs_le] at k1
    nlinarith [k1.1]
  have k4 : p.val / 2 ≤ Real.sqrt (p * p).val := Real.le_sqrt_of_sq_le k3
  have k5 : |ρ.fl (Real.sqrt (p * p).val) - Real.sqrt (p * p).val| ≤ r ^ 2 * (1 + Real.sqrt (p * p).val) := by
    have h0 : 0 ≤ Real.sqrt (p * p).val := Real.sqrt_nonneg _
    refine rel_le h.rel (by linarith) ?_
    rw [abs_of_nonneg h0]; linarith
  have k6 : r ^ 2 * (1 + Real.sqrt (p * p).val) ≤ 1 / 1000 * (1 + Real.sqrt (p * p).val) :=
    mul_le_mul_of_nonneg_right (by linarith) (by linarith [Real.sqrt_nonneg (p * p).val])
  rw [e1]
  refine lt_of_lt_of_le ?_ (le_abs_self _)
  rw [abs_le] at k5
  linarith [k5.1]

theorem cross_second : (boxVec a b c ⟨1, 0, 0⟩).cross (boxVec a b c ⟨0, 1, 0⟩) = ⟨0, 0, a * b⟩ := by
  rw [cross_first]
  simp [boxVec, signed, RNum.mul_zero', RNum.neg_zero']

theorem scan_second (h : BoxBounds a b c dtol r A) :
    dtol < FRound.abs ((boxVec a b c ⟨1, 0, 0⟩).cross (boxVec a b c ⟨0, 1, 0⟩)).mag := by
  rw [cross_second]
  show dtol.val < _
  rw [RNum.val_abs]
  exact axis_mag_large h (area_val h)

theorem scan_third (h : BoxBounds a b c dtol r A) (e : Vec3 ℤ) (he : Signs e) :
    dtol < ((boxVec a b c ⟨1, 0, 0⟩).cross (boxVec a b c ⟨0, 1, 0⟩)).dot (boxVec a b c e) ↔ e.z = 1 := by
  have hd := h.lo
  rw [cross_second]
  have e1 : (⟨0, 0, a * b⟩ : Vec3 (RNum ρ)).dot (boxVec a b c e) = signed e.z (a * b * c) := by
    have hz : ∀ n : ℤ, signed n (0 : RNum ρ) = 0 := fun n => by
      unfold signed
      split
      · rfl
      · split
        · rfl
        · exact RNum.neg_zero'
    simp only [Vec3.dot, boxVec, RNum.zero_mul', RNum.zero_add', mul_signed, hz]
  rw [e1]
  show dtol.val < _ ↔ _
  rw [signed_val he.2.2]
  have hv := volume_val h
  generalize (a * b * c).val = w at hv
  rcases he.2.2 with h | h | h <;> rw [h] <;> simp <;> linarith

theorem scan_parallel (h : BoxBounds a b c dtol r A) (e : Vec3 ℤ) (hy : e.y = 0) (hz : e.z = 0) :
    ¬ dtol < FRound.abs ((boxVec a b c ⟨1, 0, 0⟩).cross (boxVec a b c e)).mag := by
  have hd := h.lo
  have e1 : (boxVec a b c ⟨1, 0, 0⟩).cross (boxVec a b c e) = ⟨0, 0, 0⟩ := by
    rw [cross_first]
    simp only [boxVec, signed, hy, hz, if_true, RNum.mul_zero', RNum.neg_zero']
  rw [e1, zero_mag]
  show ¬ dtol.val < _
  rw [RNum.val_abs, RNum.val_zero, abs_zero]
  linarith

theorem sortByMag_labels (l : List (Vec3 ℤ)) :
    sortByMag (l.map (boxVec a b c)) =
      (l.mergeSort fun u v => decide ((boxVec a b c u).mag.val ≤ (boxVec a b c v).mag.val)).map (boxVec a b c) := by
  unfold sortByMag
  rw [List.map_mergeSort]
  intro u _ v _
  rfl

/-- the three axes, in order. -/
theorem select_axes (h : BoxBounds a b c dtol r A) :
    getShortestTranslationVecs dtol (([⟨1, 0, 0⟩, ⟨0, 1, 0⟩, ⟨0, 0, 1⟩] : List (Vec3 ℤ)).map (boxVec a b c)) =
      .ret (boxVec a b c ⟨1, 0, 0⟩, boxVec a b c ⟨0, 1, 0⟩, boxVec a b c ⟨0, 0, 1⟩) := by
  refine shortest_any (pre := []) (pre2 := []) (post := []) ?_ (by simp) (scan_second h) (by simp)
    ((scan_third h _ signs_axes.2.2).2 rfl)
  rw [sortByMag_labels, List.mergeSort_of_pairwise]
  · rfl
  · obtain ⟨k1, k3⟩ := axes_le h
    simp only [List.pairwise_cons, List.mem_cons, List.not_mem_nil, or_false, forall_eq_or_imp, forall_eq, decide_eq_true_eq,
      List.Pairwise.nil, and_true, false_implies, implies_true]
    exact ⟨⟨k1, k1.trans k3⟩, k3⟩

open Classical in
/-- the first element of the sorted list with a property `P`, if `e` is the first with `P` in the list and no longer than any
other with `P`. -/
theorem sorted_first {α : Type} (m : α → ℝ) {l pre post : List α} {x e : α} (P : α → Prop)
    (hS : (l.mergeSort fun u v => decide (m u ≤ m v)) = pre ++ x :: post) (hpre : ∀ y ∈ pre, ¬ P y) (hx : P x)
    (he : ∀ y ∈ l, P y → m e ≤ m y) (hfirst : (l.filter fun y => decide (P y)).head? = some e) : x = e := by
  have hmem : ∀ y, y ∈ pre ++ x :: post ↔ y ∈ l := fun y => by rw [← hS]; exact (List.mergeSort_perm _ _).mem_iff
  have hPe : P e ∧ e ∈ l := by
    have := List.mem_of_head? hfirst
    rw [List.mem_filter] at this
    exact ⟨by simpa using this.2, this.1⟩
  have hpw : (pre ++ x :: post).Pairwise fun u v => m u ≤ m v := by
    have := List.pairwise_mergeSort (le := fun u v => decide (m u ≤ m v)) (by
      intro a b c h1 h2
      simp only [decide_eq_true_eq] at *
      exact h1.trans h2) (by
      intro a b
      simp only [Bool.or_eq_true, decide_eq_true_eq]
      exact le_total _ _) l
    rw [hS] at this
    exact this.imp fun h => by simpa using h
  have h1 : m x = m e := by
    refine le_antisymm ?_ (he x ((hmem x).1 (by simp)) hx)
    rcases List.mem_append.1 ((hmem e).2 hPe.2) with h | h
    · exact absurd hPe.1 (hpre e h)
    · rcases List.mem_cons.1 h with h | h
      · rw [h]
      · rw [List.pairwise_append, List.pairwise_cons] at hpw
        exact hpw.2.1.1 e h
  have h2 := mergeSort_stable m l (fun y => decide (P y ∧ m y = m e)) (by
    intro a _ b _ ha hb
    simp only [decide_eq_true_eq] at ha hb
    rw [ha.2, hb.2])
  rw [hS, List.filter_append, List.filter_eq_nil_iff.2 (fun y hy => by simp [hpre y hy]), List.nil_append,
    List.filter_cons_of_pos (by simp [hx, h1])] at h2
  have h3 : (l.filter fun y => decide (P y ∧ m y = m e)) = (l.filter fun y => decide (P y)).filter fun y => decide (m y = m e) := by
    rw [List.filter_filter]
    congr 1
    funext y
    rw [Bool.decide_and, Bool.and_comm]
  rw [h3] at h2
  obtain ⟨t, ht⟩ : ∃ t, (l.filter fun y => decide (P y)) = e :: t := by
    cases hl : l.filter fun y => decide (P y) with
    | nil => rw [hl] at hfirst; simp at hfirst
    | cons y t => rw [hl] at hfirst; simp at hfirst; exact ⟨t, by rw [hfirst]⟩
  rw [ht, List.filter_cons_of_pos (by simp)] at h2
  exact (List.cons.inj h2).1

set_option maxHeartbeats 1000000 in
/-- among the combinations the three axes are chosen. -/
theorem select_box (h : BoxBounds a b c dtol r A) :
    getShortestTranslationVecs dtol (combLabels.map (boxVec a b c)) =
      .ret (boxVec a b c ⟨1, 0, 0⟩, boxVec a b c ⟨0, 1, 0⟩, boxVec a b c ⟨0, 0, 1⟩) := by
  set m : Vec3 ℤ → ℝ := fun e => (boxVec a b c e).mag.val with hm
  have hS := sortByMag_labels (a := a) (b := b) (c := c) combLabels
  set S := combLabels.mergeSort fun u v => decide (m u ≤ m v) with hSdef
  have hperm : S.Perm combLabels := List.mergeSort_perm _ _
  have hsg : ∀ e ∈ S, Signs e := fun e he => combLabels_signs e (hperm.subset he)
  have hmem : ∀ e ∈ combLabels, e ∈ S := fun e he => hperm.symm.subset he
  have hnz : ∀ e ∈ combLabels, e.x ≠ 0 ∨ e.y ≠ 0 ∨ e.z ≠ 0 := by decide
  have m1 : (⟨1, 0, 0⟩ : Vec3 ℤ) ∈ S := hmem _ (by decide)
  have m2 : (⟨0, 1, 0⟩ : Vec3 ℤ) ∈ S := hmem _ (by decide)
  have m3 : (⟨0, 0, 1⟩ : Vec3 ℤ) ∈ S := hmem _ (by decide)
  clear_value S
  clear hperm hmem
  -- the first
  obtain ⟨x, T, rfl⟩ : ∃ x T, S = x :: T := by
    cases S with
    | nil => simp at m1
    | cons x T => exact ⟨x, T, rfl⟩
  have hx1 : x = ⟨1, 0, 0⟩ := by
    refine sorted_first m (pre := []) (P := fun _ => True) hSdef.symm (by simp) trivial
      (fun y hy _ => mag_first h (combLabels_signs y hy) (hnz y hy)) ?_
    simp [combLabels, combBase]
  subst hx1
  -- the second
  have m2' : (⟨0, 1, 0⟩ : Vec3 ℤ) ∈ T := by simpa using m2
  have m3' : (⟨0, 0, 1⟩ : Vec3 ℤ) ∈ T := by simpa using m3
  obtain ⟨pre, y, post, rfl, hpre, hy⟩ := split_first (fun e : Vec3 ℤ => e.y ≠ 0 ∨ e.z ≠ 0) ⟨_, m2', by simp⟩
  have hpre' : ∀ e ∈ pre, e.y = 0 ∧ e.z = 0 := fun e he => by have := hpre e he; tauto
  have hy1 : y = ⟨0, 1, 0⟩ := by
    refine sorted_first m (pre := ⟨1, 0, 0⟩ :: pre) (P := fun e : Vec3 ℤ => e.y ≠ 0 ∨ e.z ≠ 0) hSdef.symm ?_ hy
      (fun y hy hp => mag_second h (combLabels_signs y hy) hp) ?_
    · intro e he
      rcases List.mem_cons.1 he with rfl | he
      · simp
      · exact hpre e he
    · simp [combLabels, combBase]
  subst hy1
  -- the third
  have m3a : (⟨0, 0, 1⟩ : Vec3 ℤ) ∈ post := by
    rcases List.mem_append.1 m3' with e | e
    · have := hpre' _ e; simp at this
    · simpa using e
  obtain ⟨pre2, z, post2, rfl, hp2, hz⟩ := split_first (fun e : Vec3 ℤ => e.z = 1) ⟨_, m3a, rfl⟩
  have hz1 : z = ⟨0, 0, 1⟩ := by
    refine sorted_first m (pre := ⟨1, 0, 0⟩ :: (pre ++ ⟨0, 1, 0⟩ :: pre2)) (post := post2) (P := fun e : Vec3 ℤ => e.z = 1) ?_ ?_ hz
      (fun y hy hp => mag_third h (combLabels_signs y hy) (by rw [hp]; norm_num)) ?_
    · rw [← hSdef]
      simp
    · intro e he
      simp only [List.mem_cons, List.mem_append] at he
      rcases he with rfl | he | rfl | he
      · simp
      · rw [(hpre' e he).2]; norm_num
      · simp
      · exact hp2 e he
    · simp [combLabels, combBase]
  subst hz1
  refine shortest_any (pre := pre.map (boxVec a b c)) (pre2 := pre2.map (boxVec a b c)) (post := post2.map (boxVec a b c)) ?_
    ?_ (scan_second h) ?_ ((scan_third h _ signs_axes.2.2).2 rfl)
  · rw [hS]
    simp only [List.map_cons, List.map_append]
  · intro v hv
    obtain ⟨e, he, rfl⟩ := List.mem_map.1 hv
    exact scan_parallel h e (hpre' e he).1 (hpre' e he).2
  · intro v hv
    obtain ⟨e, he, rfl⟩ := List.mem_map.1 hv
    rw [scan_third h e (hsg e (by simp [he]))]
    exact hp2 e he

end

end CrystSymm
