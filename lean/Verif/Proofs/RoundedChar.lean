import Verif.Proofs.RoundedTwinLoop
import Verif.Proofs.LatticeChar

set_option autoImplicit false
set_option linter.unusedSectionVars false

/-! # The lattice character of a lattice of multiples of a unit, in rounded and in exact arithmetic -/

namespace CrystSymm

open Spec Reducer SymmetryAnalyzer

section
variable {ρ : Rounding} {γ : ℝ} {B : ℤ} {ε : RNum ρ} {ε' : ℝ}

/-- a tolerance of at most an eighth of the unit in both arithmetics, and representable eighths. -/
structure FineEps (γ : ℝ) (B : ℤ) (ε : RNum ρ) (ε' : ℝ) : Prop where
  tw : TwinEps γ B ε ε'
  e8 : ε.val ≤ γ / 8
  f8 : ε' ≤ γ / 8
  ex8 : ExactMult ρ (γ / 8) (16 * B)

/-- compares in the same way with every multiple of the unit. -/
def EqTwin (γ : ℝ) (B : ℤ) (ε : RNum ρ) (ε' : ℝ) (x : RNum ρ) (y : ℝ) : Prop :=
  ∀ z w, NumTwin γ B z w → eqE (some ε) x z = eqE (some ε') y w

theorem NumTwin.eqTwin (h : TwinEps γ B ε ε') {b : ℤ} {x : RNum ρ} {y : ℝ} (hx : NumTwin γ b x y) (hb : b ≤ B) : EqTwin γ B ε ε' x y :=
  fun _ _ hz => eqE_twin h (hx.mono hb) hz

/-- a number well between two multiples of the unit equals no multiple. -/
theorem between_rnum (h : FineEps γ B ε ε') {x z : RNum ρ} {q m : ℤ} (hq : |q| ≤ B) (h1 : (q + 1 / 4) * γ ≤ x.val)
    (h2 : x.val ≤ (q + 3 / 4) * γ) (hz : z.val = m * γ) : eqE (some ε) x z = false := by
  have g0 := h.tw.γ0
  have hB := h.tw.B1
  rw [abs_le] at hq
  have key : x < z - ε ∨ z < x - ε := by
    rcases le_or_gt m q with hm | hm
    · right
      show z.val < (x - ε).val
      have hm' : (m : ℝ) ≤ q := by exact_mod_cast hm
      have := mul_le_mul_of_nonneg_right hm' g0.le
      have h3 : ((8 * q + 1 : ℤ) : ℝ) * (γ / 8) ≤ x.val - ε.val := by
        have := h.e8; push_cast; linarith
      have h4 := ρ.mono _ _ h3
      rw [h.ex8 _ (abs_le.2 ⟨by linarith [hq.1], by linarith [hq.2]⟩)] at h4
      rw [RNum.val_sub, hz]
      push_cast at h4
      linarith
    · left
      show x.val < (z - ε).val
      have hm' : (q : ℝ) + 1 ≤ m := by exact_mod_cast hm
      have := mul_le_mul_of_nonneg_right hm' g0.le
      have h3 : ((8 * q + 7 : ℤ) : ℝ) * (γ / 8) ≤ z.val - ε.val := by
        have := h.e8; rw [hz]; push_cast; linarith
      have h4 := ρ.mono _ _ h3
      rw [h.ex8 _ (abs_le.2 ⟨by linarith [hq.1], by linarith [hq.2]⟩)] at h4
      rw [RNum.val_sub]
      push_cast at h4
      linarith
  show (!(decide (x < z - ε) || decide (z < x - ε))) = false
  rcases key with k | k <;> simp [k]

theorem between_real (h : FineEps γ B ε ε') {y : ℝ} {q m : ℤ} (h1 : (q + 1 / 4) * γ ≤ y) (h2 : y ≤ (q + 3 / 4) * γ) :
    eqE (some ε') y (m * γ) = false := by
  have g0 := h.tw.γ0
  have key : y < m * γ - ε' ∨ m * γ < y - ε' := by
    rcases le_or_gt m q with hm | hm
    · right
      have hm' : (m : ℝ) ≤ q := by exact_mod_cast hm
      have := mul_le_mul_of_nonneg_right hm' g0.le
      have := h.f8
      linarith
    · left
      have hm' : (q : ℝ) + 1 ≤ m := by exact_mod_cast hm
      have := mul_le_mul_of_nonneg_right hm' g0.le
      have := h.f8
      linarith
  show (!(decide (y < m * γ - ε') || decide (m * γ < y - ε'))) = false
  rcases key with k | k <;> simp [k]

/-- a half, a third or a quarter of a multiple. -/
theorem frac_twin (h : FineEps γ B ε ε') {x : RNum ρ} {y : ℝ} {n p : ℤ} (hp : p = 2 ∨ p = 3 ∨ p = 4) (hn : |n| ≤ B)
    (hx : x.val = ρ.fl y) (hy : y = n / p * γ) : EqTwin γ B ε ε' x y := by
  have g0 := h.tw.γ0
  have hB := h.tw.B1
  have hpos : 0 < p := by rcases hp with rfl | rfl | rfl <;> norm_num
  obtain ⟨q, r, hqr, r0, r1⟩ : ∃ q r : ℤ, n = p * q + r ∧ 0 ≤ r ∧ r < p :=
    ⟨n / p, n % p, (Int.mul_ediv_add_emod n p).symm, Int.emod_nonneg _ hpos.ne', Int.emod_lt_of_pos _ hpos⟩
  have hq : |q| ≤ B := by
    rw [abs_le] at hn ⊢
    rcases hp with rfl | rfl | rfl <;> constructor <;> omega
  have hp0 : (p : ℝ) ≠ 0 := by exact_mod_cast hpos.ne'
  have hv : y = (q + r / p) * γ := by rw [hy, hqr]; push_cast; field_simp
  by_cases hr : r = 0
  · have hv' : y = q * γ := by rw [hv, hr]; simp
    have : NumTwin γ B x y := ⟨q, by rw [hx, hv', h.tw.fl (by linarith)], hv', hq⟩
    exact this.eqTwin h.tw le_rfl
  · have l1 : (1 : ℝ) / 4 ≤ r / p := by
      rcases hp with rfl | rfl | rfl <;> interval_cases r <;> first | exact absurd rfl hr | norm_num
    have l2 : (r : ℝ) / p ≤ 3 / 4 := by
      rcases hp with rfl | rfl | rfl <;> interval_cases r <;> first | exact absurd rfl hr | norm_num
    have y1 : (q + 1 / 4) * γ ≤ y := by rw [hv]; exact mul_le_mul_of_nonneg_right (by linarith) g0.le
    have y2 : y ≤ (q + 3 / 4) * γ := by rw [hv]; exact mul_le_mul_of_nonneg_right (by linarith) g0.le
    rw [abs_le] at hq
    have x1 : (q + 1 / 4) * γ ≤ x.val := by
      have := ρ.mono _ _ y1
      rwa [← hx, show ((q : ℝ) + 1 / 4) * γ = (8 * q + 2 : ℤ) * (γ / 8) by push_cast; ring,
        h.ex8 _ (abs_le.2 ⟨by linarith [hq.1], by linarith [hq.2]⟩),
        show ((8 * q + 2 : ℤ) : ℝ) * (γ / 8) = (q + 1 / 4) * γ by push_cast; ring] at this
    have x2 : x.val ≤ (q + 3 / 4) * γ := by
      have := ρ.mono _ _ y2
      rwa [← hx, show ((q : ℝ) + 3 / 4) * γ = (8 * q + 6 : ℤ) * (γ / 8) by push_cast; ring,
        h.ex8 _ (abs_le.2 ⟨by linarith [hq.1], by linarith [hq.2]⟩),
        show ((8 * q + 6 : ℤ) : ℝ) * (γ / 8) = (q + 3 / 4) * γ by push_cast; ring] at this
    rintro z _ ⟨m, hz, rfl, -⟩
    rw [between_rnum h (abs_le.2 hq) x1 x2 hz, between_real h y1 y2]

/-- the small integers are representable. -/
structure SmallInts (ρ : Rounding) : Prop where
  two : ρ.fl 2 = 2
  three : ρ.fl 3 = 3
  four : ρ.fl 4 = 4

theorem lit_val (n : ℤ) : (lit n : RNum ρ).val = ρ.fl (n : ℝ) := rfl

theorem div_twin (h : FineEps γ B ε ε') (hi : SmallInts ρ) {b : ℤ} {x : RNum ρ} {y : ℝ} (hx : NumTwin γ b x y) (hb : b ≤ B) :
    EqTwin γ B ε ε' (x / lit 2) (y / lit 2) ∧ EqTwin γ B ε ε' (x / lit 4) (y / lit 4) ∧
      EqTwin γ B ε ε' (x / lit (-2)) (y / lit (-2)) ∧ EqTwin γ B ε ε' (x / lit (-3)) (y / lit (-3)) := by
  obtain ⟨n, e1, rfl, e3⟩ := hx
  have l2 : (lit 2 : RNum ρ).val = 2 := by rw [lit_val]; exact_mod_cast hi.two
  have l4 : (lit 4 : RNum ρ).val = 4 := by rw [lit_val]; exact_mod_cast hi.four
  have lm2 : (lit (-2) : RNum ρ).val = -2 := by rw [lit_val]; push_cast; rw [ρ.odd, hi.two]
  have lm3 : (lit (-3) : RNum ρ).val = -3 := by rw [lit_val]; push_cast; rw [ρ.odd, hi.three]
  have r2 : (lit 2 : ℝ) = 2 := by simp [lit]
  have r4 : (lit 4 : ℝ) = 4 := by simp [lit]
  have rm2 : (lit (-2) : ℝ) = -2 := by simp [lit]
  have rm3 : (lit (-3) : ℝ) = -3 := by simp [lit]
  refine ⟨frac_twin h (n := n) (p := 2) (by norm_num) (by linarith) ?_ ?_, frac_twin h (n := n) (p := 4) (by norm_num) (by linarith) ?_ ?_,
    frac_twin h (n := -n) (p := 2) (by norm_num) (by rw [abs_neg]; linarith) ?_ ?_,
    frac_twin h (n := -n) (p := 3) (by norm_num) (by rw [abs_neg]; linarith) ?_ ?_⟩
  · rw [RNum.val_div, e1, l2, r2]
  · rw [r2]; push_cast; ring
  · rw [RNum.val_div, e1, l4, r4]
  · rw [r4]; push_cast; ring
  · rw [RNum.val_div, e1, lm2, rm2]
  · rw [rm2]; push_cast; ring
  · rw [RNum.val_div, e1, lm3, rm3]
  · rw [rm3]; push_cast; ring

theorem isTypeI_twin (h : TwinEps γ B ε ε') {x y z : RNum ρ} {x' y' z' : ℝ} (hx : NumTwin γ B x x') (hy : NumTwin γ B y y')
    (hz : NumTwin γ B z z') : isTypeI (some ε) [x, y, z] = isTypeI (some ε') [x', y', z'] := by
  have hm : (-1 : RNum ρ) * ε = -ε := by rw [RNum.neg_mul', RNum.one_mul']
  have hm' : (-1 : ℝ) * ε' = -ε' := by ring
  have st : ∀ {u : RNum ρ} {v : ℝ} (acc : Int8 × Int8), NumTwin γ B u v → numNegativeZeroStep ε acc u = numNegativeZeroStep ε' acc v := by
    intro u v acc hu
    unfold numNegativeZeroStep
    rw [hm, hm']
    rcases three_twin h hu with ⟨⟨h1, h2, -⟩, g1, g2, -⟩ | ⟨⟨h1, h2, -⟩, g1, g2, -⟩ | ⟨⟨h1, h2, -⟩, g1, g2, -⟩ <;>
      simp only [h1, h2, g1, g2, if_true, if_false]
  have e : nnzE (some ε) [x, y, z] = nnzE (some ε') [x', y', z'] := by
    simp only [nnzE, numNegativeZero, List.foldl]
    rw [st _ hx, st _ hy, st _ hz]
  unfold isTypeI
  rw [e]

/-! ## The candidates -/

/-- the six products, in both arithmetics. -/
structure SixTwin (γ : ℝ) (k : ℤ) (a1 b1 c1 d1 e1 f1 : RNum ρ) (a2 b2 c2 d2 e2 f2 : ℝ) : Prop where
  a : NumTwin γ k a1 a2
  b : NumTwin γ k b1 b2
  c : NumTwin γ k c1 c2
  d : NumTwin γ k d1 d2
  e : NumTwin γ k e1 e2
  f : NumTwin γ k f1 f2

/-- the same number and the same comparison with the products. -/
def CandTwin (γ : ℝ) (B : ℤ) (ε : RNum ρ) (ε' : ℝ) (p : Vec3 (RNum ρ) × ℕ) (q : Vec3 ℝ × ℕ) : Prop :=
  p.2 = q.2 ∧ EqTwin γ B ε ε' p.1.x q.1.x ∧ EqTwin γ B ε ε' p.1.y q.1.y ∧ EqTwin γ B ε ε' p.1.z q.1.z

theorem find_twin {l : List (Vec3 (RNum ρ) × ℕ)} {l' : List (Vec3 ℝ × ℕ)} (hl : List.Forall₂ (CandTwin γ B ε ε') l l') {v : Vec3 (RNum ρ)}
    {v' : Vec3 ℝ} (hx : NumTwin γ B v.x v'.x) (hy : NumTwin γ B v.y v'.y) (hz : NumTwin γ B v.z v'.z) :
    (l.find? fun p => defMatches (some ε) p.1 v).map Prod.snd = (l'.find? fun p => defMatches (some ε') p.1 v').map Prod.snd := by
  induction hl with
  | nil => rfl
  | @cons p q l l' hp _ ih =>
    have e : defMatches (some ε) p.1 v = defMatches (some ε') q.1 v' := by
      unfold defMatches
      rw [hp.2.1 _ _ hx, hp.2.2.1 _ _ hy, hp.2.2.2 _ _ hz]
    rw [List.find?_cons, List.find?_cons]
    simp only [e]
    cases defMatches (some ε') q.1 v' with
    | true => simp [hp.1]
    | false => exact ih

variable {b : ℤ} {a1 b1 c1 d1 e1 f1 : RNum ρ} {a2 b2 c2 d2 e2 f2 : ℝ}

theorem NumTwin.two' (h : TwinEps γ B ε ε') (h2 : ρ.fl 2 = 2) {b : ℤ} {x : RNum ρ} {y : ℝ} (hx : NumTwin γ b x y) (hb : b ≤ B) :
    NumTwin γ (2 * b) (x * lit 2) (y * lit 2) := by
  have := NumTwin.two h h2 hx hb
  rw [mul_comm (lit 2 : ℝ) y] at this
  obtain ⟨n, k1, k2, k3⟩ := this
  refine ⟨n, ?_, k2, k3⟩
  rw [RNum.val_mul] at k1 ⊢
  rw [mul_comm]; exact k1

theorem extraA_twin (h : FineEps γ B ε ε') (hi : SmallInts ρ) (hs : SixTwin γ b a1 b1 c1 d1 e1 f1 a2 b2 c2 d2 e2 f2) (hb0 : 0 ≤ b) (hb : 6 * b ≤ B) :
    extraEvalA a1 b1 d1 e1 f1 (some ε) = extraEvalA a2 b2 d2 e2 f2 (some ε') := by
  have s := NumTwin.add h.tw (NumTwin.add h.tw hs.d hs.e (by linarith)) hs.f (by linarith)
  have t := NumTwin.two' h.tw hi.two (NumTwin.abs h.tw s) (by linarith)
  exact eqE_twin h.tw (t.mono (by linarith)) ((NumTwin.add h.tw hs.a hs.b (by linarith)).mono (by linarith))

theorem extraB_twin (h : FineEps γ B ε ε') (hi : SmallInts ρ) (hs : SixTwin γ b a1 b1 c1 d1 e1 f1 a2 b2 c2 d2 e2 f2) (hb0 : 0 ≤ b) (hb : 6 * b ≤ B) :
    extraEvalB a1 b1 d1 e1 f1 (some ε) = extraEvalB a2 b2 d2 e2 f2 (some ε') := by
  have s := NumTwin.add h.tw (NumTwin.two h.tw hi.two hs.d (by linarith)) hs.f (by linarith)
  have t := eqE_twin h.tw ((NumTwin.abs h.tw s).mono (by linarith)) (hs.b.mono (by linarith))
  have u := extraA_twin h hi hs hb0 hb
  unfold extraEvalA at u
  unfold extraEvalB
  rw [t, u]

/-- the lists of candidates correspond. -/
theorem sets_twin (h : FineEps γ B ε ε') (hi : SmallInts ρ) (hs : SixTwin γ b a1 b1 c1 d1 e1 f1 a2 b2 c2 d2 e2 f2) (hb0 : 0 ≤ b) (hb : 6 * b ≤ B)
    (t : Bool) :
    List.Forall₂ (CandTwin γ B ε ε') (getFirstSet t a1 b1 d1 e1 f1 (some ε)) (getFirstSet t a2 b2 d2 e2 f2 (some ε')) ∧
    List.Forall₂ (CandTwin γ B ε ε') (getSecondSet t a1 b1 d1 e1 f1 (some ε)) (getSecondSet t a2 b2 d2 e2 f2 (some ε')) ∧
    List.Forall₂ (CandTwin γ B ε ε') (getThirdSet t a1 b1 d1 e1 f1 (some ε)) (getThirdSet t a2 b2 d2 e2 f2 (some ε')) ∧
    List.Forall₂ (CandTwin γ B ε ε') (getFourthSet t a1 b1 d1 e1 f1) (getFourthSet t a2 b2 d2 e2 f2) := by
  have hz := NumTwin.zero h.tw
  have z := NumTwin.eqTwin h.tw hz le_rfl
  obtain ⟨z2, z4, zm2, zm3⟩ := div_twin h hi hz le_rfl
  obtain ⟨a2', a4', am2, am3⟩ := div_twin h hi hs.a (by linarith)
  obtain ⟨b2', b4', bm2, bm3⟩ := div_twin h hi hs.b (by linarith)
  have d := NumTwin.eqTwin h.tw hs.d (by linarith)
  have e := NumTwin.eqTwin h.tw hs.e (by linarith)
  have f := NumTwin.eqTwin h.tw hs.f (by linarith)
  have dd := NumTwin.eqTwin h.tw (NumTwin.two' h.tw hi.two hs.d (by linarith)) (by linarith)
  have ee := NumTwin.eqTwin h.tw (NumTwin.two' h.tw hi.two hs.e (by linarith)) (by linarith)
  have hA := extraA_twin h hi hs hb0 hb
  unfold getFirstSet getSecondSet getThirdSet getFourthSet
  rw [hA]
  cases t <;> cases extraEvalA a2 b2 d2 e2 f2 (some ε') <;>
    simp only [if_true, if_false, Bool.false_eq_true, List.cons_append, List.nil_append, List.append_nil, List.forall₂_cons, List.Forall₂.nil, CandTwin,
      Vec3.divS, true_and, and_true] <;>
    simp only [z, z2, z4, zm2, zm3, a2', a4', am2, am3, b2', b4', bm2, bm3, d, e, f, dd, ee, and_self]

theorem characterOf_twin (h : FineEps γ B ε ε') (hi : SmallInts ρ) (hs : SixTwin γ b a1 b1 c1 d1 e1 f1 a2 b2 c2 d2 e2 f2) (hb0 : 0 ≤ b)
    (hb : 6 * b ≤ B) : characterOf (some ε) a1 b1 c1 d1 e1 f1 = characterOf (some ε') a2 b2 c2 d2 e2 f2 := by
  have hle : b ≤ B := by linarith
  have q1 := eqE_twin h.tw (hs.a.mono hle) (hs.b.mono hle)
  have q2 := eqE_twin h.tw (hs.a.mono hle) (hs.c.mono hle)
  have q3 := eqE_twin h.tw (hs.b.mono hle) (hs.c.mono hle)
  have q4 := isTypeI_twin h.tw (hs.d.mono hle) (hs.e.mono hle) (hs.f.mono hle)
  obtain ⟨s1, s2, s3, s4⟩ := sets_twin h hi hs hb0 hb (isTypeI (some ε') [d2, e2, f2])
  have fd := fun {l l'} (hl : List.Forall₂ (CandTwin γ B ε ε') l l') =>
    find_twin hl (v := ⟨d1, e1, f1⟩) (v' := ⟨d2, e2, f2⟩) (hs.d.mono hle) (hs.e.mono hle) (hs.f.mono hle)
  unfold characterOf
  simp only []
  rw [q1, q2, q3, q4, extraA_twin h hi hs hb0 hb, extraB_twin h hi hs hb0 hb]
  rw [fd (l' := if (eqE (some ε') a2 b2 && eqE (some ε') a2 c2) = true then getFirstSet (isTypeI (some ε') [d2, e2, f2]) a2 b2 d2 e2 f2 (some ε')
    else if eqE (some ε') a2 b2 = true then getSecondSet (isTypeI (some ε') [d2, e2, f2]) a2 b2 d2 e2 f2 (some ε')
    else if eqE (some ε') b2 c2 = true then getThirdSet (isTypeI (some ε') [d2, e2, f2]) a2 b2 d2 e2 f2 (some ε')
    else getFourthSet (isTypeI (some ε') [d2, e2, f2]) a2 b2 d2 e2 f2)]
  split_ifs
  · exact s1
  · exact s2
  · exact s3
  · exact s4

end

end CrystSymm
