import Verif.Proofs.RoundedTwinLoop
import Verif.Props.RoundedNiggli
import Verif.Props.NiggliRun

set_option autoImplicit false
set_option linter.unusedSectionVars false

/-! # C89: the Niggli reduction makes no rounding error on lattices of integer multiples of a unit -/

namespace CrystSymm

open Spec Reducer SymmetryAnalyzer

section
variable {ρ : Rounding}

/-- the same crystal in real numbers. -/
def asReal (s : Structure (RNum ρ)) : Structure ℝ := ⟨valM s.lattice, s.species, s.coords.map valV, s.fracCoords.map valV⟩

/-- the multiples of `g`, of its square and of its cube that occur are representable. -/
structure ExactGrid (ρ : Rounding) (g : ℝ) (A : ℤ) : Prop where
  one : ExactMult ρ 1 (486 * A ^ 3)
  unit : ExactMult ρ g (54 * A ^ 4)
  quarter : ExactMult ρ (g * g / 4) (52488 * A ^ 2)
  cube : ExactMult ρ (g * (g * g)) (6 * A ^ 3)

/-- a right-handed lattice of multiples `Lz` of `g`, none larger than `A`, of volume at most `(m g)³`, and a tolerance that is
positive but small compared with `g`. -/
structure GridRun (g : ℝ) (A m : ℤ) (Lz : Mat3 ℤ) (s : Structure (RNum ρ)) (tol : RNum ρ) : Prop where
  g0 : 0 < g
  g1 : g ≤ 1
  A1 : 1 ≤ A
  lat : valM s.lattice = timesUnit g Lz
  ents : EntLe Lz A
  det : 0 < Lz.det
  vol : Lz.det ≤ m ^ 3
  m2 : m ≤ 2 * A
  tol0 : 0 < ρ.fl (tol.val * g)
  tol1 : 4 * m * tol.val ≤ g

variable {g : ℝ} {A m : ℤ} {Lz : Mat3 ℤ} {s : Structure (RNum ρ)} {tol : RNum ρ}

theorem det_timesUnit (g : ℝ) (M : Mat3 ℤ) : (timesUnit g M).det = M.det * (g * (g * g)) := by
  simp only [timesUnit, Mat3.map, Mat3.det]
  push_cast
  ring

theorem exact_gg (hx : ExactGrid ρ g A) {B : ℤ} (hB : B ≤ 13122 * A ^ 2) : ExactMult ρ (g * g) B := by
  intro n hn
  have := hx.quarter (4 * n) (by rw [abs_mul]; norm_num; linarith)
  rwa [show ((4 * n : ℤ) : ℝ) * (g * g / 4) = n * (g * g) by push_cast; ring] at this

/-- the volume is exact. -/
theorem GridRun.volume (h : GridRun g A m Lz s tol) (hx : ExactGrid ρ g A) : s.volume.val = Lz.det * (g * (g * g)) := by
  obtain ⟨⟨t1, t2, t3⟩, ⟨t4, t5, t6⟩, ⟨t7, t8, t9⟩⟩ := IsMul.entries h.lat
  obtain ⟨⟨a1, a2, a3⟩, ⟨a4, a5, a6⟩, ⟨a7, a8, a9⟩⟩ := h.ents
  have hA := h.A1
  have hAA : 0 ≤ A ^ 2 := sq_nonneg A
  have hx2 : ExactMult ρ (g * g) (2 * A ^ 2) := exact_gg hx (by linarith)
  have bp : ∀ {i j : ℤ}, |i| ≤ A → |j| ≤ A → |i * j| ≤ A ^ 2 := fun h1 h2 => by
    rw [abs_mul, pow_two]; exact mul_le_mul h1 h2 (abs_nonneg _) (by linarith)
  have co : ∀ {x y z w : RNum ρ} {i j k l : ℤ}, x.val = i * g → y.val = j * g → z.val = k * g → w.val = l * g → |i| ≤ A → |j| ≤ A → |k| ≤ A →
      |l| ≤ A → (x * y - z * w).val = (i * j - k * l : ℤ) * (g * g) ∧ |i * j - k * l| ≤ 2 * A ^ 2 := by
    intro x y z w i j k l e1 e2 e3 e4 b1 b2 b3 b4
    have p1 : (x * y).val = (i * j : ℤ) * (g * g) := by
      rw [RNum.val_mul, e1, e2, show (i : ℝ) * g * (j * g) = (i * j : ℤ) * (g * g) by push_cast; ring]
      exact hx2 _ (by linarith [bp b1 b2])
    have p2 : (z * w).val = (k * l : ℤ) * (g * g) := by
      rw [RNum.val_mul, e3, e4, show (k : ℝ) * g * (l * g) = (k * l : ℤ) * (g * g) by push_cast; ring]
      exact hx2 _ (by linarith [bp b3 b4])
    have hb : |i * j - k * l| ≤ 2 * A ^ 2 := (abs_sub _ _).trans (by linarith [bp b1 b2, bp b3 b4])
    refine ⟨?_, hb⟩
    rw [RNum.val_sub, p1, p2, ← sub_mul, ← Int.cast_sub]
    exact hx2 _ hb
  have pr : ∀ {x y : RNum ρ} {i j : ℤ}, x.val = i * g → y.val = j * (g * g) → |i| ≤ A → |j| ≤ 2 * A ^ 2 →
      (x * y).val = (i * j : ℤ) * (g * (g * g)) ∧ |i * j| ≤ 2 * A ^ 3 := by
    intro x y i j e1 e2 b1 b2
    have hb : |i * j| ≤ 2 * A ^ 3 := by
      rw [abs_mul, show 2 * A ^ 3 = A * (2 * A ^ 2) by ring]
      exact mul_le_mul b1 b2 (abs_nonneg _) (by linarith)
    have hA3 : 0 ≤ A ^ 3 := by positivity
    refine ⟨?_, hb⟩
    rw [RNum.val_mul, e1, e2, show (i : ℝ) * g * (j * (g * g)) = (i * j : ℤ) * (g * (g * g)) by push_cast; ring]
    exact hx.cube _ (by linarith)
  obtain ⟨u1, v1⟩ := co t5 t9 t8 t6 a5 a9 a8 a6
  obtain ⟨u2, v2⟩ := co t4 t9 t7 t6 a4 a9 a7 a6
  obtain ⟨u3, v3⟩ := co t4 t8 t7 t5 a4 a8 a7 a5
  obtain ⟨p1, q1⟩ := pr t1 u1 a1 v1
  obtain ⟨p2, q2⟩ := pr t2 u2 a2 v2
  obtain ⟨p3, q3⟩ := pr t3 u3 a3 v3
  have hA3 : 0 ≤ A ^ 3 := by positivity
  show (s.lattice.m11 * (s.lattice.m22 * s.lattice.m33 - s.lattice.m32 * s.lattice.m23) -
    s.lattice.m12 * (s.lattice.m21 * s.lattice.m33 - s.lattice.m31 * s.lattice.m23) +
    s.lattice.m13 * (s.lattice.m21 * s.lattice.m32 - s.lattice.m31 * s.lattice.m22)).val = _
  rw [RNum.val_add, RNum.val_sub, p1, p2, p3, ← sub_mul, ← Int.cast_sub]
  have b12 := abs_sub (Lz.m11 * (Lz.m22 * Lz.m33 - Lz.m32 * Lz.m23)) (Lz.m12 * (Lz.m21 * Lz.m33 - Lz.m31 * Lz.m23))
  rw [hx.cube _ (by linarith), ← add_mul, ← Int.cast_add]
  exact hx.cube _ ((abs_add_le _ _).trans (by linarith))

theorem asReal_volume (h : GridRun g A m Lz s tol) : (asReal s).volume = Lz.det * (g * (g * g)) := by
  show (valM s.lattice).det = _
  rw [h.lat, det_timesUnit]

/-- the tolerances of the two runs. -/
theorem GridRun.eps_more (h : GridRun g A m Lz s tol) (hx : ExactGrid ρ g A) : ∃ ε : RNum ρ, epsilonOf tol s.volume = some ε ∧
    epsilonOf tol.val (asReal s).volume = some (eps tol.val (asReal s).volume) ∧
    TwinEps (g * g) (729 * (9 * A ^ 2)) ε (eps tol.val (asReal s).volume) ∧ ε.val < 1 ∧ eps tol.val (asReal s).volume < 1 ∧
    (8 * m * tol.val ≤ g → ρ.fl (g * g / 8) = g * g / 8 → ε.val ≤ g * g / 8 ∧ eps tol.val (asReal s).volume ≤ g * g / 8) := by
  have g0 := h.g0
  have hA := h.A1
  have hg3 : 0 < g * (g * g) := by positivity
  have hd1 : (1 : ℝ) ≤ Lz.det := by exact_mod_cast h.det
  have hdm : (Lz.det : ℝ) ≤ (m : ℝ) ^ 3 := by exact_mod_cast h.vol
  have hm0 : 1 ≤ m := by
    by_contra hc
    have h1 : m ≤ 0 := by omega
    have h2 : m ^ 3 ≤ 0 := by nlinarith [sq_nonneg m]
    have h3 := h.vol
    have h4 := h.det
    omega
  have hm0' : (1 : ℝ) ≤ m := by exact_mod_cast hm0
  have hV0 : 0 < (Lz.det : ℝ) * (g * (g * g)) := by positivity
  have e3 : ((1 : ℝ) / 3) = ((3 : ℕ) : ℝ)⁻¹ := by norm_num
  obtain ⟨x, hxd⟩ : ∃ x : ℝ, x = ((Lz.det : ℝ) * (g * (g * g))) ^ ((1 : ℝ) / 3) := ⟨_, rfl⟩
  have x1 : g ≤ x := by
    have h1 : g ^ (3 : ℕ) ≤ (Lz.det : ℝ) * (g * (g * g)) := by
      rw [show g ^ 3 = 1 * (g * (g * g)) by ring]; exact mul_le_mul_of_nonneg_right hd1 hg3.le
    have := Real.rpow_le_rpow (by positivity) h1 (show (0 : ℝ) ≤ 1 / 3 by norm_num)
    rw [← hxd, e3, Real.pow_rpow_inv_natCast g0.le (by norm_num)] at this
    exact this
  have x2 : x ≤ m * g := by
    have h1 : (Lz.det : ℝ) * (g * (g * g)) ≤ (m * g) ^ (3 : ℕ) := by
      rw [show (m * g) ^ 3 = (m : ℝ) ^ 3 * (g * (g * g)) by ring]; exact mul_le_mul_of_nonneg_right hdm hg3.le
    have := Real.rpow_le_rpow hV0.le h1 (show (0 : ℝ) ≤ 1 / 3 by norm_num)
    rw [← hxd, e3, Real.pow_rpow_inv_natCast (by positivity) (by norm_num)] at this
    exact this
  have hA1 : (1 : ℤ) ≤ A ^ 2 := one_le_pow₀ hA
  have hA4 : A ≤ A ^ 4 := le_self_pow₀ hA (by norm_num)
  have f1 : ρ.fl g = g := by
    have := hx.unit 1 (by norm_num; linarith)
    simpa using this
  have f2 : ρ.fl (m * g) = m * g := hx.unit m (by rw [abs_of_pos (by omega)]; linarith [h.m2])
  have f3 : ρ.fl (g * g / 4) = g * g / 4 := by
    have := hx.quarter 1 (by norm_num; linarith)
    simpa using this
  have y1 : g ≤ ρ.fl x := by have := ρ.mono _ _ x1; rwa [f1] at this
  have y2 : ρ.fl x ≤ m * g := by have := ρ.mono _ _ x2; rwa [f2] at this
  have ht : 0 < tol.val := by
    by_contra hc
    have h1 := ρ.mono (tol.val * g) 0 (mul_nonpos_of_nonpos_of_nonneg (not_lt.1 hc) g0.le)
    rw [fl_zero] at h1
    linarith [h.tol0]
  have hmt : tol.val * (m * g) ≤ g * g / 4 := by
    have := mul_le_mul_of_nonneg_right h.tol1 g0.le
    linarith
  have hgg : g * g ≤ 1 := by nlinarith [h.g1]
  have e1 : epsilonOf tol s.volume = some (tol * (RNum.round x : RNum ρ)) := by
    show ((if s.volume.val < 0 then none else some (s.volume.val ^ ((1 : ℝ) / 3))).map RNum.round).map _ = _
    rw [h.volume hx, if_neg (by linarith), ← hxd]
    rfl
  have e2 : epsilonOf tol.val (asReal s).volume = some (CrystSymm.eps tol.val (asReal s).volume) := by
    show (if (asReal s).volume < 0 then none else some ((asReal s).volume ^ ((1 : ℝ) / 3))).map _ = _
    rw [asReal_volume h, if_neg (by linarith)]
    rfl
  have e4 : CrystSymm.eps tol.val (asReal s).volume = tol.val * x := by unfold CrystSymm.eps; rw [asReal_volume h, ← hxd]
  have v : (tol * (RNum.round x : RNum ρ)).val = ρ.fl (tol.val * ρ.fl x) := RNum.val_mul _ _
  have k1 : 0 < (tol * (RNum.round x : RNum ρ)).val := by
    rw [v]
    exact h.tol0.trans_le (ρ.mono _ _ (mul_le_mul_of_nonneg_left y1 ht.le))
  have k2 : (tol * (RNum.round x : RNum ρ)).val ≤ g * g / 4 := by
    rw [v, ← f3]
    exact ρ.mono _ _ ((mul_le_mul_of_nonneg_left y2 ht.le).trans hmt)
  have k3 : 0 < tol.val * x := mul_pos ht (g0.trans_le x1)
  have k4 : tol.val * x ≤ g * g / 4 := (mul_le_mul_of_nonneg_left x2 ht.le).trans hmt
  refine ⟨_, e1, e2, ⟨by positivity, by linarith, k1, k2, by rw [e4]; exact k3, by rw [e4]; exact k4, hx.quarter.mono (by linarith)⟩,
    by linarith, by rw [e4]; linarith, fun h8 f8 => ?_⟩
  have hmt8 : tol.val * (m * g) ≤ g * g / 8 := by
    have := mul_le_mul_of_nonneg_right h8 g0.le
    linarith
  constructor
  · rw [v, ← f8]
    exact ρ.mono _ _ ((mul_le_mul_of_nonneg_left y2 ht.le).trans hmt8)
  · rw [e4]
    exact (mul_le_mul_of_nonneg_left x2 ht.le).trans hmt8

theorem GridRun.eps (h : GridRun g A m Lz s tol) (hx : ExactGrid ρ g A) : ∃ ε : RNum ρ, epsilonOf tol s.volume = some ε ∧
    epsilonOf tol.val (asReal s).volume = some (eps tol.val (asReal s).volume) ∧
    TwinEps (g * g) (729 * (9 * A ^ 2)) ε (eps tol.val (asReal s).volume) ∧ ε.val < 1 ∧ eps tol.val (asReal s).volume < 1 := by
  obtain ⟨ε, e1, e2, e3, e4, e5, -⟩ := h.eps_more hx
  exact ⟨ε, e1, e2, e3, e4, e5⟩

/-- the start of both runs. -/
theorem GridRun.start (h : GridRun g A m Lz s tol) (hx : ExactGrid ρ g A) :
    StTwin (g * g) Lz (9 * A ^ 2) (18 * A ^ 3) ⟨s.metricTensor, 1⟩ ⟨(asReal s).metricTensor, 1⟩ 1 ∧ sumSq (Lz * 1) ≤ 9 * A ^ 2 := by
  have hA := h.A1
  have hA2 : (1 : ℤ) ≤ A ^ 2 := one_le_pow₀ hA
  have hA3 : (1 : ℤ) ≤ A ^ 3 := one_le_pow₀ hA
  have lat : IsMul g s.lattice Lz := h.lat
  have p := IsMul.mul (B1 := A) (B2 := A) (γ1 := g) (γ2 := g) (exact_gg hx (by nlinarith)) lat.transpose lat h.ents.transpose h.ents
  have e1 : timesUnit 1 (1 : Mat3 ℤ) = 1 := by unfold timesUnit; ext <;> simp [Mat3.map]
  refine ⟨⟨by rw [mul_one]; exact p.1, ?_, ?_, e1.symm, by rw [mul_one]; exact p.2.mono (by nlinarith), ?_⟩, ?_⟩
  · show (valM s.lattice).transpose * valM s.lattice = _
    rw [h.lat, timesUnit_transpose, timesUnit_mul, mul_one]
  · show valM (1 : Mat3 (RNum ρ)) = _
    rw [e1]
    exact Mat3.ext RNum.val_one RNum.val_zero RNum.val_zero RNum.val_zero RNum.val_one RNum.val_zero RNum.val_zero RNum.val_zero RNum.val_one
  · have : EntLe (1 : Mat3 ℤ) 1 := by decide
    exact this.mono (by linarith)
  · obtain ⟨⟨a1, a2, a3⟩, ⟨a4, a5, a6⟩, ⟨a7, a8, a9⟩⟩ := h.ents
    rw [mul_one, sumSq_eq]
    have k : ∀ {n : ℤ}, |n| ≤ A → n ^ 2 ≤ A ^ 2 := fun hn => sq_le_sq' (abs_le.1 hn).1 (abs_le.1 hn).2
    linarith [k a1, k a2, k a3, k a4, k a5, k a6, k a7, k a8, k a9]

theorem fl_two (h1 : 1 ≤ A) (hx : ExactGrid ρ g A) : ρ.fl 2 = 2 := by
  have hA3 : (1 : ℤ) ≤ A ^ 3 := one_le_pow₀ h1
  have := hx.one 2 (by norm_num; linarith)
  simpa using this

theorem grid_runs (h : GridRun g A m Lz s tol) (hx : ExactGrid ρ g A) (n : ℕ) :
    (∃ s2 t2 N, nigLoop (epsilonOf tol s.volume) n ⟨s.metricTensor, 1⟩ = .ret s2 ∧
      nigLoop (epsilonOf tol.val (asReal s).volume) n ⟨(asReal s).metricTensor, 1⟩ = .ret t2 ∧
      valM (s.lattice * s2.trans) = timesUnit g (Lz * N) ∧ valM s.lattice * t2.trans = timesUnit g (Lz * N) ∧
      t2.trans = timesUnit 1 N ∧ sumSq (Lz * N) ≤ 9 * A ^ 2) ∨
    (∃ msg, nigLoop (epsilonOf tol s.volume) n ⟨s.metricTensor, 1⟩ = .panic msg ∧
      nigLoop (epsilonOf tol.val (asReal s).volume) n ⟨(asReal s).metricTensor, 1⟩ = .panic msg) := by
  obtain ⟨ε, e1, e2, e3, e4, e5⟩ := h.eps hx
  obtain ⟨s1, s2⟩ := h.start hx
  rw [e1, e2]
  have hA := h.A1
  rcases nigLoop_twin hA h.det.ne' h.ents e3 e4 e5 (fl_two hA hx) (hx.one.mono (by linarith)) n s1 s2 with
    ⟨st, t, N, k1, k2, k3, k6⟩ | ⟨msg, k1, k2⟩
  · have lat : IsMul g s.lattice Lz := h.lat
    have p := IsMul.mul (B1 := A) (B2 := 18 * A ^ 3) (γ1 := g) (γ2 := 1) (by
      rw [mul_one, show 3 * A * (18 * A ^ 3) = 54 * A ^ 4 by ring]; exact hx.unit) lat k3.tra h.ents k3.bt
    rw [mul_one] at p
    refine Or.inl ⟨st, t, N, k1, k2, p.1, ?_, k3.traE, k6⟩
    rw [h.lat, k3.traE, timesUnit_mul, mul_one]
  · exact Or.inr ⟨msg, k1, k2⟩

/-- **C89** Right-handed lattices of integer multiples of a unit, none larger than `A` units, and a small positive tolerance: the
rounded Niggli reduction returns if and only if the exact one does, and then with exactly the same lattice; otherwise both panic
with the same message. -/
theorem C89_same_run (ρ : Rounding) (g : ℝ) (A m : ℤ) (Lz : Mat3 ℤ) (s : Structure (RNum ρ)) (tol : RNum ρ) (h : GridRun g A m Lz s tol)
    (hx : ExactGrid ρ g A) (r : Reducer (RNum ρ)) (r' : Reducer ℝ) :
    (∃ s' t', r.niggliReduce s tol = .ret s' ∧ r'.niggliReduce (asReal s) tol.val = .ret t' ∧ valM s'.lattice = t'.lattice) ∨
      (∃ msg, r.niggliReduce s tol = .panic msg ∧ r'.niggliReduce (asReal s) tol.val = .panic msg) := by
  rcases grid_runs h hx 100 with ⟨s2, t2, N, k1, k2, k3, k4, -⟩ | ⟨msg, k1, k2⟩
  · refine Or.inl ⟨r.rebuild s (s.lattice * s2.trans), r'.rebuild (asReal s) ((asReal s).lattice * t2.trans), ?_, ?_, ?_⟩
    · unfold niggliReduce; rw [k1]; rfl
    · unfold niggliReduce; rw [k2]; rfl
    · show valM (s.lattice * s2.trans) = valM s.lattice * t2.trans
      rw [k3, k4]
  · refine Or.inr ⟨msg, ?_, ?_⟩
    · unfold niggliReduce; rw [k1]; rfl
    · unfold niggliReduce; rw [k2]; rfl

theorem multiples_unit (g : ℝ) (M : Mat3 ℤ) : Multiples (g * g) (timesUnit g M) := by
  refine ⟨M.m11 ^ 2 + M.m21 ^ 2 + M.m31 ^ 2, M.m12 ^ 2 + M.m22 ^ 2 + M.m32 ^ 2, M.m13 ^ 2 + M.m23 ^ 2 + M.m33 ^ 2,
    2 * (M.m12 * M.m13 + M.m22 * M.m23 + M.m32 * M.m33), 2 * (M.m11 * M.m13 + M.m21 * M.m23 + M.m31 * M.m33),
    2 * (M.m11 * M.m12 + M.m21 * M.m22 + M.m31 * M.m32), ?_, ?_, ?_, ?_, ?_, ?_⟩ <;>
  · simp only [timesUnit, Mat3.map, lenSq, dotp, Mat3.col0, Mat3.col1, Mat3.col2]
    push_cast
    ring

theorem edgeSum_unit (g : ℝ) (M : Mat3 ℤ) : edgeSum (timesUnit g M) = sumSq M * (g * g) := by
  rw [sumSq_eq]
  simp only [edgeSum, timesUnit, Mat3.map, lenSq, Mat3.col0, Mat3.col1, Mat3.col2]
  push_cast
  ring

/-- the adjugate over a number. -/
noncomputable def adjOver (M : Mat3 ℝ) (d : ℝ) : Mat3 ℝ :=
  ⟨(M.m22 * M.m33 - M.m32 * M.m23) / d, (M.m13 * M.m32 - M.m33 * M.m12) / d, (M.m12 * M.m23 - M.m22 * M.m13) / d,
    (M.m23 * M.m31 - M.m33 * M.m21) / d, (M.m11 * M.m33 - M.m31 * M.m13) / d, (M.m13 * M.m21 - M.m23 * M.m11) / d,
    (M.m21 * M.m32 - M.m31 * M.m22) / d, (M.m12 * M.m31 - M.m32 * M.m11) / d, (M.m11 * M.m22 - M.m21 * M.m12) / d⟩

theorem mul_adjOver {M : Mat3 ℝ} {d : ℝ} (hd : M.det = d) (h0 : 0 < d) : M * adjOver M d = 1 := by
  unfold Mat3.det at hd
  ext <;> simp [adjOver] <;> field_simp <;> linarith [hd]

theorem adjOver_le {g R : ℝ} {A D : ℤ} {M : Mat3 ℤ} (hg : 0 < g) (hA : 0 ≤ A) (hM : EntLe M (3 * A)) (hD : (0 : ℝ) < D)
    (hR : 18 * (A : ℝ) ^ 2 ≤ R * (D * g)) : EntsLe (adjOver (timesUnit g M) (D * (g * (g * g)))) R := by
  obtain ⟨⟨a1, a2, a3⟩, ⟨a4, a5, a6⟩, ⟨a7, a8, a9⟩⟩ := hM
  have hA' : (0 : ℝ) ≤ A := by exact_mod_cast hA
  have k : ∀ {x y z w : ℤ}, |x| ≤ 3 * A → |y| ≤ 3 * A → |z| ≤ 3 * A → |w| ≤ 3 * A →
      |((x : ℝ) * g * (y * g) - z * g * (w * g)) / (D * (g * (g * g)))| ≤ R := by
    intro x y z w h1 h2 h3 h4
    have p : ∀ {x y : ℤ}, |x| ≤ 3 * A → |y| ≤ 3 * A → |(x : ℝ) * y| ≤ 9 * (A : ℝ) ^ 2 := by
      intro x y h1 h2
      have q1 : |(x : ℝ)| ≤ 3 * A := by exact_mod_cast h1
      have q2 : |(y : ℝ)| ≤ 3 * A := by exact_mod_cast h2
      rw [abs_mul, show 9 * (A : ℝ) ^ 2 = 3 * A * (3 * A) by ring]
      exact mul_le_mul q1 q2 (abs_nonneg _) (by linarith)
    have s1 := abs_sub ((x : ℝ) * y) (z * w)
    have s2 : |(x : ℝ) * y - z * w| ≤ 18 * (A : ℝ) ^ 2 := by linarith [p h1 h2, p h3 h4]
    rw [show ((x : ℝ) * g * (y * g) - z * g * (w * g)) / (D * (g * (g * g))) = (x * y - z * w) / (D * g) by field_simp, abs_div,
      abs_of_pos (mul_pos hD hg), div_le_iff₀ (mul_pos hD hg)]
    linarith
  exact ⟨⟨k a5 a9 a8 a6, k a3 a8 a9 a2, k a2 a6 a5 a3⟩, ⟨k a6 a7 a9 a4, k a1 a9 a7 a3, k a3 a4 a6 a1⟩, ⟨k a4 a8 a7 a5, k a2 a7 a8 a1, k a1 a5 a4 a2⟩⟩

theorem entries_unit {M : Mat3 (RNum ρ)} {N : Mat3 ℤ} {B : ℤ} (hg : 0 ≤ g) (h : valM M = timesUnit g N) (hB : EntLe N B) :
    EntriesWithin M (B * g) := by
  obtain ⟨⟨t1, t2, t3⟩, ⟨t4, t5, t6⟩, ⟨t7, t8, t9⟩⟩ := IsMul.entries h
  obtain ⟨⟨a1, a2, a3⟩, ⟨a4, a5, a6⟩, ⟨a7, a8, a9⟩⟩ := hB
  have k : ∀ {x : RNum ρ} {n : ℤ}, x.val = n * g → |n| ≤ B → |x.val| ≤ B * g := by
    intro x n h1 h2
    have h3 : |(n : ℝ)| ≤ B := by exact_mod_cast h2
    rw [h1, abs_mul, abs_of_nonneg hg]
    exact mul_le_mul_of_nonneg_right h3 hg
  simp only [EntriesWithin, Mat3.toListCM, List.mem_cons, List.not_mem_nil, or_false, forall_eq_or_imp, forall_eq]
  exact ⟨k t1 a1, k t4 a4, k t7 a7, k t2 a2, k t5 a5, k t8 a8, k t3 a3, k t6 a6, k t9 a9⟩

/-- **C89** The lattice that the rounded reduction returns is exactly another basis of the same lattice, of the same hand, and an
exact Niggli cell. The species and positions of the sites are kept up to its vectors and a rounding error. -/
theorem C89_reduced_cell (ρ : Rounding) (g : ℝ) (A m : ℤ) (Lz : Mat3 ℤ) (s : Structure (RNum ρ)) (tol : RNum ρ) (h : GridRun g A m Lz s tol)
    (hx : ExactGrid ρ g A) (r : Reducer (RNum ρ)) (s' : Structure (RNum ρ)) (hr : r.niggliReduce s tol = .ret s') :
    s'.species.Pairwise (· ≤ ·) ∧ Consistent s' ∧ NiggliCell 0 (valM s'.lattice) ∧
      (∃ N : Mat3 ℤ, N.det = 1 ∧ valM s'.lattice = timesInts (valM s.lattice) N) ∧
      ∀ u : ℝ, Relative ρ u → u ≤ 1 / 1000 → 81 * (A : ℝ) ^ 4 < 10 ^ 12 * Lz.det ^ 2 * g ^ 2 →
        ∀ R C : ℝ, 1 ≤ R → 1 ≤ C → 18 * (A : ℝ) ^ 2 ≤ R * (Lz.det * g) → (∀ c ∈ s.coords, CompsLe (valV c) C) →
          SitesKept (75 * (u * (3 * A * g * (R * C)))) s s' := by
  obtain ⟨ε, e1, e2, e3, e4, e5⟩ := h.eps hx
  have hV : 0 < (asReal s).volume := by
    rw [asReal_volume h]
    have := h.g0
    have : (0 : ℝ) < Lz.det := by exact_mod_cast h.det
    positivity
  rcases grid_runs h hx 100 with ⟨s2, t2, N, k1, k2, k3, k4, k5, k6⟩ | ⟨msg, k1, k2⟩
  · have hs' : s' = r.rebuild s (s.lattice * s2.trans) := by
      unfold niggliReduce at hr
      rw [k1] at hr
      exact (Outcome.ret.inj hr).symm
    have hret : (⟨1, 1⟩ : Reducer ℝ).niggliReduce (asReal s) tol.val = .ret (rebuild ⟨1, 1⟩ (asReal s) ((asReal s).lattice * t2.trans)) := by
      unfold niggliReduce; rw [k2]; rfl
    have hc := C25_niggli_conditions _ _ _ _ hret hV e3.f0 e5
    have hlat : (rebuild ⟨1, 1⟩ (asReal s) ((asReal s).lattice * t2.trans)).lattice = timesUnit g (Lz * N) := k4
    rw [hlat] at hc
    have hN : N.det = 1 := by
      have hg : GoodEps (epsilonOf tol.val (asReal s).volume) := by
        rw [e2]
        intro ε hε
        obtain rfl := Option.some.inj hε
        exact ⟨e3.f0.le, e5⟩
      obtain ⟨M, N', -, ⟨n, hn, rfl⟩, -, ht⟩ := nigLoop_pos hg k2
      have et : t2.trans = 1 * n.map fun k : ℤ => (k : ℝ) := by rw [ht]; rfl
      have := congrArg Mat3.det (k5.symm.trans et)
      rw [one_mul, intCast_det, det_timesUnit, hn] at this
      norm_num at this
      exact_mod_cast this
    subst hs'
    refine ⟨rebuild_sorted _ _ _, rebuild_consistent _ _ _, ?_, ⟨N, hN, ?_⟩, ?_⟩
    · show NiggliCell 0 (valM (s.lattice * s2.trans))
      rw [k3]
      exact niggli_exact_of_multiples (by linarith [e3.f1, e3.γ0]) e3.f0 (multiples_unit g _) hc
    · show valM (s.lattice * s2.trans) = _
      unfold timesInts
      rw [k3, h.lat]
      have := timesUnit_mul g 1 Lz N
      rw [mul_one] at this
      rw [← this]
      unfold timesUnit
      simp
    · intro u hu h1 hsize R C hR hC hRd hcs
      have hg := h.g0
      have hA := h.A1
      have hd : (0 : ℝ) < Lz.det := by exact_mod_cast h.det
      have hM : EntLe (Lz * N) (3 * A) := entLe_of_sumSq (by linarith) (by linarith [k6])
      have hdN : (Lz * N).det = Lz.det := by rw [Mat3.det_mul, hN, mul_one]
      refine rebuild_kept hu h1 hR hC r s hcs (A := 3 * A * g) ?_ ?_ (P := adjOver (timesUnit g (Lz * N)) (Lz.det * (g * (g * g)))) ?_ ?_
      · have := entries_unit hg.le k3 hM
        push_cast at this
        exact this
      · rw [k3]
        refine svAbove_of_size ?_
        have e : lenSq (timesUnit g (Lz * N)).col0 + lenSq (timesUnit g (Lz * N)).col1 + lenSq (timesUnit g (Lz * N)).col2 =
            sumSq (Lz * N) * (g * g) := edgeSum_unit g _
        rw [e, det_timesUnit, hdN]
        have h6 : ((sumSq (Lz * N) : ℤ) : ℝ) ≤ 9 * (A : ℝ) ^ 2 := by exact_mod_cast k6
        have h7 : (0 : ℝ) ≤ (sumSq (Lz * N) : ℤ) := by
          rw [sumSq_eq]; push_cast; positivity
        have h8 : ((sumSq (Lz * N) : ℤ) : ℝ) ^ 2 ≤ 81 * (A : ℝ) ^ 4 := by
          have := pow_le_pow_left₀ h7 h6 2
          linarith
        have h9 : ((sumSq (Lz * N) : ℤ) : ℝ) ^ 2 < 10 ^ 12 * Lz.det ^ 2 * g ^ 2 := lt_of_le_of_lt h8 hsize
        have g4 : (0 : ℝ) < g ^ 4 := by positivity
        calc _ = ((sumSq (Lz * N) : ℤ) : ℝ) ^ 2 * g ^ 4 := by ring
          _ < 10 ^ 12 * Lz.det ^ 2 * g ^ 2 * g ^ 4 := mul_lt_mul_of_pos_right h9 g4
          _ = _ := by ring
      · rw [k3]
        exact mul_adjOver (by rw [det_timesUnit, hdN]) (by positivity)
      · exact adjOver_le hg (by linarith) hM hd hRd
  · unfold niggliReduce at hr
    rw [k1] at hr
    simp [Outcome.bind] at hr

theorem unit_cell (g : ℝ) (M N : Mat3 ℤ) : timesUnit g M * overK ℝ N = timesUnit g (M * N) := by
  have := timesUnit_mul g 1 M N
  rw [mul_one] at this
  rw [← this]
  unfold timesUnit overK
  simp

/-- **C89** The rounded reduction returns if fewer than 25 smaller sums of squared edges (in units) are possible: in particular if
the sum is less than 25 above the least one. -/
theorem C89_returns (ρ : Rounding) (g : ℝ) (A m T : ℤ) (Lz : Mat3 ℤ) (s : Structure (RNum ρ)) (tol : RNum ρ) (h : GridRun g A m Lz s tol)
    (hx : ExactGrid ρ g A) (r : Reducer (RNum ρ)) (hT : ∀ N : Mat3 ℤ, N.det = 1 ∨ N.det = -1 → T ≤ sumSq (Lz * N))
    (hs : sumSq Lz < T + 25) : ∃ s', r.niggliReduce s tol = .ret s' := by
  obtain ⟨ε, e1, e2, e3, e4, e5⟩ := h.eps hx
  have hV : 0 < (asReal s).volume := by
    rw [asReal_volume h]
    have := h.g0
    have : (0 : ℝ) < Lz.det := by exact_mod_cast h.det
    positivity
  have hg := e3.γ0
  have ht : 0 < tol.val := by
    have := e3.f0
    unfold CrystSymm.eps at this
    exact (pos_iff_pos_of_mul_pos this).2 (Real.rpow_pos_of_pos hV _)
  have hlat : (asReal s).lattice = timesUnit g Lz := h.lat
  obtain ⟨t', N, k1, -⟩ := C82_commensurate (asReal s) tol.val (g * g) (T * (g * g)) hV ht e5 (lt_of_le_of_lt e3.f1 (by linarith))
    (by rw [hlat]; exact multiples_unit g Lz)
    (fun N hN => by
      rw [hlat, unit_cell, edgeSum_unit]
      exact mul_le_mul_of_nonneg_right (by exact_mod_cast hT N hN) hg.le)
    (by
      rw [hlat, edgeSum_unit, ← add_mul]
      have : ((sumSq Lz : ℤ) : ℝ) < (T + 25 : ℤ) := by exact_mod_cast hs
      push_cast at this
      exact mul_lt_mul_of_pos_right this hg) ⟨1, 1⟩
  rcases C89_same_run ρ g A m Lz s tol h hx r ⟨1, 1⟩ with ⟨s', t'', j1, -, -⟩ | ⟨msg, -, j2⟩
  · exact ⟨s', j1⟩
  · rw [k1] at j2; cases j2

/-- **C89** A cell reduced in the sense of Buerger is finished within four iterations. -/
theorem C89_buerger_cells (ρ : Rounding) (g : ℝ) (A m : ℤ) (Lz : Mat3 ℤ) (s : Structure (RNum ρ)) (tol : RNum ρ) (h : GridRun g A m Lz s tol)
    (hx : ExactGrid ρ g A) (hb : BuergerCell (valM s.lattice)) (r : Reducer (RNum ρ)) :
    (∃ st, nigLoop (epsilonOf tol s.volume) 4 ⟨s.metricTensor, 1⟩ = .ret st) ∧ ∃ s', r.niggliReduce s tol = .ret s' := by
  obtain ⟨ε, e1, e2, e3, e4, e5⟩ := h.eps hx
  have hV : 0 < (asReal s).volume := by
    rw [asReal_volume h]
    have := h.g0
    have : (0 : ℝ) < Lz.det := by exact_mod_cast h.det
    positivity
  have hd : (asReal s).lattice.det ≠ 0 := ne_of_gt hV
  have hl : LeastEdges (asReal s).lattice := fun N hN => buerger_least hd hb (by rcases hN with e | e <;> rw [e] <;> norm_num)
  have hlat : (asReal s).lattice = timesUnit g Lz := h.lat
  have hlt : CrystSymm.eps tol.val (asReal s).volume < g * g := lt_of_le_of_lt e3.f1 (by linarith [e3.γ0])
  obtain ⟨t, ht⟩ := niggli_run hd e3.f0 e5 (d := 0)
    (multiples_resolved hlt e3.f0 (by rw [hlat]; exact multiples_unit g Lz))
    (by rw [leastEdges_none hl])
  have hst : ∃ st, nigLoop (epsilonOf tol s.volume) 4 ⟨s.metricTensor, 1⟩ = .ret st := by
    rcases grid_runs h hx 4 with ⟨s2, t2, N, k1, -⟩ | ⟨msg, -, k2⟩
    · exact ⟨s2, k1⟩
    · rw [e2] at k2
      have : nigLoop (some (CrystSymm.eps tol.val (asReal s).volume)) 4 ⟨(asReal s).metricTensor, 1⟩ = .ret t := ht
      rw [this] at k2; cases k2
  refine ⟨hst, ?_⟩
  obtain ⟨st, hst⟩ := hst
  refine ⟨r.rebuild s (s.lattice * st.trans), ?_⟩
  unfold niggliReduce
  rw [nigLoop_more (show 4 ≤ 100 by norm_num) hst]
  rfl

end

/-! ## Double precision -/

theorem exactMult64 {j : ℤ} (hj : -1074 ≤ j) : ExactMult binary64 (2 ^ j) (2 ^ 53 - 1) := by
  intro n hn
  refine fl64_of_grid (j := j + 52) (k := n) (by omega) (by rw [show j + 52 - 52 = j by ring]) ?_
  have h2 : |(n : ℝ)| ≤ ((2 ^ 53 - 1 : ℤ) : ℝ) := by exact_mod_cast hn
  have hp : (0 : ℝ) < 2 ^ j := by positivity
  rw [abs_mul, abs_of_pos hp, show (2 : ℝ) ^ (j + 52 + 1) = 2 ^ 53 * 2 ^ j by
    rw [show j + 52 + 1 = 53 + j by ring, zpow_add₀ (by norm_num)]; norm_cast]
  refine mul_lt_mul_of_pos_right (h2.trans_lt ?_) hp
  norm_num

theorem exactGrid64 {k : ℕ} (hk : k ≤ 300) {A : ℤ} (h1 : 1 ≤ A) (hA : A ≤ 3500) : ExactGrid binary64 ((1 / 2) ^ k) A := by
  have p2 : A ^ 2 ≤ 3500 ^ 2 := pow_le_pow_left₀ (by linarith) hA 2
  have p3 : A ^ 3 ≤ 3500 ^ 3 := pow_le_pow_left₀ (by linarith) hA 3
  have p4 : A ^ 4 ≤ 3500 ^ 4 := pow_le_pow_left₀ (by linarith) hA 4
  have e : ((1 / 2 : ℝ) ^ k) = 2 ^ (-(k : ℤ)) := by rw [zpow_neg, zpow_natCast, one_div, inv_pow]
  have e2 : (2 : ℝ) ^ (-(k : ℤ)) * 2 ^ (-(k : ℤ)) / 4 = 2 ^ (-(k : ℤ) + -(k : ℤ) + -2) := by
    rw [zpow_add₀ (by norm_num), zpow_add₀ (by norm_num)]; norm_num; ring
  have e3 : (2 : ℝ) ^ (-(k : ℤ)) * (2 ^ (-(k : ℤ)) * 2 ^ (-(k : ℤ))) = 2 ^ (-(k : ℤ) + (-(k : ℤ) + -(k : ℤ))) := by
    rw [zpow_add₀ (by norm_num), zpow_add₀ (by norm_num)]
  have k1 : ExactMult binary64 1 (486 * A ^ 3) := by
    have := exactMult64 (j := 0) (by norm_num)
    rw [zpow_zero] at this
    exact this.mono (by linarith)
  have k2 : ExactMult binary64 (2 ^ (-(k : ℤ))) (54 * A ^ 4) := (exactMult64 (by omega)).mono (by linarith)
  have k3 : ExactMult binary64 (2 ^ (-(k : ℤ) + -(k : ℤ) + -2)) (52488 * A ^ 2) := (exactMult64 (by omega)).mono (by linarith)
  have k4 : ExactMult binary64 (2 ^ (-(k : ℤ) + (-(k : ℤ) + -(k : ℤ)))) (6 * A ^ 3) := (exactMult64 (by omega)).mono (by linarith)
  rw [e]
  exact ⟨k1, k2, by rw [e2]; exact k3, by rw [e3]; exact k4⟩

/-- a right-handed lattice of at most 3500 times `2 ^ -k` in double precision. -/
theorem gridRun64 {k : ℕ} (hk : k ≤ 300) {A m : ℤ} (hA : 1 ≤ A) {Lz : Mat3 ℤ} {s : Structure (RNum binary64)} {tol : RNum binary64}
    (hlat : valM s.lattice = timesUnit ((1 / 2) ^ k) Lz) (hents : EntLe Lz A) (hdet : 0 < Lz.det) (hvol : Lz.det ≤ m ^ 3) (hm : m ≤ 2 * A)
    (h0 : 1 / 10 ^ 100 ≤ tol.val) (h1 : 4 * m * tol.val ≤ (1 / 2) ^ k) : GridRun ((1 / 2) ^ k) A m Lz s tol := by
  have e : ((1 / 2 : ℝ) ^ k) = 2 ^ (-(k : ℤ)) := by rw [zpow_neg, zpow_natCast, one_div, inv_pow]
  refine ⟨by positivity, pow_le_one₀ (by norm_num) (by norm_num), hA, hlat, hents, hdet, hvol, hm, ?_, h1⟩
  have h2 : (2 : ℝ) ^ (-400 + -(k : ℤ)) ≤ tol.val * (1 / 2) ^ k := by
    rw [zpow_add₀ (by norm_num), ← e]
    refine mul_le_mul_of_nonneg_right (le_trans ?_ h0) (by positivity)
    rw [zpow_neg, one_div]
    refine inv_anti₀ (by positivity) ?_
    rw [show (2 : ℝ) ^ (400 : ℤ) = (2 ^ 4) ^ 100 by rw [← pow_mul]; rfl]
    exact pow_le_pow_left₀ (by norm_num) (by norm_num) _
  have h3 := binary64.mono _ _ h2
  have h4 := exactMult64 (j := -400 + -(k : ℤ)) (by omega) 1 (by norm_num)
  rw [Int.cast_one, one_mul] at h4
  rw [h4] at h3
  exact lt_of_lt_of_le (by positivity) h3

theorem sitesKept_mono {ρ : Rounding} {E E' : ℝ} (h : E ≤ E') {s s' : Structure (RNum ρ)} (hs : SitesKept E s s') : SitesKept E' s s' := by
  obtain ⟨m, m1, m2⟩ := hs
  refine ⟨m, m1, m2.imp fun p q h1 => ⟨h1.1, ?_⟩⟩
  obtain ⟨w, w1, w2⟩ := h1.2
  exact ⟨w, w1, w2.mono h⟩

/-- **C89** in IEEE double precision: lattices whose entries are multiples of `2 ^ -k`, at most 3500 of them. -/
theorem C89_binary64 (k : ℕ) (hk : k ≤ 300) (A m : ℤ) (hA : 1 ≤ A) (hA' : A ≤ 3500) (Lz : Mat3 ℤ) (s : Structure (RNum binary64)) (tol : RNum binary64)
    (hlat : valM s.lattice = timesUnit ((1 / 2) ^ k) Lz) (hents : EntLe Lz A) (hdet : 0 < Lz.det) (hvol : Lz.det ≤ m ^ 3) (hm : m ≤ 2 * A)
    (h0 : 1 / 10 ^ 100 ≤ tol.val) (h1 : 4 * m * tol.val ≤ (1 / 2) ^ k) (r : Reducer (RNum binary64)) (r' : Reducer ℝ) :
    ((∃ s' t', r.niggliReduce s tol = .ret s' ∧ r'.niggliReduce (asReal s) tol.val = .ret t' ∧ valM s'.lattice = t'.lattice) ∨
      (∃ msg, r.niggliReduce s tol = .panic msg ∧ r'.niggliReduce (asReal s) tol.val = .panic msg)) ∧
    (∀ s', r.niggliReduce s tol = .ret s' → s'.species.Pairwise (· ≤ ·) ∧ Consistent s' ∧ NiggliCell 0 (valM s'.lattice) ∧
      (∃ N : Mat3 ℤ, N.det = 1 ∧ valM s'.lattice = timesInts (valM s.lattice) N) ∧
      (81 * (A : ℝ) ^ 4 < 10 ^ 12 * Lz.det ^ 2 * ((1 / 2) ^ k) ^ 2 → ∀ R C : ℝ, 1 ≤ R → 1 ≤ C → 18 * (A : ℝ) ^ 2 ≤ R * (Lz.det * (1 / 2) ^ k) →
        (∀ c ∈ s.coords, CompsLe (valV c) C) → SitesKept (A * (1 / 2) ^ k * R * C / 10 ^ 13) s s')) ∧
    (BuergerCell (valM s.lattice) → ∃ s', r.niggliReduce s tol = .ret s') := by
  have hr := gridRun64 hk hA hlat hents hdet hvol hm h0 h1
  refine ⟨C89_same_run _ _ _ _ _ _ _ hr (exactGrid64 hk hA hA') r r', fun s' hs' => ?_, fun hb => (C89_buerger_cells _ _ _ _ _ _ _ hr (exactGrid64 hk hA hA') hb r).2⟩
  obtain ⟨g1, g2, g3, g4, g5⟩ := C89_reduced_cell _ _ _ _ _ _ _ hr (exactGrid64 hk hA hA') r s' hs'
  refine ⟨g1, g2, g3, g4, fun hz R C hR hC hRd hcs => ?_⟩
  have q := g5 _ relative_binary64 (by norm_num) hz R C hR hC hRd hcs
  have hA0 : (0 : ℝ) ≤ A := by exact_mod_cast (by linarith : (0 : ℤ) ≤ A)
  have h2 : (0 : ℝ) ≤ A * (1 / 2) ^ k * (R * C) := by positivity
  refine sitesKept_mono (le_trans (b := 225 * (1 / 2 ^ 26) ^ 2 * (A * (1 / 2) ^ k * (R * C))) (le_of_eq (by ring)) ?_) q
  rw [show A * (1 / 2 : ℝ) ^ k * R * C / 10 ^ 13 = 1 / 10 ^ 13 * (A * (1 / 2) ^ k * (R * C)) by ring]
  exact mul_le_mul_of_nonneg_right (by norm_num) h2

/-! ## Examples -/

/-- the tolerance `1e-5` of the analyzer. -/
theorem tol1em5_64 : 1 / 2 ^ 20 ≤ (tol1em5 : RNum binary64).val ∧ (tol1em5 : RNum binary64).val ≤ 1 / 2 ^ 16 := by
  have e1 : (lit 1 : RNum binary64).val = 1 := by
    have : (lit 1 : RNum binary64).val = binary64.fl (1 : ℤ) := rfl
    rw [this, exactInts64 1 (by norm_num)]; norm_num
  have e2 : (lit 100000 : RNum binary64).val = 100000 := by
    have : (lit 100000 : RNum binary64).val = binary64.fl (100000 : ℤ) := rfl
    rw [this, exactInts64 100000 (by norm_num)]; norm_num
  have e : (tol1em5 : RNum binary64).val = binary64.fl (1 / 100000) := by
    show (lit 1 / lit 100000 : RNum binary64).val = _
    rw [RNum.val_div, e1, e2]
  have k : ∀ j : ℤ, -1074 ≤ j → binary64.fl (2 ^ j) = 2 ^ j := fun j hj => by
    have := exactMult64 hj 1 (by norm_num)
    simpa using this
  have k1 := k (-20) (by norm_num)
  have k2 := k (-16) (by norm_num)
  have m1 := binary64.mono (2 ^ (-20 : ℤ)) (1 / 100000) (by norm_num)
  have m2 := binary64.mono (1 / 100000) (2 ^ (-16 : ℤ)) (by norm_num)
  rw [k1] at m1
  rw [k2] at m2
  rw [e]
  exact ⟨le_trans (by norm_num) m1, le_trans m2 (by norm_num)⟩

/-- the lattice of these multiples of `2 ^ -k`. -/
noncomputable def dyadicMat (k : ℕ) (N : Mat3 ℤ) : Mat3 (RNum binary64) := N.map fun (n : ℤ) => RNum.round (n * (1 / 2) ^ k)

theorem dyadicMat_val {k : ℕ} (hk : k ≤ 300) {N : Mat3 ℤ} (hN : EntLe N 3500) : valM (dyadicMat k N) = timesUnit ((1 / 2) ^ k) N := by
  obtain ⟨⟨a1, a2, a3⟩, ⟨a4, a5, a6⟩, ⟨a7, a8, a9⟩⟩ := hN
  have q : ∀ {n : ℤ}, |n| ≤ 3500 → binary64.fl (n * (1 / 2) ^ k) = n * (1 / 2) ^ k := fun hn =>
    (exactGrid64 hk (A := 3500) (by norm_num) le_rfl).unit _ (hn.trans (by norm_num))
  exact Mat3.ext (q a1) (q a2) (q a3) (q a4) (q a5) (q a6) (q a7) (q a8) (q a9)

/-- `(4,0,0), (-2,4,0), (0,-5/2,8)` in halves. -/
def oddCell : Mat3 ℤ := ⟨8, -4, 0, 0, 8, -5, 0, 0, 16⟩

theorem oddCell_buerger : BuergerCell (timesUnit ((1 / 2) ^ 1) oddCell) ∧ ¬ NiggliCell 0 (timesUnit ((1 / 2) ^ 1) oddCell) := by
  constructor
  · constructor <;> norm_num [lenSq, Mat3.col0, Mat3.col1, Mat3.col2, timesUnit, Mat3.map, oddCell]
  · intro h
    have := h.xi_neg
    norm_num [lenSq, dotp, Mat3.col0, Mat3.col1, Mat3.col2, timesUnit, Mat3.map, oddCell] at this

/-- two atoms in a cell that is not yet reduced: in double precision `niggli_reduce` returns, within four iterations (C88), an exact
Niggli cell, another one, of exactly the same lattice (C89), and keeps the atoms within `10 ^ -10` of their places. -/
example (r : Reducer (RNum binary64)) (c1 c2 f1 f2 : Vec3 (RNum binary64)) (h1 : CompsLe (valV c1) 10) (h2 : CompsLe (valV c2) 10) :
    let s : Structure (RNum binary64) := ⟨dyadicMat 1 oddCell, ["Na", "Cl"], [c1, c2], [f1, f2]⟩
    (∃ st, nigLoop (epsilonOf tol1em5 s.volume) 33 ⟨s.metricTensor, 1⟩ = .ret st) ∧
    ∃ s', r.niggliReduce s tol1em5 = .ret s' ∧ NiggliCell 0 (valM s'.lattice) ∧ valM s'.lattice ≠ valM s.lattice ∧
      (∃ N : Mat3 ℤ, N.det = 1 ∧ valM s'.lattice = timesInts (valM s.lattice) N) ∧ SitesKept (1 / 10 ^ 10) s s' := by
  intro s
  have hv : valM s.lattice = timesUnit ((1 / 2) ^ 1) oddCell := dyadicMat_val (by norm_num) (by decide)
  obtain ⟨t1, t2⟩ := tol1em5_64
  have hb : BuergerCell (valM s.lattice) := by rw [hv]; exact oddCell_buerger.1
  have hd : oddCell.det = 1024 := by decide
  have ht : 4 * ((11 : ℤ) : ℝ) * (tol1em5 : RNum binary64).val ≤ (1 / 2) ^ 1 := by norm_num; linarith
  have ht0 : 1 / 10 ^ 100 ≤ (tol1em5 : RNum binary64).val := le_trans (by norm_num) t1
  have hr := gridRun64 (k := 1) (by norm_num) (A := 16) (m := 11) (by norm_num) hv (by decide) (by decide) (by decide) (by norm_num) ht0 ht
  obtain ⟨-, k2, k3⟩ := C89_binary64 1 (by norm_num) 16 11 (by norm_num) (by norm_num) oddCell s tol1em5 hv (by decide) (by decide)
    (by decide) (by norm_num) ht0 ht r ⟨1, 1⟩
  obtain ⟨⟨st, hst⟩, -⟩ := C89_buerger_cells _ _ _ _ _ _ _ hr (exactGrid64 (by norm_num) (by norm_num) (by norm_num)) hb r
  refine ⟨⟨st, nigLoop_more (by norm_num) hst⟩, ?_⟩
  obtain ⟨s', hs'⟩ := k3 hb
  obtain ⟨-, -, g3, g4, g5⟩ := k2 s' hs'
  refine ⟨s', hs', g3, fun he => oddCell_buerger.2 ?_, g4, ?_⟩
  · rw [← hv, ← he]; exact g3
  · rw [hd] at g5
    refine sitesKept_mono ?_ (g5 (by norm_num) 9 10 (by norm_num) (by norm_num) (by norm_num) ?_)
    · norm_num
    · intro c hc
      have : c = c1 ∨ c = c2 := by simpa [s] using hc
      rcases this with rfl | rfl
      · exact h1
      · exact h2

/-- **C27** also fails in double precision: the cell `(1,0,0), (-120,1,0), (0,0,1)` of a cubic lattice makes `niggli_reduce` panic, as it
does in exact arithmetic. -/
theorem C27_false_panics_binary64 (r : Reducer (RNum binary64)) :
    r.niggliReduce ⟨dyadicMat 0 ⟨1, -120, 0, 0, 1, 0, 0, 0, 1⟩, [], [], []⟩ tol1em5 = .panic "Could not find Niggli reduced structure!" := by
  obtain ⟨t1, t2⟩ := tol1em5_64
  have hv : valM (dyadicMat 0 ⟨1, -120, 0, 0, 1, 0, 0, 0, 1⟩) = timesUnit ((1 / 2) ^ 0) ⟨1, -120, 0, 0, 1, 0, 0, 0, 1⟩ :=
    dyadicMat_val (by norm_num) (by decide)
  have ht : 4 * ((1 : ℤ) : ℝ) * (tol1em5 : RNum binary64).val ≤ (1 / 2) ^ 0 := by norm_num; linarith
  have ht0 : 1 / 10 ^ 100 ≤ (tol1em5 : RNum binary64).val := le_trans (by norm_num) t1
  obtain ⟨k1, -, -⟩ := C89_binary64 0 (by norm_num) 120 1 (by norm_num) (by norm_num) ⟨1, -120, 0, 0, 1, 0, 0, 0, 1⟩
    ⟨dyadicMat 0 ⟨1, -120, 0, 0, 1, 0, 0, 0, 1⟩, [], [], []⟩ tol1em5 hv (by decide) (by decide) (by decide) (by norm_num) ht0 ht r ⟨1, 1⟩
  have e : asReal (⟨dyadicMat 0 ⟨1, -120, 0, 0, 1, 0, 0, 0, 1⟩, [], [], []⟩ : Structure (RNum binary64)) = skewCell 120 := by
    unfold asReal skewCell
    rw [hv]
    simp [timesUnit, Mat3.map]
  rw [e] at k1
  have hp := (C27_false_panics ⟨1, 1⟩ 120 (tol1em5 : RNum binary64).val (by norm_num) (by linarith [ht0]) (by norm_num at t2; linarith)).2
  rcases k1 with ⟨s', t', -, j2, -⟩ | ⟨msg, j1, j2⟩
  · rw [hp] at j2; cases j2
  · rw [hp] at j2
    rw [j1]
    injection j2 with j2
    rw [j2]

end CrystSymm
