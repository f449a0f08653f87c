import Verif.Props.Tidy
import Verif.Props.Niggli

set_option autoImplicit false
set_option linter.unusedSectionVars false

/-! # C62: reducing a Niggli reduced structure again changes nothing -/

namespace CrystSymm

open Spec Reducer

section
variable {K : Type} [Field K] [LinearOrder K] [IsStrictOrderedRing K] [FloorRing K]

/-- where a value and its negative lie relative to `[-ε, ε]`, as the code sees it. -/
theorem five_cases {ε : K} (h0 : 0 < ε) (v : K) :
    (v < -ε ∧ v < ε ∧ ¬ 0 < v - ε ∧ ¬ -v < -ε ∧ ¬ -v < ε ∧ 0 < -v - ε) ∨
    (¬ v < -ε ∧ v < ε ∧ ¬ 0 < v - ε ∧ ¬ -v < -ε ∧ -v < ε ∧ ¬ 0 < -v - ε) ∨
    (¬ v < -ε ∧ v < ε ∧ ¬ 0 < v - ε ∧ ¬ -v < -ε ∧ ¬ -v < ε ∧ ¬ 0 < -v - ε) ∨
    (¬ v < -ε ∧ ¬ v < ε ∧ ¬ 0 < v - ε ∧ ¬ -v < -ε ∧ -v < ε ∧ ¬ 0 < -v - ε) ∨
    (¬ v < -ε ∧ ¬ v < ε ∧ 0 < v - ε ∧ -v < -ε ∧ -v < ε ∧ ¬ 0 < -v - ε) := by
  rcases lt_trichotomy v ε with h | h | h
  · rcases lt_trichotomy v (-ε) with h' | h' | h'
    · left; refine ⟨?_, ?_, ?_, ?_, ?_, ?_⟩ <;> linarith
    · right; right; left; refine ⟨?_, ?_, ?_, ?_, ?_, ?_⟩ <;> linarith
    · right; left; refine ⟨?_, ?_, ?_, ?_, ?_, ?_⟩ <;> linarith
  · right; right; right; left; refine ⟨?_, ?_, ?_, ?_, ?_, ?_⟩ <;> linarith
  · right; right; right; right; refine ⟨?_, ?_, ?_, ?_, ?_, ?_⟩ <;> linarith

set_option maxHeartbeats 8000000 in
/-- the sign step does nothing the second time, unless the first turns a value into exactly `ε`. -/
theorem signs_idem {ε : K} (h0 : 0 < ε) (h1 : ε < 1) (x y z : K)
    (hx : (signs (some ε) x y z).1 * x ≠ ε) (hy : (signs (some ε) x y z).2.1 * y ≠ ε)
    (hz : (signs (some ε) x y z).2.2 * z ≠ ε) :
    signs (some ε) ((signs (some ε) x y z).1 * x) ((signs (some ε) x y z).2.1 * y)
      ((signs (some ε) x y z).2.2 * z) = (1, 1, 1) := by
  have hA : ¬ (1 : K) < -ε := by linarith
  have hB : (-1 : K) < -ε := by linarith
  have key : ∀ v : K, -v ≠ ε → ¬ v < -ε → -v < ε := by
    intro v a b
    rcases lt_trichotomy (-v) ε with h | h | h
    · exact h
    · exact absurd h a
    · exact absurd (by linarith : v < -ε) b
  generalize hs : signs (some ε) x y z = s at hx hy hz ⊢
  rcases five_cases h0 x with ⟨x1, x2, x3, x4, x5, x6⟩ | ⟨x1, x2, x3, x4, x5, x6⟩ | ⟨x1, x2, x3, x4, x5, x6⟩ |
    ⟨x1, x2, x3, x4, x5, x6⟩ | ⟨x1, x2, x3, x4, x5, x6⟩ <;>
  rcases five_cases h0 y with ⟨y1, y2, y3, y4, y5, y6⟩ | ⟨y1, y2, y3, y4, y5, y6⟩ | ⟨y1, y2, y3, y4, y5, y6⟩ |
    ⟨y1, y2, y3, y4, y5, y6⟩ | ⟨y1, y2, y3, y4, y5, y6⟩ <;>
  rcases five_cases h0 z with ⟨z1, z2, z3, z4, z5, z6⟩ | ⟨z1, z2, z3, z4, z5, z6⟩ | ⟨z1, z2, z3, z4, z5, z6⟩ |
    ⟨z1, z2, z3, z4, z5, z6⟩ | ⟨z1, z2, z3, z4, z5, z6⟩ <;>
  · simp [signs, isTypeI, nnzE, numNegativeZero, numNegativeZeroStep, ltNeg, subGt, -neg_lt_neg_iff, -sub_pos,
      x1, x2, x3, y1, y2, y3, z1, z2, z3, hA, hB] at hs
    subst hs
    simp only [neg_mul, one_mul] at hx hy hz
    first
      | (exfalso; first
          | exact x5 (key _ hx x1)
          | exact y5 (key _ hy y1)
          | exact z5 (key _ hz z1))
      | simp [signs, isTypeI, nnzE, numNegativeZero, numNegativeZeroStep, ltNeg, subGt, -neg_lt_neg_iff, -sub_pos,
          x1, x2, x3, x4, x5, x6, y1, y2, y3, y4, y5, y6, z1, z2, z3, z4, z5, z6, hA]

/-- the signs of the state with which the loop is left are not changed by another iteration. -/
theorem nigIter_exit_signs {ε : K} (h0 : 0 < ε) (h1 : ε < 1) {st st' : NigState K}
    (h : nigIter (some ε) st = .inr st') (hx : st'.xi ≠ ε) (hy : st'.eta ≠ ε) (hz : st'.zeta ≠ ε) :
    signs (some ε) st'.xi st'.eta st'.zeta = (1, 1, 1) := by
  unfold nigIter at h
  simp only at h
  generalize (if condA1 (some ε) st then st.step c1 else st) = st1 at h
  split at h
  · simp at h
  have hsign := signs_isSign (some ε) st1.xi st1.eta st1.zeta
  obtain ⟨-, hs2⟩ := signs_spec h0.le st1.xi st1.eta st1.zeta _ rfl
  obtain ⟨-, -, -, px, pe, pz⟩ := c34_params st1 hsign (hs2 h1)
  split at h
  · simp at h
  split at h
  · simp at h
  split at h
  · simp at h
  split at h
  · simp at h
  simp only [Sum.inr.injEq] at h
  subst h
  rw [px] at hx ⊢
  rw [pe] at hy ⊢
  rw [pz] at hz ⊢
  exact signs_idem h0 h1 _ _ _ hx hy hz

end

/-- `niggli_reduce` with a volume and a lattice: what the second call does. -/
theorem niggliReduce_again {r : Reducer ℝ} {s : Structure ℝ} {tol : ℝ}
    (h : nigIter (epsilonOf tol s.volume) ⟨s.metricTensor, 1⟩ = .inr ⟨s.metricTensor, 1⟩) :
    r.niggliReduce s tol = .ret (r.rebuild s s.lattice) := by
  unfold niggliReduce
  rw [nigLoop, h]
  simp only [Outcome.bind, mul_one]

/-- rebuilding a tidy structure on its own lattice gives it back. -/
theorem rebuild_self (r : Reducer ℝ) (s : Structure ℝ) (ht : Tidy s r.dtol) (hsv : SvAbove s.lattice)
    (h1 : r.dtol < √(lenSq s.lattice.col0)) (h2 : r.dtol < √(lenSq s.lattice.col1))
    (h3 : r.dtol < √(lenSq s.lattice.col2)) : r.rebuild s s.lattice = s := by
  have e : Structure.getFracCoords s.lattice s.coords = s.fracCoords := by
    rw [ht.consistent.2]
    exact (C11_round_trip s.lattice hsv s.fracCoords).1
  have e' : Structure.new s.lattice s.species s.fracCoords false = s := by
    have := ht.consistent.2
    ext1
    · rfl
    · rfl
    · exact this.symm
    · rfl
  unfold rebuild
  rw [e, e', ht.stable h1 h2 h3]

/-- the same lattice, and the same structure when the cell is not flat and its axes are longer than the tolerance. -/
def Unchanged (r : Reducer ℝ) (s' s'' : Structure ℝ) : Prop :=
  s''.lattice = s'.lattice ∧
    (0 ≤ r.dtol → SvAbove s'.lattice → r.dtol < √(lenSq s'.lattice.col0) → r.dtol < √(lenSq s'.lattice.col1) →
      r.dtol < √(lenSq s'.lattice.col2) → s'' = s')

/-- **C62 (partial).** Reducing a Niggli reduced structure again returns the same lattice and, when the cell is not flat
and its axes are longer than the distance tolerance, the very same structure.  This holds for left-handed cells and, for
`0 < ε = tol V^(1/3) < 1`, when none of the three products `2 b·c`, `2 a·c`, `2 a·b` of the result is exactly `ε`.  The
claim without this last condition is false, see `C62_false_boundary`. -/
theorem C62_niggli_idempotent_partial (r : Reducer ℝ) (s s' : Structure ℝ) (tol : ℝ)
    (h : r.niggliReduce s tol = .ret s')
    (he : s.volume < 0 ∨ (0 < eps tol s.volume ∧ eps tol s.volume < 1 ∧ 0 < s.volume ∧
      2 * dotp s'.lattice.col1 s'.lattice.col2 ≠ eps tol s.volume ∧
      2 * dotp s'.lattice.col0 s'.lattice.col2 ≠ eps tol s.volume ∧
      2 * dotp s'.lattice.col0 s'.lattice.col1 ≠ eps tol s.volume)) :
    ∃ s'', r.niggliReduce s' tol = .ret s'' ∧ Unchanged r s' s'' := by
  have hfix : nigIter (epsilonOf tol s'.volume) ⟨s'.metricTensor, 1⟩ = .inr ⟨s'.metricTensor, 1⟩ := by
    rcases he with hV | ⟨h0, h1, hV, hx, hy, hz⟩
    · obtain ⟨st, hl, rfl⟩ := niggliReduce_ret h
      rw [epsilonOf_neg hV, nigLoop, nigIter_none] at hl
      cases hl
      have : (r.rebuild s (s.lattice * 1)).volume = s.volume := by
        unfold Structure.volume; rw [rebuild_lattice, mul_one]
      rw [this, epsilonOf_neg hV, nigIter_none]
    · have hw := niggli_exit h hV.le h0.le h1
      obtain ⟨st, hl, hs'⟩ := niggliReduce_ret h
      rw [epsilonOf_nonneg hV.le] at hl
      obtain ⟨M, N, -, ⟨n, hn, rfl⟩, hi, hst⟩ := nigLoop_pos
        (by intro ε hε; cases hε; exact ⟨h0.le, h1⟩) hl
      have hst' := hst
      erw [step_metric s.lattice _] at hst'
      have hL : s'.lattice = s.lattice * n.map fun k : ℤ => (k : ℝ) := by
        rw [hs', rebuild_lattice, hst']
      have hvol : s'.volume = s.volume := by
        unfold Structure.volume
        rw [hL, Mat3.det_mul, intCast_det, hn]; simp
      rw [hvol, epsilonOf_nonneg hV.le]
      obtain ⟨pa, pb, pc, px, pe, pz⟩ := metric_params s'.lattice 1
      obtain ⟨-, -, -, qx, qe, qz⟩ := metric_params (s.lattice * n.map fun k : ℤ => (k : ℝ))
        (n.map fun k : ℤ => (k : ℝ))
      rw [← hst', ← hL] at qx qe qz
      apply nigIter_fixed_of_signs
      · unfold NiggliCellWeak at hw
        rw [← pa, ← pb, ← pc, ← px, ← pe, ← pz] at hw
        exact hw
      · have := nigIter_exit_signs h0 h1 hi (by rw [qx]; exact hx) (by rw [qe]; exact hy) (by rw [qz]; exact hz)
        rw [qx, qe, qz, ← px, ← pe, ← pz] at this
        exact this
  refine ⟨_, niggliReduce_again hfix, rebuild_lattice _ _ _, fun hd hsv h1 h2 h3 => ?_⟩
  exact rebuild_self r s' ((C60_reductions_tidy r hd s s').2.1 tol h) hsv h1 h2 h3

/-! ## on the boundary -/

/-- axes `(2,0,0), (1/2,2,0), (-1/200,-1/2,2)`: volume 8, so that `ε = 1/50` for `tol = 1/100`; `2 a·c = -1/50`. -/
noncomputable def edgeCell : Structure ℝ := ⟨⟨2, 1 / 2, -(1 / 200), 0, 2, -(1 / 2), 0, 0, 2⟩, [], [], []⟩

theorem edge_eps (L : Mat3 ℝ) (h : L.det = 8) : epsilonOf (1 / 100) L.det = some (1 / 50 : ℝ) := by
  rw [h, epsilonOf_nonneg (by norm_num)]
  have : (8 : ℝ) ^ ((1 : ℝ) / 3) = 2 := by
    rw [show (8 : ℝ) = 2 ^ (3 : ℝ) by norm_num, ← Real.rpow_mul (by norm_num)]
    norm_num
  rw [this]; norm_num

theorem edge_step (L : Mat3 ℝ) (t : Mat3 ℝ) (g : ℝ × ℝ × ℝ) (hp : g.1 * g.2.1 * g.2.2 = 1)
    (ha : lenSq L.col0 = 4) (hb : lenSq L.col1 = 17 / 4) (hc : 17 / 4 ≤ lenSq L.col2)
    (hs : signs (some (1 / 50)) (2 * dotp L.col1 L.col2) (2 * dotp L.col0 L.col2) (2 * dotp L.col0 L.col1) = g)
    (hx : g.1 * (2 * dotp L.col1 L.col2) = -(401 / 200) ∧ g.2.1 * (2 * dotp L.col0 L.col2) = 1 / 50 ∧
        g.2.2 * (2 * dotp L.col0 L.col1) = -2 ∨
      g.1 * (2 * dotp L.col1 L.col2) = 401 / 200 ∧ g.2.1 * (2 * dotp L.col0 L.col2) = 1 / 50 ∧
        g.2.2 * (2 * dotp L.col0 L.col1) = 2 ∨
      g.1 * (2 * dotp L.col1 L.col2) = -2 ∧ g.2.1 * (2 * dotp L.col0 L.col2) = 0 ∧
        g.2.2 * (2 * dotp L.col0 L.col1) = -2) :
    nigIter (some (1 / 50)) ⟨L.transpose * L, t⟩ = .inr ((⟨L.transpose * L, t⟩ : NigState ℝ).step (c34 g)) := by
  obtain ⟨pa, pb, pc, px, pe, pz⟩ := metric_params L t
  rw [← px, ← pe, ← pz] at hs
  have hsign := hs ▸ signs_isSign (some (1 / 50 : ℝ)) _ _ _
  obtain ⟨qa, qb, qc, qx, qe, qz⟩ := c34_params (⟨L.transpose * L, t⟩ : NigState ℝ) hsign hp
  refine nigIter_signs_only hs hp ?_
  rw [qa, qb, qc, qx, qe, qz, pa, pb, pc, px, pe, pz, ha, hb]
  rcases hx with ⟨e1, e2, e3⟩ | ⟨e1, e2, e3⟩ | ⟨e1, e2, e3⟩ <;> rw [e1, e2, e3] <;> constructor <;>
    first
      | (norm_num [abs_le]; done)
      | linarith

/-- **C62 is false on the boundary.** A cell whose reduced cell is changed by reducing it again, with the default
tolerance 1/100.  The first call makes `2 a·c = ε` and leaves the other two products negative; `num_negative_zero` does
not count `ε` as zero, so the second call sees two negative products and no zero, and makes all three positive. -/
theorem C62_false_boundary (r : Reducer ℝ) : ∃ s' s'', r.niggliReduce edgeCell (1 / 100) = .ret s' ∧
    r.niggliReduce s' (1 / 100) = .ret s'' ∧ 0 < edgeCell.volume ∧ eps (1 / 100) edgeCell.volume = 1 / 50 ∧
    s'.lattice = ⟨2, -(1 / 2), 1 / 200, 0, -2, 1 / 2, 0, 0, -2⟩ ∧
    s''.lattice = ⟨-2, -(1 / 2), -(1 / 200), 0, -2, -(1 / 2), 0, 0, 2⟩ := by
  have hd : edgeCell.lattice.det = 8 := by norm_num [edgeCell, Mat3.det]
  have h1 : nigIter (some (1 / 50)) ⟨edgeCell.metricTensor, 1⟩
      = .inr ((⟨edgeCell.metricTensor, 1⟩ : NigState ℝ).step (c34 (1, -1, -1))) := by
    apply edge_step edgeCell.lattice 1 (1, -1, -1) <;>
      norm_num [edgeCell, lenSq, dotp, Mat3.col0, Mat3.col1, Mat3.col2, signs, isTypeI, nnzE, numNegativeZero,
        numNegativeZeroStep, ltNeg, subGt]
    decide
  have r1 : r.niggliReduce edgeCell (1 / 100) = .ret (r.rebuild edgeCell (edgeCell.lattice * c34 (1, -1, -1))) := by
    unfold niggliReduce Structure.volume
    rw [edge_eps _ hd, nigLoop, h1]
    simp only [Outcome.bind, NigState.step, one_mul]
  have hl : (r.rebuild edgeCell (edgeCell.lattice * c34 (1, -1, -1))).lattice
      = ⟨2, -(1 / 2), 1 / 200, 0, -2, 1 / 2, 0, 0, -2⟩ := by
    rw [rebuild_lattice]
    ext <;> norm_num [edgeCell, c34]
  generalize r.rebuild edgeCell (edgeCell.lattice * c34 (1, -1, -1)) = s1 at r1 hl
  have hd1 : s1.lattice.det = 8 := by rw [hl]; norm_num [Mat3.det]
  have h2 : nigIter (some (1 / 50)) ⟨s1.metricTensor, 1⟩
      = .inr ((⟨s1.metricTensor, 1⟩ : NigState ℝ).step (c34 (-1, 1, -1))) := by
    apply edge_step s1.lattice 1 (-1, 1, -1) <;> (try rw [hl]) <;>
      norm_num [lenSq, dotp, Mat3.col0, Mat3.col1, Mat3.col2, signs, isTypeI, nnzE, numNegativeZero,
        numNegativeZeroStep, ltNeg, subGt]
    decide
  refine ⟨s1, r.rebuild s1 (s1.lattice * c34 (-1, 1, -1)), r1, ?_, ?_, ?_, hl, ?_⟩
  · unfold niggliReduce Structure.volume
    rw [edge_eps _ hd1, nigLoop, h2]
    simp only [Outcome.bind, NigState.step, one_mul]
  · unfold Structure.volume; rw [hd]; norm_num
  · have := edge_eps _ hd
    rw [epsilonOf_nonneg (by rw [hd]; norm_num)] at this
    exact Option.some.inj this
  · rw [rebuild_lattice, hl]
    ext <;> norm_num [c34]

/-- a cell with two sites that is changed by the first call and not by the second. -/
example : let r : Reducer ℝ := ⟨1 / 20, 1⟩
    let s : Structure ℝ := ⟨⟨2, 1 / 2, 0, 0, 2, -(1 / 2), 0, 0, 2⟩, ["Na", "Cl"], [⟨0, 0, 0⟩, ⟨1 / 4, 1, 0⟩],
      [⟨0, 0, 0⟩, ⟨0, 1 / 2, 0⟩]⟩
    ∃ s', r.niggliReduce s (1 / 100) = .ret s' ∧ s'.lattice ≠ s.lattice ∧ r.niggliReduce s' (1 / 100) = .ret s' := by
  intro r s
  have hd : s.lattice.det = 8 := by norm_num [s, Mat3.det]
  have h1 : nigIter (some (1 / 50)) ⟨s.metricTensor, 1⟩
      = .inr ((⟨s.metricTensor, 1⟩ : NigState ℝ).step (c34 (1, -1, -1))) := by
    apply edge_step s.lattice 1 (1, -1, -1) <;>
      norm_num [s, lenSq, dotp, Mat3.col0, Mat3.col1, Mat3.col2, signs, isTypeI, nnzE, numNegativeZero,
        numNegativeZeroStep, ltNeg, subGt]
    decide
  have r1 : r.niggliReduce s (1 / 100) = .ret (r.rebuild s (s.lattice * c34 (1, -1, -1))) := by
    unfold niggliReduce Structure.volume
    rw [edge_eps _ hd, nigLoop, h1]
    simp only [Outcome.bind, NigState.step, one_mul]
  have hl : (r.rebuild s (s.lattice * c34 (1, -1, -1))).lattice
      = ⟨2, -(1 / 2), 0, 0, -2, 1 / 2, 0, 0, -2⟩ := by
    rw [rebuild_lattice]
    ext <;> norm_num [s, c34]
  have he : eps (1 / 100) s.volume = 1 / 50 := by
    have := edge_eps _ hd
    rw [epsilonOf_nonneg (by rw [hd]; norm_num)] at this
    exact Option.some.inj this
  generalize r.rebuild s (s.lattice * c34 (1, -1, -1)) = s1 at r1 hl
  obtain ⟨s2, h2, h3⟩ := C62_niggli_idempotent_partial r s s1 (1 / 100) r1 (.inr (by
    rw [he, hl]
    unfold Structure.volume
    rw [hd]
    norm_num [dotp, Mat3.col0, Mat3.col1, Mat3.col2]))
  have len : ∀ v : Vec3 ℝ, 1 < lenSq v → r.dtol < √(lenSq v) := fun v hv =>
    lt_trans (by norm_num [r] : r.dtol < 1) (Real.lt_sqrt_of_sq_lt (by norm_num; exact hv))
  have := h3.2 (by norm_num [r]) (svAbove_of_size (by
      rw [hl]; norm_num [lenSq, Mat3.col0, Mat3.col1, Mat3.col2, Mat3.det]))
    (len _ (by rw [hl]; norm_num [lenSq, Mat3.col0])) (len _ (by rw [hl]; norm_num [lenSq, Mat3.col1]))
    (len _ (by rw [hl]; norm_num [lenSq, Mat3.col2]))
  refine ⟨s1, r1, ?_, this ▸ h2⟩
  rw [hl]
  intro e
  have := congrArg Mat3.m22 e
  norm_num [s] at this

end CrystSymm
