import Verif.Proofs.Niggli
import Verif.Proofs.Mag
import Mathlib.Tactic.Positivity

set_option autoImplicit false

/-! # C24-C27, C51: `niggli_reduce` -/

set_option linter.unusedSectionVars false

namespace CrystSymm

open Spec Reducer

theorem epsilonOf_neg {tol V : ℝ} (h : V < 0) : epsilonOf tol V = none := by
  unfold epsilonOf
  show Option.map _ (if V < 0 then none else some (V ^ ((1 : ℝ) / 3))) = none
  rw [if_pos h]; rfl

theorem epsilonOf_nonneg {tol V : ℝ} (h : 0 ≤ V) : epsilonOf tol V = some (tol * V ^ ((1 : ℝ) / 3)) := by
  unfold epsilonOf
  show Option.map _ (if V < 0 then none else some (V ^ ((1 : ℝ) / 3))) = _
  rw [if_neg (not_lt.2 h)]; rfl

/-- epsilon as the crate computes it for a cell of volume `V ≥ 0`. -/
noncomputable def eps (tol V : ℝ) : ℝ := tol * V ^ ((1 : ℝ) / 3)

theorem niggliReduce_ret {r : Reducer ℝ} {s s' : Structure ℝ} {tol : ℝ} (h : r.niggliReduce s tol = .ret s') :
    ∃ st, nigLoop (epsilonOf tol s.volume) 100 ⟨s.metricTensor, 1⟩ = .ret st ∧
      s' = r.rebuild s (s.lattice * st.trans) := by
  unfold niggliReduce at h
  cases hl : nigLoop (epsilonOf tol s.volume) 100 ⟨s.metricTensor, 1⟩ with
  | ret st =>
    rw [hl] at h
    simp only [Outcome.bind, Outcome.ret.injEq] at h
    exact ⟨st, rfl, h.symm⟩
  | panic m => rw [hl] at h; simp [Outcome.bind] at h
  | running => rw [hl] at h; simp [Outcome.bind] at h

theorem intCast_det (n : Mat3 ℤ) : (n.map fun k : ℤ => (k : ℝ)).det = (n.det : ℝ) := by
  simp [Mat3.det, Mat3.map]

/-! ## C24 -/

/-- **C24, lattice and sites:** whenever `niggli_reduce` returns, for every tolerance, the result is the same
crystal in another basis of the same lattice. -/
theorem C24_niggli_keeps_crystal (r : Reducer ℝ) (s s' : Structure ℝ) (tol : ℝ) (hs : Consistent s)
    (h : r.niggliReduce s tol = .ret s') (hsv : SvAbove s'.lattice) :
    SameCrystal s s' ∧ |s'.volume| = |s.volume| ∧ Consistent s' ∧ s'.species.Pairwise (· ≤ ·) := by
  obtain ⟨st, hl, rfl⟩ := niggliReduce_ret h
  obtain ⟨M, N, -, ⟨n, hn, rfl⟩, -, rfl⟩ := nigLoop_uni hl
  simp only [NigState.step, one_mul] at hsv ⊢
  refine ⟨⟨_, ⟨n, hn, rfl⟩, rebuild_sameCrystal r s hs n hsv⟩, ?_, rebuild_consistent _ _ _,
    rebuild_sorted _ _ _⟩
  unfold Structure.volume
  rw [rebuild_lattice, Mat3.det_mul, intCast_det, abs_mul]
  rcases hn with hn | hn <;> rw [hn] <;> simp

/-- **C24, handedness (partial).** For a left-handed cell, or when `0 ≤ ε = tol V^(1/3) < 1`, the change of
basis has determinant `+1`.  Missing from the full claim: `ε ≥ 1`, for which it is false (below). -/
theorem C24_niggli_keeps_handedness_partial (r : Reducer ℝ) (s s' : Structure ℝ) (tol : ℝ) (hs : Consistent s)
    (h : r.niggliReduce s tol = .ret s') (hsv : SvAbove s'.lattice)
    (hε : s.volume < 0 ∨ (0 ≤ eps tol s.volume ∧ eps tol s.volume < 1)) :
    SameCrystalPos s s' ∧ s'.volume = s.volume := by
  obtain ⟨st, hl, rfl⟩ := niggliReduce_ret h
  have hg : GoodEps (epsilonOf tol s.volume) := by
    intro ε he
    by_cases hv : s.volume < 0
    · rw [epsilonOf_neg hv] at he; simp at he
    · rw [epsilonOf_nonneg (not_lt.1 hv)] at he
      simp only [Option.some.injEq] at he
      subst he
      rcases hε with hε | hε
      · exact absurd hε hv
      · exact hε
  obtain ⟨M, N, -, ⟨n, hn, rfl⟩, -, rfl⟩ := nigLoop_pos hg hl
  simp only [NigState.step, one_mul] at hsv ⊢
  refine ⟨⟨_, ⟨n, hn, rfl⟩, rebuild_sameCrystal r s hs n hsv⟩, ?_⟩
  unfold Structure.volume
  rw [rebuild_lattice, Mat3.det_mul, intCast_det, hn]
  simp

theorem metric_params (L : Mat3 ℝ) (t : Mat3 ℝ) :
    let st : NigState ℝ := ⟨L.transpose * L, t⟩
    st.a = lenSq L.col0 ∧ st.b = lenSq L.col1 ∧ st.c = lenSq L.col2 ∧ st.xi = 2 * dotp L.col1 L.col2 ∧
      st.eta = 2 * dotp L.col0 L.col2 ∧ st.zeta = 2 * dotp L.col0 L.col1 := by
  refine ⟨rfl, rfl, rfl, ?_, ?_, ?_⟩ <;> simp only [NigState.xi, NigState.eta, NigState.zeta, lit_two] <;> rfl

theorem step_metric (L N : Mat3 ℝ) :
    (⟨L.transpose * L, 1⟩ : NigState ℝ).step N = ⟨(L * N).transpose * (L * N), N⟩ := by
  unfold NigState.step
  rw [Mat3.transpose_mul, one_mul]
  simp only [mul_assoc]

/-- the reduced cell is not much longer than the input cell and has the same volume. -/
theorem niggli_size (r : Reducer ℝ) (s s' : Structure ℝ) (tol : ℝ) (h : r.niggliReduce s tol = .ret s') :
    lenSq s'.lattice.col0 + lenSq s'.lattice.col1 + lenSq s'.lattice.col2 ≤
      lenSq s.lattice.col0 + lenSq s.lattice.col1 + lenSq s.lattice.col2 + 100 * |eps tol s.volume| ∧
    s'.lattice.det ^ 2 = s.volume ^ 2 := by
  obtain ⟨st, hl, rfl⟩ := niggliReduce_ret h
  rw [rebuild_lattice]
  obtain ⟨M, N, -, ⟨n, hn, rfl⟩, -, hst⟩ := nigLoop_uni hl
  set U := n.map fun k : ℤ => (k : ℝ) with hU
  have hst' : st = ⟨(s.lattice * U).transpose * (s.lattice * U), U⟩ := by
    rw [hst]; exact step_metric s.lattice U
  have ht : st.trans = U := by rw [hst']
  rw [ht]
  have hdet : (s.lattice * U).det ^ 2 = s.volume ^ 2 := by
    unfold Structure.volume
    rw [Mat3.det_mul, hU, intCast_det]
    rcases hn with hn | hn <;> rw [hn] <;> simp
  refine ⟨?_, hdet⟩
  · obtain ⟨a1, b1, c1, -⟩ := metric_params (s.lattice * U) U
    obtain ⟨a0, b0, c0, -⟩ := metric_params s.lattice 1
    have h0 : (⟨s.metricTensor, 1⟩ : NigState ℝ).tr =
      lenSq s.lattice.col0 + lenSq s.lattice.col1 + lenSq s.lattice.col2 := by
      rw [← a0, ← b0, ← c0]; rfl
    have h1 : st.tr = lenSq (s.lattice * U).col0 + lenSq (s.lattice * U).col1 + lenSq (s.lattice * U).col2 := by
      rw [← a1, ← b1, ← c1, hst']; rfl
    rw [← h1, ← h0]
    by_cases hv : s.volume < 0
    · rw [epsilonOf_neg hv, nigLoop, nigIter_none] at hl
      simp only [Outcome.ret.injEq] at hl
      rw [← hl]
      linarith [abs_nonneg (eps tol s.volume)]
    · rw [epsilonOf_nonneg (not_lt.1 hv)] at hl
      have hsym : (⟨s.metricTensor, 1⟩ : NigState ℝ).Sym := by
        refine ⟨?_, ?_, ?_⟩ <;> simp [Structure.metricTensor, Mat3.transpose] <;> ring
      have := nigLoop_grow _ hsym hl
      push_cast at this
      exact this

/-- a cell that is not too flat for its size stays above the cut-off. -/
theorem niggli_svAbove (r : Reducer ℝ) (s s' : Structure ℝ) (tol : ℝ)
    (h : r.niggliReduce s tol = .ret s')
    (hsize : (lenSq s.lattice.col0 + lenSq s.lattice.col1 + lenSq s.lattice.col2 + 100 * |eps tol s.volume|) ^ 2
      < 10 ^ 12 * s.volume ^ 2) : SvAbove s'.lattice := by
  obtain ⟨h1, hdet⟩ := niggli_size r s s' tol h
  apply svAbove_of_size
  rw [hdet]
  refine lt_of_le_of_lt (pow_le_pow_left₀ ?_ h1 2) hsize
  linarith [lenSq_nonneg s'.lattice.col0, lenSq_nonneg s'.lattice.col1, lenSq_nonneg s'.lattice.col2]

/-- **C24, with a condition on the input only** (the cell is not too flat for its size). -/
theorem C24_niggli_keeps_crystal_of_size (r : Reducer ℝ) (s s' : Structure ℝ) (tol : ℝ) (hs : Consistent s)
    (h : r.niggliReduce s tol = .ret s')
    (hsize : (lenSq s.lattice.col0 + lenSq s.lattice.col1 + lenSq s.lattice.col2 + 100 * |eps tol s.volume|) ^ 2
      < 10 ^ 12 * s.volume ^ 2) :
    SameCrystal s s' ∧ |s'.volume| = |s.volume| ∧ Consistent s' ∧ s'.species.Pairwise (· ≤ ·) ∧
      ((s.volume < 0 ∨ (0 ≤ eps tol s.volume ∧ eps tol s.volume < 1)) → SameCrystalPos s s') := by
  have hsv := niggli_svAbove r s s' tol h hsize
  obtain ⟨h1, h2, h3, h4⟩ := C24_niggli_keeps_crystal r s s' tol hs h hsv
  exact ⟨h1, h2, h3, h4, fun he => (C24_niggli_keeps_handedness_partial r s s' tol hs h hsv he).1⟩

/-- a nearly cubic cell of volume 1000. -/
noncomputable def flipCell : Structure ℝ := ⟨⟨10, 1 / 10, 0, 0, 10, 0, 0, 0, 10⟩, [], [], []⟩

theorem flipCell_volume : flipCell.volume = 1000 := by
  norm_num [Structure.volume, flipCell, Mat3.det]

theorem eps_flip : (1 / 10 : ℝ) * (1000 : ℝ) ^ ((1 : ℝ) / 3) = 1 := by
  have : (1000 : ℝ) = 10 ^ (3 : ℝ) := by norm_num
  rw [this, ← Real.rpow_mul (by norm_num)]
  norm_num

/-- **C24 is false for `ε ≥ 1`:** with `tol = 0.1` the cell `(10,0,0), (0.1,10,0), (0,0,10)` comes back with
the opposite handedness. -/
theorem C24_false_handedness (r : Reducer ℝ) :
    ∃ s', r.niggliReduce flipCell (1 / 10) = .ret s' ∧ s'.volume = -flipCell.volume := by
  have hA : (⟨flipCell.metricTensor, 1⟩ : NigState ℝ) =
      ⟨⟨100, 1, 0, 1, 10001 / 100, 0, 0, 0, 100⟩, 1⟩ := by
    ext <;> simp [flipCell, Structure.metricTensor, Mat3.transpose] <;> norm_num
  have hit : nigIter (some (1 : ℝ)) ⟨flipCell.metricTensor, 1⟩ =
      .inr ((⟨flipCell.metricTensor, 1⟩ : NigState ℝ).step (c34 (1, 1, -1))) := by
    have absE : ∀ x : ℝ, (FRound.abs x : ℝ) = |x| := fun _ => rfl
    rw [hA]
    have hst : (⟨⟨100, 1, 0, 1, 10001 / 100, 0, 0, 0, 100⟩, 1⟩ : NigState ℝ).step (c34 (1, 1, -1)) =
        ⟨⟨100, 1, 0, 1, 10001 / 100, 0, 0, 0, 100⟩, 1 * c34 (1, 1, -1)⟩ := by
      unfold NigState.step
      simp only [NigState.mk.injEq, and_true]
      ext <;> simp [c34, Mat3.transpose]
    have h1 : condA1 (some (1 : ℝ)) ⟨⟨100, 1, 0, 1, 10001 / 100, 0, 0, 0, 100⟩, 1⟩ = false := by
      norm_num [condA1, subGt, eqE, absE, lit_two, custEq]
    have h2 : condA2 (some (1 : ℝ)) ⟨⟨100, 1, 0, 1, 10001 / 100, 0, 0, 0, 100⟩, 1⟩ = false := by
      norm_num [condA2, subGt, eqE, absE, lit_two, custEq]
    have hs : signs (some (1 : ℝ)) (lit 2 * 0) (lit 2 * 0) (lit 2 * 1) = (1, 1, -1) := by
      have e1 : (lit 2 : ℝ) * 0 = 0 := by simp
      have e2 : (lit 2 : ℝ) * 1 = 2 := by rw [lit_two]; norm_num
      rw [e1, e2]
      have g1 : ¬ (0 : ℝ) < -1 := by norm_num
      have g2 : ¬ (2 : ℝ) < -1 := by norm_num
      have g3 : (0 : ℝ) < 1 := by norm_num
      have g4 : ¬ (2 : ℝ) < 1 := by norm_num
      have g5 : ¬ (0 : ℝ) < 0 - 1 := by norm_num
      have g6 : (0 : ℝ) < 2 - 1 := by norm_num
      simp only [signs, isTypeI, nnzE, numNegativeZero, numNegativeZeroStep, List.foldl, neg_one_mul, ltNeg, subGt,
        g1, g2, g3, g4, g5, g6, if_false, if_true, decide_false, decide_true]
      simp
    have h5 : ∀ t, condA5 (some (1 : ℝ)) ⟨⟨100, 1, 0, 1, 10001 / 100, 0, 0, 0, 100⟩, t⟩ = false := by
      intro t
      norm_num [condA5, subGt, ltNeg, eqE, absE, lit_two, custEq]
    have h6 : ∀ t, condA6 (some (1 : ℝ)) ⟨⟨100, 1, 0, 1, 10001 / 100, 0, 0, 0, 100⟩, t⟩ = false := by
      intro t
      norm_num [condA6, subGt, ltNeg, eqE, absE, lit_two, custEq]
    have h7 : ∀ t, condA7 (some (1 : ℝ)) ⟨⟨100, 1, 0, 1, 10001 / 100, 0, 0, 0, 100⟩, t⟩ = false := by
      intro t
      norm_num [condA7, subGt, ltNeg, eqE, absE, lit_two, custEq]
    have h8 : ∀ t, condA8 (some (1 : ℝ)) ⟨⟨100, 1, 0, 1, 10001 / 100, 0, 0, 0, 100⟩, t⟩ = false := by
      intro t
      norm_num [condA8, boolSum, subGt, ltNeg, eqE, absE, lit_two, custEq]
    unfold nigIter
    simp only [h1, h2, Bool.false_eq_true, if_false, hs, hst, h5, h6, h7, h8]
  refine ⟨r.rebuild flipCell (flipCell.lattice * (1 * c34 (1, 1, -1))), ?_, ?_⟩
  · unfold niggliReduce
    rw [flipCell_volume, epsilonOf_nonneg (by norm_num), eps_flip, nigLoop, hit]
    rfl
  · rw [flipCell_volume]
    unfold Structure.volume
    rw [rebuild_lattice]
    norm_num [flipCell, Mat3.det, c34]

/-! ## C25 -/

theorem niggli_exit {r : Reducer ℝ} {s s' : Structure ℝ} {tol : ℝ} (h : r.niggliReduce s tol = .ret s')
    (hV : 0 ≤ s.volume) (h0 : 0 ≤ eps tol s.volume) (h1 : eps tol s.volume < 1) :
    NiggliCellWeak (eps tol s.volume) s'.lattice := by
  obtain ⟨st, hl, rfl⟩ := niggliReduce_ret h
  rw [epsilonOf_nonneg hV] at hl
  obtain ⟨M, N, -, -, hi, hst⟩ := nigLoop_uni hl
  have hx := nigIter_exit h0 h1 hi
  have hst' : st = ⟨(s.lattice * N).transpose * (s.lattice * N), N⟩ := by
    rw [hst]; exact step_metric s.lattice N
  rw [rebuild_lattice, show st.trans = N by rw [hst']]
  obtain ⟨pa, pb, pc, px, pe, pz⟩ := metric_params (s.lattice * N) N
  unfold NiggliCellWeak
  rw [← pa, ← pb, ← pc, ← px, ← pe, ← pz, ← hst']
  exact hx

/-- the two forms of the conditions for a cell that is not degenerate. -/
theorem niggliCell_of_weak {L : Mat3 ℝ} {ε : ℝ} (hdet : L.det ≠ 0) (h0 : 0 < ε) (hx : NiggliCellWeak ε L) :
    NiggliCell ε L := by
  have hzero : ∀ v : Vec3 ℝ, 0 = lenSq v → v.x = 0 ∧ v.y = 0 ∧ v.z = 0 := by
    intro v hv
    simp only [lenSq] at hv
    refine ⟨?_, ?_, ?_⟩ <;>
      · apply mul_self_eq_zero.1
        nlinarith [mul_self_nonneg v.x, mul_self_nonneg v.y, mul_self_nonneg v.z]
  have hA : 0 < lenSq L.col0 := by
    refine lt_of_le_of_ne (lenSq_nonneg _) fun hz => hdet ?_
    obtain ⟨e1, e2, e3⟩ := hzero _ hz
    simp only [Mat3.col0] at e1 e2 e3
    simp [Mat3.det, e1, e2, e3]
  have hB : 0 < lenSq L.col1 := by
    refine lt_of_le_of_ne (lenSq_nonneg _) fun hz => hdet ?_
    obtain ⟨e1, e2, e3⟩ := hzero _ hz
    simp only [Mat3.col1] at e1 e2 e3
    simp [Mat3.det, e1, e2, e3]
  exact {
    ab := hx.ab, bc := hx.bc, ab_eq := hx.ab_eq, bc_eq := hx.bc_eq, xi := hx.xi, eta := hx.eta, zeta := hx.zeta
    sum := hx.sum
    signs := by
      rcases hx.signs with ⟨a, b, c⟩ | hs
      · exact Or.inl ⟨by linarith, by linarith, by linarith⟩
      · exact Or.inr hs
    xi_eq := hx.xi_eq, eta_eq := hx.eta_eq, zeta_eq := hx.zeta_eq
    xi_neg := fun hn => by
      have := abs_le.1 hn
      rcases hx.signs with ⟨a, b, c⟩ | ⟨a, b, c⟩
      · linarith
      · exact abs_le.2 ⟨hx.xi_neg hn, c⟩
    eta_neg := fun hn => by
      have := abs_le.1 hn
      rcases hx.signs with ⟨a, b, c⟩ | ⟨a, b, c⟩
      · linarith
      · exact abs_le.2 ⟨hx.eta_neg hn, c⟩
    zeta_neg := fun hn => by
      have := abs_le.1 hn
      rcases hx.signs with ⟨a, b, c⟩ | ⟨a, b, c⟩
      · linarith
      · exact abs_le.2 ⟨hx.zeta_neg hn, b⟩
    sum_eq := hx.sum_eq }

/-- **C25.** Whenever `niggli_reduce` returns for a right-handed cell and `0 < ε = tol V^(1/3) < 1`, the
result satisfies all Niggli conditions within `ε`. -/
theorem C25_niggli_conditions (r : Reducer ℝ) (s s' : Structure ℝ) (tol : ℝ)
    (h : r.niggliReduce s tol = .ret s') (hV : 0 < s.volume) (h0 : 0 < eps tol s.volume)
    (h1 : eps tol s.volume < 1) : NiggliCell (eps tol s.volume) s'.lattice := by
  have hx := niggli_exit h hV.le h0.le h1
  have hdet : s'.lattice.det ≠ 0 := by
    obtain ⟨st, hl, rfl⟩ := niggliReduce_ret h
    obtain ⟨M, N, -, ⟨n, hn, rfl⟩, -, rfl⟩ := nigLoop_uni hl
    simp only [NigState.step, one_mul]
    rw [rebuild_lattice, Mat3.det_mul, intCast_det]
    unfold Structure.volume at hV
    rcases hn with hn | hn <;> rw [hn] <;> simp <;> exact hV.ne'
  exact niggliCell_of_weak hdet h0 hx

/-! ## C26 -/

/-- **C26 (partial): what happens to left-handed cells.** They are returned with their lattice unchanged;
so the result is a Niggli cell only if the input was. -/
theorem C26_left_handed_unchanged_partial (r : Reducer ℝ) (s : Structure ℝ) (tol : ℝ) (hV : s.volume < 0) :
    ∃ s', r.niggliReduce s tol = .ret s' ∧ s'.lattice = s.lattice := by
  refine ⟨r.rebuild s (s.lattice * 1), ?_, by rw [rebuild_lattice, mul_one]⟩
  unfold niggliReduce
  rw [epsilonOf_neg hV, nigLoop, nigIter_none]
  rfl

/-- **C26 is false:** the left-handed cell `diag(2, 1, -1)` comes back with `A = 4 > B = 1`. -/
theorem C26_false_left_handed (r : Reducer ℝ) (tol : ℝ) :
    let s : Structure ℝ := ⟨⟨2, 0, 0, 0, 1, 0, 0, 0, -1⟩, [], [], []⟩
    s.volume = -2 ∧ ∃ s', r.niggliReduce s tol = .ret s' ∧ ∀ ε : ℝ, ε < 3 → ¬ NiggliCell ε s'.lattice := by
  intro s
  have hv : s.volume = -2 := by norm_num [s, Structure.volume, Mat3.det]
  refine ⟨hv, ?_⟩
  obtain ⟨s', h, hl⟩ := C26_left_handed_unchanged_partial r s tol (by rw [hv]; norm_num)
  refine ⟨s', h, fun ε hε hn => ?_⟩
  have := hn.ab
  rw [hl] at this
  norm_num [s, lenSq, Mat3.col0, Mat3.col1] at this
  linarith

/-! ## C27 -/

/-- **C27, partial:** a cell that already satisfies the Niggli conditions within `ε` (with none of
`ξ, η, ζ` exactly `ε` in type II) is returned, with its lattice unchanged; and left-handed cells never panic
(C26).  Missing: cells that need reduction, for which the claim is false (below). -/
theorem C27_niggli_returns_on_reduced_partial (r : Reducer ℝ) (s : Structure ℝ) (tol : ℝ)
    (hV : 0 ≤ s.volume) (h0 : 0 ≤ eps tol s.volume)
    (hn : NiggliCellWeak (eps tol s.volume) s.lattice)
    (hs : (eps tol s.volume ≤ 2 * dotp s.lattice.col1 s.lattice.col2 ∧
        eps tol s.volume ≤ 2 * dotp s.lattice.col0 s.lattice.col2 ∧
        eps tol s.volume ≤ 2 * dotp s.lattice.col0 s.lattice.col1) ∨
      (2 * dotp s.lattice.col1 s.lattice.col2 < eps tol s.volume ∧
        2 * dotp s.lattice.col0 s.lattice.col2 < eps tol s.volume ∧
        2 * dotp s.lattice.col0 s.lattice.col1 < eps tol s.volume)) :
    ∃ s', r.niggliReduce s tol = .ret s' ∧ s'.lattice = s.lattice := by
  refine ⟨r.rebuild s (s.lattice * 1), ?_, by rw [rebuild_lattice, mul_one]⟩
  obtain ⟨pa, pb, pc, px, pe, pz⟩ := metric_params s.lattice 1
  unfold NiggliCellWeak at hn
  rw [← pa, ← pb, ← pc, ← px, ← pe, ← pz] at hn
  rw [← px, ← pe, ← pz] at hs
  unfold niggliReduce
  rw [epsilonOf_nonneg hV, nigLoop]
  erw [nigIter_fixed h0 hn hs]
  rfl

/-- the right-handed cell `(1,0,0), (-x,1,0), (0,0,1)` of volume 1. -/
def skewCell (x : ℝ) : Structure ℝ := ⟨⟨1, -x, 0, 0, 1, 0, 0, 0, 1⟩, [], [], []⟩

theorem skew_first (x tol : ℝ) (hx : 1 ≤ x) (h0 : 0 ≤ tol) (h1 : tol < 1) :
    nigIter (some tol) ⟨⟨1, -x, 0, -x, x * x + 1, 0, 0, 0, 1⟩, 1⟩ = .inl (skewState x (1 * c2)) := by
  have absE : ∀ x : ℝ, (FRound.abs x : ℝ) = |x| := fun _ => rfl
  have hA1 : condA1 (some tol) ⟨⟨1, -x, 0, -x, x * x + 1, 0, 0, 0, 1⟩, (1 : Mat3 ℝ)⟩ = false := by
    rw [Bool.eq_false_iff]
    intro h
    simp only [condA1, NigState.a, NigState.b, NigState.xi, NigState.eta, subGt, eqE, absE, Bool.or_eq_true,
      Bool.and_eq_true, decide_eq_true_eq, custEq_iff_abs, mul_zero, abs_zero] at h
    rcases h with h | ⟨-, h⟩
    · nlinarith
    · linarith
  have hA2 : condA2 (some tol) ⟨⟨1, -x, 0, -x, x * x + 1, 0, 0, 0, 1⟩, (1 : Mat3 ℝ)⟩ = true := by
    simp only [condA2, NigState.b, NigState.c, subGt, Bool.or_eq_true, decide_eq_true_eq]
    left
    nlinarith
  unfold nigIter
  simp only [hA1, hA2, Bool.false_eq_true, if_false, if_true, Sum.inl.injEq]
  unfold NigState.step skewState c2
  simp only [NigState.mk.injEq, and_true]
  ext <;> simp [Mat3.transpose]

/-- **C27 is false:** for every `x ≥ 99` and every tolerance `0 ≤ tol < 1` the cell
`(1,0,0), (-x,1,0), (0,0,1)` of volume 1 makes `niggli_reduce` panic. -/
theorem C27_false_panics (r : Reducer ℝ) (x tol : ℝ) (hx : 99 ≤ x) (h0 : 0 ≤ tol) (h1 : tol < 1) :
    (skewCell x).volume = 1 ∧
    r.niggliReduce (skewCell x) tol = .panic "Could not find Niggli reduced structure!" := by
  have hV : (skewCell x).volume = 1 := by simp [Structure.volume, skewCell, Mat3.det]
  refine ⟨hV, ?_⟩
  have hm : (skewCell x).metricTensor = ⟨1, -x, 0, -x, x * x + 1, 0, 0, 0, 1⟩ := by
    ext <;> simp [Structure.metricTensor, skewCell, Mat3.transpose]
  have hi := skew_first x tol (by linarith) h0 h1
  unfold niggliReduce
  rw [hV, epsilonOf_nonneg (by norm_num), Real.one_rpow, mul_one, hm, nigLoop, hi]
  simp only
  rw [skewState_loop h0 h1 99 (by norm_num; linarith)]
  rfl

theorem skewState_ret {ε : ℝ} (h0 : 0 < ε) (h1 : ε < 1) (m n : ℕ) (t : Mat3 ℝ) :
    ∃ t', nigLoop (some ε) (m + 1 + n) (skewState (n : ℝ) t) = .ret (skewState 0 t') := by
  induction n generalizing t with
  | zero =>
    refine ⟨t, ?_⟩
    have : nigIter (some ε) (skewState (0 : ℝ) t) = .inr (skewState 0 t) := by
      have pa : (skewState (0 : ℝ) t).a = 1 := rfl
      have pb : (skewState (0 : ℝ) t).b = 1 := rfl
      have pc : (skewState (0 : ℝ) t).c = 1 := by simp [NigState.c, skewState]
      have px : (skewState (0 : ℝ) t).xi = 0 := by simp [NigState.xi, skewState]
      have pe : (skewState (0 : ℝ) t).eta = 0 := by simp [NigState.eta, skewState]
      have pz : (skewState (0 : ℝ) t).zeta = 0 := by simp [NigState.zeta, skewState]
      refine nigIter_fixed h0.le ?_ (Or.inr ?_) <;> rw [px, pe, pz]
      · rw [pa, pb, pc]
        constructor
        case signs => exact Or.inr ⟨h0.le, h0.le, h0.le⟩
        all_goals norm_num
        all_goals intros
        all_goals linarith
      · exact ⟨h0, h0, h0⟩
    rw [Nat.cast_zero, Nat.add_zero, nigLoop, this]
  | succ n ih =>
    obtain ⟨t1, h⟩ := skewState_iter h0.le h1 (y := ((n + 1 : ℕ) : ℝ)) (by push_cast; linarith [n.cast_nonneg (α := ℝ)]) t
    obtain ⟨t2, h2⟩ := ih t1
    refine ⟨t2, ?_⟩
    rw [← Nat.add_assoc, nigLoop, h]
    simpa using h2

/-- Not vacuous: a skewed two-atom cell (three iterations) is reduced; C24 and C25 apply to it. -/
example (r : Reducer ℝ) :
    let s : Structure ℝ := ⟨(skewCell 2).lattice, ["Na", "Cl"], [⟨0, 0, 0⟩, ⟨-1 / 2, 1 / 2, 1 / 2⟩],
      [⟨0, 0, 0⟩, ⟨1 / 2, 1 / 2, 1 / 2⟩]⟩
    ∃ s', r.niggliReduce s (1 / 100) = .ret s' ∧ SameCrystalPos s s' ∧ NiggliCell (1 / 100) s'.lattice ∧
      ¬ NiggliCell (1 / 100) s.lattice := by
  intro s
  have hV : s.volume = 1 := by simp [s, Structure.volume, skewCell, Mat3.det]
  have he : eps (1 / 100) s.volume = 1 / 100 := by rw [hV]; simp [eps]
  have hm : s.metricTensor = ⟨1, -2, 0, -2, 2 * 2 + 1, 0, 0, 0, 1⟩ := by
    ext <;> simp [s, Structure.metricTensor, skewCell, Mat3.transpose]
  obtain ⟨t, ht⟩ := skewState_ret (ε := 1 / 100) (by norm_num) (by norm_num) 96 2 (1 * c2)
  have hret : r.niggliReduce s (1 / 100) = .ret (r.rebuild s (s.lattice * t)) := by
    unfold niggliReduce
    rw [hV, epsilonOf_nonneg (by norm_num), Real.one_rpow, mul_one, hm, nigLoop,
      skew_first 2 _ (by norm_num) (by norm_num) (by norm_num)]
    simp only [Nat.cast_ofNat] at ht
    simp only
    rw [ht]
    rfl
  have hc : Consistent s := by
    refine ⟨rfl, ?_⟩
    simp only [s, skewCell, List.map_cons, List.map_nil, List.cons.injEq, and_true]
    constructor <;> ext <;> norm_num
  have hN := C25_niggli_conditions r s _ (1 / 100) hret (by rw [hV]; norm_num) (by rw [he]; norm_num)
    (by rw [he]; norm_num)
  have hC := C24_niggli_keeps_crystal_of_size r s _ (1 / 100) hc hret (by
    rw [he, hV]
    norm_num [s, skewCell, lenSq, Mat3.col0, Mat3.col1, Mat3.col2, abs_of_pos])
  refine ⟨_, hret, hC.2.2.2.2 (Or.inr ⟨by rw [he]; norm_num, by rw [he]; norm_num⟩), he ▸ hN, ?_⟩
  intro h
  have := h.zeta
  norm_num [s, skewCell, lenSq, dotp, Mat3.col0, Mat3.col1] at this

/-! ## C51 -/

/-- **C51, partial:** with `tol = 0` a returned right-handed cell satisfies all Niggli conditions exactly, except
that zero products may occur in type I, where positive ones are required. -/
theorem C51_niggli_tol_zero_partial (r : Reducer ℝ) (s s' : Structure ℝ)
    (h : r.niggliReduce s 0 = .ret s') (hV : 0 < s.volume) : NiggliCellWeak 0 s'.lattice := by
  have he : eps 0 s.volume = 0 := by simp [eps]
  have := niggli_exit h hV.le (by rw [he]) (by rw [he]; exact one_pos)
  rwa [he] at this

/-- a cell with `ξ = 0`, `η = ζ = 2`. -/
noncomputable def mixedCell : Structure ℝ := ⟨⟨2, 1 / 2, 1 / 2, 0, 2, -1 / 8, 0, 0, 3⟩, [], [], []⟩

/-- **C51 is false:** the cell `(2,0,0), (1/2,2,0), (1/2,-1/8,3)` has `ξ = 0`, `η = ζ = 2`, so it is of neither
type, and it is returned unchanged. -/
theorem C51_false_mixed_signs (r : Reducer ℝ) :
    mixedCell.volume = 12 ∧ ∃ s', r.niggliReduce mixedCell 0 = .ret s' ∧ ¬ NiggliCell 0 s'.lattice := by
  have hV : mixedCell.volume = 12 := by norm_num [Structure.volume, mixedCell, Mat3.det]
  refine ⟨hV, ?_⟩
  have he : eps 0 mixedCell.volume = 0 := by simp [eps]
  have p1 : lenSq mixedCell.lattice.col0 = 4 := by norm_num [mixedCell, lenSq, Mat3.col0]
  have p2 : lenSq mixedCell.lattice.col1 = 17 / 4 := by norm_num [mixedCell, lenSq, Mat3.col1]
  have p3 : lenSq mixedCell.lattice.col2 = 593 / 64 := by norm_num [mixedCell, lenSq, Mat3.col2]
  have p4 : 2 * dotp mixedCell.lattice.col1 mixedCell.lattice.col2 = 0 := by
    norm_num [mixedCell, dotp, Mat3.col1, Mat3.col2]
  have p5 : 2 * dotp mixedCell.lattice.col0 mixedCell.lattice.col2 = 2 := by
    norm_num [mixedCell, dotp, Mat3.col0, Mat3.col2]
  have p6 : 2 * dotp mixedCell.lattice.col0 mixedCell.lattice.col1 = 2 := by
    norm_num [mixedCell, dotp, Mat3.col0, Mat3.col1]
  obtain ⟨s', h, hl⟩ := C27_niggli_returns_on_reduced_partial r mixedCell 0 (by rw [hV]; norm_num) (by rw [he])
    (by
      rw [he]
      unfold NiggliCellWeak
      rw [p1, p2, p3, p4, p5, p6]
      constructor <;> norm_num)
    (by rw [he, p4, p5, p6]; norm_num)
  refine ⟨s', h, fun hn => ?_⟩
  unfold NiggliCell at hn
  rw [hl, p1, p2, p3, p4, p5, p6] at hn
  have := hn.signs
  norm_num at this

end CrystSymm
