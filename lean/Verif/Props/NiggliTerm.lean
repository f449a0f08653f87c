import Verif.Proofs.NiggliTerm
import Verif.Props.NiggliUnique

set_option autoImplicit false
set_option linter.unusedSectionVars false

/-! # C64: the Niggli iteration converges

`niggli_reduce` gives up after 100 iterations (C27 is false for that reason).  Without the limit the iteration always ends,
for every tolerance below a bound that depends on the cell. -/

namespace CrystSymm

open Spec Reducer NiggliCert

/-- **C64.** For every right-handed cell there are a number of iterations and a bound such that, for all tolerances below
the bound, the iteration of `niggli_reduce` ends within that number of iterations, in a right-handed basis of the lattice
that satisfies the Niggli conditions exactly. -/
theorem C64_niggli_converges (s : Structure ℝ) (hV : 0 < s.volume) : ∃ δ > 0, ∃ n, ∀ tol, 0 < tol → tol < δ →
    ∃ st, nigLoop (epsilonOf tol s.volume) n ⟨s.metricTensor, 1⟩ = .ret st ∧ IsUnimodularPos st.trans ∧
      NiggliCell 0 (s.lattice * st.trans) := by
  have hL : 0 < s.lattice.det := hV
  obtain ⟨δ₁, hδ₁, n, hn⟩ := niggli_ends hL.ne'
  obtain ⟨δ₂, hδ₂, hgap⟩ := lattice_gap hL.ne'
  set c := s.volume ^ ((1 : ℝ) / 3) with hc
  have hc0 : 0 < c := Real.rpow_pos_of_pos hV _
  refine ⟨min (min δ₁ δ₂) 1 / c, by positivity, n, fun tol h0 h1 => ?_⟩
  have he0 : 0 < eps tol s.volume := mul_pos h0 hc0
  have he : eps tol s.volume < min (min δ₁ δ₂) 1 := (lt_div_iff₀ hc0).1 h1
  have he1 : eps tol s.volume < 1 := he.trans_le (min_le_right _ _)
  obtain ⟨st, hst⟩ := hn _ he0 (he.trans_le ((min_le_left _ _).trans (min_le_left _ _)))
  rw [epsilonOf_nonneg hV.le]
  refine ⟨st, hst, ?_⟩
  obtain ⟨M, N, -, ⟨m, hm, rfl⟩, hexit, e⟩ := nigLoop_pos (by intro x hx; cases hx; exact ⟨he0.le, he1⟩) hst
  have hst' : st = ⟨(s.lattice * castM m).transpose * (s.lattice * castM m), castM m⟩ := by
    rw [e]; exact step_metric s.lattice _
  have hcell : NiggliCell (eps tol s.volume) (s.lattice * castM m) := by
    refine niggliCell_of_weak ?_ he0 ?_
    · rw [Mat3.det_mul, castM, intCast_det, hm]; simpa using hL.ne'
    · have := nigIter_exit he0.le he1 hexit
      obtain ⟨pa, pb, pc, px, pe, pz⟩ := metric_params (s.lattice * castM m) (castM m)
      unfold NiggliCellWeak
      rw [← pa, ← pb, ← pc, ← px, ← pe, ← pz, ← hst']
      exact this
  have htr : st.trans = castM m := by rw [hst']
  rw [htr]
  exact ⟨⟨m, hm, rfl⟩, hgap m (.inl hm) _ he0 (he.trans_le ((min_le_left _ _).trans (min_le_right _ _))) hcell⟩

/-- every lattice has a Niggli cell (and by C63 only one shape of it). -/
theorem C64_niggli_cell_exists (L : Mat3 ℝ) (hL : 0 < L.det) : ∃ N, IsUnimodularPos N ∧ NiggliCell 0 (L * N) := by
  obtain ⟨δ, hδ, n, h⟩ := C64_niggli_converges ⟨L, [], [], []⟩ hL
  obtain ⟨st, -, hu, hc⟩ := h (δ / 2) (by linarith) (by linarith)
  exact ⟨st.trans, hu, hc⟩

/-- a cell that satisfies the Niggli conditions exactly satisfies them within every small tolerance. -/
theorem niggliWeak_of_exact {A B C ξ η ζ : ℝ} (h : NiggliParams 0 A B C ξ η ζ) : ∃ δ > 0, ∀ ε, 0 < ε → ε < δ →
    NiggliWeak ε A B C ξ η ζ ∧ ((ε ≤ ξ ∧ ε ≤ η ∧ ε ≤ ζ) ∨ (ξ < ε ∧ η < ε ∧ ζ < ε)) := by
  obtain ⟨δ, hδ, hg⟩ := diffs_gap [A - B, B - C, ξ - B, ξ + B, η - A, η + A, ζ - A, ζ + A, ξ + η + ζ + A + B, ξ, η, ζ]
  refine ⟨δ, hδ, fun ε h0 h1 => ?_⟩
  have g := hg ε h0 h1
  simp only [List.forall_mem_cons, List.not_mem_nil, false_imp_iff, implies_true, and_true] at g
  obtain ⟨g1, g2, g3, g4, g5, g6, g7, g8, g9, g10, g11, g12⟩ := g
  have z : ∀ {q : ℝ}, q = 0 → |q| ≤ 0 := fun e => by rw [e, abs_zero]
  have pos : ∀ {q : ℝ}, q = 0 ∨ ε < |q| → 0 < q → ε ≤ q := by
    intro q hq h
    rcases hq with hq | hq
    · linarith
    · rw [abs_of_pos h] at hq; exact hq.le
  have hs : (ε ≤ ξ ∧ ε ≤ η ∧ ε ≤ ζ) ∨ (ξ < ε ∧ η < ε ∧ ζ < ε) := by
    rcases h.signs with ⟨a, b, c⟩ | ⟨a, b, c⟩
    · exact .inl ⟨pos g10 a, pos g11 b, pos g12 c⟩
    · exact .inr ⟨by linarith, by linarith, by linarith⟩
  refine ⟨?_, hs⟩
  exact
    { ab := by linarith [h.ab]
      bc := by linarith [h.bc]
      ab_eq := fun e => by linarith [h.ab_eq (z (gap_eq g1 e))]
      bc_eq := fun e => by linarith [h.bc_eq (z (gap_eq g2 e))]
      xi := by linarith [h.xi]
      eta := by linarith [h.eta]
      zeta := by linarith [h.zeta]
      sum := by linarith [h.sum]
      signs := hs.imp id fun ⟨a, b, c⟩ => ⟨a.le, b.le, c.le⟩
      xi_eq := fun e => by linarith [h.xi_eq (z (gap_eq g3 e))]
      eta_eq := fun e => by linarith [h.eta_eq (z (gap_eq g5 e))]
      zeta_eq := fun e => by linarith [h.zeta_eq (z (gap_eq g7 e))]
      xi_neg := fun e => by linarith [neg_abs_le ζ, h.xi_neg (z (gap_eq g4 e))]
      eta_neg := fun e => by linarith [neg_abs_le ζ, h.eta_neg (z (gap_eq g6 e))]
      zeta_neg := fun e => by linarith [neg_abs_le η, h.zeta_neg (z (gap_eq g8 e))]
      sum_eq := fun e => by linarith [h.sum_eq (z (gap_eq g9 e))] }

/-- `niggli_reduce` returns an exact Niggli cell as it is, for all small tolerances. -/
theorem C64_niggli_cell_kept (s : Structure ℝ) (hV : 0 < s.volume) (h : NiggliCell 0 s.lattice) :
    ∃ δ > 0, ∀ (r : Reducer ℝ) (tol : ℝ), 0 < tol → tol < δ →
      ∃ s', r.niggliReduce s tol = .ret s' ∧ s'.lattice = s.lattice := by
  obtain ⟨δ, hδ, hw⟩ := niggliWeak_of_exact h
  set c := s.volume ^ ((1 : ℝ) / 3) with hc
  have hc0 : 0 < c := Real.rpow_pos_of_pos hV _
  refine ⟨δ / c, by positivity, fun r tol h0 h1 => ?_⟩
  have he0 : 0 < eps tol s.volume := mul_pos h0 hc0
  obtain ⟨a, b⟩ := hw _ he0 ((lt_div_iff₀ hc0).1 h1)
  exact C27_niggli_returns_on_reduced_partial r s tol hV.le he0.le a b

/-- **C64.** Every lattice has a cell on which `niggli_reduce` returns, for all small tolerances, and what it returns there
is the shape it returns for every other cell of the lattice on which it returns (C63). -/
theorem C64_every_lattice_reducible (L : Mat3 ℝ) (hL : 0 < L.det) : ∃ δ > 0, ∃ s : Structure ℝ, CellOf L s ∧
    NiggliCell 0 s.lattice ∧ ∀ (r : Reducer ℝ) (tol : ℝ), 0 < tol → tol < δ →
      ∃ s', r.niggliReduce s tol = .ret s' ∧ s'.lattice = s.lattice := by
  obtain ⟨N, hN, hc⟩ := C64_niggli_cell_exists L hL
  obtain ⟨δ, hδ, h⟩ := C64_niggli_cell_kept ⟨L * N, [], [], []⟩ (by
    obtain ⟨n, hn, rfl⟩ := hN
    have : (L * n.map fun k : ℤ => (k : ℝ)).det = L.det := by
      rw [Mat3.det_mul, intCast_det, hn]; simp
    unfold Structure.volume
    rw [this]; exact hL) hc
  exact ⟨δ, hδ, _, ⟨N, hN, rfl⟩, hc, h⟩

/-- the cell on which `niggli_reduce` panics (C27): the iteration would have ended, in a cubic cell. -/
example (r : Reducer ℝ) : ∃ δ > 0, ∃ n, ∀ tol, 0 < tol → tol < δ → r.niggliReduce (skewCell 120) tol =
      .panic "Could not find Niggli reduced structure!" ∧
    ∃ st, nigLoop (epsilonOf tol (skewCell 120).volume) n ⟨(skewCell 120).metricTensor, 1⟩ = .ret st ∧
      SameShape 1 ((skewCell 120).lattice * st.trans) := by
  have hV : (skewCell (120 : ℝ)).volume = 1 := by simp [Structure.volume, skewCell, Mat3.det]
  obtain ⟨δ, hδ, n, h⟩ := C64_niggli_converges (skewCell 120) (by rw [hV]; norm_num)
  refine ⟨min δ 1, lt_min hδ one_pos, n, fun tol h0 h1 => ?_⟩
  refine ⟨(C27_false_panics r 120 tol (by norm_num) h0.le (h1.trans_le (min_le_right _ _))).2, ?_⟩
  obtain ⟨st, e, ⟨m, hm, hu⟩, hc⟩ := h tol h0 (h1.trans_le (min_le_left _ _))
  refine ⟨st, e, ?_⟩
  have e2 : (skewCell 120).lattice * st.trans = 1 * castM ((⟨1, -120, 0, 0, 1, 0, 0, 0, 1⟩ : Mat3 ℤ) * m) := by
    rw [one_mul, hu]
    have := map_intCast_mul (K := ℝ) ⟨1, -120, 0, 0, 1, 0, 0, 0, 1⟩ m
    rw [castM, this]
    congr 1
    ext <;> simp [skewCell, Mat3.map]
  rw [e2] at hc ⊢
  refine C63_niggli_cell_unique 1 _ (by simp) ⟨_, .inl ?_, rfl⟩ ?_ hc
  · rw [Mat3.det_mul, hm]; simp [Mat3.det]
  · unfold NiggliCell
    constructor <;> norm_num [lenSq, dotp, Mat3.col0, Mat3.col1, Mat3.col2]

end CrystSymm
