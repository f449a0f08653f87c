import Verif.Proofs.NiggliBound
import Verif.Props.NiggliIdem
import Verif.Props.LatticeChar

set_option autoImplicit false
set_option linter.unusedSectionVars false

/-! # C63: the Niggli cell does not depend on the cell in which the lattice is given -/

namespace CrystSymm

open Spec Reducer SymmetryAnalyzer NiggliCert

/-- the cells `L` and `L'` have the same edge lengths and angles: the six scalar products of their axes agree. -/
def SameShape (L L' : Mat3 ℝ) : Prop :=
  lenSq L.col0 = lenSq L'.col0 ∧ lenSq L.col1 = lenSq L'.col1 ∧ lenSq L.col2 = lenSq L'.col2 ∧
    dotp L.col1 L.col2 = dotp L'.col1 L'.col2 ∧ dotp L.col0 L.col2 = dotp L'.col0 L'.col2 ∧
    dotp L.col0 L.col1 = dotp L'.col0 L'.col1

/-- the cell of `s` is a right-handed cell of the lattice generated by `L`. -/
def CellOf (L : Mat3 ℝ) (s : Structure ℝ) : Prop := ∃ N : Mat3 ℝ, IsUnimodularPos N ∧ s.lattice = L * N

/-- two exact Niggli cells of one lattice have the same shape. -/
theorem C63_niggli_cell_unique (L U : Mat3 ℝ) (hdet : L.det ≠ 0) (hU : IsUnimodular U) (h : NiggliCell 0 L)
    (h' : NiggliCell 0 (L * U)) : SameShape L (L * U) := by
  obtain ⟨n, hn, rfl⟩ := hU
  have e := niggli_unique hdet hn h h'
  have eA := congrArg Six.A e
  have eB := congrArg Six.B e
  have eC := congrArg Six.C e
  have eX := congrArg Six.X e
  have eY := congrArg Six.Y e
  have eZ := congrArg Six.Z e
  simp only [sixOf, castM] at eA eB eC eX eY eZ
  exact ⟨eA.symm, eB.symm, eC.symm, by linarith, by linarith, by linarith⟩

/-- **C63.** For every lattice there is a bound such that for all tolerances below it and all right-handed cells of the
lattice, `niggli_reduce`, if it returns, returns a cell that satisfies the Niggli conditions exactly. -/
theorem C63_niggli_exact (L : Mat3 ℝ) (hL : 0 < L.det) : ∃ δ > 0, ∀ (r : Reducer ℝ) (s s' : Structure ℝ) (tol : ℝ),
    CellOf L s → 0 < tol → tol < δ → r.niggliReduce s tol = .ret s' → NiggliCell 0 s'.lattice ∧ CellOf L s' := by
  obtain ⟨δ, hδ, hgap⟩ := lattice_gap hL.ne'
  set c := L.det ^ ((1 : ℝ) / 3) with hc
  have hc0 : 0 < c := Real.rpow_pos_of_pos hL _
  refine ⟨min δ 1 / c, by positivity, ?_⟩
  rintro r s s' tol ⟨N, ⟨n, hn, rfl⟩, hs⟩ h0 h1 h
  have hvol : s.volume = L.det := by
    unfold Structure.volume
    rw [hs, Mat3.det_mul, intCast_det, hn]; simp
  have he0 : 0 < eps tol s.volume := by
    rw [hvol]; exact mul_pos h0 hc0
  have he1 : eps tol s.volume < min δ 1 := by
    rw [hvol]
    exact (lt_div_iff₀ hc0).1 h1
  have hn0 := C25_niggli_conditions r s s' tol h (by rw [hvol]; exact hL) he0 (he1.trans_le (min_le_right _ _))
  obtain ⟨st, hl, hs'⟩ := niggliReduce_ret h
  rw [epsilonOf_nonneg (by rw [hvol]; exact hL.le)] at hl
  obtain ⟨M, N, -, ⟨m, hm, rfl⟩, -, hst⟩ := nigLoop_pos
    (by intro ε hε; cases hε; exact ⟨he0.le, he1.trans_le (min_le_right _ _)⟩) hl
  erw [step_metric s.lattice _] at hst
  have hlat : s'.lattice = L * castM (n * m) := by
    have e : (castM (n * m) : Mat3 ℝ) = (n.map fun k : ℤ => (k : ℝ)) * m.map fun k : ℤ => (k : ℝ) := map_intCast_mul n m
    rw [hs', rebuild_lattice, hst, hs, e, mul_assoc]
  have hdet : (n * m).det = 1 := by rw [Mat3.det_mul, hn, hm]; rfl
  rw [hlat] at hn0 ⊢
  exact ⟨hgap (n * m) (.inl hdet) _ he0 (he1.trans_le (min_le_left _ _)) hn0, castM (n * m), ⟨n * m, hdet, rfl⟩, hlat⟩

/-- **C63.** For every lattice there is a bound such that reducing any two right-handed cells of the lattice, with any
tolerances below the bound, gives cells of the same shape whenever both calls return; in particular the same lattice
character is found for both. -/
theorem C63_niggli_independent (L : Mat3 ℝ) (hL : 0 < L.det) : ∃ δ > 0, ∀ (r₁ r₂ : Reducer ℝ)
    (s₁ s₂ s₁' s₂' : Structure ℝ) (tol₁ tol₂ : ℝ), CellOf L s₁ → CellOf L s₂ → 0 < tol₁ → tol₁ < δ → 0 < tol₂ →
    tol₂ < δ → r₁.niggliReduce s₁ tol₁ = .ret s₁' → r₂.niggliReduce s₂ tol₂ = .ret s₂' →
    SameShape s₁'.lattice s₂'.lattice ∧ ∀ tol, getLatticeCharacter s₁' tol = getLatticeCharacter s₂' tol := by
  obtain ⟨δ, hδ, key⟩ := C63_niggli_exact L hL
  refine ⟨δ, hδ, ?_⟩
  intro r₁ r₂ s₁ s₂ s₁' s₂' tol₁ tol₂ c₁ c₂ p₁ q₁ p₂ q₂ h₁ h₂
  obtain ⟨n₁, N₁, ⟨m₁, d₁, rfl⟩, e₁⟩ := key r₁ s₁ s₁' tol₁ c₁ p₁ q₁ h₁
  obtain ⟨n₂, N₂, ⟨m₂, d₂, rfl⟩, e₂⟩ := key r₂ s₂ s₂' tol₂ c₂ p₂ q₂ h₂
  obtain ⟨k, hk1, -, hkd⟩ := unimodular_inverse (.inl d₁)
  have hcast : (m₁.map fun k : ℤ => (k : ℝ)) * (k.map fun k : ℤ => (k : ℝ)) = 1 := by
    rw [← map_intCast_mul, hk1]
    ext <;> simp [Mat3.map]
  have v₁ : s₁'.volume = L.det := by
    unfold Structure.volume
    rw [e₁, Mat3.det_mul, intCast_det, d₁]; simp
  have v₂ : s₂'.volume = L.det := by
    unfold Structure.volume
    rw [e₂, Mat3.det_mul, intCast_det, d₂]; simp
  have e : s₂'.lattice = s₁'.lattice * (k * m₂).map fun k : ℤ => (k : ℝ) := by
    rw [map_intCast_mul, e₁, e₂, mul_assoc, ← mul_assoc (m₁.map _) (k.map _), hcast, one_mul]
  have hs : SameShape s₁'.lattice s₂'.lattice := by
    rw [e]
    refine C63_niggli_cell_unique _ _ ?_ ⟨k * m₂, .inl ?_, rfl⟩ n₁ (e ▸ n₂)
    · have : s₁'.lattice.det = L.det := v₁
      rw [this]; exact hL.ne'
    · rw [Mat3.det_mul, hkd, d₁, d₂]; rfl
  refine ⟨hs, fun tol => ?_⟩
  obtain ⟨a1, a2, a3, a4, a5, a6⟩ := hs
  rw [getLatticeCharacter_eq (by rw [v₁]; exact hL.le), getLatticeCharacter_eq (by rw [v₂]; exact hL.le), v₁, v₂,
    a1, a2, a3, a4, a5, a6]

/-- the bound is needed: with the tolerance 1/100, two cells of one lattice are reduced to cells of different shape. -/
theorem C63_false_fixed_tolerance (r : Reducer ℝ) : ∃ s s₁' s₂' : Structure ℝ, CellOf edgeCell.lattice s ∧
    0 < edgeCell.lattice.det ∧ r.niggliReduce edgeCell (1 / 100) = .ret s₁' ∧ r.niggliReduce s (1 / 100) = .ret s₂' ∧
    ¬ SameShape s₁'.lattice s₂'.lattice := by
  obtain ⟨s', s'', h1, h2, h3, h4, l1, l2⟩ := C62_false_boundary r
  refine ⟨s', s', s'', ⟨c34 (1, -1, -1), ⟨⟨1, 0, 0, 0, -1, 0, 0, 0, -1⟩, by decide, ?_⟩, ?_⟩, h3, h1, h2, ?_⟩
  · ext <;> simp [c34, Mat3.map]
  · rw [l1]
    ext <;> norm_num [edgeCell, c34]
  · rintro ⟨-, -, -, h, -, -⟩
    rw [l1, l2] at h
    norm_num [dotp, Mat3.col0, Mat3.col1, Mat3.col2] at h

/-- two skew cells of the cubic lattice: both calls return, with the same shape. -/
example (r : Reducer ℝ) : ∃ δ > 0, ∀ tol, 0 < tol → tol < δ → ∃ s₁ s₂, r.niggliReduce (skewCell 2) tol = .ret s₁ ∧
    r.niggliReduce (skewCell 3) tol = .ret s₂ ∧ SameShape s₁.lattice s₂.lattice := by
  obtain ⟨δ, hδ, key⟩ := C63_niggli_independent 1 (by simp)
  have ret : ∀ n : ℕ, 1 ≤ n → n ≤ 50 → ∀ tol : ℝ, 0 < tol → tol < 1 →
      ∃ s', r.niggliReduce (skewCell n) tol = .ret s' := by
    intro n h2 hn tol h0 h1
    have hV : (skewCell (n : ℝ)).volume = 1 := by simp [Structure.volume, skewCell, Mat3.det]
    have hm : (skewCell (n : ℝ)).metricTensor = ⟨1, -n, 0, -n, n * n + 1, 0, 0, 0, 1⟩ := by
      ext <;> simp [Structure.metricTensor, skewCell, Mat3.transpose]
    obtain ⟨t, ht⟩ := skewState_ret (ε := tol) h0 h1 (98 - n) n (1 * c2)
    refine ⟨r.rebuild (skewCell n) ((skewCell n).lattice * t), ?_⟩
    unfold niggliReduce
    rw [hV, epsilonOf_nonneg (by norm_num), Real.one_rpow, mul_one, hm, nigLoop,
      skew_first n _ (by exact_mod_cast h2) h0.le h1]
    simp only
    rw [show 98 - n + 1 + n = 99 by omega] at ht
    rw [ht]
    rfl
  have cell : ∀ n : ℤ, CellOf 1 (skewCell n) := by
    intro n
    refine ⟨_, ⟨⟨1, -n, 0, 0, 1, 0, 0, 0, 1⟩, by simp [Mat3.det], rfl⟩, ?_⟩
    rw [one_mul]
    ext <;> simp [skewCell, Mat3.map]
  refine ⟨min δ 1, lt_min hδ one_pos, fun tol h0 h1 => ?_⟩
  obtain ⟨s₁, h₁⟩ := ret 2 (by norm_num) (by norm_num) tol h0 (h1.trans_le (min_le_right _ _))
  obtain ⟨s₂, h₂⟩ := ret 3 (by norm_num) (by norm_num) tol h0 (h1.trans_le (min_le_right _ _))
  have h1' := h1.trans_le (min_le_left δ 1)
  push_cast at h₁ h₂
  refine ⟨s₁, s₂, h₁, h₂, (key r r _ _ s₁ s₂ tol tol ?_ ?_ h0 h1' h0 h1' h₁ h₂).1⟩
  · exact_mod_cast cell 2
  · exact_mod_cast cell 3

end CrystSymm
