import Verif.Proofs.RoundedTwin

set_option autoImplicit false
set_option linter.unusedSectionVars false

/-! # The Niggli loop on integer multiples of a unit: whole runs -/

namespace CrystSymm

open Spec Reducer

section
variable {ρ : Rounding} {γ : ℝ} {B : ℤ} {ε : RNum ρ} {ε' : ℝ}

theorem NumTwin.mono {b b' : ℤ} {x : RNum ρ} {y : ℝ} (h : NumTwin γ b x y) (hb : b ≤ b') : NumTwin γ b' x y := by
  obtain ⟨n, h1, h2, h3⟩ := h
  exact ⟨n, h1, h2, h3.trans hb⟩

theorem NumTwin.two (h : TwinEps γ B ε ε') (h2 : ρ.fl 2 = 2) {b : ℤ} {x : RNum ρ} {y : ℝ} (hx : NumTwin γ b x y) (hb : b ≤ B) :
    NumTwin γ (2 * b) (lit 2 * x) (lit 2 * y) := by
  obtain ⟨n, e1, rfl, e3⟩ := hx
  have hn : |2 * n| ≤ 2 * b := by rw [abs_mul]; norm_num; exact e3
  refine ⟨2 * n, ?_, by rw [lit_two]; push_cast; ring, hn⟩
  have : (lit 2 : RNum ρ).val = ρ.fl 2 := congrArg ρ.fl (by norm_num)
  rw [RNum.val_mul, this, h2, e1, show (2 : ℝ) * (n * γ) = (2 * n : ℤ) * γ by push_cast; ring]
  exact h.fl (by linarith)

theorem NumTwin.add (h : TwinEps γ B ε ε') {b b' : ℤ} {x x' : RNum ρ} {y y' : ℝ} (hx : NumTwin γ b x y) (hx' : NumTwin γ b' x' y')
    (hb : b + b' ≤ 2 * B) : NumTwin γ (b + b') (x + x') (y + y') := by
  obtain ⟨n, e1, rfl, e3⟩ := hx
  obtain ⟨m, f1, rfl, f3⟩ := hx'
  have hn : |n + m| ≤ b + b' := (abs_add_le _ _).trans (by linarith)
  refine ⟨n + m, ?_, by push_cast; ring, hn⟩
  rw [RNum.val_add, e1, f1, show (n : ℝ) * γ + m * γ = (n + m : ℤ) * γ by push_cast; ring]
  exact h.fl (by linarith)

theorem NumTwin.abs (h : TwinEps γ B ε ε') {b : ℤ} {x : RNum ρ} {y : ℝ} (hx : NumTwin γ b x y) :
    NumTwin γ b (FRound.abs x) (FRound.abs y) := by
  obtain ⟨n, e1, rfl, e3⟩ := hx
  have e : |(n : ℝ) * γ| = (|n| : ℤ) * γ := by rw [abs_mul, abs_of_pos h.γ0]; push_cast; rfl
  refine ⟨|n|, ?_, e, by rwa [abs_abs]⟩
  rw [RNum.val_abs, e1]; exact e

theorem NumTwin.neg {b : ℤ} {x : RNum ρ} {y : ℝ} (hx : NumTwin γ b x y) : NumTwin γ b ((-1) * x) ((-1) * y) := by
  obtain ⟨n, e1, rfl, e3⟩ := hx
  refine ⟨-n, ?_, by push_cast; ring, by rwa [abs_neg]⟩
  rw [RNum.neg_mul', RNum.one_mul', RNum.val_neg, e1]; push_cast; ring

theorem NumTwin.zero (h : TwinEps γ B ε ε') : NumTwin (ρ := ρ) γ B 0 0 :=
  ⟨0, by rw [RNum.val_zero]; simp, by simp, by simp; linarith [h.B1]⟩

/-! ## States -/

/-- both states hold the lattice `Lz * N` (in units) and the transformation `N`. -/
structure StTwin (γ : ℝ) (Lz : Mat3 ℤ) (B B' : ℤ) (st : NigState (RNum ρ)) (sE : NigState ℝ) (N : Mat3 ℤ) : Prop where
  met : IsMul γ st.metric ((Lz * N).transpose * (Lz * N))
  metE : sE.metric = timesUnit γ ((Lz * N).transpose * (Lz * N))
  tra : IsMul 1 st.trans N
  traE : sE.trans = timesUnit 1 N
  bm : EntLe ((Lz * N).transpose * (Lz * N)) B
  bt : EntLe N B'

variable {Lz N : Mat3 ℤ} {Bm Bt : ℤ} {st : NigState (RNum ρ)} {sE : NigState ℝ}

theorem StTwin.mono {Bm' Bt' : ℤ} (h : StTwin γ Lz Bm Bt st sE N) (h1 : Bm ≤ Bm') (h2 : Bt ≤ Bt') : StTwin γ Lz Bm' Bt' st sE N :=
  ⟨h.met, h.metE, h.tra, h.traE, h.bm.mono h1, h.bt.mono h2⟩

theorem StTwin.step (h : StTwin γ Lz Bm Bt st sE N) {m : Mat3 (RNum ρ)} {mE : Mat3 ℝ} (hm : MTwin m mE) (hx : ExactMult ρ γ (9 * Bm))
    (h1 : ExactMult ρ 1 (3 * Bt)) : ∃ C : Mat3 ℤ, StTwin γ Lz (9 * Bm) (3 * Bt) (st.step m) (sE.step mE) (N * C) := by
  obtain ⟨C, c1, rfl, c3⟩ := hm
  have hB : 0 ≤ Bm := h.bm.nonneg
  have e1 : C.transpose * ((Lz * N).transpose * (Lz * N)) * C = (Lz * (N * C)).transpose * (Lz * (N * C)) := by
    rw [← mul_assoc Lz N C, Mat3.transpose_mul (Lz * N) C]; simp only [mul_assoc]
  have p1 := IsMul.mul (B1 := 1) (B2 := Bm) (γ1 := 1) (γ2 := γ) (by rw [one_mul]; exact hx.mono (by linarith)) c1.transpose h.met c3.transpose h.bm
  have p2 := IsMul.mul (B1 := 3 * 1 * Bm) (B2 := 1) (γ1 := 1 * γ) (γ2 := 1) (by rw [one_mul, mul_one]; exact hx.mono (by linarith)) p1.1 c1 p1.2 c3
  have p3 := IsMul.mul (B1 := Bt) (B2 := 1) (γ1 := 1) (γ2 := 1) (by rw [mul_one]; exact h1.mono (by linarith)) h.tra c1 h.bt c3
  rw [one_mul, mul_one, e1] at p2
  rw [mul_one] at p3
  refine ⟨C, p2.1, ?_, p3.1, ?_, p2.2.mono (by linarith), p3.2.mono (by linarith)⟩
  · show (timesUnit 1 C).transpose * sE.metric * timesUnit 1 C = _
    rw [h.metE, timesUnit_transpose, timesUnit_mul, timesUnit_mul, e1, one_mul, mul_one]
  · show sE.trans * timesUnit 1 C = _
    rw [h.traE, timesUnit_mul, mul_one]

/-- the numbers the conditions look at. -/
structure Nums (γ : ℝ) (k : ℤ) (st : NigState (RNum ρ)) (sE : NigState ℝ) : Prop where
  a : NumTwin γ k st.a sE.a
  b : NumTwin γ k st.b sE.b
  c : NumTwin γ k st.c sE.c
  xi : NumTwin γ (2 * k) st.xi sE.xi
  eta : NumTwin γ (2 * k) st.eta sE.eta
  zeta : NumTwin γ (2 * k) st.zeta sE.zeta

theorem StTwin.nums (h : StTwin γ Lz Bm Bt st sE N) (he : TwinEps γ B ε ε') (h2 : ρ.fl 2 = 2) (hB : Bm ≤ B) : Nums γ Bm st sE := by
  obtain ⟨⟨t1, t2, t3⟩, ⟨t4, t5, t6⟩, ⟨t7, t8, t9⟩⟩ := h.met.entries
  obtain ⟨⟨a1, a2, a3⟩, ⟨a4, a5, a6⟩, ⟨a7, a8, a9⟩⟩ := h.bm
  have e := h.metE
  exact ⟨⟨_, t1, congrArg Mat3.m11 e, a1⟩, ⟨_, t5, congrArg Mat3.m22 e, a5⟩, ⟨_, t9, congrArg Mat3.m33 e, a9⟩,
    NumTwin.two he h2 ⟨_, t6, congrArg Mat3.m23 e, a6⟩ hB, NumTwin.two he h2 ⟨_, t3, congrArg Mat3.m13 e, a3⟩ hB,
    NumTwin.two he h2 ⟨_, t2, congrArg Mat3.m12 e, a2⟩ hB⟩

theorem conds_twin (he : TwinEps γ B ε ε') (h2 : ρ.fl 2 = 2) {b : ℤ} (h : Nums γ b st sE) (hb0 : 0 ≤ b) (hb : 8 * b ≤ B) :
    condA1 (some ε) st = condA1 (some ε') sE ∧ condA2 (some ε) st = condA2 (some ε') sE ∧ condA5 (some ε) st = condA5 (some ε') sE ∧
      condA6 (some ε) st = condA6 (some ε') sE ∧ condA7 (some ε) st = condA7 (some ε') sE ∧ condA8 (some ε) st = condA8 (some ε') sE := by
  obtain ⟨ha, hb', hc, hxi, heta, hzeta⟩ := h
  have w : ∀ {k : ℤ} {x : RNum ρ} {y : ℝ}, NumTwin γ (k * b) x y → k ≤ 8 → NumTwin γ B x y := fun hh hk =>
    hh.mono ((mul_le_mul_of_nonneg_right hk hb0).trans hb)
  have w1 : ∀ {x : RNum ρ} {y : ℝ}, NumTwin γ b x y → NumTwin γ B x y := fun hh => hh.mono (by linarith)
  have w2 : ∀ {x : RNum ρ} {y : ℝ}, NumTwin γ (2 * b) x y → NumTwin γ B x y := fun hh => hh.mono (by linarith)
  have z := NumTwin.zero he
  have dxi := (NumTwin.two he h2 hxi (by linarith)).mono (show 2 * (2 * b) ≤ B by linarith)
  have deta := (NumTwin.two he h2 heta (by linarith)).mono (show 2 * (2 * b) ≤ B by linarith)
  have hsum : NumTwin γ B (boolSum st) (boolSum sE) :=
    (NumTwin.add he (NumTwin.add he (NumTwin.add he (NumTwin.add he hxi heta (by linarith)) hzeta (by linarith)) ha (by linarith)) hb'
      (by linarith)).mono (by linarith)
  have hlast : NumTwin γ B (lit 2 * (st.a + st.eta) + st.zeta) (lit 2 * (sE.a + sE.eta) + sE.zeta) :=
    (NumTwin.add he (NumTwin.two he h2 (NumTwin.add he ha heta (by linarith)) (by linarith)) hzeta (by linarith)).mono (by linarith)
  have a := w1 ha
  have b' := w1 hb'
  have c := w1 hc
  have xi := w2 hxi
  have eta := w2 heta
  have zeta := w2 hzeta
  refine ⟨?_, ?_, ?_, ?_, ?_, ?_⟩
  · unfold condA1
    rw [subGt_twin he a b', eqE_twin he a b', subGt_twin he (xi.abs he) (eta.abs he)]
  · unfold condA2
    rw [subGt_twin he b' c, eqE_twin he b' c, subGt_twin he (eta.abs he) (zeta.abs he)]
  · unfold condA5
    rw [subGt_twin he (xi.abs he) b', eqE_twin he xi b', subGt_twin he zeta deta, eqE_twin he xi b'.neg, ltNeg_twin he zeta]
  · unfold condA6
    rw [subGt_twin he (eta.abs he) a, eqE_twin he eta a, subGt_twin he zeta dxi, eqE_twin he eta a.neg, ltNeg_twin he zeta]
  · unfold condA7
    rw [subGt_twin he (zeta.abs he) a, eqE_twin he zeta a, subGt_twin he eta dxi, eqE_twin he zeta a.neg, ltNeg_twin he eta]
  · unfold condA8
    rw [ltNeg_twin he hsum, eqE_twin he hsum z, subGt_twin he hlast z]

theorem NumTwin.val_eq {b : ℤ} {x : RNum ρ} {y : ℝ} (h : NumTwin γ b x y) : x.val = y := by
  obtain ⟨n, e1, rfl, -⟩ := h
  exact e1

/-- one iteration: the same branch, and related results. -/
theorem nigIter_twin (he : TwinEps γ (729 * Bm) ε ε') (hε : ε.val < 1) (hε' : ε' < 1) (h2 : ρ.fl 2 = 2) (h1 : ExactMult ρ 1 (27 * Bt))
    (h : StTwin γ Lz Bm Bt st sE N) :
    (∃ s2 t2 N2, nigIter (some ε) st = .inl s2 ∧ nigIter (some ε') sE = .inl t2 ∧ StTwin γ Lz (729 * Bm) (27 * Bt) s2 t2 N2) ∨
      (∃ s2 t2 N2, nigIter (some ε) st = .inr s2 ∧ nigIter (some ε') sE = .inr t2 ∧ StTwin γ Lz (729 * Bm) (27 * Bt) s2 t2 N2) := by
  have hBm := h.bm.nonneg
  have hBt := h.bt.nonneg
  have hx : ∀ k : ℤ, k ≤ 729 * Bm → ExactMult ρ γ k := fun k hk n hn => he.fl (by linarith)
  have h0 : ∃ N1, StTwin γ Lz (9 * Bm) (3 * Bt) (if condA1 (some ε) st then st.step c1 else st)
      (if condA1 (some ε') sE then sE.step c1 else sE) N1 := by
    rw [(conds_twin he h2 (h.nums he h2 (by linarith)) hBm (by linarith)).1]
    split
    · obtain ⟨C, hC⟩ := h.step twin_c1 (hx _ (by linarith)) (h1.mono (by linarith))
      exact ⟨_, hC⟩
    · exact ⟨N, h.mono (by linarith) (by linarith)⟩
  obtain ⟨N1, g1⟩ := h0
  unfold nigIter
  simp only []
  generalize (if condA1 (some ε) st then st.step c1 else st) = s1 at g1
  generalize (if condA1 (some ε') sE then sE.step c1 else sE) = t1 at g1
  have n1 := g1.nums he h2 (by linarith)
  rw [(conds_twin he h2 n1 (by linarith) (by linarith)).2.1]
  split
  · obtain ⟨C, hC⟩ := g1.step twin_c2 (hx _ (by linarith)) (h1.mono (by linarith))
    exact Or.inl ⟨_, _, _, rfl, rfl, hC.mono (by linarith) (by linarith)⟩
  · have sg := signs_twin he hε hε' (n1.xi.mono (by linarith)) (n1.eta.mono (by linarith)) (n1.zeta.mono (by linarith))
    obtain ⟨C, hC⟩ := g1.step (twin_c34 sg.1 sg.2.1 sg.2.2) (hx _ (by linarith)) (h1.mono (by linarith))
    generalize s1.step (c34 (signs (some ε) s1.xi s1.eta s1.zeta)) = s2 at hC
    generalize t1.step (c34 (signs (some ε') t1.xi t1.eta t1.zeta)) = t2 at hC
    have n2 := hC.nums he h2 (by linarith)
    obtain ⟨-, -, k5, k6, k7, k8⟩ := conds_twin he h2 n2 (by linarith) (by linarith)
    rw [k5, k6, k7, k8]
    have fin : ∀ {m : Mat3 (RNum ρ)} {mE : Mat3 ℝ}, MTwin m mE → ∃ C' : Mat3 ℤ, StTwin γ Lz (729 * Bm) (27 * Bt) (s2.step m) (t2.step mE) C' := by
      intro m mE hm
      obtain ⟨C', hC'⟩ := hC.step hm (hx _ (by linarith)) (h1.mono (by linarith))
      exact ⟨_, hC'.mono (by linarith) (by linarith)⟩
    split
    · obtain ⟨C', hC'⟩ := fin (twin_c5 n2.xi.val_eq)
      exact Or.inl ⟨_, _, _, rfl, rfl, hC'⟩
    · split
      · obtain ⟨C', hC'⟩ := fin (twin_c6 n2.eta.val_eq)
        exact Or.inl ⟨_, _, _, rfl, rfl, hC'⟩
      · split
        · obtain ⟨C', hC'⟩ := fin (twin_c7 n2.zeta.val_eq)
          exact Or.inl ⟨_, _, _, rfl, rfl, hC'⟩
        · split
          · obtain ⟨C', hC'⟩ := fin twin_c8
            exact Or.inl ⟨_, _, _, rfl, rfl, hC'⟩
          · exact Or.inr ⟨_, _, _, rfl, rfl, hC.mono (by linarith) (by linarith)⟩

/-! ## Bounds from the sum of the squared lengths -/

/-- the sum of the squared lengths, in units. -/
def sumSq (M : Mat3 ℤ) : ℤ := (M.transpose * M).m11 + (M.transpose * M).m22 + (M.transpose * M).m33

theorem sumSq_eq (M : Mat3 ℤ) : sumSq M = M.m11 ^ 2 + M.m12 ^ 2 + M.m13 ^ 2 + M.m21 ^ 2 + M.m22 ^ 2 + M.m23 ^ 2 + M.m31 ^ 2 + M.m32 ^ 2 +
    M.m33 ^ 2 := by
  simp only [sumSq, Mat3.transpose, Mat3.mul_m11, Mat3.mul_m22, Mat3.mul_m33]; ring

theorem entLe_of_sumSq {M : Mat3 ℤ} {c : ℤ} (hc : 0 ≤ c) (h : sumSq M ≤ c ^ 2) : EntLe M c := by
  rw [sumSq_eq] at h
  have k : ∀ x y : ℤ, x ^ 2 + y ≤ c ^ 2 → 0 ≤ y → |x| ≤ c := fun x y h1 h2 => abs_le_of_sq_le_sq (by linarith) hc
  have q1 := sq_nonneg M.m11
  have q2 := sq_nonneg M.m12
  have q3 := sq_nonneg M.m13
  have q4 := sq_nonneg M.m21
  have q5 := sq_nonneg M.m22
  have q6 := sq_nonneg M.m23
  have q7 := sq_nonneg M.m31
  have q8 := sq_nonneg M.m32
  have q9 := sq_nonneg M.m33
  exact ⟨⟨k _ 0 (by linarith) le_rfl, k _ 0 (by linarith) le_rfl, k _ 0 (by linarith) le_rfl⟩,
    ⟨k _ 0 (by linarith) le_rfl, k _ 0 (by linarith) le_rfl, k _ 0 (by linarith) le_rfl⟩,
    ⟨k _ 0 (by linarith) le_rfl, k _ 0 (by linarith) le_rfl, k _ 0 (by linarith) le_rfl⟩⟩

theorem gram_le_of_sumSq {M : Mat3 ℤ} {t : ℤ} (h : sumSq M ≤ t) : EntLe (M.transpose * M) t := by
  rw [sumSq_eq] at h
  obtain ⟨a, b, c, d, e, f, g, i, j⟩ := M
  simp only at h
  have k : ∀ x y z x' y' z' r : ℤ, x ^ 2 + y ^ 2 + z ^ 2 + x' ^ 2 + y' ^ 2 + z' ^ 2 + r ≤ t → 0 ≤ r → |x * x' + y * y' + z * z'| ≤ t := by
    intro x y z x' y' z' r h1 h2
    rw [abs_le]
    constructor
    · nlinarith [sq_nonneg (x + x'), sq_nonneg (y + y'), sq_nonneg (z + z'), sq_nonneg x, sq_nonneg y, sq_nonneg z, sq_nonneg x', sq_nonneg y',
        sq_nonneg z']
    · nlinarith [sq_nonneg (x - x'), sq_nonneg (y - y'), sq_nonneg (z - z'), sq_nonneg x, sq_nonneg y, sq_nonneg z, sq_nonneg x', sq_nonneg y',
        sq_nonneg z']
  have k' : ∀ x y z r : ℤ, x ^ 2 + y ^ 2 + z ^ 2 + r ≤ t → 0 ≤ r → |x * x + y * y + z * z| ≤ t := by
    intro x y z r h1 h2
    rw [abs_of_nonneg (by nlinarith [sq_nonneg x, sq_nonneg y, sq_nonneg z])]
    nlinarith
  have q1 := sq_nonneg a
  have q2 := sq_nonneg b
  have q3 := sq_nonneg c
  have q4 := sq_nonneg d
  have q5 := sq_nonneg e
  have q6 := sq_nonneg f
  have q7 := sq_nonneg g
  have q8 := sq_nonneg i
  have q9 := sq_nonneg j
  exact ⟨⟨k' a d g 0 (by linarith) le_rfl, k a d g b e i 0 (by linarith) le_rfl, k a d g c f j 0 (by linarith) le_rfl⟩,
    ⟨k b e i a d g 0 (by linarith) le_rfl, k' b e i 0 (by linarith) le_rfl, k b e i c f j 0 (by linarith) le_rfl⟩,
    ⟨k c f j a d g 0 (by linarith) le_rfl, k c f j b e i 0 (by linarith) le_rfl, k' c f j 0 (by linarith) le_rfl⟩⟩

/-- the transformation is bounded by the old and the new basis. -/
theorem trans_le {Lz N : Mat3 ℤ} {A c : ℤ} (hd : Lz.det ≠ 0) (hL : EntLe Lz A) (hM : EntLe (Lz * N) c) : EntLe N (6 * A ^ 2 * c) := by
  obtain ⟨⟨a1, a2, a3⟩, ⟨a4, a5, a6⟩, ⟨a7, a8, a9⟩⟩ := hL
  obtain ⟨⟨m1, m2, m3⟩, ⟨m4, m5, m6⟩, ⟨m7, m8, m9⟩⟩ := hM
  have hd1 : 1 ≤ |Lz.det| := Int.one_le_abs hd
  have hA : 0 ≤ A := (abs_nonneg _).trans a1
  have hc : 0 ≤ c := (abs_nonneg _).trans m1
  have pr : ∀ {x y : ℤ}, |x| ≤ A → |y| ≤ A → |x * y| ≤ A ^ 2 := fun h1 h2 => by
    rw [abs_mul, pow_two]; exact mul_le_mul h1 h2 (abs_nonneg _) hA
  have co : ∀ {x y z w : ℤ}, |x| ≤ A → |y| ≤ A → |z| ≤ A → |w| ≤ A → |x * y - z * w| ≤ 2 * A ^ 2 := fun h1 h2 h3 h4 =>
    (abs_sub _ _).trans (by linarith [pr h1 h2, pr h3 h4])
  have key : ∀ {n u v w x y z : ℤ}, Lz.det * n = u * x + v * y + w * z → |u| ≤ 2 * A ^ 2 → |v| ≤ 2 * A ^ 2 → |w| ≤ 2 * A ^ 2 → |x| ≤ c →
      |y| ≤ c → |z| ≤ c → |n| ≤ 6 * A ^ 2 * c := by
    intro n u v w x y z e hu hv hw hx hy hz
    have t : ∀ {p q : ℤ}, |p| ≤ 2 * A ^ 2 → |q| ≤ c → |p * q| ≤ 2 * A ^ 2 * c := fun h1 h2 => by
      rw [abs_mul]; exact mul_le_mul h1 h2 (abs_nonneg _) (by positivity)
    have h1 := abs_add_three (u * x) (v * y) (w * z)
    have h2 : |n| ≤ |Lz.det * n| := by
      rw [abs_mul]; nlinarith [abs_nonneg n]
    rw [e] at h2
    linarith [t hu hx, t hv hy, t hw hz]
  have f1 := co a5 a9 a6 a8
  have f2 := co a3 a8 a2 a9
  have f3 := co a2 a6 a3 a5
  have f4 := co a6 a7 a4 a9
  have f5 := co a1 a9 a3 a7
  have f6 := co a3 a4 a1 a6
  have f7 := co a4 a8 a5 a7
  have f8 := co a2 a7 a1 a8
  have f9 := co a1 a5 a2 a4
  refine ⟨⟨key ?_ f1 f2 f3 m1 m4 m7, key ?_ f1 f2 f3 m2 m5 m8, key ?_ f1 f2 f3 m3 m6 m9⟩,
    ⟨key ?_ f4 f5 f6 m1 m4 m7, key ?_ f4 f5 f6 m2 m5 m8, key ?_ f4 f5 f6 m3 m6 m9⟩,
    ⟨key ?_ f7 f8 f9 m1 m4 m7, key ?_ f7 f8 f9 m2 m5 m8, key ?_ f7 f8 f9 m3 m6 m9⟩⟩ <;>
  · simp only [Mat3.det, Mat3.mul_m11, Mat3.mul_m12, Mat3.mul_m13, Mat3.mul_m21, Mat3.mul_m22, Mat3.mul_m23, Mat3.mul_m31, Mat3.mul_m32,
      Mat3.mul_m33]
    ring

/-! ## The loop -/

theorem StTwin.tr (h : StTwin γ Lz Bm Bt st sE N) : sE.tr = sumSq (Lz * N) * γ := by
  have e := h.metE
  have e1 := congrArg Mat3.m11 e
  have e2 := congrArg Mat3.m22 e
  have e3 := congrArg Mat3.m33 e
  simp only [timesUnit, Mat3.map] at e1 e2 e3
  unfold NigState.tr sumSq
  show sE.metric.m11 + sE.metric.m22 + sE.metric.m33 = _
  rw [e1, e2, e3]
  push_cast
  ring

theorem StTwin.sym (h : StTwin γ Lz Bm Bt st sE N) : sE.Sym := by
  unfold NigState.Sym
  rw [h.metE]
  refine ⟨?_, ?_, ?_⟩ <;> simp [timesUnit, Mat3.map, Mat3.transpose] <;> left <;> ring

/-- whole runs: the rounded run ends if and only if the exact run does, with the same matrices. -/
theorem nigLoop_twin {A : ℤ} (hA : 1 ≤ A) (hd : Lz.det ≠ 0) (hL : EntLe Lz A) (he : TwinEps γ (729 * (9 * A ^ 2)) ε ε') (hε : ε.val < 1)
    (hε' : ε' < 1) (h2 : ρ.fl 2 = 2) (h1 : ExactMult ρ 1 (27 * (18 * A ^ 3))) (n : ℕ) {st : NigState (RNum ρ)} {sE : NigState ℝ} {N : Mat3 ℤ}
    (h : StTwin γ Lz (9 * A ^ 2) (18 * A ^ 3) st sE N) (ht : sumSq (Lz * N) ≤ 9 * A ^ 2) :
    (∃ s2 t2 N2, nigLoop (some ε) n st = .ret s2 ∧ nigLoop (some ε') n sE = .ret t2 ∧ StTwin γ Lz (9 * A ^ 2) (18 * A ^ 3) s2 t2 N2 ∧
        sumSq (Lz * N2) ≤ 9 * A ^ 2) ∨
      (∃ msg, nigLoop (some ε) n st = .panic msg ∧ nigLoop (some ε') n sE = .panic msg) := by
  induction n generalizing st sE N with
  | zero => exact Or.inr ⟨_, rfl, rfl⟩
  | succ n ih =>
    have down : ∀ {s2 t2 N2}, nigIter (some ε') sE = .inl t2 ∨ nigIter (some ε') sE = .inr t2 →
        StTwin γ Lz (729 * (9 * A ^ 2)) (27 * (18 * A ^ 3)) s2 t2 N2 →
        sumSq (Lz * N2) ≤ 9 * A ^ 2 ∧ StTwin (ρ := ρ) γ Lz (9 * A ^ 2) (18 * A ^ 3) s2 t2 N2 := by
      intro s2 t2 N2 hi hs
      have g := (nigIter_grow ε' h.sym hi).2
      rw [h.tr, hs.tr, abs_of_pos he.f0] at g
      have g1 : ((sumSq (Lz * N2) : ℤ) : ℝ) * γ < (sumSq (Lz * N) + 1 : ℤ) * γ := by
        push_cast; linarith [he.f1, he.γ0]
      have g2 := (lt_unit he).1 g1
      have g3 : sumSq (Lz * N2) ≤ 9 * A ^ 2 := by omega
      have g4 : EntLe (Lz * N2) (3 * A) := entLe_of_sumSq (by linarith) (by linarith [g3])
      exact ⟨g3, hs.met, hs.metE, hs.tra, hs.traE, gram_le_of_sumSq g3, (trans_le hd hL g4).mono (by
        rw [show 6 * A ^ 2 * (3 * A) = 18 * A ^ 3 by ring])⟩
    rcases nigIter_twin he hε hε' h2 h1 h with ⟨s2, t2, N2, e1, e2, e3⟩ | ⟨s2, t2, N2, e1, e2, e3⟩
    · rw [nigLoop, nigLoop, e1, e2]
      obtain ⟨k1, k2⟩ := down (Or.inl e2) e3
      exact ih k2 k1
    · rw [nigLoop, nigLoop, e1, e2]
      exact Or.inl ⟨s2, t2, N2, rfl, rfl, (down (Or.inr e2) e3).2, (down (Or.inr e2) e3).1⟩

end

end CrystSymm
