import Verif.Proofs.NiggliBound
import Verif.Props.Niggli
import Mathlib.Data.Prod.Lex
import Mathlib.Data.Finset.Card

set_option autoImplicit false
set_option linter.unusedSectionVars false

/-! # The Niggli iteration makes progress

Every iteration that does not end the loop lowers `(A + B + C, A, B, -(|ξ| + |η| + |ζ|), |ξ|, |η|)` in the lexicographic
order, provided that the tolerance is smaller than every non-zero difference the conditions look at. -/

namespace CrystSymm

open Spec Reducer NiggliCert NiggliMin

section
variable {K : Type} [Field K] [LinearOrder K] [IsStrictOrderedRing K] [FloorRing K]

/-- the differences that decide the steps. -/
def nigDiffs (st : NigState K) : List K :=
  [st.a - st.b, st.b - st.c, st.xi - st.b, st.xi + st.b, st.eta - st.a, st.eta + st.a, st.zeta - st.a, st.zeta + st.a,
    boolSum st, |st.eta| - st.a, |st.zeta| - st.a, st.xi, st.eta, st.zeta]

/-- the cell is not degenerate and none of its differences is a non-zero number of size at most `ε`. -/
def Gapped (ε : K) (st : NigState K) : Prop := 0 < st.a ∧ 0 < st.b ∧ ∀ q ∈ nigDiffs st, q = 0 ∨ ε < |q|

/-- the measure of progress. -/
def nigRank (st : NigState K) : K ×ₗ K ×ₗ K ×ₗ K ×ₗ K ×ₗ K :=
  toLex (st.tr, toLex (st.a, toLex (st.b, toLex (-(|st.xi| + |st.eta| + |st.zeta|), toLex (|st.xi|, |st.eta|)))))

theorem nigRank_lt {s t : NigState K} : nigRank s < nigRank t ↔ s.tr < t.tr ∨ s.tr = t.tr ∧ (s.a < t.a ∨ s.a = t.a ∧
    (s.b < t.b ∨ s.b = t.b ∧ (|t.xi| + |t.eta| + |t.zeta| < |s.xi| + |s.eta| + |s.zeta| ∨
      |s.xi| + |s.eta| + |s.zeta| = |t.xi| + |t.eta| + |t.zeta| ∧ (|s.xi| < |t.xi| ∨ |s.xi| = |t.xi| ∧
        |s.eta| < |t.eta|)))) := by
  unfold nigRank
  simp only [Prod.Lex.toLex_lt_toLex, neg_lt_neg_iff, neg_inj]

local macro "prm" : tactic => `(tactic| simp only [NigState.step, NigState.a, NigState.b, NigState.c,
  NigState.xi, NigState.eta, NigState.zeta, c1, c2, c34, c5, c6, c7, c8, Mat3.transpose, Mat3.mul_m11, Mat3.mul_m12,
  Mat3.mul_m13, Mat3.mul_m21, Mat3.mul_m22, Mat3.mul_m23, Mat3.mul_m31, Mat3.mul_m32, Mat3.mul_m33, lit_two])

theorem c1_params (st : NigState K) (h : st.Sym) : (st.step c1).a = st.b ∧ (st.step c1).b = st.a ∧
    (st.step c1).c = st.c ∧ (st.step c1).xi = st.eta ∧ (st.step c1).eta = st.xi ∧ (st.step c1).zeta = st.zeta := by
  obtain ⟨e1, e2, e3⟩ := h
  refine ⟨?_, ?_, ?_, ?_, ?_, ?_⟩ <;> prm <;> simp only [e1, e2, e3] <;> ring

theorem c2_params (st : NigState K) (h : st.Sym) : (st.step c2).a = st.a ∧ (st.step c2).b = st.c ∧
    (st.step c2).c = st.b ∧ (st.step c2).xi = st.xi ∧ (st.step c2).eta = st.zeta ∧ (st.step c2).zeta = st.eta := by
  obtain ⟨e1, e2, e3⟩ := h
  refine ⟨?_, ?_, ?_, ?_, ?_, ?_⟩ <;> prm <;> simp only [e1, e2, e3] <;> ring

theorem c5_params (st : NigState K) (h : st.Sym) (x : K) : (st.step (c5 x)).a = st.a ∧ (st.step (c5 x)).b = st.b ∧
    (st.step (c5 x)).xi = st.xi - 2 * FRound.signum x * st.b ∧
    (st.step (c5 x)).eta = st.eta - FRound.signum x * st.zeta ∧ (st.step (c5 x)).zeta = st.zeta := by
  obtain ⟨e1, e2, e3⟩ := h
  refine ⟨?_, ?_, ?_, ?_, ?_⟩ <;> prm <;> simp only [e1, e2, e3] <;> ring

theorem c6_params (st : NigState K) (h : st.Sym) (x : K) : (st.step (c6 x)).a = st.a ∧ (st.step (c6 x)).b = st.b ∧
    (st.step (c6 x)).xi = st.xi - FRound.signum x * st.zeta ∧
    (st.step (c6 x)).eta = st.eta - 2 * FRound.signum x * st.a ∧ (st.step (c6 x)).zeta = st.zeta := by
  obtain ⟨e1, e2, e3⟩ := h
  refine ⟨?_, ?_, ?_, ?_, ?_⟩ <;> prm <;> simp only [e1, e2, e3] <;> ring

theorem c7_params (st : NigState K) (h : st.Sym) (x : K) : (st.step (c7 x)).a = st.a ∧ (st.step (c7 x)).c = st.c ∧
    (st.step (c7 x)).xi = st.xi - FRound.signum x * st.eta ∧ (st.step (c7 x)).eta = st.eta ∧
    (st.step (c7 x)).zeta = st.zeta - 2 * FRound.signum x * st.a := by
  obtain ⟨e1, e2, e3⟩ := h
  refine ⟨?_, ?_, ?_, ?_, ?_⟩ <;> prm <;> simp only [e1, e2, e3] <;> ring

theorem c8_params (st : NigState K) (h : st.Sym) : (st.step c8).a = st.a ∧ (st.step c8).b = st.b ∧
    (st.step c8).xi = 2 * st.b + st.xi + st.zeta ∧
    (st.step c8).eta = 2 * st.a + st.eta + st.zeta ∧ (st.step c8).zeta = st.zeta := by
  obtain ⟨e1, e2, e3⟩ := h
  refine ⟨?_, ?_, ?_, ?_, ?_⟩ <;> prm <;> simp only [e1, e2, e3] <;> ring

theorem gap_eq {ε q : K} (h : q = 0 ∨ ε < |q|) (h' : |q| ≤ ε) : q = 0 := by
  rcases h with h | h
  · exact h
  · exact absurd h' (not_le.2 h)

theorem gap_le {ε q : K} (h0 : 0 < ε) (h : q = 0 ∨ ε < |q|) (h' : q ≤ ε) : q ≤ 0 := by
  rcases h with h | h
  · exact h.le
  · by_contra hq
    rw [abs_of_pos (not_le.1 hq)] at h
    linarith

/-- the three possible reasons for a step of the kind A5, A6, A7. -/
theorem cond_cases {ε x y u v w : K} (h0 : 0 < ε) (g1 : x - y = 0 ∨ ε < |x - y|) (g2 : x + y = 0 ∨ ε < |x + y|)
    (h : (subGt (some ε) (FRound.abs x) y || (eqE (some ε) x y && subGt (some ε) u v)
    || (eqE (some ε) x ((-1) * y) && ltNeg (some ε) w)) = true) :
    y < |x| ∨ (x = y ∧ v < u) ∨ (x = -y ∧ w < 0) := by
  have absE : ∀ x : K, (FRound.abs x : K) = |x| := fun _ => rfl
  simp only [subGt, eqE, ltNeg, absE, Bool.or_eq_true, Bool.and_eq_true, decide_eq_true_eq, custEq_iff_abs] at h
  rcases h with (h | ⟨h, h'⟩) | ⟨h, h'⟩
  · left; linarith
  · right; left
    exact ⟨sub_eq_zero.1 (gap_eq g1 h), by linarith⟩
  · right; right
    rw [show x - -1 * y = x + y by ring] at h
    exact ⟨by linarith [gap_eq g2 h], by linarith⟩

theorem cond_fails {ε x y : K} {p q : Bool} (h0 : 0 < ε) (g : |x| - y = 0 ∨ ε < |(|x| - y)|)
    (h : ¬ (subGt (some ε) (FRound.abs x) y || p || q) = true) : |x| ≤ y := by
  have absE : ∀ x : K, (FRound.abs x : K) = |x| := fun _ => rfl
  simp only [subGt, absE, Bool.or_eq_true, decide_eq_true_eq, not_or, not_lt] at h
  have := gap_le h0 g (by linarith [h.1.1])
  linarith

set_option maxHeartbeats 1000000 in
/-- **progress**: an iteration that continues lowers the rank. -/
theorem nigIter_decreases {ε : K} (h0 : 0 < ε) (h1 : ε < 1) {st st' : NigState K} (h : st.Sym)
    (hg : ∀ N, IsUnimodularPos N → (st.step N).tr = st.tr → Gapped ε (st.step N))
    (hi : nigIter (some ε) st = .inl st') : nigRank st' < nigRank st := by
  have hgst : Gapped ε st := by
    have := hg 1 isUnimodularPos_one (by rw [step_one])
    rwa [step_one] at this
  -- step A1
  have hA1 : ∃ N, IsUnimodularPos N ∧ (if condA1 (some ε) st then st.step c1 else st) = st.step N ∧
      (st.step N).tr = st.tr ∧ (nigRank (st.step N) ≤ nigRank st) := by
    split
    · rename_i hc
      refine ⟨c1, c1_pos, rfl, tr_c1 st, le_of_lt ?_⟩
      obtain ⟨pa, pb, -, px, py, pz⟩ := c1_params st h
      rw [nigRank_lt, tr_c1, pa, pb, px, py, pz]
      have absE : ∀ x : K, (FRound.abs x : K) = |x| := fun _ => rfl
      simp only [condA1, subGt, eqE, absE, Bool.or_eq_true, Bool.and_eq_true, decide_eq_true_eq, custEq_iff_abs] at hc
      rcases hc with hc | ⟨hc, hc'⟩
      · exact .inr ⟨rfl, .inl (by linarith)⟩
      · have e := gap_eq (hgst.2.2 (st.a - st.b) (by simp [nigDiffs])) hc
        exact .inr ⟨rfl, .inr ⟨by linarith, .inr ⟨by linarith, .inr ⟨by ring, .inl (by linarith)⟩⟩⟩⟩
    · exact ⟨1, isUnimodularPos_one, (step_one st).symm, by rw [step_one], by rw [step_one]⟩
  have hA1' := condA1_after h0.le st
  unfold nigIter at hi
  simp only at hi
  obtain ⟨N, hN, e1, ht1, hr1⟩ := hA1
  rw [e1] at hi hA1'
  have hs1 := sym_step h N
  have hg1 : ∀ M, IsUnimodularPos M → ((st.step N).step M).tr = (st.step N).tr → Gapped ε ((st.step N).step M) := by
    intro M hM ht
    rw [step_step] at ht ⊢
    exact hg _ (IsUnimodularPos.mul hN hM) (ht.trans ht1)
  have hgs1 := hg N hN ht1
  refine lt_of_lt_of_le ?_ hr1
  generalize st.step N = s at hi hA1' hs1 hg1 hgs1
  clear hg hgst e1 ht1 hr1 hN
  split at hi
  · -- step A2
    rename_i hc
    simp only [Sum.inl.injEq] at hi
    subst hi
    obtain ⟨pa, pb, -, px, py, pz⟩ := c2_params s hs1
    rw [nigRank_lt, tr_c2, pa, pb, px, py, pz]
    have absE : ∀ x : K, (FRound.abs x : K) = |x| := fun _ => rfl
    simp only [condA2, subGt, eqE, absE, Bool.or_eq_true, Bool.and_eq_true, decide_eq_true_eq, custEq_iff_abs] at hc
    rcases hc with hc | ⟨hc, hc'⟩
    · exact .inr ⟨rfl, .inr ⟨rfl, .inl (by linarith)⟩⟩
    · have e := gap_eq (hgs1.2.2 (s.b - s.c) (by simp [nigDiffs])) hc
      exact .inr ⟨rfl, .inr ⟨rfl, .inr ⟨by linarith, .inr ⟨by ring, .inr ⟨rfl, by linarith⟩⟩⟩⟩⟩
  · -- the signs
    obtain ⟨hs, hp⟩ := signs_spec h0.le s.xi s.eta s.zeta _ rfl
    have hsg := signs_isSign (some ε) s.xi s.eta s.zeta
    have hpos := c34_pos hsg (hp h1)
    have hs2 := sym_step hs1 (c34 (signs (some ε) s.xi s.eta s.zeta))
    have ht2 := tr_c34 s hsg
    obtain ⟨pa, pb, pc, px, py, pz⟩ := c34_params s hsg (hp h1)
    have hg2 := hg1 _ hpos ht2
    have hr : nigRank (s.step (c34 (signs (some ε) s.xi s.eta s.zeta))) = nigRank s := by
      unfold nigRank
      rw [ht2, pa, pb, px, py, pz, hsg.1.abs_mul, hsg.2.1.abs_mul, hsg.2.2.abs_mul]
    rw [← hr]
    rw [← px, ← py, ← pz] at hs
    have hab : (s.step (c34 (signs (some ε) s.xi s.eta s.zeta))).a ≤
        (s.step (c34 (signs (some ε) s.xi s.eta s.zeta))).b := by
      rw [pa, pb]
      simp only [condA1, subGt, Bool.or_eq_false_iff, decide_eq_false_iff_not, not_lt] at hA1'
      have := gap_le h0 (hgs1.2.2 (s.a - s.b) (by simp [nigDiffs])) (by linarith [hA1'.1])
      linarith
    generalize s.step (c34 (signs (some ε) s.xi s.eta s.zeta)) = t at hs2 hi hs hg2 hab
    clear pa pb pc px py pz hr ht2 hpos hg1 hgs1 hA1' hp hsg
    obtain ⟨ha0, hb0, hg⟩ := hg2
    have q : ∀ x, x ∈ nigDiffs t → x = 0 ∨ ε < |x| := hg
    simp only [nigDiffs, List.forall_mem_cons, List.not_mem_nil, false_imp_iff, implies_true, and_true] at hg
    obtain ⟨g1, g2, g3, g4, g5, g6, g7, g8, g9, g10, g11, g12, g13, g14⟩ := hg
    -- the two types, exactly
    have ht : (0 < t.xi ∧ 0 < t.eta ∧ 0 < t.zeta) ∨ (t.xi ≤ 0 ∧ t.eta ≤ 0 ∧ t.zeta ≤ 0) := by
      rcases hs with ⟨a, b, c⟩ | ⟨a, b, c⟩
      · exact .inl ⟨by linarith, by linarith, by linarith⟩
      · exact .inr ⟨gap_le h0 g12 a, gap_le h0 g13 b, gap_le h0 g14 c⟩
    split at hi
    · rename_i hc
      simp only [Sum.inl.injEq] at hi
      subst hi
      have hc := cond_cases h0 g3 g4 hc
      obtain ⟨pa, pb, px, py, pz⟩ := c5_params t hs2 t.xi
      rw [nigRank_lt, tr_c5 hs2, pa, pb, px, py, pz, signum_eq]
      rcases hc with hc | ⟨hc, hc'⟩ | ⟨hc, hc'⟩
      · left; linarith
      · rcases ht with ⟨k1, k2, k3⟩ | ⟨k1, k2, k3⟩
        · rw [lit_two] at hc'
          rw [if_neg (not_lt.2 k1.le)]
          refine .inr ⟨by rw [abs_of_pos k1]; linarith, .inr ⟨rfl, .inr ⟨rfl, .inl ?_⟩⟩⟩
          rw [abs_of_pos k1, abs_of_pos k2, abs_of_pos k3, abs_of_neg (by linarith : t.xi - 2 * 1 * t.b < 0),
            abs_of_neg (by linarith : t.eta - 1 * t.zeta < 0)]
          linarith
        · linarith
      · have k : t.xi < 0 := by linarith
        rcases ht with ⟨k1, k2, k3⟩ | ⟨k1, k2, k3⟩
        · linarith
        · rw [if_pos k]
          refine .inr ⟨by rw [abs_of_neg k]; linarith, .inr ⟨rfl, .inr ⟨rfl, .inl ?_⟩⟩⟩
          rw [abs_of_neg k, abs_of_nonpos k2, abs_of_nonpos k3, abs_of_pos (by linarith : 0 < t.xi - 2 * -1 * t.b),
            abs_of_neg (by linarith : t.eta - -1 * t.zeta < 0)]
          linarith
    split at hi
    · rename_i hc
      simp only [Sum.inl.injEq] at hi
      subst hi
      have hc := cond_cases h0 g5 g6 hc
      obtain ⟨pa, pb, px, py, pz⟩ := c6_params t hs2 t.eta
      rw [nigRank_lt, tr_c6 hs2, pa, pb, px, py, pz, signum_eq]
      rcases hc with hc | ⟨hc, hc'⟩ | ⟨hc, hc'⟩
      · left; linarith
      · rcases ht with ⟨k1, k2, k3⟩ | ⟨k1, k2, k3⟩
        · rw [lit_two] at hc'
          rw [if_neg (not_lt.2 k2.le)]
          refine .inr ⟨by rw [abs_of_pos k2]; linarith, .inr ⟨rfl, .inr ⟨rfl, .inl ?_⟩⟩⟩
          rw [abs_of_pos k1, abs_of_pos k2, abs_of_pos k3, abs_of_neg (by linarith : t.eta - 2 * 1 * t.a < 0),
            abs_of_neg (by linarith : t.xi - 1 * t.zeta < 0)]
          linarith
        · linarith
      · have k : t.eta < 0 := by linarith
        rcases ht with ⟨k1, k2, k3⟩ | ⟨k1, k2, k3⟩
        · linarith
        · rw [if_pos k]
          refine .inr ⟨by rw [abs_of_neg k]; linarith, .inr ⟨rfl, .inr ⟨rfl, .inl ?_⟩⟩⟩
          rw [abs_of_neg k, abs_of_nonpos k1, abs_of_nonpos k3, abs_of_pos (by linarith : 0 < t.eta - 2 * -1 * t.a),
            abs_of_neg (by linarith : t.xi - -1 * t.zeta < 0)]
          linarith
    split at hi
    · rename_i hc
      simp only [Sum.inl.injEq] at hi
      subst hi
      have hc := cond_cases h0 g7 g8 hc
      obtain ⟨pa, pc, px, py, pz⟩ := c7_params t hs2 t.zeta
      have pt := tr_c7 hs2
      rw [nigRank_lt, pt, pa, px, py, pz, signum_eq]
      have pb : |t.zeta| = t.a → (t.step (c7 t.zeta)).b = t.b := by
        intro e
        unfold NigState.tr at pt
        rw [pa, pc, e] at pt
        linarith
      rcases hc with hc | ⟨hc, hc'⟩ | ⟨hc, hc'⟩
      · left; linarith
      · rcases ht with ⟨k1, k2, k3⟩ | ⟨k1, k2, k3⟩
        · rw [lit_two] at hc'
          rw [if_neg (not_lt.2 k3.le), pb (by rw [abs_of_pos k3]; exact hc)]
          refine .inr ⟨by rw [abs_of_pos k3]; linarith, .inr ⟨rfl, .inr ⟨rfl, .inl ?_⟩⟩⟩
          rw [abs_of_pos k1, abs_of_pos k2, abs_of_pos k3, abs_of_neg (by linarith : t.zeta - 2 * 1 * t.a < 0),
            abs_of_neg (by linarith : t.xi - 1 * t.eta < 0)]
          linarith
        · linarith
      · have k : t.zeta < 0 := by linarith
        rcases ht with ⟨k1, k2, k3⟩ | ⟨k1, k2, k3⟩
        · linarith
        · rw [if_pos k, pb (by rw [abs_of_neg k]; linarith)]
          refine .inr ⟨by rw [abs_of_neg k]; linarith, .inr ⟨rfl, .inr ⟨rfl, .inl ?_⟩⟩⟩
          rw [abs_of_neg k, abs_of_nonpos k1, abs_of_nonpos k2, abs_of_pos (by linarith : 0 < t.zeta - 2 * -1 * t.a),
            abs_of_neg (by linarith : t.xi - -1 * t.eta < 0)]
          linarith
    rename_i hn6 hn7
    have l6 := cond_fails h0 g10 hn6
    have l7 := cond_fails h0 g11 hn7
    split at hi
    · rename_i hc
      simp only [Sum.inl.injEq] at hi
      subst hi
      obtain ⟨pa, pb, px, py, pz⟩ := c8_params t hs2
      rw [nigRank_lt, tr_c8 hs2, pa, pb, px, py, pz]
      simp only [condA8, ltNeg, subGt, eqE, Bool.or_eq_true, Bool.and_eq_true, decide_eq_true_eq, custEq_iff_abs,
        sub_zero] at hc
      rcases hc with hc | ⟨hc, hc'⟩
      · left; linarith
      · have e := gap_eq g9 hc
        have e' : t.xi + t.eta + t.zeta + t.a + t.b = 0 := e
        rw [lit_two] at hc'
        rcases ht with ⟨k1, k2, k3⟩ | ⟨k1, k2, k3⟩
        · linarith
        · rw [abs_of_nonpos k2] at l6
          rw [abs_of_nonpos k3] at l7
          refine .inr ⟨by rw [e, add_zero], .inr ⟨rfl, .inr ⟨rfl, .inr ⟨?_, .inl ?_⟩⟩⟩⟩
          · rw [abs_of_nonpos k1, abs_of_nonpos k2, abs_of_nonneg (by linarith : 0 ≤ 2 * t.b + t.xi + t.zeta),
              abs_of_nonneg (by linarith : 0 ≤ 2 * t.a + t.eta + t.zeta)]
            linarith
          · rw [abs_of_nonpos k1, abs_of_nonneg (by linarith : 0 ≤ 2 * t.b + t.xi + t.zeta)]
            linarith
    · exact absurd hi (by simp)

/-- a loop whose states have ranks in a finite set and make progress ends. -/
theorem nigLoop_ends {e : Option K} {I : NigState K → Prop} (F : Finset (K ×ₗ K ×ₗ K ×ₗ K ×ₗ K ×ₗ K))
    (hF : ∀ st, I st → nigRank st ∈ F)
    (hstep : ∀ st st', I st → nigIter e st = .inl st' → I st' ∧ nigRank st' < nigRank st) :
    ∀ (n : ℕ) (st : NigState K), I st → (F.filter (· < nigRank st)).card ≤ n →
      ∃ st', nigLoop e (n + 1) st = .ret st' := by
  intro n
  induction n with
  | zero =>
    intro st hst hn
    rw [nigLoop]
    cases hi : nigIter e st with
    | inr s => exact ⟨s, rfl⟩
    | inl s =>
      obtain ⟨a, b⟩ := hstep st s hst hi
      rw [Nat.le_zero, Finset.card_eq_zero] at hn
      have : nigRank s ∈ F.filter (· < nigRank st) := Finset.mem_filter.2 ⟨hF s a, b⟩
      rw [hn] at this
      simp at this
  | succ n ih =>
    intro st hst hn
    rw [nigLoop]
    cases hi : nigIter e st with
    | inr s => exact ⟨s, rfl⟩
    | inl s =>
      obtain ⟨a, b⟩ := hstep st s hst hi
      refine ih s a ?_
      have hlt : (F.filter (· < nigRank s)).card < (F.filter (· < nigRank st)).card := by
        refine Finset.card_lt_card ⟨fun x hx => ?_, fun hsub => ?_⟩
        · rw [Finset.mem_filter] at hx ⊢
          exact ⟨hx.1, hx.2.trans b⟩
        · have := hsub (Finset.mem_filter.2 ⟨hF s a, b⟩)
          rw [Finset.mem_filter] at this
          exact lt_irrefl _ this.2
      omega

end

/-- finitely many cells of a lattice have a bounded sum of squared edges. -/
theorem finite_trace {L : Mat3 ℝ} (hdet : L.det ≠ 0) (T : ℝ) : {N : Mat3 ℤ |
    ((⟨L.transpose * L, 1⟩ : NigState ℝ).step (castM N)).tr ≤ T}.Finite := by
  obtain ⟨κ, hκ, hexp⟩ := expand hdet
  refine (finite_bounded ⌈κ * T⌉).subset ?_
  intro N hN
  have hN : ((⟨L.transpose * L, 1⟩ : NigState ℝ).step (castM N)).tr ≤ T := hN
  rw [step_metric] at hN
  have htr : (⟨(L * castM N).transpose * (L * castM N), castM N⟩ : NigState ℝ).tr =
      lenSq (L * (castV N.col0 : Vec3 ℝ)) + lenSq (L * (castV N.col1 : Vec3 ℝ)) + lenSq (L * (castV N.col2 : Vec3 ℝ)) := by
    simp only [NigState.tr, NigState.a, NigState.b, NigState.c, Mat3.mul_m11, Mat3.mul_m22, Mat3.mul_m33,
      Mat3.transpose]
    rfl
  rw [htr] at hN
  have nn : ∀ v : Vec3 ℝ, 0 ≤ lenSq v := by
    intro v
    unfold lenSq
    nlinarith [mul_self_nonneg v.x, mul_self_nonneg v.y, mul_self_nonneg v.z]
  have col : ∀ c : Vec3 ℤ, lenSq (L * (castV c : Vec3 ℝ)) ≤ T → (-⌈κ * T⌉ ≤ c.x ∧ c.x ≤ ⌈κ * T⌉) ∧
      (-⌈κ * T⌉ ≤ c.y ∧ c.y ≤ ⌈κ * T⌉) ∧ (-⌈κ * T⌉ ≤ c.z ∧ c.z ≤ ⌈κ * T⌉) := by
    intro c hc
    have h2 : lenSq (castV c : Vec3 ℝ) ≤ κ * T := (hexp _).trans (mul_le_mul_of_nonneg_left hc hκ.le)
    simp only [lenSq, castV] at h2
    have := sq_nn (K := ℝ) c.x
    have := sq_nn (K := ℝ) c.y
    have := sq_nn (K := ℝ) c.z
    exact ⟨int_bound (by linarith), int_bound (by linarith), int_bound (by linarith)⟩
  have a0 := nn (L * (castV N.col0 : Vec3 ℝ))
  have a1 := nn (L * (castV N.col1 : Vec3 ℝ))
  have a2 := nn (L * (castV N.col2 : Vec3 ℝ))
  intro c hc
  simp only [List.mem_cons, List.not_mem_nil, or_false] at hc
  rcases hc with rfl | rfl | rfl <;> exact col _ (by linarith)

/-- below some tolerance none of finitely many numbers is small without being zero. -/
theorem diffs_gap (l : List ℝ) : ∃ δ > 0, ∀ ε, 0 < ε → ε < δ → ∀ q ∈ l, q = 0 ∨ ε < |q| := by
  induction l with
  | nil => exact ⟨1, one_pos, by simp⟩
  | cons a l ih =>
    obtain ⟨δ, hδ, h⟩ := ih
    by_cases ha : a = 0
    · refine ⟨δ, hδ, fun ε h0 h1 q hq => ?_⟩
      rcases List.mem_cons.1 hq with rfl | hq
      · exact .inl ha
      · exact h ε h0 h1 q hq
    · refine ⟨min δ |a|, lt_min hδ (abs_pos.2 ha), fun ε h0 h1 q hq => ?_⟩
      rcases List.mem_cons.1 hq with rfl | hq
      · exact .inr (h1.trans_le (min_le_right _ _))
      · exact h ε h0 (h1.trans_le (min_le_left _ _)) q hq

theorem lenSq_cell_pos {L : Mat3 ℝ} (hdet : L.det ≠ 0) {v : Vec3 ℤ} (h : ¬ (v.x = 0 ∧ v.y = 0 ∧ v.z = 0)) :
    0 < lenSq (L * (castV v : Vec3 ℝ)) := by
  obtain ⟨κ, hκ, hexp⟩ := expand hdet
  have := (lenSq_int_ge h).trans (hexp (castV v))
  by_contra hn
  nlinarith [not_lt.1 hn]

/-- for all small enough tolerances the iteration ends, after a number of steps that does not depend on the tolerance. -/
theorem niggli_ends {L : Mat3 ℝ} (hdet : L.det ≠ 0) : ∃ δ > 0, ∃ n, ∀ ε, 0 < ε → ε < δ →
    ∃ st, nigLoop (some ε) n ⟨L.transpose * L, 1⟩ = .ret st := by
  set s0 : NigState ℝ := ⟨L.transpose * L, 1⟩ with hs0
  have hfin := finite_trace hdet s0.tr
  obtain ⟨δ, hδ, hgap⟩ := common_gap (P := fun N ε => ∀ q ∈ nigDiffs (s0.step (castM N)), q = 0 ∨ ε < |q|) hfin
    (fun N _ => diffs_gap _)
  have hsym : s0.Sym := by
    refine ⟨?_, ?_, ?_⟩ <;> simp [hs0, Mat3.transpose] <;> ring
  let F : Finset (ℝ ×ₗ ℝ ×ₗ ℝ ×ₗ ℝ ×ₗ ℝ ×ₗ ℝ) := (hfin.image fun N => nigRank (s0.step (castM N))).toFinset
  refine ⟨min δ 1, lt_min hδ one_pos, F.card + 1, fun ε h0 h1 => ?_⟩
  have h1a := h1.trans_le (min_le_left _ _)
  have h1b := h1.trans_le (min_le_right _ _)
  let I : NigState ℝ → Prop := fun st => ∃ N : Mat3 ℤ, N.det = 1 ∧ st = s0.step (castM N) ∧ st.tr ≤ s0.tr
  have good : ∀ st, I st → Gapped ε st := by
    rintro st ⟨N, hN, rfl, ht⟩
    refine ⟨?_, ?_, hgap N ht ε h0 h1a⟩
    · have : 0 < lenSq (L * (castV N.col0 : Vec3 ℝ)) := lenSq_cell_pos hdet (by
        rintro ⟨a, b, c⟩
        simp only [Mat3.col0] at a b c
        simp [Mat3.det, a, b, c] at hN)
      rw [hs0, step_metric]
      simp only [NigState.a, Mat3.mul_m11, Mat3.transpose]
      exact this
    · have : 0 < lenSq (L * (castV N.col1 : Vec3 ℝ)) := lenSq_cell_pos hdet (by
        rintro ⟨a, b, c⟩
        simp only [Mat3.col1] at a b c
        simp [Mat3.det, a, b, c] at hN)
      rw [hs0, step_metric]
      simp only [NigState.b, Mat3.mul_m22, Mat3.transpose]
      exact this
  have closed : ∀ st, I st → ∀ M, IsUnimodularPos M → (st.step M).tr ≤ st.tr → I (st.step M) := by
    rintro st ⟨N, hN, rfl, ht⟩ M ⟨m, hm, rfl⟩ ht'
    refine ⟨N * m, by rw [Mat3.det_mul, hN, hm]; rfl, ?_, ht'.trans ht⟩
    rw [step_step]
    congr 1
    exact (map_intCast_mul N m).symm
  refine nigLoop_ends (I := I) F ?_ ?_ F.card s0 ?_ (Finset.card_filter_le _ _)
  · rintro st ⟨N, hN, rfl, ht⟩
    exact (Set.Finite.mem_toFinset _).2 ⟨N, ht, rfl⟩
  · intro st st' hst hi
    have hsymst : st.Sym := by
      obtain ⟨N, -, rfl, -⟩ := hst
      exact sym_step hsym _
    have hlt := nigIter_decreases h0 h1b hsymst (fun M hM ht => good _ (closed st hst M hM ht.le)) hi
    refine ⟨?_, hlt⟩
    have htr : st'.tr ≤ st.tr := by
      rcases nigRank_lt.1 hlt with h | ⟨h, -⟩
      · exact h.le
      · exact h.le
    obtain ⟨M, hM, e⟩ := nigIter_reach IsUnimodularPos (fun _ _ => IsUnimodularPos.mul) isUnimodularPos_one
      (fun _ h => h) (some ε) (fun _ _ _ => c34_pos (signs_isSign _ _ _ _)
        (signs_prod (by intro x hx; cases hx; exact ⟨h0.le, h1b⟩) _ _ _)) st
    rw [hi] at e
    simp only [Sum.inl.injEq, reduceCtorEq, or_false] at e
    subst e
    exact closed st hst M hM htr
  · refine ⟨1, by simp, ?_, le_refl _⟩
    have : (castM (1 : Mat3 ℤ) : Mat3 ℝ) = 1 := by
      ext <;> simp [castM, Mat3.map]
    rw [this, step_one]

end CrystSymm
