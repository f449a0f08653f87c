import Verif.Proofs.Rebuild
import Verif.Spec.Niggli

set_option autoImplicit false

/-! # The loop of `niggli_reduce` -/

set_option linter.unusedSectionVars false

namespace CrystSymm

open Spec Reducer

/-! ## unimodular matrices -/

section Uni
variable {K : Type} [CommRing K]

theorem isUnimodular_one : IsUnimodular (1 : Mat3 K) :=
  ⟨1, by simp, by ext <;> simp [Mat3.map]⟩

theorem isUnimodularPos_one : IsUnimodularPos (1 : Mat3 K) :=
  ⟨1, by simp, by ext <;> simp [Mat3.map]⟩

theorem IsUnimodular.mul {m n : Mat3 K} (hm : IsUnimodular m) (hn : IsUnimodular n) :
    IsUnimodular (m * n) := by
  obtain ⟨a, ha, rfl⟩ := hm
  obtain ⟨b, hb, rfl⟩ := hn
  refine ⟨a * b, ?_, (map_intCast_mul a b).symm⟩
  rw [Mat3.det_mul]
  rcases ha with ha | ha <;> rcases hb with hb | hb <;> rw [ha, hb] <;> simp

theorem IsUnimodularPos.mul {m n : Mat3 K} (hm : IsUnimodularPos m) (hn : IsUnimodularPos n) :
    IsUnimodularPos (m * n) := by
  obtain ⟨a, ha, rfl⟩ := hm
  obtain ⟨b, hb, rfl⟩ := hn
  refine ⟨a * b, ?_, (map_intCast_mul a b).symm⟩
  rw [Mat3.det_mul, ha, hb, mul_one]

theorem IsUnimodularPos.uni {m : Mat3 K} (hm : IsUnimodularPos m) : IsUnimodular m := by
  obtain ⟨a, ha, rfl⟩ := hm
  exact ⟨a, Or.inl ha, rfl⟩

end Uni

variable {K : Type} [Field K] [LinearOrder K] [IsStrictOrderedRing K] [FloorRing K]

/-! ## the step matrices -/

theorem c1_pos : IsUnimodularPos (c1 : Mat3 K) :=
  ⟨⟨0, -1, 0, -1, 0, 0, 0, 0, -1⟩, by decide, by ext <;> simp [c1, Mat3.map]⟩

theorem c2_pos : IsUnimodularPos (c2 : Mat3 K) :=
  ⟨⟨-1, 0, 0, 0, 0, -1, 0, -1, 0⟩, by decide, by ext <;> simp [c2, Mat3.map]⟩

theorem c8_pos : IsUnimodularPos (c8 : Mat3 K) :=
  ⟨⟨1, 0, 1, 0, 1, 1, 0, 0, 1⟩, by decide, by ext <;> simp [c8, Mat3.map]⟩

theorem signum_eq (x : K) : (FRound.signum x : K) = if x < 0 then -1 else 1 := rfl

theorem c5_pos (x : K) : IsUnimodularPos (c5 x) := by
  by_cases h : x < 0
  · exact ⟨⟨1, 0, 0, 0, 1, 1, 0, 0, 1⟩, by decide, by ext <;> simp [c5, Mat3.map, signum_eq, h]⟩
  · exact ⟨⟨1, 0, 0, 0, 1, -1, 0, 0, 1⟩, by decide, by ext <;> simp [c5, Mat3.map, signum_eq, h]⟩

theorem c6_pos (x : K) : IsUnimodularPos (c6 x) := by
  by_cases h : x < 0
  · exact ⟨⟨1, 0, 1, 0, 1, 0, 0, 0, 1⟩, by decide, by ext <;> simp [c6, Mat3.map, signum_eq, h]⟩
  · exact ⟨⟨1, 0, -1, 0, 1, 0, 0, 0, 1⟩, by decide, by ext <;> simp [c6, Mat3.map, signum_eq, h]⟩

theorem c7_pos (x : K) : IsUnimodularPos (c7 x) := by
  by_cases h : x < 0
  · exact ⟨⟨1, 1, 0, 0, 1, 0, 0, 0, 1⟩, by decide, by ext <;> simp [c7, Mat3.map, signum_eq, h]⟩
  · exact ⟨⟨1, -1, 0, 0, 1, 0, 0, 0, 1⟩, by decide, by ext <;> simp [c7, Mat3.map, signum_eq, h]⟩

/-! ## the signs -/

/-- one of the two signs. -/
def IsSign (x : K) : Prop := x = 1 ∨ x = -1

theorem isSign_ite (p : Prop) [Decidable p] : IsSign (if p then (-1 : K) else 1) := by
  split
  · exact Or.inr rfl
  · exact Or.inl rfl

theorem pick_isSign (c : Bool) (p : SignVar) {i j k : K} (hi : IsSign i) (hj : IsSign j) (hk : IsSign k) :
    let s : K × K × K := if c then
      match p with
      | .none => (i, j, k)
      | .i => (-1, j, k)
      | .j => (i, -1, k)
      | .k => (i, j, -1)
    else (i, j, k)
    IsSign s.1 ∧ IsSign s.2.1 ∧ IsSign s.2.2 := by
  have h1 : IsSign (-1 : K) := Or.inr rfl
  cases c <;> cases p <;> simp_all

theorem signs_isSign (e : Option K) (x y z : K) :
    IsSign (signs e x y z).1 ∧ IsSign (signs e x y z).2.1 ∧ IsSign (signs e x y z).2.2 := by
  have h1 : IsSign (-1 : K) := Or.inr rfl
  have h (p : Prop) [Decidable p] : IsSign (if p then (-1 : K) else 1) := isSign_ite p
  unfold signs
  split
  · exact ⟨h _, h _, h _⟩
  · exact pick_isSign _ _ (h _) (h _) (h _)

theorem c34_uni {s : K × K × K} (h : IsSign s.1 ∧ IsSign s.2.1 ∧ IsSign s.2.2) : IsUnimodular (c34 s) := by
  obtain ⟨a, b, c⟩ := s
  rcases h with ⟨h1 | h1, h2 | h2, h3 | h3⟩ <;> simp only at h1 h2 h3 <;> subst h1 h2 h3
  · exact ⟨⟨1, 0, 0, 0, 1, 0, 0, 0, 1⟩, by decide, by ext <;> simp [c34, Mat3.map]⟩
  · exact ⟨⟨1, 0, 0, 0, 1, 0, 0, 0, -1⟩, by decide, by ext <;> simp [c34, Mat3.map]⟩
  · exact ⟨⟨1, 0, 0, 0, -1, 0, 0, 0, 1⟩, by decide, by ext <;> simp [c34, Mat3.map]⟩
  · exact ⟨⟨1, 0, 0, 0, -1, 0, 0, 0, -1⟩, by decide, by ext <;> simp [c34, Mat3.map]⟩
  · exact ⟨⟨-1, 0, 0, 0, 1, 0, 0, 0, 1⟩, by decide, by ext <;> simp [c34, Mat3.map]⟩
  · exact ⟨⟨-1, 0, 0, 0, 1, 0, 0, 0, -1⟩, by decide, by ext <;> simp [c34, Mat3.map]⟩
  · exact ⟨⟨-1, 0, 0, 0, -1, 0, 0, 0, 1⟩, by decide, by ext <;> simp [c34, Mat3.map]⟩
  · exact ⟨⟨-1, 0, 0, 0, -1, 0, 0, 0, -1⟩, by decide, by ext <;> simp [c34, Mat3.map]⟩

theorem c34_pos {s : K × K × K} (h : IsSign s.1 ∧ IsSign s.2.1 ∧ IsSign s.2.2)
    (hp : s.1 * s.2.1 * s.2.2 = 1) : IsUnimodularPos (c34 s) := by
  obtain ⟨n, hn, e⟩ := c34_uni h
  refine ⟨n, ?_, e⟩
  have hd : (c34 s).det = ((n.det : ℤ) : K) := by rw [e]; simp [Mat3.det, Mat3.map]
  have hd' : (c34 s).det = s.1 * s.2.1 * s.2.2 := by simp [Mat3.det, c34]; ring
  rcases hn with hn | hn
  · exact hn
  · rw [hd', hp, hn] at hd
    push_cast at hd
    linarith

/-- where a value lies relative to `[-ε, ε]`, as the code sees it. -/
theorem four_cases {ε : K} (h0 : 0 ≤ ε) (v : K) :
    (v < -ε ∧ v < ε ∧ ¬ 0 < v - ε) ∨ (¬ v < -ε ∧ v < ε ∧ ¬ 0 < v - ε) ∨ (¬ v < -ε ∧ ¬ v < ε ∧ v ≤ ε ∧ ¬ 0 < v - ε) ∨
      (¬ v < -ε ∧ ¬ v < ε ∧ 0 < v - ε) := by
  rcases lt_trichotomy v ε with h | h | h
  · by_cases h' : v < -ε
    · left; exact ⟨h', h, by linarith⟩
    · right; left; exact ⟨h', h, by linarith⟩
  · right; right; left; exact ⟨by linarith, by linarith, h.le, by linarith⟩
  · right; right; right; exact ⟨by linarith, by linarith, by linarith⟩

set_option maxHeartbeats 4000000 in
/-- what the sign step achieves. -/
theorem signs_spec {ε : K} (h0 : 0 ≤ ε) (x y z : K) (s : K × K × K) (hs : s = signs (some ε) x y z) :
    ((ε ≤ s.1 * x ∧ ε ≤ s.2.1 * y ∧ ε ≤ s.2.2 * z) ∨ (s.1 * x ≤ ε ∧ s.2.1 * y ≤ ε ∧ s.2.2 * z ≤ ε)) ∧
      (ε < 1 → s.1 * s.2.1 * s.2.2 = 1) := by
  have hA : ¬ (1 : K) < -ε := by linarith
  rcases four_cases h0 x with ⟨hx1, hx2, hx3⟩ | ⟨hx1, hx2, hx3⟩ | ⟨hx1, hx2, hx4, hx3⟩ | ⟨hx1, hx2, hx3⟩ <;>
  rcases four_cases h0 y with ⟨hy1, hy2, hy3⟩ | ⟨hy1, hy2, hy3⟩ | ⟨hy1, hy2, hy4, hy3⟩ | ⟨hy1, hy2, hy3⟩ <;>
  rcases four_cases h0 z with ⟨hz1, hz2, hz3⟩ | ⟨hz1, hz2, hz3⟩ | ⟨hz1, hz2, hz4, hz3⟩ | ⟨hz1, hz2, hz3⟩ <;>
  · simp only [signs, isTypeI, nnzE, numNegativeZero, numNegativeZeroStep, List.foldl, neg_one_mul, ltNeg, subGt,
      decide_eq_true_eq, if_true, if_false, mul_one, mul_neg, neg_neg, decide_true, decide_false, Bool.not_true, Bool.not_false,
      Bool.false_eq_true, hx1, hx2, hx3, hy1, hy2, hy3, hz1, hz2, hz3, hA, neg_lt_neg_iff] at hs
    simp at hs
    try split_ifs at hs
    all_goals
      subst hs
      refine ⟨?_, fun _ => by first | contradiction | norm_num⟩
      simp only [one_mul, neg_mul]
      first
        | (left; refine ⟨?_, ?_, ?_⟩ <;> linarith)
        | (right; refine ⟨?_, ?_, ?_⟩ <;> linarith)

/-! ## one iteration as a change of basis -/

omit [LinearOrder K] [IsStrictOrderedRing K] [FloorRing K] in
theorem step_step (st : NigState K) (m n : Mat3 K) : (st.step m).step n = st.step (m * n) := by
  unfold NigState.step
  simp only [Mat3.transpose_mul, mul_assoc]

omit [LinearOrder K] [IsStrictOrderedRing K] [FloorRing K] in
theorem step_one (st : NigState K) : st.step 1 = st := by
  unfold NigState.step
  have : (1 : Mat3 K).transpose = 1 := by ext <;> simp [Mat3.transpose]
  rw [this, one_mul, mul_one, mul_one]

/-- the handedness is kept for these values of epsilon. -/
def GoodEps (e : Option K) : Prop := ∀ ε, e = some ε → 0 ≤ ε ∧ ε < 1

theorem signs_none (x y z : K) : signs none x y z = (1, 1, 1) := by
  simp [signs, isTypeI, nnzE, ltNeg]

theorem signs_prod {e : Option K} (he : GoodEps e) (x y z : K) :
    (signs e x y z).1 * (signs e x y z).2.1 * (signs e x y z).2.2 = 1 := by
  cases e with
  | none => rw [signs_none]; simp
  | some ε => exact (signs_spec (he ε rfl).1 x y z _ rfl).2 (he ε rfl).2

/-- any class of matrices containing the step matrices and closed under products contains the change of
basis made by an iteration. -/
theorem nigIter_reach (P : Mat3 K → Prop) (hmul : ∀ m n, P m → P n → P (m * n)) (h1 : P 1)
    (hpos : ∀ m, IsUnimodularPos m → P m) (e : Option K)
    (hs : ∀ x y z : K, P (c34 (signs e x y z))) (st : NigState K) :
    ∃ M, P M ∧ (nigIter e st = .inl (st.step M) ∨ nigIter e st = .inr (st.step M)) := by
  have h0 : ∃ M, P M ∧ (if condA1 e st then st.step c1 else st) = st.step M := by
    split
    · exact ⟨c1, hpos _ c1_pos, rfl⟩
    · exact ⟨1, h1, (step_one st).symm⟩
  obtain ⟨M, hM, e0⟩ := h0
  unfold nigIter
  simp only [e0]
  split
  · exact ⟨M * c2, hmul _ _ hM (hpos _ c2_pos), Or.inl (by rw [step_step])⟩
  · generalize hsg : signs e (st.step M).xi (st.step M).eta (st.step M).zeta = sg
    have hN : P (M * c34 sg) := hmul _ _ hM (hsg ▸ hs _ _ _)
    rw [step_step]
    generalize M * c34 sg = N at hN
    split
    · exact ⟨_, hmul _ _ hN (hpos _ (c5_pos (st.step N).xi)), Or.inl (by rw [step_step])⟩
    · split
      · exact ⟨_, hmul _ _ hN (hpos _ (c6_pos (st.step N).eta)), Or.inl (by rw [step_step])⟩
      · split
        · exact ⟨_, hmul _ _ hN (hpos _ (c7_pos (st.step N).zeta)), Or.inl (by rw [step_step])⟩
        · split
          · exact ⟨_, hmul _ _ hN (hpos _ c8_pos), Or.inl (by rw [step_step])⟩
          · exact ⟨_, hN, Or.inr rfl⟩

/-- the same for the loop; the last iteration ends with `break`. -/
theorem nigLoop_reach (P : Mat3 K → Prop) (hmul : ∀ m n, P m → P n → P (m * n)) (h1 : P 1)
    (hpos : ∀ m, IsUnimodularPos m → P m) (e : Option K)
    (hs : ∀ x y z : K, P (c34 (signs e x y z))) {n : ℕ} {st st' : NigState K}
    (h : nigLoop e n st = .ret st') :
    ∃ M N, P M ∧ P N ∧ nigIter e (st.step M) = .inr st' ∧ st' = st.step N := by
  induction n generalizing st with
  | zero => simp [nigLoop] at h
  | succ n ih =>
    obtain ⟨M, hM, e1⟩ := nigIter_reach P hmul h1 hpos e hs st
    rw [nigLoop] at h
    rcases e1 with e1 | e1
    · rw [e1] at h
      obtain ⟨M', N, hM', hN, e2, e3⟩ := ih h
      rw [step_step] at e2 e3
      exact ⟨M * M', M * N, hmul _ _ hM hM', hmul _ _ hM hN, e2, e3⟩
    · rw [e1] at h
      simp only [Outcome.ret.injEq] at h
      refine ⟨1, M, h1, hM, ?_, h.symm⟩
      rw [step_one, e1, h]

theorem nigLoop_uni {e : Option K} {n : ℕ} {st st' : NigState K} (h : nigLoop e n st = .ret st') :
    ∃ M N, IsUnimodular M ∧ IsUnimodular N ∧ nigIter e (st.step M) = .inr st' ∧ st' = st.step N :=
  nigLoop_reach _ (fun _ _ => IsUnimodular.mul) isUnimodular_one (fun _ h => IsUnimodularPos.uni h) e
    (fun _ _ _ => c34_uni (signs_isSign _ _ _ _)) h

theorem nigLoop_pos {e : Option K} (he : GoodEps e) {n : ℕ} {st st' : NigState K}
    (h : nigLoop e n st = .ret st') :
    ∃ M N, IsUnimodularPos M ∧ IsUnimodularPos N ∧ nigIter e (st.step M) = .inr st' ∧ st' = st.step N :=
  nigLoop_reach _ (fun _ _ => IsUnimodularPos.mul) isUnimodularPos_one (fun _ h => h) e
    (fun _ _ _ => c34_pos (signs_isSign _ _ _ _) (signs_prod he _ _ _)) h

/-! ## the conditions at the end -/

omit [FloorRing K] in
theorem custEq_iff_abs {a b ε : K} : custEq a b ε = true ↔ |a - b| ≤ ε := by
  unfold custEq
  rw [abs_le]
  simp only [Bool.not_eq_true', Bool.or_eq_false_iff, decide_eq_false_iff_not, not_lt]
  constructor
  · rintro ⟨h1, h2⟩; constructor <;> linarith
  · rintro ⟨h1, h2⟩; constructor <;> linarith

/-- condition A1 does not hold after step A1. -/
theorem condA1_after {ε : K} (h0 : 0 ≤ ε) (st : NigState K) :
    condA1 (some ε) (if condA1 (some ε) st then st.step c1 else st) = false := by
  by_cases h : condA1 (some ε) st = true
  · rw [if_pos h]
    have ha : (st.step c1).a = st.b := by simp [NigState.step, NigState.a, NigState.b, NigState.xi, NigState.eta, c1, Mat3.transpose]
    have hb : (st.step c1).b = st.a := by simp [NigState.step, NigState.a, NigState.b, NigState.xi, NigState.eta, c1, Mat3.transpose]
    have hx : (st.step c1).xi = st.eta := by simp [NigState.step, NigState.a, NigState.b, NigState.xi, NigState.eta, c1, Mat3.transpose]
    have he : (st.step c1).eta = st.xi := by simp [NigState.step, NigState.a, NigState.b, NigState.xi, NigState.eta, c1, Mat3.transpose]
    unfold condA1 at h ⊢
    rw [ha, hb, hx, he]
    simp only [subGt, eqE, Bool.or_eq_true, Bool.and_eq_true, decide_eq_true_eq, custEq_iff_abs] at h
    rw [Bool.eq_false_iff]
    intro hc
    simp only [subGt, eqE, Bool.or_eq_true, Bool.and_eq_true, decide_eq_true_eq, custEq_iff_abs] at hc
    rcases h with h | ⟨h, h'⟩ <;> rcases hc with hc | ⟨hc, hc'⟩
    · linarith
    · have := neg_le_of_abs_le hc; linarith
    · have := neg_le_of_abs_le h; linarith
    · linarith
  · rw [if_neg h]
    simpa using h

/-- the parameters after the sign step. -/
theorem c34_params (st : NigState K) {s : K × K × K} (h : IsSign s.1 ∧ IsSign s.2.1 ∧ IsSign s.2.2)
    (hp : s.1 * s.2.1 * s.2.2 = 1) :
    (st.step (c34 s)).a = st.a ∧ (st.step (c34 s)).b = st.b ∧ (st.step (c34 s)).c = st.c ∧
    (st.step (c34 s)).xi = s.1 * st.xi ∧ (st.step (c34 s)).eta = s.2.1 * st.eta ∧
    (st.step (c34 s)).zeta = s.2.2 * st.zeta := by
  obtain ⟨a, b, c⟩ := s
  rcases h with ⟨h1 | h1, h2 | h2, h3 | h3⟩ <;> simp only at h1 h2 h3 <;> subst h1 h2 h3 <;> norm_num at hp <;>
    simp [NigState.step, NigState.a, NigState.b, NigState.c, NigState.xi, NigState.eta, NigState.zeta, c34,
      Mat3.transpose]

theorem IsSign.abs_mul {i x : K} (h : IsSign i) : |i * x| = |x| := by
  rcases h with rfl | rfl <;> simp

theorem lit_two : (lit 2 : K) = 2 := by unfold lit; norm_num

/-- the state with which the loop is left satisfies the Niggli conditions. -/
theorem nigIter_exit {ε : K} (h0 : 0 ≤ ε) (h1 : ε < 1) {st st' : NigState K}
    (h : nigIter (some ε) st = .inr st') :
    NiggliWeak ε st'.a st'.b st'.c st'.xi st'.eta st'.zeta := by
  unfold nigIter at h
  simp only at h
  have hA1 := condA1_after h0 st
  generalize (if condA1 (some ε) st then st.step c1 else st) = st1 at h hA1
  split at h
  · simp at h
  rename_i hA2
  generalize hsg : signs (some ε) st1.xi st1.eta st1.zeta = sg at h
  have hsign := hsg ▸ signs_isSign (some ε) st1.xi st1.eta st1.zeta
  obtain ⟨hs1, hs2⟩ := signs_spec h0 st1.xi st1.eta st1.zeta sg hsg.symm
  obtain ⟨pa, pb, pc, px, pe, pz⟩ := c34_params st1 hsign (hs2 h1)
  generalize st1.step (c34 sg) = st2 at h pa pb pc px pe pz
  split at h
  · simp at h
  rename_i hA5
  split at h
  · simp at h
  rename_i hA6
  split at h
  · simp at h
  rename_i hA7
  split at h
  · simp at h
  rename_i hA8
  simp only [Sum.inr.injEq] at h
  subst h
  rw [← px, ← pe, ← pz] at hs1
  have ax : |st2.xi| = |st1.xi| := by rw [px, hsign.1.abs_mul]
  have ae : |st2.eta| = |st1.eta| := by rw [pe, hsign.2.1.abs_mul]
  have az : |st2.zeta| = |st1.zeta| := by rw [pz, hsign.2.2.abs_mul]
  unfold condA1 at hA1
  unfold condA2 at hA2
  rw [← pa, ← pb] at hA1
  rw [← pb, ← pc] at hA2
  have absE : ∀ x : K, (FRound.abs x : K) = |x| := fun _ => rfl
  simp only [subGt, eqE, absE, ← ax, ← ae, ← az] at hA1 hA2
  rw [Bool.eq_false_iff] at hA1
  unfold condA5 at hA5
  unfold condA6 at hA6
  unfold condA7 at hA7
  unfold condA8 at hA8
  simp only [subGt, eqE, ltNeg, absE, boolSum, lit_two] at hA5 hA6 hA7 hA8
  simp only [ne_eq, Bool.or_eq_true, Bool.and_eq_true, decide_eq_true_eq, custEq_iff_abs, not_or, not_and, not_lt,
    neg_one_mul, sub_neg_eq_add, sub_zero] at hA1 hA2 hA5 hA6 hA7 hA8
  generalize st2.metric = m at *
  obtain ⟨⟨hA5a, hA5b⟩, hA5c⟩ := hA5
  obtain ⟨⟨hA6a, hA6b⟩, hA6c⟩ := hA6
  obtain ⟨⟨hA7a, hA7b⟩, hA7c⟩ := hA7
  exact {
    ab := by linarith [hA1.1]
    bc := by linarith [hA2.1]
    ab_eq := fun h => by linarith [hA1.2 h]
    bc_eq := fun h => by linarith [hA2.2 h]
    xi := by linarith
    eta := by linarith
    zeta := by linarith
    sum := not_lt.1 fun h => hA8.1 (decide_eq_true h)
    signs := hs1
    xi_eq := fun h => by linarith [hA5b h]
    eta_eq := fun h => by linarith [hA6b h]
    zeta_eq := fun h => by linarith [hA7b h]
    xi_neg := hA5c
    eta_neg := hA6c
    zeta_neg := hA7c
    sum_eq := fun h => by linarith [hA8.2 h] }

/-! ## how much the cell can grow -/

/-- sum of the squared lengths. -/
def Reducer.NigState.tr (st : NigState K) : K := st.a + st.b + st.c

/-- the metric tensor is symmetric. -/
def Reducer.NigState.Sym (st : NigState K) : Prop :=
  st.metric.m21 = st.metric.m12 ∧ st.metric.m31 = st.metric.m13 ∧ st.metric.m32 = st.metric.m23

omit [LinearOrder K] [IsStrictOrderedRing K] [FloorRing K] in
theorem sym_step {st : NigState K} (h : st.Sym) (m : Mat3 K) : (st.step m).Sym := by
  obtain ⟨h1, h2, h3⟩ := h
  refine ⟨?_, ?_, ?_⟩ <;>
    · simp only [NigState.step, Mat3.mul_m11, Mat3.mul_m12, Mat3.mul_m13, Mat3.mul_m21, Mat3.mul_m22, Mat3.mul_m23,
        Mat3.mul_m31, Mat3.mul_m32, Mat3.mul_m33, Mat3.transpose, h1, h2, h3]
      ring

theorem signum_mul (x : K) : (FRound.signum x : K) * x = |x| := by
  rw [signum_eq]
  split_ifs with h
  · rw [abs_of_neg h]; ring
  · rw [abs_of_nonneg (not_lt.1 h)]; ring

theorem signum_sq (x : K) : (FRound.signum x : K) * FRound.signum x = 1 := by
  rw [signum_eq]
  split_ifs <;> ring

local macro "trs" : tactic => `(tactic| simp only [NigState.tr, NigState.step, NigState.a, NigState.b, NigState.c,
  NigState.xi, NigState.eta, NigState.zeta, c1, c2, c34, c5, c6, c7, c8, Mat3.transpose, Mat3.mul_m11, Mat3.mul_m12,
  Mat3.mul_m13, Mat3.mul_m21, Mat3.mul_m22, Mat3.mul_m23, Mat3.mul_m31, Mat3.mul_m32, Mat3.mul_m33, boolSum, lit_two])

theorem tr_c1 (st : NigState K) : (st.step c1).tr = st.tr := by trs; ring
theorem tr_c2 (st : NigState K) : (st.step c2).tr = st.tr := by trs; ring
theorem tr_c34 (st : NigState K) {s : K × K × K} (h : IsSign s.1 ∧ IsSign s.2.1 ∧ IsSign s.2.2) :
    (st.step (c34 s)).tr = st.tr := by
  obtain ⟨a, b, c⟩ := s
  rcases h with ⟨h1 | h1, h2 | h2, h3 | h3⟩ <;> simp only at h1 h2 h3 <;> subst h1 h2 h3 <;> trs <;> ring
theorem tr_c5 {st : NigState K} (h : st.Sym) : (st.step (c5 st.xi)).tr = st.tr + (st.b - |st.xi|) := by
  have h1 := signum_mul st.xi
  have h2 := signum_sq st.xi
  rw [← h1]
  simp only [NigState.xi, lit_two] at h2
  obtain ⟨e1, e2, e3⟩ := h
  trs
  simp only [e1, e2, e3]
  linear_combination st.metric.m22 * h2
theorem tr_c6 {st : NigState K} (h : st.Sym) : (st.step (c6 st.eta)).tr = st.tr + (st.a - |st.eta|) := by
  have h1 := signum_mul st.eta
  have h2 := signum_sq st.eta
  rw [← h1]
  simp only [NigState.eta, lit_two] at h2
  obtain ⟨e1, e2, e3⟩ := h
  trs
  simp only [e1, e2, e3]
  linear_combination st.metric.m11 * h2
theorem tr_c7 {st : NigState K} (h : st.Sym) : (st.step (c7 st.zeta)).tr = st.tr + (st.a - |st.zeta|) := by
  have h1 := signum_mul st.zeta
  have h2 := signum_sq st.zeta
  rw [← h1]
  simp only [NigState.zeta, lit_two] at h2
  obtain ⟨e1, e2, e3⟩ := h
  trs
  simp only [e1, e2, e3]
  linear_combination st.metric.m11 * h2
theorem tr_c8 {st : NigState K} (h : st.Sym) : (st.step c8).tr = st.tr + boolSum st := by
  obtain ⟨e1, e2, e3⟩ := h
  trs
  simp only [e1, e2, e3]
  ring

theorem cond_grow {ε x y : K} {p q : Bool} (h : (subGt (some ε) (FRound.abs x) y || (eqE (some ε) x y && p)
    || (eqE (some ε) x ((-1) * y) && q)) = true) : y - |x| ≤ |ε| := by
  have absE : ∀ x : K, (FRound.abs x : K) = |x| := fun _ => rfl
  simp only [subGt, eqE, absE, Bool.or_eq_true, Bool.and_eq_true, decide_eq_true_eq, custEq_iff_abs, abs_le] at h
  rcases h with (h | ⟨⟨h, -⟩, -⟩) | ⟨⟨-, h⟩, -⟩
  · linarith [neg_abs_le ε]
  · linarith [le_abs_self ε, le_abs_self x]
  · linarith [le_abs_self ε, neg_abs_le x]

theorem nigIter_grow (ε : K) {st : NigState K} (h : st.Sym) {st' : NigState K}
    (hi : nigIter (some ε) st = .inl st' ∨ nigIter (some ε) st = .inr st') :
    st'.Sym ∧ st'.tr ≤ st.tr + |ε| := by
  have hε := abs_nonneg ε
  have h0 : (if condA1 (some ε) st then st.step c1 else st).Sym ∧
      (if condA1 (some ε) st then st.step c1 else st).tr = st.tr := by
    split
    · exact ⟨sym_step h _, tr_c1 st⟩
    · exact ⟨h, rfl⟩
  unfold nigIter at hi
  simp only at hi
  generalize (if condA1 (some ε) st then st.step c1 else st) = st1 at h0 hi
  obtain ⟨hs1, ht1⟩ := h0
  rw [← ht1]
  split at hi
  · simp only [Sum.inl.injEq, reduceCtorEq, or_false] at hi
    subst hi
    exact ⟨sym_step hs1 _, by rw [tr_c2]; linarith⟩
  · have hs2 := sym_step hs1 (c34 (signs (some ε) st1.xi st1.eta st1.zeta))
    have ht2 := tr_c34 st1 (signs_isSign (some ε) st1.xi st1.eta st1.zeta)
    rw [← ht2]
    generalize st1.step (c34 (signs (some ε) st1.xi st1.eta st1.zeta)) = st2 at hs2 hi
    split at hi
    · rename_i hc
      simp only [Sum.inl.injEq, reduceCtorEq, or_false] at hi
      subst hi
      exact ⟨sym_step hs2 _, by rw [tr_c5 hs2]; linarith [cond_grow hc]⟩
    split at hi
    · rename_i hc
      simp only [Sum.inl.injEq, reduceCtorEq, or_false] at hi
      subst hi
      exact ⟨sym_step hs2 _, by rw [tr_c6 hs2]; linarith [cond_grow hc]⟩
    split at hi
    · rename_i hc
      simp only [Sum.inl.injEq, reduceCtorEq, or_false] at hi
      subst hi
      exact ⟨sym_step hs2 _, by rw [tr_c7 hs2]; linarith [cond_grow hc]⟩
    split at hi
    · rename_i hc
      simp only [Sum.inl.injEq, reduceCtorEq, or_false] at hi
      subst hi
      refine ⟨sym_step hs2 _, ?_⟩
      rw [tr_c8 hs2]
      unfold condA8 at hc
      simp only [ltNeg, subGt, eqE, Bool.or_eq_true, Bool.and_eq_true, decide_eq_true_eq, custEq_iff_abs, abs_le,
        sub_zero] at hc
      rcases hc with hc | ⟨⟨-, hc⟩, -⟩
      · linarith [neg_abs_le ε]
      · linarith [le_abs_self ε]
    · simp only [Sum.inr.injEq, reduceCtorEq, false_or] at hi
      subst hi
      exact ⟨hs2, by linarith⟩

/-- after `n` iterations the sum of squared lengths has grown by at most `n |ε|`. -/
theorem nigLoop_grow (ε : K) {n : ℕ} {st st' : NigState K} (h : st.Sym)
    (hl : nigLoop (some ε) n st = .ret st') : st'.tr ≤ st.tr + n * |ε| := by
  induction n generalizing st with
  | zero => simp [nigLoop] at hl
  | succ n ih =>
    rw [nigLoop] at hl
    cases hi : nigIter (some ε) st with
    | inl st1 =>
      rw [hi] at hl
      obtain ⟨h1, h2⟩ := nigIter_grow ε h (Or.inl hi)
      have := ih h1 hl
      push_cast
      linarith
    | inr st1 =>
      rw [hi] at hl
      simp only [Outcome.ret.injEq] at hl
      subst hl
      obtain ⟨h1, h2⟩ := nigIter_grow ε h (Or.inr hi)
      push_cast
      nlinarith [mul_nonneg (n.cast_nonneg (α := K)) (abs_nonneg ε)]

/-- NaN epsilon: the first iteration leaves the loop with nothing changed. -/
theorem nigIter_none (st : NigState K) : nigIter none st = .inr st := by
  have h : (c34 (1, 1, 1) : Mat3 K) = 1 := rfl
  simp [nigIter, condA1, condA2, condA5, condA6, condA7, condA8, subGt, ltNeg, signs_none, h, step_one]

theorem signs_fixed {ε : K} (h0 : 0 ≤ ε) {x y z : K}
    (h : (ε ≤ x ∧ ε ≤ y ∧ ε ≤ z) ∨ (x < ε ∧ y < ε ∧ z < ε)) : signs (some ε) x y z = (1, 1, 1) := by
  have hA : ¬ (1 : K) < -ε := by linarith
  rcases h with ⟨hx, hy, hz⟩ | ⟨hx, hy, hz⟩
  · have hx1 : ¬ x < -ε := by linarith
    have hy1 : ¬ y < -ε := by linarith
    have hz1 : ¬ z < -ε := by linarith
    simp only [signs, isTypeI, nnzE, numNegativeZero, numNegativeZeroStep, List.foldl, neg_one_mul, ltNeg,
      hx1, hy1, hz1, not_lt.2 hx, not_lt.2 hy, not_lt.2 hz, if_false, decide_false]
    simp
  · have hx1 : ¬ 0 < x - ε := by linarith
    have hy1 : ¬ 0 < y - ε := by linarith
    have hz1 : ¬ 0 < z - ε := by linarith
    by_cases hx2 : x < -ε <;> by_cases hy2 : y < -ε <;> by_cases hz2 : z < -ε <;>
    · simp only [signs, isTypeI, nnzE, numNegativeZero, numNegativeZeroStep, List.foldl, neg_one_mul, ltNeg, subGt,
        hx1, hy1, hz1, hx, hy, hz, hx2, hy2, hz2, if_false, if_true, decide_false, decide_true]
      simp [hA]

/-- when the conditions hold after the sign step, the sign step is all that happens. -/
theorem nigIter_signs_only {ε : K} {st : NigState K} {g : K × K × K}
    (hg : signs (some ε) st.xi st.eta st.zeta = g) (hp : g.1 * g.2.1 * g.2.2 = 1)
    (hn : NiggliWeak ε (st.step (c34 g)).a (st.step (c34 g)).b (st.step (c34 g)).c (st.step (c34 g)).xi
      (st.step (c34 g)).eta (st.step (c34 g)).zeta) :
    nigIter (some ε) st = .inr (st.step (c34 g)) := by
  have hsign := hg ▸ signs_isSign (some ε) st.xi st.eta st.zeta
  obtain ⟨pa, pb, pc, px, pe, pz⟩ := c34_params st hsign hp
  have ax : |(st.step (c34 g)).xi| = |st.xi| := by rw [px, hsign.1.abs_mul]
  have ae : |(st.step (c34 g)).eta| = |st.eta| := by rw [pe, hsign.2.1.abs_mul]
  have az : |(st.step (c34 g)).zeta| = |st.zeta| := by rw [pz, hsign.2.2.abs_mul]
  have absE : ∀ x : K, (FRound.abs x : K) = |x| := fun _ => rfl
  have h1 : condA1 (some ε) st = false := by
    rw [Bool.eq_false_iff]
    intro h
    simp only [condA1, subGt, eqE, absE, Bool.or_eq_true, Bool.and_eq_true, decide_eq_true_eq, custEq_iff_abs] at h
    rw [← pa, ← pb, ← ax, ← ae] at h
    rcases h with h | ⟨h, h'⟩
    · linarith [hn.ab]
    · linarith [hn.ab_eq h]
  have h2 : condA2 (some ε) st = false := by
    rw [Bool.eq_false_iff]
    intro h
    simp only [condA2, subGt, eqE, absE, Bool.or_eq_true, Bool.and_eq_true, decide_eq_true_eq, custEq_iff_abs] at h
    rw [← pb, ← pc, ← ae, ← az] at h
    rcases h with h | ⟨h, h'⟩
    · linarith [hn.bc]
    · linarith [hn.bc_eq h]
  have h5 : condA5 (some ε) (st.step (c34 g)) = false := by
    rw [Bool.eq_false_iff]
    intro h
    simp only [condA5, subGt, ltNeg, eqE, absE, lit_two, Bool.or_eq_true, Bool.and_eq_true, decide_eq_true_eq,
      custEq_iff_abs, neg_one_mul, sub_neg_eq_add] at h
    rcases h with (h | ⟨h, h'⟩) | ⟨h, h'⟩
    · linarith [hn.xi]
    · linarith [hn.xi_eq h]
    · linarith [hn.xi_neg h]
  have h6 : condA6 (some ε) (st.step (c34 g)) = false := by
    rw [Bool.eq_false_iff]
    intro h
    simp only [condA6, subGt, ltNeg, eqE, absE, lit_two, Bool.or_eq_true, Bool.and_eq_true, decide_eq_true_eq,
      custEq_iff_abs, neg_one_mul, sub_neg_eq_add] at h
    rcases h with (h | ⟨h, h'⟩) | ⟨h, h'⟩
    · linarith [hn.eta]
    · linarith [hn.eta_eq h]
    · linarith [hn.eta_neg h]
  have h7 : condA7 (some ε) (st.step (c34 g)) = false := by
    rw [Bool.eq_false_iff]
    intro h
    simp only [condA7, subGt, ltNeg, eqE, absE, lit_two, Bool.or_eq_true, Bool.and_eq_true, decide_eq_true_eq,
      custEq_iff_abs, neg_one_mul, sub_neg_eq_add] at h
    rcases h with (h | ⟨h, h'⟩) | ⟨h, h'⟩
    · linarith [hn.zeta]
    · linarith [hn.zeta_eq h]
    · linarith [hn.zeta_neg h]
  have h8 : condA8 (some ε) (st.step (c34 g)) = false := by
    rw [Bool.eq_false_iff]
    intro h
    simp only [condA8, subGt, ltNeg, eqE, boolSum, lit_two, Bool.or_eq_true, Bool.and_eq_true, decide_eq_true_eq,
      custEq_iff_abs, sub_zero] at h
    rcases h with h | ⟨h, h'⟩
    · have h := of_decide_eq_true h
      linarith [hn.sum]
    · linarith [hn.sum_eq h]
  unfold nigIter
  simp only [h1, h2, Bool.false_eq_true, if_false, hg, h5, h6, h7, h8]

/-- a state satisfying the Niggli conditions whose signs are not changed is left alone. -/
theorem nigIter_fixed_of_signs {ε : K} {st : NigState K}
    (hn : NiggliWeak ε st.a st.b st.c st.xi st.eta st.zeta)
    (hs : signs (some ε) st.xi st.eta st.zeta = (1, 1, 1)) :
    nigIter (some ε) st = .inr st := by
  have hc : st.step (c34 (1, 1, 1)) = st := step_one st
  have := nigIter_signs_only hs (by norm_num) (by rw [hc]; exact hn)
  rwa [hc] at this

/-- a state satisfying the Niggli conditions is left alone. -/
theorem nigIter_fixed {ε : K} (h0 : 0 ≤ ε) {st : NigState K}
    (hn : NiggliWeak ε st.a st.b st.c st.xi st.eta st.zeta)
    (hs : (ε ≤ st.xi ∧ ε ≤ st.eta ∧ ε ≤ st.zeta) ∨ (st.xi < ε ∧ st.eta < ε ∧ st.zeta < ε)) :
    nigIter (some ε) st = .inr st :=
  nigIter_fixed_of_signs hn (signs_fixed h0 hs)

/-! ## a family that needs many iterations -/

/-- the cell `(1,0,0), (0,0,1), (-y,1,0)`, up to signs. -/
def skewState (y : K) (t : Mat3 K) : NigState K := ⟨⟨1, 0, -y, 0, 1, 0, -y, 0, y * y + 1⟩, t⟩

theorem skewState_iter {ε : K} (h0 : 0 ≤ ε) (h1 : ε < 1) {y : K} (hy : 1 ≤ y) (t : Mat3 K) :
    ∃ t', nigIter (some ε) (skewState y t) = .inl (skewState (y - 1) t') := by
  have absE : ∀ x : K, (FRound.abs x : K) = |x| := fun _ => rfl
  have pa : (skewState y t).a = 1 := rfl
  have pb : (skewState y t).b = 1 := rfl
  have pc : (skewState y t).c = y * y + 1 := rfl
  have px : (skewState y t).xi = 0 := by simp [NigState.xi, skewState]
  have pe : (skewState y t).eta = -(2 * y) := by simp [NigState.eta, skewState, lit_two]
  have pz : (skewState y t).zeta = 0 := by simp [NigState.zeta, skewState]
  have habs : |(-(2 * y) : K)| = 2 * y := by rw [abs_neg, abs_of_nonneg (by linarith)]
  have hA1 : condA1 (some ε) (skewState y t) = false := by
    rw [Bool.eq_false_iff]
    intro h
    simp only [condA1, pa, pb, px, pe, subGt, eqE, absE, Bool.or_eq_true, Bool.and_eq_true, decide_eq_true_eq,
      custEq_iff_abs, abs_zero, habs] at h
    rcases h with h | ⟨-, h⟩ <;> linarith
  have hA2 : condA2 (some ε) (skewState y t) = false := by
    rw [Bool.eq_false_iff]
    intro h
    simp only [condA2, pb, pc, pe, pz, subGt, eqE, absE, Bool.or_eq_true, Bool.and_eq_true, decide_eq_true_eq,
      custEq_iff_abs, abs_zero, habs] at h
    rcases h with h | ⟨h, -⟩
    · nlinarith
    · have := (abs_le.1 h).1; nlinarith
  have hsg : signs (some ε) (skewState y t).xi (skewState y t).eta (skewState y t).zeta = (1, 1, 1) := by
    rw [px, pe, pz]
    have ha : ¬ (0 : K) < -ε := by linarith
    have hb : -(2 * y) < -ε := by linarith
    have hc : ¬ (0 : K) < 0 - ε := by linarith
    have hd : ¬ (0 : K) < -(2 * y) - ε := by linarith
    have he : ¬ (1 : K) < -ε := by linarith
    by_cases hz : (0 : K) < ε <;>
    · simp only [signs, isTypeI, nnzE, numNegativeZero, numNegativeZeroStep, List.foldl, neg_one_mul, ltNeg, subGt,
        ha, hb, hc, hd, hz, if_false, if_true, decide_false, decide_true]
      simp [he]
  have hA5 : condA5 (some ε) (skewState y t) = false := by
    rw [Bool.eq_false_iff]
    intro h
    simp only [condA5, pb, px, pe, pz, subGt, ltNeg, eqE, absE, lit_two, Bool.or_eq_true, Bool.and_eq_true,
      decide_eq_true_eq, custEq_iff_abs, neg_one_mul, sub_neg_eq_add, abs_zero] at h
    rcases h with (h | ⟨h, h'⟩) | ⟨h, h'⟩
    · linarith
    · have := (abs_le.1 h).1; linarith
    · have := (abs_le.1 h).2; linarith
  have hA6 : condA6 (some ε) (skewState y t) = true := by
    simp only [condA6, pa, pe, subGt, absE, habs, Bool.or_eq_true, decide_eq_true_eq]
    left; left; linarith
  have hc : (c34 (1, 1, 1) : Mat3 K) = 1 := rfl
  refine ⟨t * c6 (-(2 * y)), ?_⟩
  unfold nigIter
  simp only [hA1, hA2, Bool.false_eq_true, if_false, hsg, hc, step_one, hA5, hA6, if_true, Sum.inl.injEq]
  rw [pe]
  have hg : (FRound.signum (-(2 * y)) : K) = -1 := by rw [signum_eq, if_pos (by linarith)]
  unfold NigState.step skewState c6
  rw [hg]
  simp only [NigState.mk.injEq, and_true]
  ext <;> simp [Mat3.transpose] <;> ring

theorem skewState_loop {ε : K} (h0 : 0 ≤ ε) (h1 : ε < 1) (n : ℕ) {y : K} (hy : n ≤ y) (t : Mat3 K) :
    nigLoop (some ε) n (skewState y t) = .panic "Could not find Niggli reduced structure!" := by
  induction n generalizing y t with
  | zero => rfl
  | succ n ih =>
    push_cast at hy
    obtain ⟨t', ht⟩ := skewState_iter h0 h1 (y := y) (by linarith [n.cast_nonneg (α := K)]) t
    rw [nigLoop, ht]
    exact ih (by linarith) t'

end CrystSymm
