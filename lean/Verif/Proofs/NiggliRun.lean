import Verif.Proofs.NiggliTerm
import Verif.Spec.Edges

set_option autoImplicit false
set_option linter.unusedSectionVars false

/-! # Four iterations of `niggli_reduce`

An iteration that continues without lowering `A + B + C` is a swap of two axes or one of seven special cases of the steps
A5 to A8.  Of four iterations in a row that continue at least one lowers `A + B + C`. -/

namespace CrystSymm

open Spec Reducer NiggliCert NiggliMin

section
variable {K : Type} [Field K] [LinearOrder K] [IsStrictOrderedRing K] [FloorRing K]

/-- what the iteration depends on: `A, B, C`, the absolute values of `ξ, η, ζ` and whether their product is positive. -/
@[ext] structure View (K : Type) where
  A : K
  B : K
  C : K
  x : K
  h : K
  z : K
  p : Bool

/-- step A1. -/
def View.Swap1 (v u : View K) : Prop :=
  ((v.B < v.A ∨ (v.A = v.B ∧ v.h < v.x)) ∧ u = ⟨v.B, v.A, v.C, v.h, v.x, v.z, v.p⟩) ∨
    (v.A ≤ v.B ∧ (v.A = v.B → v.x ≤ v.h) ∧ u = v)

/-- step A2. -/
def View.Swap2 (u w : View K) : Prop :=
  (u.C < u.B ∨ (u.B = u.C ∧ u.z < u.h)) ∧ w = ⟨u.A, u.C, u.B, u.x, u.z, u.h, u.p⟩

/-- the special cases of the steps A5 to A8, in which `A + B + C` stays. -/
inductive View.Special : View K → View K → Prop
  | a5 {A B C x h z : K} : x = B → 2 * h < z → 0 < h → Special ⟨A, B, C, x, h, z, true⟩ ⟨A, B, C, B, z - h, z, true⟩
  | b5 {A B C x h z : K} : x = B → 0 < z → Special ⟨A, B, C, x, h, z, false⟩ ⟨A, B, C, B, h + z, z, true⟩
  | a6 {A B C x h z : K} : x ≤ B → h = A → 2 * x < z → 0 < x →
      Special ⟨A, B, C, x, h, z, true⟩ ⟨A, B, C, z - x, A, z, true⟩
  | b6 {A B C x h z : K} : x ≤ B → h = A → 0 < z → Special ⟨A, B, C, x, h, z, false⟩ ⟨A, B, C, x + z, A, z, true⟩
  | a7 {A B C x h z : K} : x ≤ B → h ≤ A → z = A → 2 * x < h → 0 < x →
      Special ⟨A, B, C, x, h, z, true⟩ ⟨A, B, C, h - x, h, A, true⟩
  | b7 {A B C x h z : K} : x ≤ B → h ≤ A → z = A → 0 < h → Special ⟨A, B, C, x, h, z, false⟩ ⟨A, B, C, x + h, h, A, true⟩
  | c8 {A B C x h z : K} : x ≤ B → h ≤ A → z ≤ A → (x = B → z = 0) → (z = A → h = 0) → x + h + z = A + B →
      h + h + z < 2 * A → Special ⟨A, B, C, x, h, z, false⟩ ⟨A, B, C, B - A + h, 2 * A - h - z, z, false⟩

/-- the lengths of a cell. -/
structure View.Good (v : View K) : Prop where
  A : 0 < v.A
  B : 0 < v.B
  x : 0 ≤ v.x
  h : 0 ≤ v.h
  z : 0 ≤ v.z
  b : v.A ≤ v.B → v.z < 2 * v.B

/-- one iteration that continues and keeps `A + B + C`. -/
def View.Step (v w : View K) : Prop := ∃ u : View K, v.Swap1 u ∧ u.Good ∧
  (u.Swap2 w ∨ (u.B ≤ u.C ∧ (u.B = u.C → u.h ≤ u.z) ∧ u.Special w))

/-- the state after step A1 that reaches a special case. -/
def View.Sorted (u : View K) : Prop := u.Good ∧ u.A ≤ u.B ∧ (u.A = u.B → u.x ≤ u.h) ∧ u.B ≤ u.C ∧ (u.B = u.C → u.h ≤ u.z)

theorem View.swap1_sorted {v u : View K} (h : v.Swap1 u) : u.A ≤ u.B ∧ (u.A = u.B → u.x ≤ u.h) := by
  rcases h with ⟨h, rfl⟩ | ⟨h, h', rfl⟩
  · rcases h with h | ⟨h, h'⟩
    · exact ⟨h.le, fun e => absurd e h.ne⟩
    · exact ⟨h.ge, fun _ => h'.le⟩
  · exact ⟨h, h'⟩

theorem View.swap_once {v w w' : View K} (h1 : ∃ u, v.Swap1 u ∧ u.Swap2 w) (h2 : ∃ u, w.Swap1 u ∧ u.Swap2 w') : False := by
  obtain ⟨u, hs, hc, rfl⟩ := h1
  obtain ⟨u', hs', hc', rfl⟩ := h2
  have h3 := View.swap1_sorted hs
  clear hs
  obtain ⟨A, B, C, x, h, z, p⟩ := u
  simp only at hc h3
  rcases hs' with ⟨hs, rfl⟩ | ⟨hs, hs', rfl⟩ <;> simp only at hs hc'
  · rcases hc' with hc' | ⟨e, hc'⟩
    · rcases hc with hc | ⟨hc, -⟩ <;> linarith
    · linarith [h3.2 e]
  · rcases hc with hc | ⟨hc, hc''⟩
    · rcases hc' with hc' | ⟨e, hc'⟩ <;> linarith
    · rcases hc' with hc' | ⟨e, hc'⟩ <;> linarith

/-- after the special case `ξ = B` of step A5 nothing is left to do. -/
theorem View.after_a5 {A B C h z : K} (hs : (⟨A, B, C, B, h, z, true⟩ : View K).Sorted) (hz : 2 * h < z) (h0 : 0 < h)
    {w : View K} : ¬ (⟨A, B, C, B, z - h, z, true⟩ : View K).Step w := by
  rintro ⟨u, h1, g, h2⟩
  obtain ⟨g0, s1, s2, s3, s4⟩ := hs
  have := g0.b s1
  have := g0.A
  have := g0.B
  simp only at *
  have hu : u = ⟨A, B, C, B, z - h, z, true⟩ := by
    rcases h1 with ⟨h1, rfl⟩ | ⟨-, -, rfl⟩
    · simp only at h1
      rcases h1 with h1 | ⟨e, h1⟩
      · linarith
      · linarith [s2 e]
    · rfl
  subst hu
  rcases h2 with ⟨h2, -⟩ | ⟨-, -, h2⟩
  · simp only at h2
    rcases h2 with h2 | ⟨-, h2⟩ <;> linarith
  · cases h2 <;> linarith


set_option maxHeartbeats 1000000 in
/-- after a special case at most one further iteration keeps `A + B + C`. -/
theorem View.after_special {u w w' w'' : View K} (hs : u.Sorted) (h1 : u.Special w) (h2 : w.Step w') (h3 : w'.Step w'') :
    False := by
  obtain ⟨g0, s1, s2, s3, s4⟩ := id hs
  have gb := g0.b s1
  have gA := g0.A
  have gB := g0.B
  have gx := g0.x
  have gh := g0.h
  have gz := g0.z
  cases h1 with
  | @a5 A B C x h z e1 e2 e3 =>
    subst e1
    exact View.after_a5 hs e2 e3 h2
  | @b5 A B C x h z e1 e2 =>
    simp only at *
    subst e1
    obtain ⟨t, k1, g, k2⟩ := h2
    have ht : t = ⟨A, x, C, x, h + z, z, true⟩ := by
      rcases k1 with ⟨k1, rfl⟩ | ⟨-, -, rfl⟩
      · simp only at k1
        rcases k1 with k1 | ⟨e, k1⟩
        · linarith
        · linarith [s2 e]
      · rfl
    subst ht
    rcases k2 with ⟨k2, rfl⟩ | ⟨-, -, k2⟩
    · simp only at k2 h3
      rcases k2 with k2 | ⟨e, k2⟩
      · linarith
      subst e
      have k4 := s4 rfl
      obtain ⟨t, k1, g, k3⟩ := h3
      have ht : t = ⟨A, x, x, x, z, h + z, true⟩ := by
        rcases k1 with ⟨k1, rfl⟩ | ⟨-, -, rfl⟩
        · simp only at k1
          rcases k1 with k1 | ⟨e, k1⟩
          · linarith
          · linarith [s2 e]
        · rfl
      subst ht
      rcases k3 with ⟨k3, -⟩ | ⟨-, -, k3⟩
      · simp only at k3
        rcases k3 with k3 | ⟨-, k3⟩ <;> linarith
      · cases k3 <;> linarith
    · cases k2 <;> linarith
  | @a6 A B C x h z e1 e2 e3 e4 =>
    simp only at *
    subst e2
    obtain ⟨t, k1, g, k2⟩ := h2
    rcases k1 with ⟨k1, rfl⟩ | ⟨k1, k1', rfl⟩
    · simp only at k1 k2
      rcases k1 with k1 | ⟨e, k1⟩
      · linarith
      subst e
      rcases k2 with ⟨k2, -⟩ | ⟨-, -, k2⟩
      · simp only at k2
        rcases k2 with k2 | ⟨-, k2⟩ <;> linarith
      · cases k2 <;> linarith
    · rcases k2 with ⟨k2, -⟩ | ⟨k4, k5, k2⟩
      · simp only at k2
        rcases k2 with k2 | ⟨e, k2⟩
        · linarith
        · linarith [s4 e]
      · cases k2
        case a5 =>
          refine View.after_a5 (A := h) (C := C) (h := h) (z := z) ?_ (by assumption) (by assumption) h3
          exact ⟨⟨gA, gB, gB.le, gA.le, gz, g.b⟩, s1, fun e => e.ge, k4, k5⟩
        all_goals linarith
  | @b6 A B C x h z e1 e2 e3 =>
    simp only at *
    subst e2
    obtain ⟨t, k1, g, k2⟩ := h2
    rcases k1 with ⟨k1, rfl⟩ | ⟨k1, k1', rfl⟩
    · simp only at k1 k2
      rcases k1 with k1 | ⟨e, k1⟩
      · linarith
      subst e
      have k4 := s2 rfl
      rcases k2 with ⟨k2, rfl⟩ | ⟨-, -, k2⟩
      · simp only at k2
        rcases k2 with k2 | ⟨e, k2⟩
        · linarith
        subst e
        have k5 := s4 rfl
        obtain ⟨t, k1, g, k3⟩ := h3
        have ht : t = ⟨h, h, h, h, z, x + z, true⟩ := by
          rcases k1 with ⟨k1, rfl⟩ | ⟨-, -, rfl⟩
          · simp only at k1
            rcases k1 with k1 | ⟨e, k1⟩ <;> linarith
          · rfl
        subst ht
        rcases k3 with ⟨k3, -⟩ | ⟨-, -, k3⟩
        · simp only at k3
          rcases k3 with k3 | ⟨-, k3⟩ <;> linarith
        · cases k3 <;> linarith
      · cases k2 <;> linarith
    · rcases k2 with ⟨k2, -⟩ | ⟨k4, k5, k2⟩
      · simp only at k2
        rcases k2 with k2 | ⟨e, k2⟩
        · linarith
        · linarith [s4 e]
      · cases k2
        case a5 =>
          refine View.after_a5 (A := h) (C := C) (h := h) (z := z) ?_ (by assumption) (by assumption) h3
          exact ⟨⟨gA, gB, gB.le, gA.le, gz, g.b⟩, s1, fun e => e.ge, k4, k5⟩
        all_goals linarith
  | @a7 A B C x h z e1 e2 e3 e4 e5 =>
    simp only at *
    subst e3
    obtain ⟨t, k1, g, k2⟩ := h2
    have ht : t = ⟨z, B, C, h - x, h, z, true⟩ := by
      rcases k1 with ⟨k1, rfl⟩ | ⟨-, -, rfl⟩
      · simp only at k1
        rcases k1 with k1 | ⟨e, k1⟩ <;> linarith
      · rfl
    subst ht
    rcases k2 with ⟨k2, -⟩ | ⟨-, -, k2⟩
    · simp only at k2
      rcases k2 with k2 | ⟨-, k2⟩ <;> linarith
    · cases k2 <;> linarith
  | @b7 A B C x h z e1 e2 e3 e4 =>
    simp only at *
    subst e3
    obtain ⟨t, k1, g, k2⟩ := h2
    rcases k1 with ⟨k1, rfl⟩ | ⟨k1, k1', rfl⟩
    · simp only at k1 k2
      rcases k1 with k1 | ⟨e, k1⟩
      · linarith
      subst e
      have k4 := s2 rfl
      rcases k2 with ⟨k2, rfl⟩ | ⟨-, -, k2⟩
      · simp only at k2
        rcases k2 with k2 | ⟨e, k2⟩
        · linarith
        subst e
        obtain ⟨t, k1, g, k3⟩ := h3
        have ht : t = ⟨z, z, z, h, z, x + h, true⟩ := by
          rcases k1 with ⟨k1, rfl⟩ | ⟨-, -, rfl⟩
          · simp only at k1
            rcases k1 with k1 | ⟨e, k1⟩ <;> linarith
          · rfl
        subst ht
        rcases k3 with ⟨k3, -⟩ | ⟨-, -, k3⟩
        · simp only at k3
          rcases k3 with k3 | ⟨-, k3⟩ <;> linarith
        · cases k3 <;> linarith
      · cases k2 <;> linarith
    · rcases k2 with ⟨k2, -⟩ | ⟨k4, k5, k2⟩
      · simp only at k2
        rcases k2 with k2 | ⟨e, k2⟩ <;> linarith
      · cases k2
        case a5 =>
          refine View.after_a5 (A := z) (C := C) (h := h) (z := z) ?_ (by assumption) (by assumption) h3
          exact ⟨⟨gA, gB, gB.le, gh, gz, g.b⟩, s1, fun e => by linarith [k1' e], k4, k5⟩
        all_goals linarith
  | @c8 A B C x h z e1 e2 e3 e4 e5 e6 e7 =>
    simp only at *
    have n1 : ¬ x = B := fun e => by linarith [e4 e]
    have n2 : ¬ z = A := fun e => n1 (by linarith [e5 e])
    obtain ⟨t, k1, g, k2⟩ := h2
    have ht : t = ⟨A, B, C, B - A + h, 2 * A - h - z, z, false⟩ := by
      rcases k1 with ⟨k1, rfl⟩ | ⟨-, -, rfl⟩
      · simp only at k1
        rcases k1 with k1 | ⟨e, k1⟩ <;> linarith
      · rfl
    subst ht
    rcases k2 with ⟨k2, rfl⟩ | ⟨-, -, k2⟩
    · simp only at k2
      rcases k2 with k2 | ⟨e, k2⟩
      · linarith
      subst e
      have k5 := s4 rfl
      obtain ⟨t, k1, g, k3⟩ := h3
      have ht : t = ⟨A, B, B, B - A + h, z, 2 * A - h - z, false⟩ := by
        rcases k1 with ⟨k1, rfl⟩ | ⟨-, -, rfl⟩
        · simp only at k1
          rcases k1 with k1 | ⟨e, k1⟩ <;> linarith
        · rfl
      subst ht
      rcases k3 with ⟨k3, -⟩ | ⟨-, -, k3⟩
      · simp only at k3
        rcases k3 with k3 | ⟨-, k3⟩ <;> linarith
      · cases k3 <;> first | linarith | exact n2 (by linarith) | exact n1 (by linarith)
    · cases k2 <;> first | linarith | exact n2 (by linarith) | exact n1 (by linarith)

/-- **no four in a row**: of four iterations in a row that continue one lowers `A + B + C`. -/
theorem View.four {v₀ v₁ v₂ v₃ v₄ : View K} (h1 : v₀.Step v₁) (h2 : v₁.Step v₂) (h3 : v₂.Step v₃) (h4 : v₃.Step v₄) :
    False := by
  obtain ⟨u, s1, g1, k1⟩ := h1
  rcases k1 with k1 | ⟨a, b, k1⟩
  · obtain ⟨u', s2, g2, k2⟩ := h2
    rcases k2 with k2 | ⟨a, b, k2⟩
    · exact View.swap_once ⟨u, s1, k1⟩ ⟨u', s2, k2⟩
    · have := View.swap1_sorted s2
      exact View.after_special ⟨g2, this.1, this.2, a, b⟩ k2 h3 h4
  · have := View.swap1_sorted s1
    exact View.after_special ⟨g1, this.1, this.2, a, b⟩ k1 h2 h3


/-- what the iteration depends on. -/
def view (st : NigState K) : View K :=
  ⟨st.a, st.b, st.c, |st.xi|, |st.eta|, |st.zeta|, decide (0 < st.xi * st.eta * st.zeta)⟩

theorem view_eq {st : NigState K} {A B C x h z : K} {p : Bool} (ha : st.a = A) (hb : st.b = B) (hc : st.c = C)
    (hx : |st.xi| = x) (hh : |st.eta| = h) (hz : |st.zeta| = z) (hp : decide (0 < st.xi * st.eta * st.zeta) = p) :
    view st = ⟨A, B, C, x, h, z, p⟩ := by
  unfold view
  rw [ha, hb, hc, hx, hh, hz, hp]

theorem view_pos {st : NigState K} (hx : 0 < st.xi) (hh : 0 < st.eta) (hz : 0 < st.zeta) :
    view st = ⟨st.a, st.b, st.c, st.xi, st.eta, st.zeta, true⟩ :=
  view_eq rfl rfl rfl (abs_of_pos hx) (abs_of_pos hh) (abs_of_pos hz)
    (decide_eq_true (mul_pos (mul_pos hx hh) hz))

theorem view_neg {st : NigState K} (hx : st.xi ≤ 0) (hh : st.eta ≤ 0) (hz : st.zeta ≤ 0) :
    view st = ⟨st.a, st.b, st.c, -st.xi, -st.eta, -st.zeta, false⟩ :=
  view_eq rfl rfl rfl (abs_of_nonpos hx) (abs_of_nonpos hh) (abs_of_nonpos hz)
    (decide_eq_false (not_lt.2 (mul_nonpos_of_nonneg_of_nonpos (mul_nonneg_of_nonpos_of_nonpos hx hh) hz)))

/-- the further differences that decide the steps. -/
def Gapped' (ε : K) (st : NigState K) : Prop := Gapped ε st ∧ st.zeta * st.zeta < 4 * st.a * st.b ∧
  ∀ q ∈ [|st.xi| - |st.eta|, |st.eta| - |st.zeta|, |st.xi| - st.b], q = 0 ∨ ε < |q|

theorem view_good {ε : K} {st : NigState K} (h : Gapped' ε st) : (view st).Good := by
  refine ⟨h.1.1, h.1.2.1, abs_nonneg _, abs_nonneg _, abs_nonneg _, fun hab => ?_⟩
  have hab : st.a ≤ st.b := hab
  show |st.zeta| < 2 * st.b
  have hb := h.1.2.1
  have := h.2.1
  refine abs_lt_of_sq_lt_sq ?_ (by linarith)
  nlinarith

set_option maxHeartbeats 2000000 in
/-- an iteration that continues and keeps `A + B + C` is a step of the views. -/
theorem nigIter_view {ε : K} (h0 : 0 < ε) (h1 : ε < 1) {st st' : NigState K} (h : st.Sym)
    (hg : ∀ N, IsUnimodularPos N → (st.step N).tr = st.tr → Gapped' ε (st.step N))
    (hi : nigIter (some ε) st = .inl st') (htr : st'.tr = st.tr) : (view st).Step (view st') := by
  have absE : ∀ x : K, (FRound.abs x : K) = |x| := fun _ => rfl
  have hgst : Gapped' ε st := by
    have := hg 1 isUnimodularPos_one (by rw [step_one])
    rwa [step_one] at this
  -- step A1
  have hA1 : ∃ N, IsUnimodularPos N ∧ (if condA1 (some ε) st then st.step c1 else st) = st.step N ∧
      (st.step N).tr = st.tr ∧ (view st).Swap1 (view (st.step N)) := by
    split
    · rename_i hc
      refine ⟨c1, c1_pos, rfl, tr_c1 st, .inl ?_⟩
      obtain ⟨pa, pb, pc, px, py, pz⟩ := c1_params st h
      simp only [condA1, subGt, eqE, absE, Bool.or_eq_true, Bool.and_eq_true, decide_eq_true_eq, custEq_iff_abs] at hc
      constructor
      · rcases hc with hc | ⟨hc, hc'⟩
        · exact .inl (by show st.b < st.a; linarith)
        · have e := gap_eq (hgst.1.2.2 (st.a - st.b) (by simp [nigDiffs])) hc
          exact .inr ⟨by show st.a = st.b; linarith, by show |st.eta| < |st.xi|; linarith⟩
      · exact view_eq pa pb pc (by rw [px]; rfl) (by rw [py]; rfl) (by rw [pz]; rfl)
          (by rw [px, py, pz, mul_comm st.eta]; rfl)
    · rename_i hc
      refine ⟨1, isUnimodularPos_one, (step_one st).symm, by rw [step_one], .inr ?_⟩
      rw [step_one]
      simp only [condA1, subGt, eqE, absE, Bool.or_eq_true, Bool.and_eq_true, decide_eq_true_eq, custEq_iff_abs, not_or,
        not_and, not_lt] at hc
      have g1 := hgst.1.2.2 (st.a - st.b) (by simp [nigDiffs])
      have g2 := hgst.2.2 (|st.xi| - |st.eta|) (by simp)
      refine ⟨?_, fun e => ?_, rfl⟩
      · have := gap_le h0 g1 (by linarith [hc.1])
        show st.a ≤ st.b
        linarith
      · have e : st.a = st.b := e
        have := gap_le h0 g2 (by linarith [hc.2 (by rw [e, sub_self, abs_zero]; exact h0.le)])
        show |st.xi| ≤ |st.eta|
        linarith
  unfold nigIter at hi
  simp only at hi
  obtain ⟨N, hN, e1, ht1, hv1⟩ := hA1
  rw [e1] at hi
  have hs1 := sym_step h N
  have hg1 : ∀ M, IsUnimodularPos M → ((st.step N).step M).tr = (st.step N).tr → Gapped' ε ((st.step N).step M) := by
    intro M hM ht
    rw [step_step] at ht ⊢
    exact hg _ (IsUnimodularPos.mul hN hM) (ht.trans ht1)
  have hgs1 := hg N hN ht1
  rw [← ht1] at htr
  refine ⟨_, hv1, view_good hgs1, ?_⟩
  have hsort := View.swap1_sorted hv1
  clear hv1
  generalize st.step N = s at hi hs1 hg1 hgs1 htr hsort ⊢
  clear hg hgst e1 ht1 hN
  split at hi
  · -- step A2
    rename_i hc
    left
    simp only [Sum.inl.injEq] at hi
    subst hi
    obtain ⟨pa, pb, pc, px, py, pz⟩ := c2_params s hs1
    simp only [condA2, subGt, eqE, absE, Bool.or_eq_true, Bool.and_eq_true, decide_eq_true_eq, custEq_iff_abs] at hc
    constructor
    · rcases hc with hc | ⟨hc, hc'⟩
      · exact .inl (by show s.c < s.b; linarith)
      · have e := gap_eq (hgs1.1.2.2 (s.b - s.c) (by simp [nigDiffs])) hc
        exact .inr ⟨by show s.b = s.c; linarith, by show |s.zeta| < |s.eta|; linarith⟩
    · exact view_eq pa pb pc (by rw [px]; rfl) (by rw [py]; rfl) (by rw [pz]; rfl)
        (by rw [px, py, pz, mul_right_comm]; rfl)
  · -- the signs
    rename_i hc2
    right
    have hbc : (view s).B ≤ (view s).C ∧ ((view s).B = (view s).C → (view s).h ≤ (view s).z) := by
      simp only [condA2, subGt, eqE, absE, Bool.or_eq_true, Bool.and_eq_true, decide_eq_true_eq, custEq_iff_abs, not_or,
        not_and, not_lt] at hc2
      have g1 := hgs1.1.2.2 (s.b - s.c) (by simp [nigDiffs])
      have g2 := hgs1.2.2 (|s.eta| - |s.zeta|) (by simp)
      refine ⟨?_, fun e => ?_⟩
      · have := gap_le h0 g1 (by linarith [hc2.1])
        show s.b ≤ s.c
        linarith
      · have e : s.b = s.c := e
        have := gap_le h0 g2 (by linarith [hc2.2 (by rw [e, sub_self, abs_zero]; exact h0.le)])
        show |s.eta| ≤ |s.zeta|
        linarith
    refine ⟨hbc.1, hbc.2, ?_⟩
    obtain ⟨hs, hp⟩ := signs_spec h0.le s.xi s.eta s.zeta _ rfl
    have hsg := signs_isSign (some ε) s.xi s.eta s.zeta
    have hpos := c34_pos hsg (hp h1)
    have hs2 := sym_step hs1 (c34 (signs (some ε) s.xi s.eta s.zeta))
    have ht2 := tr_c34 s hsg
    obtain ⟨pa, pb, pc, px, py, pz⟩ := c34_params s hsg (hp h1)
    have hg2 := hg1 _ hpos ht2
    have hr : view s = view (s.step (c34 (signs (some ε) s.xi s.eta s.zeta))) := by
      refine (view_eq pa pb pc (by rw [px, hsg.1.abs_mul]) (by rw [py, hsg.2.1.abs_mul])
        (by rw [pz, hsg.2.2.abs_mul]) ?_).symm
      rw [px, py, pz]
      congr 2
      linear_combination (s.xi * s.eta * s.zeta) * hp h1
    rw [hr]
    rw [← px, ← py, ← pz] at hs
    rw [← ht2] at htr
    have hab : (s.step (c34 (signs (some ε) s.xi s.eta s.zeta))).a ≤
        (s.step (c34 (signs (some ε) s.xi s.eta s.zeta))).b := by
      rw [pa, pb]
      exact hsort.1
    generalize s.step (c34 (signs (some ε) s.xi s.eta s.zeta)) = t at hs2 hi hs hg2 hab htr ⊢
    clear pa pb pc px py pz hr ht2 hpos hg1 hgs1 hp hsg hsort hbc
    obtain ⟨⟨ha0, hb0, hg⟩, -, hg'⟩ := hg2
    simp only [nigDiffs, List.forall_mem_cons, List.not_mem_nil, false_imp_iff, implies_true, and_true] at hg hg'
    obtain ⟨g1, g2, g3, g4, g5, g6, g7, g8, g9, g10, g11, g12, g13, g14⟩ := hg
    obtain ⟨-, -, g15⟩ := hg'
    -- the two types, exactly
    have ht : (0 < t.xi ∧ 0 < t.eta ∧ 0 < t.zeta) ∨ (t.xi ≤ 0 ∧ t.eta ≤ 0 ∧ t.zeta ≤ 0) := by
      rcases hs with ⟨a, b, c⟩ | ⟨a, b, c⟩
      · exact .inl ⟨by linarith, by linarith, by linarith⟩
      · exact .inr ⟨gap_le h0 g12 a, gap_le h0 g13 b, gap_le h0 g14 c⟩
    split at hi
    · rename_i hc
      simp only [Sum.inl.injEq] at hi
      subst hi
      have hc := cond_cases h0 g3 g4 hc
      obtain ⟨pa, pb, px, py, pz⟩ := c5_params t hs2 t.xi
      have pt := tr_c5 hs2
      have pc : (t.step (c5 t.xi)).c = t.c := by
        unfold NigState.tr at htr
        linarith
      rw [signum_eq] at px py
      rcases hc with hc | ⟨hc, hc'⟩ | ⟨hc, hc'⟩
      · linarith
      · rcases ht with ⟨k1, k2, k3⟩ | ⟨k1, k2, k3⟩
        · rw [lit_two] at hc'
          rw [if_neg (not_lt.2 k1.le)] at px py
          have n1 : (t.step (c5 t.xi)).xi < 0 := by rw [px]; linarith
          have n2 : (t.step (c5 t.xi)).eta < 0 := by rw [py]; linarith
          rw [view_pos k1 k2 k3, view_eq (p := true) pa pb pc ((abs_of_neg n1).trans (c := t.b) (by rw [px]; linarith))
            ((abs_of_neg n2).trans (c := t.zeta - t.eta) (by rw [py]; linarith)) ((congrArg abs pz).trans (abs_of_pos k3))
            (decide_eq_true (mul_pos (mul_pos_of_neg_of_neg n1 n2) (pz ▸ k3)))]
          exact .a5 hc hc' k2
        · linarith
      · have k : t.xi < 0 := by linarith
        rcases ht with ⟨k1, k2, k3⟩ | ⟨k1, k2, k3⟩
        · linarith
        · rw [if_pos k] at px py
          have n1 : 0 < (t.step (c5 t.xi)).xi := by rw [px]; linarith
          have n2 : (t.step (c5 t.xi)).eta < 0 := by rw [py]; linarith
          have n3 : (t.step (c5 t.xi)).zeta < 0 := by rw [pz]; linarith
          rw [view_neg k1 k2 k3, view_eq (p := true) pa pb pc ((abs_of_pos n1).trans (c := t.b) (by rw [px]; linarith))
            ((abs_of_neg n2).trans (c := -t.eta + -t.zeta) (by rw [py]; linarith))
            ((abs_of_neg n3).trans (c := -t.zeta) (by rw [pz]))
            (decide_eq_true (mul_pos_of_neg_of_neg (mul_neg_of_pos_of_neg n1 n2) n3))]
          exact .b5 (by linarith) (by linarith)
    rename_i hn5
    have l5 := cond_fails h0 g15 hn5
    split at hi
    · rename_i hc
      simp only [Sum.inl.injEq] at hi
      subst hi
      have hc := cond_cases h0 g5 g6 hc
      obtain ⟨pa, pb, px, py, pz⟩ := c6_params t hs2 t.eta
      have pt := tr_c6 hs2
      have pc : (t.step (c6 t.eta)).c = t.c := by
        unfold NigState.tr at htr
        linarith
      rw [signum_eq] at px py
      rcases hc with hc | ⟨hc, hc'⟩ | ⟨hc, hc'⟩
      · linarith
      · rcases ht with ⟨k1, k2, k3⟩ | ⟨k1, k2, k3⟩
        · rw [lit_two] at hc'
          rw [if_neg (not_lt.2 k2.le)] at px py
          have n1 : (t.step (c6 t.eta)).xi < 0 := by rw [px]; linarith
          have n2 : (t.step (c6 t.eta)).eta < 0 := by rw [py]; linarith
          rw [view_pos k1 k2 k3, view_eq (p := true) pa pb pc
            ((abs_of_neg n1).trans (c := t.zeta - t.xi) (by rw [px]; linarith))
            ((abs_of_neg n2).trans (c := t.a) (by rw [py]; linarith)) ((congrArg abs pz).trans (abs_of_pos k3))
            (decide_eq_true (mul_pos (mul_pos_of_neg_of_neg n1 n2) (pz ▸ k3)))]
          exact .a6 (by rwa [abs_of_pos k1] at l5) hc hc' k1
        · linarith
      · have k : t.eta < 0 := by linarith
        rcases ht with ⟨k1, k2, k3⟩ | ⟨k1, k2, k3⟩
        · linarith
        · rw [if_pos k] at px py
          have n1 : (t.step (c6 t.eta)).xi < 0 := by rw [px]; linarith
          have n2 : 0 < (t.step (c6 t.eta)).eta := by rw [py]; linarith
          have n3 : (t.step (c6 t.eta)).zeta < 0 := by rw [pz]; linarith
          rw [view_neg k1 k2 k3, view_eq (p := true) pa pb pc
            ((abs_of_neg n1).trans (c := -t.xi + -t.zeta) (by rw [px]; linarith))
            ((abs_of_pos n2).trans (c := t.a) (by rw [py]; linarith))
            ((abs_of_neg n3).trans (c := -t.zeta) (by rw [pz]))
            (decide_eq_true (mul_pos_of_neg_of_neg (mul_neg_of_neg_of_pos n1 n2) n3))]
          exact .b6 (by rwa [abs_of_nonpos k1] at l5) (by linarith) (by linarith)
    rename_i hn6
    have l6 := cond_fails h0 g10 hn6
    split at hi
    · rename_i hc
      simp only [Sum.inl.injEq] at hi
      subst hi
      have hc := cond_cases h0 g7 g8 hc
      obtain ⟨pa, pc, px, py, pz⟩ := c7_params t hs2 t.zeta
      have pt := tr_c7 hs2
      have pb : (t.step (c7 t.zeta)).b = t.b := by
        unfold NigState.tr at htr
        linarith
      rw [signum_eq] at px pz
      rcases hc with hc | ⟨hc, hc'⟩ | ⟨hc, hc'⟩
      · linarith
      · rcases ht with ⟨k1, k2, k3⟩ | ⟨k1, k2, k3⟩
        · rw [lit_two] at hc'
          rw [if_neg (not_lt.2 k3.le)] at px pz
          have n1 : (t.step (c7 t.zeta)).xi < 0 := by rw [px]; linarith
          have n3 : (t.step (c7 t.zeta)).zeta < 0 := by rw [pz]; linarith
          rw [view_pos k1 k2 k3, view_eq (p := true) pa pb pc
            ((abs_of_neg n1).trans (c := t.eta - t.xi) (by rw [px]; linarith))
            ((congrArg abs py).trans (abs_of_pos k2))
            ((abs_of_neg n3).trans (c := t.a) (by rw [pz]; linarith))
            (decide_eq_true (mul_pos_of_neg_of_neg (mul_neg_of_neg_of_pos n1 (py ▸ k2)) n3))]
          exact .a7 (by rwa [abs_of_pos k1] at l5) (by rwa [abs_of_pos k2] at l6) hc hc' k1
        · linarith
      · have k : t.zeta < 0 := by linarith
        rcases ht with ⟨k1, k2, k3⟩ | ⟨k1, k2, k3⟩
        · linarith
        · rw [if_pos k] at px pz
          have n1 : (t.step (c7 t.zeta)).xi < 0 := by rw [px]; linarith
          have n2 : (t.step (c7 t.zeta)).eta < 0 := by rw [py]; linarith
          have n3 : 0 < (t.step (c7 t.zeta)).zeta := by rw [pz]; linarith
          rw [view_neg k1 k2 k3, view_eq (p := true) pa pb pc
            ((abs_of_neg n1).trans (c := -t.xi + -t.eta) (by rw [px]; linarith))
            ((abs_of_neg n2).trans (c := -t.eta) (by rw [py]))
            ((abs_of_pos n3).trans (c := t.a) (by rw [pz]; linarith))
            (decide_eq_true (mul_pos (mul_pos_of_neg_of_neg n1 n2) n3))]
          exact .b7 (by rwa [abs_of_nonpos k1] at l5) (by rwa [abs_of_nonpos k2] at l6) (by linarith) (by linarith)
    rename_i hn7
    have l7 := cond_fails h0 g11 hn7
    split at hi
    · rename_i hc
      simp only [Sum.inl.injEq] at hi
      subst hi
      obtain ⟨pa, pb, px, py, pz⟩ := c8_params t hs2
      have pt := tr_c8 hs2
      have e' : t.xi + t.eta + t.zeta + t.a + t.b = 0 := by
        have : boolSum t = 0 := by linarith
        exact this
      have pc : (t.step c8).c = t.c := by
        unfold NigState.tr at htr
        linarith
      simp only [condA8, ltNeg, subGt, eqE, Bool.or_eq_true, Bool.and_eq_true, decide_eq_true_eq, custEq_iff_abs,
        sub_zero] at hc
      rcases hc with hc | ⟨hc, hc'⟩
      · have : boolSum t = 0 := e'
        linarith
      · rw [lit_two] at hc'
        rcases ht with ⟨k1, k2, k3⟩ | ⟨k1, k2, k3⟩
        · linarith
        · rw [abs_of_nonpos k1] at l5
          rw [abs_of_nonpos k2] at l6
          rw [abs_of_nonpos k3] at l7
          have n1 : 0 ≤ (t.step c8).xi := by rw [px]; linarith
          have n2 : 0 ≤ (t.step c8).eta := by rw [py]; linarith
          have n3 : (t.step c8).zeta ≤ 0 := by rw [pz]; linarith
          rw [view_neg k1 k2 k3, view_eq (p := false) pa pb pc
            ((abs_of_nonneg n1).trans (c := t.b - t.a + -t.eta) (by rw [px]; linarith))
            ((abs_of_nonneg n2).trans (c := 2 * t.a - -t.eta - -t.zeta) (by rw [py]; linarith))
            ((abs_of_nonpos n3).trans (c := -t.zeta) (by rw [pz]))
            (decide_eq_false (not_lt.2 (mul_nonpos_of_nonneg_of_nonpos (mul_nonneg n1 n2) n3)))]
          have q5 : -t.xi = t.b → -t.zeta = 0 := by
            intro e
            by_contra hne
            refine hn5 ?_
            have : t.zeta < 0 := lt_of_le_of_ne k3 (fun e => hne (by rw [e, neg_zero]))
            have gz : ε < -t.zeta := by
              rcases g14 with g | g
              · linarith
              · rwa [abs_of_neg this] at g
            simp only [condA5, eqE, ltNeg, Bool.or_eq_true, Bool.and_eq_true, decide_eq_true_eq, custEq_iff_abs]
            right
            refine ⟨?_, by linarith⟩
            rw [show t.xi - -1 * t.b = 0 by linarith, abs_zero]
            exact h0.le
          have q7 : -t.zeta = t.a → -t.eta = 0 := by
            intro e
            by_contra hne
            refine hn7 ?_
            have : t.eta < 0 := lt_of_le_of_ne k2 (fun e => hne (by rw [e, neg_zero]))
            have gz : ε < -t.eta := by
              rcases g13 with g | g
              · linarith
              · rwa [abs_of_neg this] at g
            simp only [condA7, eqE, ltNeg, Bool.or_eq_true, Bool.and_eq_true, decide_eq_true_eq, custEq_iff_abs]
            right
            refine ⟨?_, by linarith⟩
            rw [show t.zeta - -1 * t.a = 0 by linarith, abs_zero]
            exact h0.le
          exact .c8 l5 l6 l7 q5 q7 (by linarith) (by linarith)
    · exact absurd hi (by simp)


theorem nigLoop_mono {e : Option K} {n k : ℕ} {st r : NigState K} (hk : n ≤ k) (h : nigLoop e n st = .ret r) :
    nigLoop e k st = .ret r := by
  induction n generalizing k st with
  | zero => exact absurd h (by rw [nigLoop]; simp)
  | succ n ih =>
    obtain ⟨k, rfl⟩ := Nat.exists_eq_succ_of_ne_zero (by omega : k ≠ 0)
    rw [nigLoop] at h ⊢
    split at h
    · exact ih (by omega) h
    · exact h

theorem nigLoop_inl {e : Option K} {st st' : NigState K} (h : nigIter e st = .inl st') (n : ℕ) :
    nigLoop e (n + 1) st = nigLoop e n st' := by
  rw [nigLoop, h]

theorem nigLoop_inr {e : Option K} {st st' : NigState K} (h : nigIter e st = .inr st') (n : ℕ) :
    nigLoop e (n + 1) st = .ret st' := by
  rw [nigLoop, h]

/-- four iterations end the loop or lower `A + B + C`. -/
theorem nigLoop_four {ε : K} (h0 : 0 < ε) (h1 : ε < 1) {I : NigState K → Prop} (hsym : ∀ st, I st → st.Sym)
    (hgap : ∀ st, I st → ∀ N, IsUnimodularPos N → (st.step N).tr = st.tr → Gapped' ε (st.step N))
    (hstep : ∀ st st', I st → nigIter (some ε) st = .inl st' → I st' ∧ st'.tr ≤ st.tr) (n : ℕ) {st : NigState K}
    (hst : I st) : (∃ r, nigLoop (some ε) (n + 4) st = .ret r) ∨
      ∃ st' k, I st' ∧ st'.tr < st.tr ∧ n ≤ k ∧ nigLoop (some ε) (n + 4) st = nigLoop (some ε) k st' := by
  have one : ∀ (m : ℕ) (t : NigState K), I t → (∃ r, nigLoop (some ε) (m + 1) t = .ret r) ∨
      ∃ t', I t' ∧ nigLoop (some ε) (m + 1) t = nigLoop (some ε) m t' ∧ (t'.tr < t.tr ∨
        (t'.tr = t.tr ∧ (view t).Step (view t'))) := by
    intro m t ht
    cases hi : nigIter (some ε) t with
    | inr r => exact .inl ⟨r, nigLoop_inr hi m⟩
    | inl t' =>
      obtain ⟨a, b⟩ := hstep t t' ht hi
      refine .inr ⟨t', a, nigLoop_inl hi m, ?_⟩
      rcases lt_or_eq_of_le b with b | b
      · exact .inl b
      · exact .inr ⟨b, nigIter_view h0 h1 (hsym t ht) (hgap t ht) hi b⟩
  rcases one (n + 3) st hst with h | ⟨s1, i1, e1, h | ⟨t1, k1⟩⟩
  · exact .inl h
  · exact .inr ⟨s1, n + 3, i1, h, by omega, e1⟩
  rw [show n + 4 = n + 3 + 1 from rfl, e1, ← t1]
  rcases one (n + 2) s1 i1 with h | ⟨s2, i2, e2, h | ⟨t2, k2⟩⟩
  · exact .inl h
  · exact .inr ⟨s2, n + 2, i2, h, by omega, e2⟩
  rw [show n + 3 = n + 2 + 1 from rfl, e2, ← t2]
  rcases one (n + 1) s2 i2 with h | ⟨s3, i3, e3, h | ⟨t3, k3⟩⟩
  · exact .inl h
  · exact .inr ⟨s3, n + 1, i3, h, by omega, e3⟩
  rw [show n + 2 = n + 1 + 1 from rfl, e3, ← t3]
  rcases one n s3 i3 with h | ⟨s4, i4, e4, h | ⟨-, k4⟩⟩
  · exact .inl h
  · exact .inr ⟨s4, n, i4, h, le_refl _, e4⟩
  · exact (View.four k1 k2 k3 k4).elim

/-- a loop in whose states `A + B + C` takes at most `d` values below the first one ends within `4 (d + 1)` iterations. -/
theorem nigLoop_sums {ε : K} (h0 : 0 < ε) (h1 : ε < 1) {I : NigState K → Prop} (hsym : ∀ st, I st → st.Sym)
    (hgap : ∀ st, I st → ∀ N, IsUnimodularPos N → (st.step N).tr = st.tr → Gapped' ε (st.step N))
    (hstep : ∀ st st', I st → nigIter (some ε) st = .inl st' → I st' ∧ st'.tr ≤ st.tr) (F : Finset K)
    (hF : ∀ st, I st → st.tr ∈ F) : ∀ (d : ℕ) (st : NigState K), I st → (F.filter (· < st.tr)).card ≤ d →
      ∃ r, nigLoop (some ε) (4 * d + 4) st = .ret r := by
  intro d
  induction d with
  | zero =>
    intro st hst hc
    rcases nigLoop_four h0 h1 hsym hgap hstep (4 * 0) hst with h | ⟨s, k, hs, hlt, -, -⟩
    · exact h
    · rw [Nat.le_zero, Finset.card_eq_zero] at hc
      have : s.tr ∈ F.filter (· < st.tr) := Finset.mem_filter.2 ⟨hF s hs, hlt⟩
      rw [hc] at this
      simp at this
  | succ d ih =>
    intro st hst hc
    rcases nigLoop_four h0 h1 hsym hgap hstep (4 * (d + 1)) hst with h | ⟨s, k, hs, hlt, hk, he⟩
    · exact h
    · have hcard : (F.filter (· < s.tr)).card < (F.filter (· < st.tr)).card := by
        refine Finset.card_lt_card ⟨fun x hx => ?_, fun hsub => ?_⟩
        · rw [Finset.mem_filter] at hx ⊢
          exact ⟨hx.1, hx.2.trans hlt⟩
        · have := hsub (Finset.mem_filter.2 ⟨hF s hs, hlt⟩)
          rw [Finset.mem_filter] at this
          exact lt_irrefl _ this.2
      obtain ⟨r, hr⟩ := ih s hs (by omega)
      exact ⟨r, by rw [he]; exact nigLoop_mono (by omega) hr⟩

end

theorem tr_metric (L N : Mat3 ℝ) : (⟨L.transpose * L, N⟩ : NigState ℝ).tr = edgeSum L := by
  simp only [NigState.tr, NigState.a, NigState.b, NigState.c, Mat3.mul_m11, Mat3.mul_m22, Mat3.mul_m33, Mat3.transpose]
  rfl

theorem metric_zeta {L : Mat3 ℝ} (hdet : L.det ≠ 0) : (2 * dotp L.col0 L.col1) * (2 * dotp L.col0 L.col1) <
    4 * lenSq L.col0 * lenSq L.col1 := by
  obtain ⟨a, b, c, d, e, f, g, h, i⟩ := L
  simp only [dotp, lenSq, Mat3.col0, Mat3.col1]
  simp only [Mat3.det] at hdet
  by_contra hn
  have hs : 0 ≥ 4 * ((a * e - b * d) ^ 2 + (a * h - b * g) ^ 2 + (d * h - e * g) ^ 2) := by
    nlinarith [not_lt.1 hn]
  have e1 : a * e - b * d = 0 := by nlinarith [sq_nonneg (a * e - b * d), sq_nonneg (a * h - b * g), sq_nonneg (d * h - e * g)]
  have e2 : a * h - b * g = 0 := by nlinarith [sq_nonneg (a * e - b * d), sq_nonneg (a * h - b * g), sq_nonneg (d * h - e * g)]
  have e3 : d * h - e * g = 0 := by nlinarith [sq_nonneg (a * e - b * d), sq_nonneg (a * h - b * g), sq_nonneg (d * h - e * g)]
  refine hdet ?_
  linear_combination c * e3 - f * e2 + i * e1

/-- the loop of `niggli_reduce` for a tolerance that resolves all cells of the lattice with no larger sum of squares. -/
theorem niggli_run {L : Mat3 ℝ} (hdet : L.det ≠ 0) {ε : ℝ} (h0 : 0 < ε) (h1 : ε < 1)
    (hgap : EdgesResolved L ε)
    {d : ℕ} (hd : (smallerSums L).ncard ≤ d) :
    ∃ r, nigLoop (some ε) (4 * d + 4) ⟨L.transpose * L, 1⟩ = .ret r := by
  set s0 : NigState ℝ := ⟨L.transpose * L, 1⟩ with hs0
  have hsym : s0.Sym := by
    refine ⟨?_, ?_, ?_⟩ <;> simp [hs0, Mat3.transpose] <;> ring
  have t0 : s0.tr = edgeSum L := tr_metric _ _
  let I : NigState ℝ → Prop := fun st => ∃ N : Mat3 ℤ, N.det = 1 ∧ st = s0.step (castM N) ∧ st.tr ≤ s0.tr
  have tN : ∀ N : Mat3 ℤ, (s0.step (castM N)).tr = edgeSum (L * castM N) := by
    intro N
    rw [hs0, step_metric, tr_metric]
  have good : ∀ st, I st → Gapped' ε st := by
    rintro st ⟨N, hN, rfl, ht⟩
    rw [tN, t0] at ht
    have hdN : (L * castM N).det ≠ 0 := by
      rw [Mat3.det_mul, castM, intCast_det, hN]; simpa using hdet
    have g := hgap N (.inl hN) ht
    rw [hs0, step_metric]
    obtain ⟨pa, pb, pc, px, pe, pz⟩ := metric_params (L * castM N) (castM N)
    have e : edgeDifferences (lenSq (L * castM N).col0) (lenSq (L * castM N).col1) (lenSq (L * castM N).col2)
        (2 * dotp (L * castM N).col1 (L * castM N).col2) (2 * dotp (L * castM N).col0 (L * castM N).col2)
        (2 * dotp (L * castM N).col0 (L * castM N).col1) =
        nigDiffs (⟨(L * castM N).transpose * (L * castM N), castM N⟩ : NigState ℝ) ++
        [|2 * dotp (L * castM N).col1 (L * castM N).col2| - |2 * dotp (L * castM N).col0 (L * castM N).col2|,
         |2 * dotp (L * castM N).col0 (L * castM N).col2| - |2 * dotp (L * castM N).col0 (L * castM N).col1|,
         |2 * dotp (L * castM N).col1 (L * castM N).col2| - lenSq (L * castM N).col1] := by
      simp only [nigDiffs, boolSum, pa, pb, pc, px, pe, pz]
      rfl
    have g : ∀ q ∈ edgeDifferences (lenSq (L * castM N).col0) (lenSq (L * castM N).col1) (lenSq (L * castM N).col2)
        (2 * dotp (L * castM N).col1 (L * castM N).col2) (2 * dotp (L * castM N).col0 (L * castM N).col2)
        (2 * dotp (L * castM N).col0 (L * castM N).col1), q = 0 ∨ ε < |q| := g
    rw [e] at g
    have hq : ∀ q ∈ nigDiffs (⟨(L * castM N).transpose * (L * castM N), castM N⟩ : NigState ℝ), q = 0 ∨ ε < |q| :=
      fun q hq => g q (List.mem_append_left _ hq)
    refine ⟨⟨?_, ?_, hq⟩, ?_, fun q hq => g q (List.mem_append_right _ ?_)⟩
    · rw [pa]
      have := lenSq_cell_pos hdN (v := ⟨1, 0, 0⟩) (by simp)
      have e : (L * castM N) * (castV ⟨1, 0, 0⟩ : Vec3 ℝ) = (L * castM N).col0 := by ext <;> simp [castV, Mat3.col0]
      rwa [e] at this
    · rw [pb]
      have := lenSq_cell_pos hdN (v := ⟨0, 1, 0⟩) (by simp)
      have e : (L * castM N) * (castV ⟨0, 1, 0⟩ : Vec3 ℝ) = (L * castM N).col1 := by ext <;> simp [castV, Mat3.col1]
      rwa [e] at this
    · rw [pa, pb, pz]
      exact metric_zeta hdN
    · rw [px, pe, pz, pb] at hq
      exact hq
  have closed : ∀ st, I st → ∀ M, IsUnimodularPos M → (st.step M).tr ≤ st.tr → I (st.step M) := by
    rintro st ⟨N, hN, rfl, ht⟩ M ⟨m, hm, rfl⟩ ht'
    refine ⟨N * m, by rw [Mat3.det_mul, hN, hm]; rfl, ?_, ht'.trans ht⟩
    rw [step_step]
    congr 1
    exact (map_intCast_mul N m).symm
  have hsymI : ∀ st, I st → st.Sym := by
    rintro st ⟨N, -, rfl, -⟩
    exact sym_step hsym _
  have hfin : (insert (edgeSum L) (smallerSums L)).Finite := by
    refine Set.Finite.insert _ (((finite_trace hdet (edgeSum L)).image fun N => edgeSum (L * castM N)).subset ?_)
    rintro t ⟨ht, N, hN, rfl⟩
    exact ⟨N, by show (s0.step (castM N)).tr ≤ _; rw [tN]; exact ht.le, rfl⟩
  have h1I : I s0 := by
    refine ⟨1, by simp, ?_, le_refl _⟩
    have : (castM (1 : Mat3 ℤ) : Mat3 ℝ) = 1 := by
      ext <;> simp [castM, Mat3.map]
    rw [this, step_one]
  refine nigLoop_sums h0 h1 (I := I) hsymI (fun st hst N hN ht => good _ (closed st hst N hN ht.le)) ?_
    hfin.toFinset ?_ d s0 h1I ?_
  · intro st st' hst hi
    have hlt := nigIter_decreases h0 h1 (hsymI st hst) (fun M hM ht => (good _ (closed st hst M hM ht.le)).1) hi
    have htr : st'.tr ≤ st.tr := by
      rcases nigRank_lt.1 hlt with h | ⟨h, -⟩
      · exact h.le
      · exact h.le
    refine ⟨?_, htr⟩
    obtain ⟨M, hM, e⟩ := nigIter_reach IsUnimodularPos (fun _ _ => IsUnimodularPos.mul) isUnimodularPos_one
      (fun _ h => h) (some ε) (fun _ _ _ => c34_pos (signs_isSign _ _ _ _)
        (signs_prod (by intro x hx; cases hx; exact ⟨h0.le, h1⟩) _ _ _)) st
    rw [hi] at e
    simp only [Sum.inl.injEq, reduceCtorEq, or_false] at e
    subst e
    exact closed st hst M hM htr
  · rintro st ⟨N, hN, rfl, ht⟩
    rw [Set.Finite.mem_toFinset, tN]
    rw [tN, t0] at ht
    rcases lt_or_eq_of_le ht with h | h
    · exact .inr ⟨h, N, .inl hN, rfl⟩
    · exact .inl h
  · refine le_trans ?_ hd
    have hf2 : (smallerSums L).Finite := hfin.subset (Set.subset_insert _ _)
    rw [Set.ncard_eq_toFinset_card _ hf2]
    refine Finset.card_le_card fun x hx => ?_
    rw [Finset.mem_filter, Set.Finite.mem_toFinset, t0] at hx
    rw [Set.Finite.mem_toFinset]
    rcases hx.1 with h | h
    · exact absurd hx.2 (by rw [h]; exact lt_irrefl _)
    · exact h

end CrystSymm
