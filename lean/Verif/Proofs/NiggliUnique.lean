import Verif.Proofs.NiggliCertData
import Verif.Proofs.NiggliMin
import Verif.Spec.Niggli
import Verif.Proofs.Niggli
import Verif.Proofs.ChangeBasis

set_option autoImplicit false
set_option linter.unusedSectionVars false

/-! # Two exact Niggli cells of the same lattice have the same six parameters -/

namespace CrystSymm.NiggliCert

open Spec NiggliMin

variable {K : Type} [Field K] [LinearOrder K] [IsStrictOrderedRing K]

/-- the six parameters of a cell. -/
def sixOf (L : Mat3 K) : Six K :=
  ⟨lenSq L.col0, lenSq L.col1, lenSq L.col2, 2 * dotp L.col1 L.col2, 2 * dotp L.col0 L.col2, 2 * dotp L.col0 L.col1⟩

def castV (v : Vec3 ℤ) : Vec3 K := ⟨v.x, v.y, v.z⟩

theorem qForm_eval (L : Mat3 K) (v : Vec3 ℤ) : (qForm v).eval (sixOf L) = lenSq (L * (castV v : Vec3 K)) := by
  have hm : ∀ w : Vec3 K, L * w = ⟨L.m11 * w.x + L.m12 * w.y + L.m13 * w.z,
    L.m21 * w.x + L.m22 * w.y + L.m23 * w.z, L.m31 * w.x + L.m32 * w.y + L.m33 * w.z⟩ := fun _ => rfl
  rw [hm]
  simp only [Form.eval, qForm, sixOf, lenSq, dotp, Mat3.col0, Mat3.col1, Mat3.col2, castV]
  push_cast
  ring

theorem bForm_eval (L : Mat3 K) (u v : Vec3 ℤ) :
    (bForm u v).eval (sixOf L) = 2 * dotp (L * (castV u : Vec3 K)) (L * (castV v : Vec3 K)) := by
  have hm : ∀ w : Vec3 K, L * w = ⟨L.m11 * w.x + L.m12 * w.y + L.m13 * w.z,
    L.m21 * w.x + L.m22 * w.y + L.m23 * w.z, L.m31 * w.x + L.m32 * w.y + L.m33 * w.z⟩ := fun _ => rfl
  rw [hm, hm]
  simp only [Form.eval, bForm, sixOf, lenSq, dotp, Mat3.col0, Mat3.col1, Mat3.col2, castV]
  push_cast
  ring

theorem lin_eval (a b c x y z : ℤ) (f : Six Form) (g : Six K) : (Form.lin a b c x y z f).eval g =
    a * f.A.eval g + b * f.B.eval g + c * f.C.eval g + x * f.X.eval g + y * f.Y.eval g + z * f.Z.eval g := by
  simp only [Form.lin, Form.eval_add, Form.eval_smul]

/-- the system of a cell of type I or II from the exact Niggli conditions. -/
theorem sysHolds_of {f : Six Form} {g : Six K} (hA : 0 < f.A.eval g)
    (h : NiggliParams 0 (f.A.eval g) (f.B.eval g) (f.C.eval g) (f.X.eval g) (f.Y.eval g) (f.Z.eval g)) :
    ∃ t, SysHolds t f g ∧ (t = true → 0 < f.X.eval g ∧ 0 < f.Y.eval g ∧ 0 < f.Z.eval g) ∧
      (t = false → f.X.eval g ≤ 0 ∧ f.Y.eval g ≤ 0 ∧ f.Z.eval g ≤ 0) := by
  have hab := h.ab
  have hbc := h.bc
  have hx := h.xi
  have hy := h.eta
  have hz := h.zeta
  rw [abs_le] at hx hy hz
  have key : ∀ {a : K}, a = 0 → |a| ≤ 0 := fun h => by rw [h, abs_zero]
  rcases h.signs with ⟨sx, sy, sz⟩ | ⟨sx, sy, sz⟩
  · refine ⟨true, ⟨?_, ?_⟩, fun _ => ⟨sx, sy, sz⟩, fun h => by cases h⟩
    · simp only [sysFacts, List.forall_mem_cons, FactHolds, Form.eval_sub]
      refine ⟨hA, ?_, ?_, sx, sy, sz, ?_, ?_, ?_, fun x hx => by cases hx⟩ <;> linarith
    · simp only [sysRules, List.forall_mem_cons, RuleHolds, Form.eval_sub, lin_eval]
      refine ⟨⟨by linarith, fun e => ?_⟩, ⟨by linarith, fun e => ?_⟩, ⟨by linarith, fun e => ?_⟩,
        ⟨by linarith, fun e => ?_⟩, ⟨by linarith, fun e => ?_⟩, fun x hx => by cases hx⟩
      · have := h.ab_eq (key (by linarith))
        rw [abs_of_pos sx, abs_of_pos sy] at this
        linarith
      · have := h.bc_eq (key (by linarith))
        rw [abs_of_pos sy, abs_of_pos sz] at this
        linarith
      · have := h.xi_eq (key (by linarith))
        push_cast; linarith
      · have := h.eta_eq (key (by linarith))
        push_cast; linarith
      · have := h.zeta_eq (key (by linarith))
        push_cast; linarith
  · refine ⟨false, ⟨?_, ?_⟩, (fun h => by cases h), fun _ => ⟨sx, sy, sz⟩⟩
    · simp only [sysFacts, List.forall_mem_cons, FactHolds, Form.eval_sub, Form.eval_neg, Form.eval_add, lin_eval]
      have := h.sum
      push_cast
      refine ⟨hA, ?_, ?_, ?_, ?_, ?_, ?_, ?_, ?_, ?_, fun x hx => by cases hx⟩ <;> linarith
    · simp only [sysRules, List.forall_mem_cons, RuleHolds, Form.eval_sub, Form.eval_add, lin_eval]
      have hsum := h.sum
      push_cast
      refine ⟨⟨by linarith, fun e => ?_⟩, ⟨by linarith, fun e => ?_⟩, ⟨by linarith, fun e => ?_⟩,
        ⟨by linarith, fun e => ?_⟩, ⟨by linarith, fun e => ?_⟩, ⟨by linarith, fun e => ?_⟩, fun x hx => by cases hx⟩
      · have := h.ab_eq (key (by linarith))
        rw [abs_of_nonpos sx, abs_of_nonpos sy] at this
        linarith
      · have := h.bc_eq (key (by linarith))
        rw [abs_of_nonpos sy, abs_of_nonpos sz] at this
        linarith
      · have := abs_le.1 (h.xi_neg (key (by linarith)))
        linarith
      · have := abs_le.1 (h.eta_neg (key (by linarith)))
        linarith
      · have := abs_le.1 (h.zeta_neg (key (by linarith)))
        linarith
      · have := h.sum_eq (key (by linarith))
        linarith

/-- lower bounds for the squared length of an integer vector in an exact Niggli cell. -/
theorem niggli_min {g : Six K} (hA : 0 < g.A) (h : NiggliParams 0 g.A g.B g.C g.X g.Y g.Z) (v : Vec3 ℤ) :
    (v.z ≠ 0 → g.C ≤ (qForm v).eval g ∧ ((qForm v).eval g = g.C → SmallZ v.x v.y v.z)) ∧
    (v.z = 0 → v.y ≠ 0 → g.B ≤ (qForm v).eval g ∧ ((qForm v).eval g = g.B → SmallZ v.x v.y v.z)) ∧
    (v.z = 0 → v.y = 0 → (qForm v).eval g = g.A * (v.x * v.x)) := by
  have hab : g.A ≤ g.B := by simpa using h.ab
  have hbc : g.B ≤ g.C := by simpa using h.bc
  have hx := h.xi
  have hy := h.eta
  have hz := h.zeta
  have hs := h.sum
  rw [abs_le] at hx hy hz
  refine ⟨fun hv => ?_, fun hv hv' => ?_, fun hv hv' => ?_⟩
  · rcases h.signs with ⟨sx, sy, sz⟩ | ⟨sx, sy, sz⟩
    · obtain ⟨m1, m2⟩ := min3_I (K := K) hA hab hbc sx sy sz (by linarith) (by linarith) (by linarith) v.x v.y (-v.z)
        (neg_ne_zero.2 hv)
      have e : (qForm v).eval g = g.A * (v.x * v.x) + g.B * (v.y * v.y) + g.C * (((-v.z : ℤ) : K) * ((-v.z : ℤ) : K))
          - g.X * (v.y * ((-v.z : ℤ) : K)) - g.Y * (v.x * ((-v.z : ℤ) : K)) + g.Z * (v.x * v.y) := by
        simp only [Form.eval, qForm]; push_cast; ring
      rw [e]
      refine ⟨m1, fun h => ?_⟩
      have := m2 h
      unfold SmallZ at this ⊢
      omega
    · obtain ⟨m1, m2⟩ := min3_II (K := K) (p := -g.X) (q := -g.Y) (r := -g.Z) hA hab hbc (by linarith) (by linarith)
        (by linarith) (by linarith) (by linarith) (by linarith) (by linarith) v.x v.y v.z hv
      have e : (qForm v).eval g = g.A * (v.x * v.x) + g.B * (v.y * v.y) + g.C * (v.z * v.z)
          - (-g.X) * (v.y * v.z) - (-g.Y) * (v.x * v.z) - (-g.Z) * (v.x * v.y) := by
        simp only [Form.eval, qForm]; push_cast; ring
      rw [e]
      exact ⟨m1, m2⟩
  · rcases h.signs with ⟨sx, sy, sz⟩ | ⟨sx, sy, sz⟩
    · obtain ⟨m1, m2⟩ := min2 (K := K) (r := g.Z) hA hab sz.le (by linarith) (-v.x) v.y hv'
      have e : (qForm v).eval g = g.A * (((-v.x : ℤ) : K) * ((-v.x : ℤ) : K)) + g.B * (v.y * v.y)
          - g.Z * (((-v.x : ℤ) : K) * v.y) := by
        simp only [Form.eval, qForm, hv]; push_cast; ring
      rw [e]
      refine ⟨m1, fun h => ?_⟩
      have := m2 h
      unfold SmallZ at this ⊢
      omega
    · obtain ⟨m1, m2⟩ := min2 (K := K) (r := -g.Z) hA hab (by linarith) (by linarith) v.x v.y hv'
      have e : (qForm v).eval g = g.A * (v.x * v.x) + g.B * (v.y * v.y) - (-g.Z) * (v.x * v.y) := by
        simp only [Form.eval, qForm, hv]; push_cast; ring
      rw [e]
      refine ⟨m1, fun h => ?_⟩
      have := m2 h
      unfold SmallZ at this ⊢
      omega
  · simp only [Form.eval, qForm, hv, hv']; push_cast; ring

/-- successive minima: no basis is shorter. -/
theorem minima_le {g : Six K} (hA : 0 < g.A) (h : NiggliParams 0 g.A g.B g.C g.X g.Y g.Z) {u v w : Vec3 ℤ}
    (hd : det3 u v w ≠ 0) (h1 : (qForm u).eval g ≤ (qForm v).eval g) (h2 : (qForm v).eval g ≤ (qForm w).eval g) :
    g.A ≤ (qForm u).eval g ∧ g.B ≤ (qForm v).eval g ∧ g.C ≤ (qForm w).eval g := by
  have hab : g.A ≤ g.B := by simpa using h.ab
  have hbc : g.B ≤ g.C := by simpa using h.bc
  have mu := niggli_min hA h u
  have mv := niggli_min hA h v
  have mw := niggli_min hA h w
  have low : ∀ t : Vec3 ℤ, (qForm t).eval g < g.B → t.z = 0 ∧ t.y = 0 := by
    intro t ht
    obtain ⟨m1, m2, -⟩ := niggli_min hA h t
    have hz : t.z = 0 := by
      by_contra hz
      linarith [(m1 hz).1]
    refine ⟨hz, ?_⟩
    by_contra hy
    linarith [(m2 hz hy).1]
  have low3 : ∀ t : Vec3 ℤ, (qForm t).eval g < g.C → t.z = 0 := by
    intro t ht
    by_contra hz
    linarith [((niggli_min hA h t).1 hz).1]
  refine ⟨?_, ?_, ?_⟩
  · by_contra hc
    have hc := not_le.1 hc
    obtain ⟨hz, hy⟩ := low u (by linarith)
    have e := mu.2.2 hz hy
    have hx : u.x ≠ 0 := by
      intro hx
      simp only [det3, hx, hy, hz] at hd
      ring_nf at hd
      exact hd rfl
    have := mul_le_mul_of_nonneg_left (sq_ge (K := K) hx) hA.le
    linarith
  · by_contra hc
    have hc := not_le.1 hc
    obtain ⟨hz, hy⟩ := low v (by linarith)
    obtain ⟨hz', hy'⟩ := low u (by linarith)
    simp only [det3, hy, hz, hy', hz'] at hd
    ring_nf at hd
    exact hd rfl
  · by_contra hc
    have hc := not_le.1 hc
    have e1 := low3 u (by linarith)
    have e2 := low3 v (by linarith)
    have e3 := low3 w hc
    simp only [det3, e1, e2, e3] at hd
    ring_nf at hd
    exact hd rfl

theorem small_mem {v : Vec3 ℤ} (h : SmallZ v.x v.y v.z) (h0 : ¬ (v.x = 0 ∧ v.y = 0 ∧ v.z = 0)) : v ∈ smallVecs := by
  obtain ⟨x, y, z⟩ := v
  obtain ⟨⟨a1, a2⟩, ⟨b1, b2⟩, c1, c2⟩ := h
  simp only at a1 a2 b1 b2 c1 c2 h0
  interval_cases x <;> interval_cases y <;> interval_cases z <;> first | decide | simp at h0

/-- axes that attain the minima have coordinates in `{-1, 0, 1}`. -/
theorem minima_small {g : Six K} (hA : 0 < g.A) (h : NiggliParams 0 g.A g.B g.C g.X g.Y g.Z) {u v w : Vec3 ℤ}
    (hd : det3 u v w = 1) (h1 : (qForm u).eval g = g.A) (h2 : (qForm v).eval g = g.B)
    (h3 : (qForm w).eval g = g.C) : u ∈ smallVecs ∧ v ∈ smallVecs ∧ w ∈ smallVecs := by
  have hab : g.A ≤ g.B := by simpa using h.ab
  have hbc : g.B ≤ g.C := by simpa using h.bc
  have one : ∀ t : Vec3 ℤ, t.y = 0 → t.z = 0 → (∃ k, det3 u v w = t.x * k) → SmallZ t.x t.y t.z := by
    rintro t hy hz ⟨k, hk⟩
    rw [hd] at hk
    have := Int.isUnit_iff.1 (IsUnit.of_mul_eq_one k hk.symm)
    unfold SmallZ
    omega
  have small : ∀ t : Vec3 ℤ, (qForm t).eval g ≤ g.B → (t.y = 0 → t.z = 0 → ∃ k, det3 u v w = t.x * k) →
      SmallZ t.x t.y t.z := by
    intro t ht hk
    obtain ⟨m1, m2, -⟩ := niggli_min hA h t
    by_cases hz : t.z = 0
    · by_cases hy : t.y = 0
      · exact one t hy hz (hk hy hz)
      · exact (m2 hz hy).2 (le_antisymm ht (m2 hz hy).1)
    · have := (m1 hz).1
      exact (m1 hz).2 (le_antisymm (by linarith) this)
  have su : SmallZ u.x u.y u.z := small u (by linarith) fun hy hz => ⟨v.y * w.z - v.z * w.y, by
    simp only [det3, hy, hz]; ring⟩
  have sv : SmallZ v.x v.y v.z := small v h2.le fun hy hz => ⟨-(u.y * w.z - u.z * w.y), by
    simp only [det3, hy, hz]; ring⟩
  have kw : w.y = 0 → w.z = 0 → ∃ k, det3 u v w = w.x * k := fun hy hz => ⟨u.y * v.z - u.z * v.y, by
    simp only [det3, hy, hz]; ring⟩
  have sw : SmallZ w.x w.y w.z := by
    by_cases hz : w.z = 0
    · refine small w ?_ kw
      by_contra hc
      have hc := not_le.1 hc
      have low3 : ∀ t : Vec3 ℤ, (qForm t).eval g < g.C → t.z = 0 := by
        intro t ht
        by_contra hz
        linarith [((niggli_min hA h t).1 hz).1]
      have e1 := low3 u (by linarith)
      have e2 := low3 v (by linarith)
      simp only [det3, e1, e2, hz] at hd
      ring_nf at hd
      omega
    · exact ((niggli_min hA h w).1 hz).2 h3
  refine ⟨small_mem su ?_, small_mem sv ?_, small_mem sw ?_⟩ <;> rintro ⟨a, b, c⟩ <;>
    simp only [det3, a, b, c] at hd <;> ring_nf at hd <;> omega

theorem check1_all (t : Bool) {u : Vec3 ℤ} (hu : u ∈ smallVecs) : ∃ s s', check1 t u s = some s' := by
  have h : checkAll t = true := by cases t; exacts [checkAll_false, checkAll_true]
  unfold checkAll at h
  rw [List.all_eq_true] at h
  have hl : smallVecs.length ≤ (certs t).length := by cases t <;> decide
  obtain ⟨n, hn, rfl⟩ := List.getElem_of_mem hu
  have := h (smallVecs[n], (certs t)[n]) (List.mem_iff_getElem.2 ⟨n, by
    rw [List.length_zip]; omega, by simp⟩)
  obtain ⟨s', hs'⟩ := Option.isSome_iff_exists.1 this
  exact ⟨_, s', hs'⟩

/-! ## cells -/

/-- an integer matrix as a matrix over `K`. -/
def castM (U : Mat3 ℤ) : Mat3 K := U.map fun k : ℤ => (k : K)

theorem newForms_eval (L : Mat3 K) (U : Mat3 ℤ) :
    (newForms U.col0 U.col1 U.col2).A.eval (sixOf L) = (sixOf (L * castM U)).A ∧
    (newForms U.col0 U.col1 U.col2).B.eval (sixOf L) = (sixOf (L * castM U)).B ∧
    (newForms U.col0 U.col1 U.col2).C.eval (sixOf L) = (sixOf (L * castM U)).C ∧
    (newForms U.col0 U.col1 U.col2).X.eval (sixOf L) = (sixOf (L * castM U)).X ∧
    (newForms U.col0 U.col1 U.col2).Y.eval (sixOf L) = (sixOf (L * castM U)).Y ∧
    (newForms U.col0 U.col1 U.col2).Z.eval (sixOf L) = (sixOf (L * castM U)).Z :=
  ⟨qForm_eval L _, qForm_eval L _, qForm_eval L _, bForm_eval L _ _, bForm_eval L _ _, bForm_eval L _ _⟩

theorem det3_cols (U : Mat3 ℤ) : det3 U.col0 U.col1 U.col2 = U.det := by
  simp only [det3, Mat3.col0, Mat3.col1, Mat3.col2, Mat3.det]

/-- all six parameters, in one direction. -/
def SixLe (g h : Six K) : Prop := g.A ≤ h.A ∧ g.B ≤ h.B ∧ g.C ≤ h.C ∧ g.X ≤ h.X ∧ g.Y ≤ h.Y ∧ g.Z ≤ h.Z

theorem minima_cell {L : Mat3 K} (hA : 0 < lenSq L.col0) (h : NiggliCell 0 L) {U : Mat3 ℤ} (hd : U.det ≠ 0)
    (h' : NiggliCell 0 (L * castM U)) :
    (sixOf L).A ≤ (sixOf (L * castM U)).A ∧ (sixOf L).B ≤ (sixOf (L * castM U)).B ∧
      (sixOf L).C ≤ (sixOf (L * castM U)).C := by
  obtain ⟨eA, eB, eC, -, -, -⟩ := newForms_eval L U
  rw [← eA, ← eB, ← eC]
  have h1 := h'.ab
  have h2 := h'.bc
  rw [add_zero] at h1 h2
  refine minima_le (g := sixOf L) hA h (by rw [det3_cols]; exact hd) ?_ ?_
  · exact (eA.trans_le h1).trans_eq eB.symm
  · exact (eB.trans_le h2).trans_eq eC.symm

theorem products_pos {L : Mat3 K} (hA : 0 < lenSq L.col0) (h : NiggliCell 0 L) {U : Mat3 ℤ} (hd : U.det = 1)
    (h' : NiggliCell 0 (L * castM U)) (e1 : (sixOf (L * castM U)).A = (sixOf L).A)
    (e2 : (sixOf (L * castM U)).B = (sixOf L).B) (e3 : (sixOf (L * castM U)).C = (sixOf L).C) :
    (sixOf L).X ≤ (sixOf (L * castM U)).X ∧ (sixOf L).Y ≤ (sixOf (L * castM U)).Y ∧
      (sixOf L).Z ≤ (sixOf (L * castM U)).Z := by
  obtain ⟨eA, eB, eC, eX, eY, eZ⟩ := newForms_eval L U
  have hd3 : det3 U.col0 U.col1 U.col2 = 1 := by rw [det3_cols]; exact hd
  obtain ⟨mu, mv, mw⟩ := minima_small (g := sixOf L) hA h hd3 (eA.trans e1) (eB.trans e2) (eC.trans e3)
  have hb : ∀ g : Six K, base.A.eval g = g.A ∧ base.B.eval g = g.B ∧ base.C.eval g = g.C ∧ base.X.eval g = g.X ∧
      base.Y.eval g = g.Y ∧ base.Z.eval g = g.Z := by
    intro g
    refine ⟨?_, ?_, ?_, ?_, ?_, ?_⟩ <;> simp [base, Form.eval]
  obtain ⟨b1, b2, b3, b4, b5, b6⟩ := hb (sixOf L)
  obtain ⟨t, ht, -⟩ := sysHolds_of (f := base) (g := sixOf L) (by rw [b1]; exact hA)
    (by rw [b1, b2, b3, b4, b5, b6]; exact h)
  obtain ⟨t2, ht2, -⟩ := sysHolds_of (f := newForms U.col0 U.col1 U.col2) (g := sixOf L)
    (by rw [eA, e1]; exact hA) (by rw [eA, eB, eC, eX, eY, eZ]; exact h')
  obtain ⟨s, s', hs⟩ := check1_all t mu
  obtain ⟨-, k1, k2, k3⟩ := check1_sound hs mv mw hd3 ht (eA.trans e1) (eB.trans e2) (eC.trans e3) ht2
  exact ⟨k1.trans_eq eX, k2.trans_eq eY, k3.trans_eq eZ⟩

theorem products_le {L : Mat3 K} (hA : 0 < lenSq L.col0) (h : NiggliCell 0 L) {U : Mat3 ℤ}
    (hd : U.det = 1 ∨ U.det = -1)
    (h' : NiggliCell 0 (L * castM U)) (e1 : (sixOf (L * castM U)).A = (sixOf L).A)
    (e2 : (sixOf (L * castM U)).B = (sixOf L).B) (e3 : (sixOf (L * castM U)).C = (sixOf L).C) :
    (sixOf L).X ≤ (sixOf (L * castM U)).X ∧ (sixOf L).Y ≤ (sixOf (L * castM U)).Y ∧
      (sixOf L).Z ≤ (sixOf (L * castM U)).Z := by
  rcases hd with hd | hd
  · exact products_pos hA h hd h' e1 e2 e3
  · have hs : sixOf (L * castM (U.map fun k => -k)) = sixOf (L * castM U) := by
      simp only [sixOf, Six.mk.injEq]
      refine ⟨?_, ?_, ?_, ?_, ?_, ?_⟩ <;> simp [lenSq, dotp, Mat3.col0, Mat3.col1, Mat3.col2, castM, Mat3.map] <;> ring
    have hn : NiggliCell 0 (L * castM (U.map fun k => -k)) := by
      have : NiggliParams 0 (sixOf (L * castM (U.map fun k => -k))).A (sixOf (L * castM (U.map fun k => -k))).B
        (sixOf (L * castM (U.map fun k => -k))).C (sixOf (L * castM (U.map fun k => -k))).X
        (sixOf (L * castM (U.map fun k => -k))).Y (sixOf (L * castM (U.map fun k => -k))).Z := by
        rw [hs]; exact h'
      exact this
    have := products_pos hA h (U := U.map fun k => -k) (by
      simp only [Mat3.det, Mat3.map] at hd ⊢
      linarith) hn (by rw [hs]; exact e1) (by rw [hs]; exact e2) (by rw [hs]; exact e3)
    rwa [hs] at this

/-- two exact Niggli cells of the same lattice have the same parameters. -/
theorem niggli_unique {L : Mat3 K} {U : Mat3 ℤ} (hdet : L.det ≠ 0) (hd : U.det = 1 ∨ U.det = -1) (h : NiggliCell 0 L)
    (h' : NiggliCell 0 (L * castM U)) : sixOf (L * castM U) = sixOf L := by
  obtain ⟨V, hV1, hV2, hVd⟩ := unimodular_inverse hd
  have hcast : castM U * castM V = (1 : Mat3 K) := by
    have e : castM (U * V) = castM U * (castM V : Mat3 K) := map_intCast_mul U V
    rw [← e, hV1]
    ext <;> simp [castM, Mat3.map]
  have hLV : L * castM U * castM V = L := by rw [mul_assoc, hcast, mul_one]
  have pos : ∀ M : Mat3 K, M.det ≠ 0 → 0 < lenSq M.col0 := by
    intro M hM
    by_contra hc
    have h1 := mul_self_nonneg M.m11
    have h2 := mul_self_nonneg M.m21
    have h3 := mul_self_nonneg M.m31
    simp only [lenSq, Mat3.col0] at hc
    have e1 : M.m11 = 0 := mul_self_eq_zero.1 (by linarith)
    have e2 : M.m21 = 0 := mul_self_eq_zero.1 (by linarith)
    have e3 : M.m31 = 0 := mul_self_eq_zero.1 (by linarith)
    exact hM (by simp [Mat3.det, e1, e2, e3])
  have hdet' : (L * castM U).det ≠ 0 := by
    intro h0
    apply hdet
    rw [← hLV, Mat3.det_mul, h0, zero_mul]
  have hU0 : U.det ≠ 0 := by omega
  have hV0 : V.det ≠ 0 := by omega
  obtain ⟨a1, a2, a3⟩ := minima_cell (pos L hdet) h hU0 h'
  have hn : NiggliCell 0 (L * castM U * castM V) := by rw [hLV]; exact h
  obtain ⟨b1, b2, b3⟩ := minima_cell (pos _ hdet') h' hV0 hn
  rw [hLV] at b1 b2 b3
  have e1 := le_antisymm b1 a1
  have e2 := le_antisymm b2 a2
  have e3 := le_antisymm b3 a3
  obtain ⟨a4, a5, a6⟩ := products_le (pos L hdet) h hd h' e1 e2 e3
  have hdV : V.det = 1 ∨ V.det = -1 := by rw [hVd]; exact hd
  obtain ⟨b4, b5, b6⟩ := products_le (pos _ hdet') h' hdV hn (by rw [hLV, e1]) (by rw [hLV, e2]) (by rw [hLV, e3])
  rw [hLV] at b4 b5 b6
  have e4 := le_antisymm b4 a4
  have e5 := le_antisymm b5 a5
  have e6 := le_antisymm b6 a6
  generalize sixOf (L * castM U) = g at *
  generalize sixOf L = g' at *
  obtain ⟨_, _, _, _, _, _⟩ := g
  obtain ⟨_, _, _, _, _, _⟩ := g'
  simp only at e1 e2 e3 e4 e5 e6
  subst e1 e2 e3 e4 e5 e6
  rfl

end CrystSymm.NiggliCert
