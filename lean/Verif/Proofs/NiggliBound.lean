import Verif.Proofs.NiggliUnique
import Mathlib.Order.Interval.Set.Infinite
import Mathlib.Data.Set.Finite.Lattice
import Mathlib.Data.Int.Interval
import Mathlib.Order.Interval.Finset.Defs

set_option autoImplicit false
set_option linter.unusedSectionVars false

/-! # For small tolerances a cell that is a Niggli cell within the tolerance is an exact one

A lattice has finitely many cells that satisfy the Niggli conditions within a small tolerance, because their edges are
bounded by the volume and the shortest vector. -/

namespace CrystSymm.NiggliCert

open Spec NiggliMin

section
variable {K : Type} [Field K] [LinearOrder K] [IsStrictOrderedRing K]

/-- the conditions are closed: if they hold within arbitrarily small tolerances they hold exactly. -/
theorem niggliParams_limit {A B C ξ η ζ : K} (h : ∀ δ > 0, ∃ ε, 0 < ε ∧ ε < δ ∧ NiggliParams ε A B C ξ η ζ) :
    NiggliParams 0 A B C ξ η ζ := by
  have le : ∀ {x y : K}, (∀ ε, 0 < ε → NiggliParams ε A B C ξ η ζ → x ≤ y + ε) → x ≤ y + 0 := by
    intro x y hxy
    by_contra hc
    have hc := not_le.1 hc
    obtain ⟨ε, h0, h1, h2⟩ := h (x - y) (by linarith)
    linarith [hxy ε h0 h2]
  have le' : ∀ {x : K}, (∀ ε, 0 < ε → NiggliParams ε A B C ξ η ζ → x ≤ ε) → x ≤ 0 := by
    intro x hx
    have := le (x := x) (y := 0) (by simpa using hx)
    simpa using this
  have zle : ∀ {x ε : K}, 0 < ε → x ≤ 0 → x ≤ ε := fun h h' => h'.trans h.le
  refine ⟨le fun _ _ h => h.ab, le fun _ _ h => h.bc, fun e => le fun _ h0 h => h.ab_eq (zle h0 e),
    fun e => le fun _ h0 h => h.bc_eq (zle h0 e), le fun _ _ h => h.xi, le fun _ _ h => h.eta,
    le fun _ _ h => h.zeta, ?_, ?_, fun e => le fun _ h0 h => h.xi_eq (zle h0 e),
    fun e => le fun _ h0 h => h.eta_eq (zle h0 e), fun e => le fun _ h0 h => h.zeta_eq (zle h0 e),
    fun e => le' fun _ h0 h => h.xi_neg (zle h0 e), fun e => le' fun _ h0 h => h.eta_neg (zle h0 e),
    fun e => le' fun _ h0 h => h.zeta_neg (zle h0 e), fun e => le' fun _ h0 h => h.sum_eq (zle h0 e)⟩
  · have := le' (x := -(ξ + η + ζ + A + B)) fun ε _ h => by linarith [h.sum]
    linarith
  · by_cases hp : 0 < ξ ∧ 0 < η ∧ 0 < ζ
    · exact .inl hp
    · have := fun ε (h : NiggliParams ε A B C ξ η ζ) => h.signs.resolve_left hp
      exact .inr ⟨le' fun ε _ h => (this ε h).1, le' fun ε _ h => (this ε h).2.1, le' fun ε _ h => (this ε h).2.2⟩

theorem niggliParams_gap (A B C ξ η ζ : K) :
    ∃ δ > 0, ∀ ε, 0 < ε → ε < δ → NiggliParams ε A B C ξ η ζ → NiggliParams 0 A B C ξ η ζ := by
  by_contra hc
  push Not at hc
  obtain ⟨ε, h0, h1, h2, h3⟩ := hc 1 one_pos
  refine h3 (niggliParams_limit fun δ hδ => ?_)
  obtain ⟨ε, h0, h1, h2, -⟩ := hc δ hδ
  exact ⟨ε, h0, h1, h2⟩

/-- the quadratic form in the products, type II. -/
theorem form_le {A B p q r : K} (hq : 0 ≤ q) (hp : 0 ≤ p) (hpB : p ≤ B) (hqA : q ≤ A)
    (hs : p + q + r ≤ A + B) : A * (p * p) + B * (q * q) + p * q * r ≤ A * B * (A + B) := by
  have h1 : p * q * r ≤ p * q * (A + B - p - q) := mul_le_mul_of_nonneg_left (by linarith) (mul_nonneg hp hq)
  have hA : 0 ≤ A := hq.trans hqA
  have hB : 0 ≤ B := hp.trans hpB
  have h2 : 0 ≤ A * B * (A - q) := mul_nonneg (mul_nonneg hA hB) (by linarith)
  have h3 : 0 ≤ (B - p) * ((A - q) * (B + p) + q * (A + B - q)) :=
    mul_nonneg (by linarith) (add_nonneg (mul_nonneg (by linarith) (by linarith)) (mul_nonneg hq (by linarith)))
  nlinarith

set_option maxHeartbeats 1000000 in
/-- the volume of a Niggli cell (within a small tolerance) is not small compared with its edges. -/
theorem edges_le_volume {A B C ξ η ζ ε : K} (h0 : 0 < ε) (hA : 100 * ε ≤ A) (h : NiggliParams ε A B C ξ η ζ) :
    A * B * C ≤ 8 * (4 * (A * B * C) + ξ * η * ζ - A * (ξ * ξ) - B * (η * η) - C * (ζ * ζ)) := by
  have hab := h.ab
  have hbc := h.bc
  have hx := h.xi
  have hy := h.eta
  have hz := h.zeta
  have hs := h.sum
  have x0 := abs_nonneg ξ
  have y0 := abs_nonneg η
  have z0 := abs_nonneg ζ
  have hA0 : 0 < A := by linarith
  have hB0 : 0 < B := by linarith
  have hC0 : 0 < C := by linarith
  have hT : A * (ξ * ξ) + B * (η * η) - ξ * η * ζ ≤ (A + 4 * ε) * (B + 4 * ε) * ((A + 4 * ε) + (B + 4 * ε)) := by
    have e1 : ξ * ξ = |ξ| * |ξ| := (abs_mul_abs_self ξ).symm
    have e2 : η * η = |η| * |η| := (abs_mul_abs_self η).symm
    have m1 : A * (|ξ| * |ξ|) ≤ (A + 4 * ε) * (|ξ| * |ξ|) :=
      mul_le_mul_of_nonneg_right (by linarith) (mul_nonneg x0 x0)
    have m2 : B * (|η| * |η|) ≤ (B + 4 * ε) * (|η| * |η|) :=
      mul_le_mul_of_nonneg_right (by linarith) (mul_nonneg y0 y0)
    rw [e1, e2]
    rcases h.signs with ⟨sx, sy, sz⟩ | ⟨sx, sy, sz⟩
    · have := form_le (A := A + 4 * ε) (B := B + 4 * ε) (r := 0) y0 x0 (by linarith) (by linarith) (by linarith)
      have hpos : 0 < ξ * η * ζ := mul_pos (mul_pos sx sy) sz
      linarith
    · have ax : |ξ| ≤ -ξ + 2 * ε := abs_le.2 ⟨by linarith, by linarith⟩
      have ay : |η| ≤ -η + 2 * ε := abs_le.2 ⟨by linarith, by linarith⟩
      have az : |ζ| ≤ -ζ + 2 * ε := abs_le.2 ⟨by linarith, by linarith⟩
      have := form_le (A := A + 4 * ε) (B := B + 4 * ε) (r := |ζ|) y0 x0 (by linarith) (by linarith) (by linarith)
      have hpr : -(ξ * η * ζ) ≤ |ξ| * |η| * |ζ| := by
        rw [← abs_mul, ← abs_mul]; exact neg_le_abs _
      linarith
  have hz2 : ζ * ζ ≤ (A + ε) * (A + ε) := by
    rw [← abs_mul_abs_self ζ]
    exact mul_le_mul hz hz z0 (by linarith)
  -- everything relative to `A B C`
  have k1 : (A + ε) * (A + ε) ≤ 21 / 20 * (A * B) := by nlinarith
  have k2 : (A + 4 * ε) * (B + 4 * ε) * ((A + 4 * ε) + (B + 4 * ε)) ≤ 12 / 5 * (A * B * B) := by
    have a1 : A + 4 * ε ≤ 26 / 25 * A := by linarith
    have a2 : B + 4 * ε ≤ 21 / 20 * B := by linarith
    have a3 : (A + 4 * ε) + (B + 4 * ε) ≤ 53 / 25 * B := by linarith
    have b1 : (A + 4 * ε) * (B + 4 * ε) ≤ (26 / 25 * A) * (21 / 20 * B) :=
      mul_le_mul a1 a2 (by linarith) (by linarith)
    have b2 := mul_le_mul b1 a3 (by linarith) (by positivity)
    nlinarith [mul_pos (mul_pos hA0 hB0) hB0]
  have k3 : A * B * B ≤ 51 / 50 * (A * B * C) := by
    have : B ≤ 51 / 50 * C := by linarith
    nlinarith [mul_pos hA0 hB0]
  have k4 : C * (ζ * ζ) ≤ 21 / 20 * (A * B * C) := by nlinarith
  have : 0 < A * B * C := by positivity
  nlinarith

end

/-! ## the cells of a lattice -/

theorem lenSq_mulVec_le (M : Mat3 ℝ) (w : Vec3 ℝ) : lenSq (M * w) ≤
    (M.m11 * M.m11 + M.m12 * M.m12 + M.m13 * M.m13 + (M.m21 * M.m21 + M.m22 * M.m22 + M.m23 * M.m23) +
      (M.m31 * M.m31 + M.m32 * M.m32 + M.m33 * M.m33)) * lenSq w := by
  have cs : ∀ a b c x y z : ℝ, (a * x + b * y + c * z) * (a * x + b * y + c * z)
      ≤ (a * a + b * b + c * c) * (x * x + y * y + z * z) := by
    intro a b c x y z
    nlinarith [sq_nonneg (a * y - b * x), sq_nonneg (a * z - c * x), sq_nonneg (b * z - c * y)]
  have hm : M * w = ⟨M.m11 * w.x + M.m12 * w.y + M.m13 * w.z,
    M.m21 * w.x + M.m22 * w.y + M.m23 * w.z, M.m31 * w.x + M.m32 * w.y + M.m33 * w.z⟩ := rfl
  rw [hm]
  simp only [lenSq]
  linarith [cs M.m11 M.m12 M.m13 w.x w.y w.z, cs M.m21 M.m22 M.m23 w.x w.y w.z, cs M.m31 M.m32 M.m33 w.x w.y w.z]

/-- a regular matrix does not shorten vectors arbitrarily. -/
theorem expand {L : Mat3 ℝ} (hdet : L.det ≠ 0) : ∃ κ : ℝ, 0 < κ ∧ ∀ v : Vec3 ℝ, lenSq v ≤ κ * lenSq (L * v) := by
  set M := L.adjDiv L.det with hM
  have hML : M * L = 1 := Mat3.adjDiv_mul hdet
  refine ⟨M.m11 * M.m11 + M.m12 * M.m12 + M.m13 * M.m13 + (M.m21 * M.m21 + M.m22 * M.m22 + M.m23 * M.m23) +
      (M.m31 * M.m31 + M.m32 * M.m32 + M.m33 * M.m33) + 1, ?_, fun v => ?_⟩
  · have := mul_self_nonneg M.m11
    have := mul_self_nonneg M.m12
    have := mul_self_nonneg M.m13
    have := mul_self_nonneg M.m21
    have := mul_self_nonneg M.m22
    have := mul_self_nonneg M.m23
    have := mul_self_nonneg M.m31
    have := mul_self_nonneg M.m32
    have := mul_self_nonneg M.m33
    linarith
  · have h1 := lenSq_mulVec_le M (L * v)
    have h2 : M * (L * v) = v := by
      rw [← Mat3.mul_mulVec, hML, Mat3.one_mulVec]
    rw [h2] at h1
    have : 0 ≤ lenSq (L * v) := by
      unfold lenSq
      nlinarith [mul_self_nonneg (L * v).x, mul_self_nonneg (L * v).y, mul_self_nonneg (L * v).z]
    linarith

/-- integer matrices with bounded entries. -/
theorem finite_bounded (k : ℤ) : {N : Mat3 ℤ | ∀ c ∈ [N.col0, N.col1, N.col2], (-k ≤ c.x ∧ c.x ≤ k) ∧
    (-k ≤ c.y ∧ c.y ≤ k) ∧ (-k ≤ c.z ∧ c.z ≤ k)}.Finite := by
  have hI := Set.finite_Icc (-k) k
  have hV : {c : Vec3 ℤ | (-k ≤ c.x ∧ c.x ≤ k) ∧ (-k ≤ c.y ∧ c.y ≤ k) ∧ (-k ≤ c.z ∧ c.z ≤ k)}.Finite := by
    refine ((hI.prod (hI.prod hI)).image fun p : ℤ × ℤ × ℤ => (⟨p.1, p.2.1, p.2.2⟩ : Vec3 ℤ)).subset ?_
    rintro ⟨x, y, z⟩ ⟨hx, hy, hz⟩
    exact ⟨(x, y, z), ⟨hx, hy, hz⟩, rfl⟩
  refine ((hV.prod (hV.prod hV)).image fun p : Vec3 ℤ × Vec3 ℤ × Vec3 ℤ =>
    (⟨p.1.x, p.2.1.x, p.2.2.x, p.1.y, p.2.1.y, p.2.2.y, p.1.z, p.2.1.z, p.2.2.z⟩ : Mat3 ℤ)).subset ?_
  intro N hN
  exact ⟨(N.col0, N.col1, N.col2), ⟨hN _ (by simp), hN _ (by simp), hN _ (by simp)⟩, rfl⟩

/-- one bound for finitely many. -/
theorem common_gap {ι : Type} {P : ι → ℝ → Prop} {S : Set ι} (hS : S.Finite)
    (h : ∀ i ∈ S, ∃ δ > 0, ∀ ε, 0 < ε → ε < δ → P i ε) : ∃ δ > 0, ∀ i ∈ S, ∀ ε, 0 < ε → ε < δ → P i ε := by
  induction S, hS using Set.Finite.induction_on with
  | empty => exact ⟨1, one_pos, fun i hi => hi.elim⟩
  | @insert a S _ _ ih =>
    obtain ⟨δ₁, h1, k1⟩ := ih fun i hi => h i (Set.mem_insert_of_mem _ hi)
    obtain ⟨δ₂, h2, k2⟩ := h a (Set.mem_insert _ _)
    refine ⟨min δ₁ δ₂, lt_min h1 h2, fun i hi ε h0 hε => ?_⟩
    rcases Set.mem_insert_iff.1 hi with rfl | hi
    · exact k2 ε h0 (hε.trans_le (min_le_right _ _))
    · exact k1 i hi ε h0 (hε.trans_le (min_le_left _ _))

theorem lenSq_int_ge {v : Vec3 ℤ} (h : ¬ (v.x = 0 ∧ v.y = 0 ∧ v.z = 0)) : 1 ≤ lenSq (castV v : Vec3 ℝ) := by
  simp only [lenSq, castV]
  have := sq_nn (K := ℝ) v.x
  have := sq_nn (K := ℝ) v.y
  have := sq_nn (K := ℝ) v.z
  by_cases hx : v.x = 0
  · by_cases hy : v.y = 0
    · linarith [sq_ge (K := ℝ) (fun hz => h ⟨hx, hy, hz⟩)]
    · linarith [sq_ge (K := ℝ) hy]
  · linarith [sq_ge (K := ℝ) hx]

theorem six_det (L : Mat3 ℝ) : 4 * ((sixOf L).A * (sixOf L).B * (sixOf L).C) + (sixOf L).X * (sixOf L).Y * (sixOf L).Z
    - (sixOf L).A * ((sixOf L).X * (sixOf L).X) - (sixOf L).B * ((sixOf L).Y * (sixOf L).Y)
    - (sixOf L).C * ((sixOf L).Z * (sixOf L).Z) = 4 * (L.det * L.det) := by
  simp only [sixOf, lenSq, dotp, Mat3.col0, Mat3.col1, Mat3.col2, Mat3.det]
  ring

theorem int_bound {n : ℤ} {M : ℝ} (h : (n : ℝ) * n ≤ M) : -⌈M⌉ ≤ n ∧ n ≤ ⌈M⌉ := by
  have h1 : ((n * n : ℤ) : ℝ) ≤ ⌈M⌉ := by push_cast; exact h.trans (Int.le_ceil M)
  have h2 : n * n ≤ ⌈M⌉ := by exact_mod_cast h1
  constructor <;> nlinarith

set_option maxHeartbeats 1000000 in
/-- below some tolerance that depends only on the lattice, only exact Niggli cells satisfy the conditions. -/
theorem lattice_gap {L : Mat3 ℝ} (hdet : L.det ≠ 0) : ∃ δ > 0, ∀ N : Mat3 ℤ, N.det = 1 ∨ N.det = -1 →
    ∀ ε, 0 < ε → ε < δ → NiggliCell ε (L * castM N) → NiggliCell 0 (L * castM N) := by
  obtain ⟨κ, hκ, hexp⟩ := expand hdet
  set M := κ * (64 * κ ^ 2 * L.det ^ 2 + 1 / κ) with hM
  obtain ⟨δ, hδ, hgap⟩ := common_gap (P := fun N ε => NiggliCell ε (L * castM N) → NiggliCell 0 (L * castM N))
    (finite_bounded ⌈M⌉) (fun N _ => niggliParams_gap _ _ _ _ _ _)
  refine ⟨min δ (1 / (100 * κ)), lt_min hδ (by positivity), fun N hN ε h0 h1 hn => ?_⟩
  have h1a := h1.trans_le (min_le_left _ _)
  have h1b := h1.trans_le (min_le_right _ _)
  refine hgap N ?_ ε h0 h1a hn
  -- the edges are bounded
  have hκ1 : (1 / (100 * κ)) = (1 / κ) / 100 := by field_simp
  have hmul : ∀ x : ℝ, (1 / κ) * (κ * x) = x := fun x => by field_simp
  have hk0 : 0 < 1 / κ := by positivity
  have long : ∀ c : Vec3 ℤ, ¬ (c.x = 0 ∧ c.y = 0 ∧ c.z = 0) → 1 / κ ≤ lenSq (L * (castV c : Vec3 ℝ)) := by
    intro c hc
    have a := lenSq_int_ge hc
    have b := hexp (castV c)
    have := mul_le_mul_of_nonneg_left (a.trans b) hk0.le
    rw [hmul, mul_one] at this
    exact this
  have hdet0 : N.det ≠ 0 := by omega
  have hA : 1 / κ ≤ (sixOf (L * castM N)).A := long N.col0 (by
    rintro ⟨a, b, c⟩
    simp only [Mat3.col0] at a b c
    simp [Mat3.det, a, b, c] at hdet0)
  have hvol := edges_le_volume (A := (sixOf (L * castM N)).A) (B := (sixOf (L * castM N)).B)
    (C := (sixOf (L * castM N)).C) (ξ := (sixOf (L * castM N)).X) (η := (sixOf (L * castM N)).Y)
    (ζ := (sixOf (L * castM N)).Z) h0 (by linarith) hn
  rw [six_det, Mat3.det_mul] at hvol
  have hdN : (castM N : Mat3 ℝ).det * (castM N : Mat3 ℝ).det = 1 := by
    have : (castM N : Mat3 ℝ).det = ((N.det : ℤ) : ℝ) := by simp [castM, Mat3.det, Mat3.map]
    rw [this]
    rcases hN with h | h <;> rw [h] <;> norm_num
  have hvol' : (sixOf (L * castM N)).A * (sixOf (L * castM N)).B * (sixOf (L * castM N)).C ≤ 32 * L.det ^ 2 := by
    have e : L.det * (castM N : Mat3 ℝ).det * (L.det * (castM N : Mat3 ℝ).det) = L.det ^ 2 := by
      linear_combination L.det ^ 2 * hdN
    rw [e] at hvol
    linarith
  have hab : (sixOf (L * castM N)).A ≤ (sixOf (L * castM N)).B + ε := hn.ab
  have hbc : (sixOf (L * castM N)).B ≤ (sixOf (L * castM N)).C + ε := hn.bc
  have hB : (1 / κ) / 2 ≤ (sixOf (L * castM N)).B := by linarith
  have hC0 : 0 < (sixOf (L * castM N)).C := by linarith
  have hC : (sixOf (L * castM N)).C ≤ 64 * κ ^ 2 * L.det ^ 2 := by
    have m1 : (1 / κ) * ((1 / κ) / 2) ≤ (sixOf (L * castM N)).A * (sixOf (L * castM N)).B :=
      mul_le_mul hA hB (by positivity) (by linarith)
    have m2 := mul_le_mul_of_nonneg_right m1 hC0.le
    have m3 := m2.trans hvol'
    have m4 := mul_le_mul_of_nonneg_left m3 (by positivity : (0 : ℝ) ≤ 2 * κ ^ 2)
    have e : 2 * κ ^ 2 * (1 / κ * (1 / κ / 2) * (sixOf (L * castM N)).C) = (sixOf (L * castM N)).C := by
      field_simp
    rw [e] at m4
    linarith
  have col : ∀ c : Vec3 ℤ, lenSq (L * (castV c : Vec3 ℝ)) ≤ 64 * κ ^ 2 * L.det ^ 2 + 1 / κ →
      (-⌈M⌉ ≤ c.x ∧ c.x ≤ ⌈M⌉) ∧ (-⌈M⌉ ≤ c.y ∧ c.y ≤ ⌈M⌉) ∧ (-⌈M⌉ ≤ c.z ∧ c.z ≤ ⌈M⌉) := by
    intro c hc
    have h2 : lenSq (castV c : Vec3 ℝ) ≤ M := (hexp _).trans (mul_le_mul_of_nonneg_left hc hκ.le)
    simp only [lenSq, castV] at h2
    have := sq_nn (K := ℝ) c.x
    have := sq_nn (K := ℝ) c.y
    have := sq_nn (K := ℝ) c.z
    exact ⟨int_bound (by linarith), int_bound (by linarith), int_bound (by linarith)⟩
  intro c hc
  simp only [List.mem_cons, List.not_mem_nil, or_false] at hc
  rcases hc with rfl | rfl | rfl
  · refine col _ ?_
    have : (sixOf (L * castM N)).A ≤ 64 * κ ^ 2 * L.det ^ 2 + 1 / κ := by linarith
    exact this
  · refine col _ ?_
    have : (sixOf (L * castM N)).B ≤ 64 * κ ^ 2 * L.det ^ 2 + 1 / κ := by linarith
    exact this
  · refine col _ ?_
    have : (sixOf (L * castM N)).C ≤ 64 * κ ^ 2 * L.det ^ 2 + 1 / κ := by linarith
    exact this

end CrystSymm.NiggliCert
