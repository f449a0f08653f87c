import Verif.Proofs.BlockPick

set_option autoImplicit false
set_option linter.unusedSectionVars false

/-! # Sorted translations of a cell repeated in all directions -/

namespace CrystSymm

open Spec

/-- the sorted list consists of combinations of three edges with coefficients that are not negative, at least as long as in a box. -/
structure BlockFrame (p : List (Vec3 ℤ)) (m : Vec3 ℤ → ℝ) (e F G : Vec3 ℤ) (α β γ : ℝ) : Prop where
  nodup : p.Nodup
  sorted : p.Pairwise fun a b => m a ≤ m b
  memE : e ∈ p
  memF : F ∈ p
  memG : G ∈ p
  right : 0 < (e.cross F).dot G
  lenE : m e = α
  lenF : m F = β
  lenG : m G = γ
  posA : 0 < α
  posB : 0 < β
  posC : 0 < γ
  comb : ∀ u ∈ p, ∃ i j k : ℤ, (0 ≤ i ∧ 0 ≤ j ∧ 0 ≤ k) ∧ (1 ≤ i ∨ 1 ≤ j ∨ 1 ≤ k) ∧ u = Mat3.ofCols e F G * (⟨i, j, k⟩ : Vec3 ℤ) ∧
    0 ≤ m u ∧ (i : ℝ) ^ 2 * α ^ 2 + (j : ℝ) ^ 2 * β ^ 2 + (k : ℝ) ^ 2 * γ ^ 2 ≤ m u ^ 2

variable {p : List (Vec3 ℤ)} {m : Vec3 ℤ → ℝ} {e F G : Vec3 ℤ} {α β γ : ℝ}

theorem BlockFrame.rotate (h : BlockFrame p m e F G α β γ) : BlockFrame p m F G e β γ α where
  nodup := h.nodup
  sorted := h.sorted
  memE := h.memF
  memF := h.memG
  memG := h.memE
  right := by
    have := h.right
    simp only [Vec3.cross, Vec3.dot] at this ⊢
    linarith
  lenE := h.lenF
  lenF := h.lenG
  lenG := h.lenE
  posA := h.posB
  posB := h.posC
  posC := h.posA
  comb := by
    intro u hu
    obtain ⟨i, j, k, ⟨hi, hj, hk⟩, h1, rfl, h2, h3⟩ := h.comb u hu
    exact ⟨j, k, i, ⟨hj, hk, hi⟩, by tauto, by ext <;> simp [Mat3.ofCols] <;> ring, h2, by linarith⟩

theorem sq_ge_one {i : ℤ} (h : 1 ≤ i) : (1 : ℝ) ≤ (i : ℝ) ^ 2 := by
  have : (1 : ℝ) ≤ i := by exact_mod_cast h
  nlinarith

theorem sq_ge_four {i : ℤ} (h : 2 ≤ i) : (4 : ℝ) ≤ (i : ℝ) ^ 2 := by
  have : (2 : ℝ) ≤ i := by exact_mod_cast h
  nlinarith

theorem comb_e : Mat3.ofCols e F G * (⟨1, 0, 0⟩ : Vec3 ℤ) = e := by ext <;> simp [Mat3.ofCols]
theorem comb_F : Mat3.ofCols e F G * (⟨0, 1, 0⟩ : Vec3 ℤ) = F := by ext <;> simp [Mat3.ofCols]
theorem comb_G : Mat3.ofCols e F G * (⟨0, 0, 1⟩ : Vec3 ℤ) = G := by ext <;> simp [Mat3.ofCols]

theorem lt_len {w u i j k : ℝ} (hu : 0 ≤ u) (hle : i ^ 2 * α ^ 2 + j ^ 2 * β ^ 2 + k ^ 2 * γ ^ 2 ≤ u ^ 2)
    (h : w ^ 2 < i ^ 2 * α ^ 2 + j ^ 2 * β ^ 2 + k ^ 2 * γ ^ 2) : w < u := lt_of_pow_lt_pow_left₀ 2 hu (lt_of_lt_of_le h hle)

/-- every other combination is longer than a given edge. -/
theorem BlockFrame.longer (h : BlockFrame p m e F G α β γ) {u : Vec3 ℤ} (hu : u ∈ p) (hne : u ≠ e) (h1 : α < β) (h2 : α < γ) : α < m u := by
  obtain ⟨i, j, k, ⟨hi, hj, hk⟩, hn, rfl, h0, hle⟩ := h.comb u hu
  have a := pow_pos h.posA 2
  have b := pow_pos h.posB 2
  have c := pow_pos h.posC 2
  have ab := pow_lt_pow_left₀ h1 h.posA.le two_ne_zero
  have ac := pow_lt_pow_left₀ h2 h.posA.le two_ne_zero
  have si := sq_nonneg (i : ℝ)
  have sj := sq_nonneg (j : ℝ)
  have sk := sq_nonneg (k : ℝ)
  refine lt_len h0 hle ?_
  have ta := mul_nonneg si a.le
  have tb := mul_nonneg sj b.le
  have tc := mul_nonneg sk c.le
  by_cases j1 : 1 ≤ j
  · have := mul_le_mul_of_nonneg_right (sq_ge_one j1) b.le
    linarith
  by_cases k1 : 1 ≤ k
  · have := mul_le_mul_of_nonneg_right (sq_ge_one k1) c.le
    linarith
  by_cases i2 : 2 ≤ i
  · have := mul_le_mul_of_nonneg_right (sq_ge_four i2) a.le
    linarith
  · exfalso
    have e1 : i = 1 := by omega
    have e2 : j = 0 := by omega
    have e3 : k = 0 := by omega
    subst e1 e2 e3
    exact hne comb_e

/-- a combination that contains an edge and something else is longer than the edge. -/
theorem BlockFrame.more (h : BlockFrame p m e F G α β γ) {i j k : ℤ} (h0 : 0 ≤ i ∧ 0 ≤ j ∧ 0 ≤ k) (hk : 1 ≤ k)
    (hne : Mat3.ofCols e F G * (⟨i, j, k⟩ : Vec3 ℤ) ≠ G) :
    γ ^ 2 < (i : ℝ) ^ 2 * α ^ 2 + (j : ℝ) ^ 2 * β ^ 2 + (k : ℝ) ^ 2 * γ ^ 2 := by
  have a := pow_pos h.posA 2
  have b := pow_pos h.posB 2
  have c := pow_pos h.posC 2
  have ta := mul_nonneg (sq_nonneg (i : ℝ)) a.le
  have tb := mul_nonneg (sq_nonneg (j : ℝ)) b.le
  have tc := mul_le_mul_of_nonneg_right (sq_ge_one hk) c.le
  by_cases i1 : 1 ≤ i
  · have := mul_le_mul_of_nonneg_right (sq_ge_one i1) a.le
    linarith
  by_cases j1 : 1 ≤ j
  · have := mul_le_mul_of_nonneg_right (sq_ge_one j1) b.le
    linarith
  by_cases k2 : 2 ≤ k
  · have := mul_le_mul_of_nonneg_right (sq_ge_four k2) c.le
    linarith
  · exfalso
    have e1 : i = 0 := by omega
    have e2 : j = 0 := by omega
    have e3 : k = 1 := by omega
    subst e1 e2 e3
    exact hne comb_G

theorem dot_comb (i j k : ℤ) : (e.cross F).dot (Mat3.ofCols e F G * (⟨i, j, k⟩ : Vec3 ℤ)) = k * (e.cross F).dot G := by
  simp [Mat3.ofCols, Vec3.cross, Vec3.dot]
  ring

/-- edges whose lengths increase in the right-handed order are picked. -/
theorem BlockFrame.picks (h : BlockFrame p m e F G α β γ) (h1 : α < β) (h2 : β < γ) : pickZ p = some (e, F, G) := by
  have a := pow_pos h.posA 2
  have b := pow_pos h.posB 2
  have c := pow_pos h.posC 2
  have ab := pow_lt_pow_left₀ h1 h.posA.le two_ne_zero
  have bc := pow_lt_pow_left₀ h2 h.posB.le two_ne_zero
  refine pick_right h.nodup h.sorted h.memE h.memF h.memG h.right (fun u hu hne => ?_) (fun u hu hx hne => ?_) fun u hu hd hne => ?_
  · rw [h.lenE]
    exact h.longer hu hne h1 (h1.trans h2)
  · rw [h.lenF]
    obtain ⟨i, j, k, ⟨hi, hj, hk⟩, hn, rfl, h0, hle⟩ := h.comb u hu
    refine lt_len h0 hle ?_
    have ta := mul_nonneg (sq_nonneg (i : ℝ)) a.le
    have tb := mul_nonneg (sq_nonneg (j : ℝ)) b.le
    by_cases k1 : 1 ≤ k
    · have := mul_le_mul_of_nonneg_right (sq_ge_one k1) c.le
      linarith
    by_cases j1 : 1 ≤ j
    · have ec : Mat3.ofCols G e F * (⟨k, i, j⟩ : Vec3 ℤ) = Mat3.ofCols e F G * (⟨i, j, k⟩ : Vec3 ℤ) := by
        ext <;> simp [Mat3.ofCols] <;> ring
      have := h.rotate.rotate.more (i := k) (j := i) (k := j) ⟨hk, hi, hj⟩ j1 (by rw [ec]; exact hne)
      linarith
    · exfalso
      apply hx
      have e2 : j = 0 := by omega
      have e3 : k = 0 := by omega
      subst e2 e3
      ext <;> simp [Mat3.ofCols, Vec3.cross] <;> ring
  · rw [h.lenG]
    obtain ⟨i, j, k, hnn, hn, rfl, h0, hle⟩ := h.comb u hu
    rw [dot_comb] at hd
    have k1 : 1 ≤ k := by
      have := pos_of_mul_pos_left hd h.right.le
      omega
    exact lt_len h0 hle (h.more hnn k1 hne)

/-- edges whose lengths increase in the left-handed order are not picked if twice the shortest is still shorter than the longest. -/
theorem BlockFrame.flat (h : BlockFrame p m e F G α β γ) (h1 : β < α) (h2 : α < γ) (hv : Vec3.scale 2 F ∈ p) (hm : m (Vec3.scale 2 F) < γ) :
    PicksFlat p := by
  have a := pow_pos h.posA 2
  have b := pow_pos h.posB 2
  have c := pow_pos h.posC 2
  have ba := pow_lt_pow_left₀ h1 h.posB.le two_ne_zero
  have ac := pow_lt_pow_left₀ h2 h.posA.le two_ne_zero
  have hdot : ∀ i j k : ℤ, (F.cross e).dot (Mat3.ofCols e F G * (⟨i, j, k⟩ : Vec3 ℤ)) = -(k * (e.cross F).dot G) := by
    intro i j k
    simp [Mat3.ofCols, Vec3.cross, Vec3.dot]
    ring
  have hFe : F.cross e ≠ 0 := by
    refine ne_of_dot (v := G) ?_
    have e1 : (F.cross e).dot G = -(e.cross F).dot G := by simp only [Vec3.cross, Vec3.dot]; ring
    rw [e1]
    have := h.right
    omega
  refine pick_left (v := Vec3.scale 2 F) h.nodup h.sorted h.memF h.memE hv ?_ ?_ hFe (fun u hu hne => ?_) (fun u hu hx hne => ?_) (fun u hu => ?_)
    fun u hu hd => ?_
  · intro e0
    apply hFe
    have hF0 : F = 0 := by
      have k1 := congrArg Vec3.x e0
      have k2 := congrArg Vec3.y e0
      have k3 := congrArg Vec3.z e0
      simp only [Vec3.scale] at k1 k2 k3
      ext <;> simp <;> omega
    rw [hF0]
    ext <;> simp [Vec3.cross]
  · intro e0
    apply hFe
    rw [← e0]
    ext <;> simp [Vec3.cross, Vec3.scale] <;> ring
  · rw [h.lenF]
    exact h.rotate.longer hu hne (h1.trans h2) h1
  · rw [h.lenE]
    obtain ⟨i, j, k, ⟨hi, hj, hk⟩, hn, rfl, h0, hle⟩ := h.comb u hu
    refine lt_len h0 hle ?_
    have ta := mul_nonneg (sq_nonneg (i : ℝ)) a.le
    have tb := mul_nonneg (sq_nonneg (j : ℝ)) b.le
    by_cases k1 : 1 ≤ k
    · have := mul_le_mul_of_nonneg_right (sq_ge_one k1) c.le
      linarith
    by_cases i1 : 1 ≤ i
    · have ec : Mat3.ofCols F G e * (⟨j, k, i⟩ : Vec3 ℤ) = Mat3.ofCols e F G * (⟨i, j, k⟩ : Vec3 ℤ) := by
        ext <;> simp [Mat3.ofCols] <;> ring
      have := h.rotate.more (i := j) (j := k) (k := i) ⟨hj, hk, hi⟩ i1 (by rw [ec]; exact hne)
      linarith
    · exfalso
      apply hx
      have e2 : i = 0 := by omega
      have e3 : k = 0 := by omega
      subst e2 e3
      ext <;> simp [Mat3.ofCols, Vec3.cross] <;> ring
  · obtain ⟨i, j, k, ⟨hi, hj, hk⟩, -, rfl, -⟩ := h.comb u hu
    rw [hdot]
    have := mul_nonneg hk h.right.le
    omega
  · obtain ⟨i, j, k, ⟨hi, hj, hk⟩, -, rfl, h0, hle⟩ := h.comb u hu
    rw [hdot] at hd
    have k1 : 1 ≤ k := by
      by_contra hc
      have : k = 0 := by omega
      subst this
      simp at hd
    have ta := mul_nonneg (sq_nonneg (i : ℝ)) a.le
    have tb := mul_nonneg (sq_nonneg (j : ℝ)) b.le
    have tc := mul_le_mul_of_nonneg_right (sq_ge_one k1) c.le
    have hg : γ ≤ m (Mat3.ofCols e F G * (⟨i, j, k⟩ : Vec3 ℤ)) := le_of_sq_le_sq (by linarith) h0
    rw [h.lenE, h.lenF]
    exact ⟨by linarith, by linarith, by linarith⟩

/-- edges of nearly the same length are picked, in any order. -/
theorem BlockFrame.compact (h : BlockFrame p m e F G α β γ) (hs : ∀ x ∈ [α, β, γ], ∀ y ∈ [α, β, γ], x ^ 2 < 2 * y ^ 2) : PicksBasis p e F G := by
  have a := pow_pos h.posA 2
  have b := pow_pos h.posB 2
  have c := pow_pos h.posC 2
  refine pick_three h.nodup h.sorted h.memE h.memF h.memG h.right (fun u hu ne nF nG => ?_) fun u hu => ?_
  · obtain ⟨i, j, k, ⟨hi, hj, hk⟩, hn, rfl, h0, hle⟩ := h.comb u hu
    have ta := mul_nonneg (sq_nonneg (i : ℝ)) a.le
    have tb := mul_nonneg (sq_nonneg (j : ℝ)) b.le
    have tc := mul_nonneg (sq_nonneg (k : ℝ)) c.le
    have key : ∀ x ∈ [α, β, γ], x ^ 2 < (i : ℝ) ^ 2 * α ^ 2 + (j : ℝ) ^ 2 * β ^ 2 + (k : ℝ) ^ 2 * γ ^ 2 := by
      intro x hx
      have xa := hs x hx α (by simp)
      have xb := hs x hx β (by simp)
      have xc := hs x hx γ (by simp)
      by_cases i2 : 2 ≤ i
      · have := mul_le_mul_of_nonneg_right (sq_ge_four i2) a.le
        linarith
      by_cases j2 : 2 ≤ j
      · have := mul_le_mul_of_nonneg_right (sq_ge_four j2) b.le
        linarith
      by_cases k2 : 2 ≤ k
      · have := mul_le_mul_of_nonneg_right (sq_ge_four k2) c.le
        linarith
      have hi' : i = 0 ∨ i = 1 := by omega
      have hj' : j = 0 ∨ j = 1 := by omega
      have hk' : k = 0 ∨ k = 1 := by omega
      rcases hi' with rfl | rfl <;> rcases hj' with rfl | rfl <;> rcases hk' with rfl | rfl
      · omega
      · exact absurd comb_G nG
      · exact absurd comb_F nF
      · push_cast; linarith
      · exact absurd comb_e ne
      · push_cast; linarith
      · push_cast; linarith
      · push_cast; linarith
    rw [h.lenE, h.lenF, h.lenG]
    exact ⟨lt_len h0 hle (key α (by simp)), lt_len h0 hle (key β (by simp)), lt_len h0 hle (key γ (by simp))⟩
  · obtain ⟨i, j, k, ⟨hi, hj, hk⟩, -, e1, -⟩ := h.comb u hu
    exact ⟨i, j, k, hi, hj, hk, e1⟩

end CrystSymm
