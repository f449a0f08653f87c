import Verif.Proofs.Primitive

set_option autoImplicit false
set_option linter.unusedSectionVars false

/-! # C54: `get_shortest_translation_vecs` selects successive minima -/

namespace CrystSymm

open Spec Reducer

theorem sortByMag_sorted (l : List (Vec3 ℝ)) : (sortByMag l).Pairwise fun u v : Vec3 ℝ => u.mag ≤ v.mag := by
  unfold sortByMag
  refine (List.pairwise_mergeSort ?_ ?_ l).imp (fun h => of_decide_eq_true h)
  · intro a b c hab hbc
    exact decide_eq_true (le_trans (of_decide_eq_true hab) (of_decide_eq_true hbc))
  · intro a b
    rcases le_total a.mag b.mag with h | h
    · simp [h]
    · simp [h]

theorem thirdScan_first {dtol : ℝ} {cv : Vec3 ℝ} (k : ℕ) {l : List (Vec3 ℝ)} (n : ℕ)
    (h : ∃ v ∈ l, dtol < cv.dot v) :
    ∃ pre w post, l = pre ++ w :: post ∧ (∀ v ∈ pre, cv.dot v ≤ dtol) ∧ dtol < cv.dot w ∧
      thirdScan dtol cv k l n = n + pre.length + k + 1 := by
  induction l generalizing n with
  | nil => simp at h
  | cons v vs ih =>
    by_cases hv : dtol < cv.dot v
    · exact ⟨[], v, vs, rfl, by simp, hv, by simp only [thirdScan, if_pos hv, List.length_nil]; omega⟩
    · obtain ⟨w, hw, hw'⟩ := h
      rcases List.mem_cons.1 hw with rfl | hw
      · exact absurd hw' hv
      · obtain ⟨pre, u, post, e, hpre, hu, hs⟩ := ih (n + 1) ⟨w, hw, hw'⟩
        refine ⟨v :: pre, u, post, by simp [e], ?_, hu, ?_⟩
        · intro x hx
          rcases List.mem_cons.1 hx with rfl | hx
          · exact not_lt.1 hv
          · exact hpre x hx
        · simp only [thirdScan, if_neg hv, hs, List.length_cons]
          omega

/-- **C54 (first).** The first vector is a shortest one. -/
theorem C54_first_is_shortest (dtol : ℝ) (l : List (Vec3 ℝ)) (a b c : Vec3 ℝ)
    (h : getShortestTranslationVecs dtol l = .ret (a, b, c)) : a ∈ l ∧ ∀ v ∈ l, a.mag ≤ v.mag := by
  refine ⟨(getShortest_mem h).1, ?_⟩
  have hmem : ∀ {v : Vec3 ℝ}, v ∈ sortByMag l ↔ v ∈ l := (sortByMag_perm l).mem_iff
  have hs := sortByMag_sorted l
  unfold getShortestTranslationVecs at h
  simp only at h
  cases hl : sortByMag l with
  | nil => rw [hl] at h; simp [Outcome.ofOption, Outcome.bind] at h
  | cons x xs =>
    rw [hl] at h hmem hs
    simp only [List.getElem?_cons_zero, Outcome.ofOption, Outcome.bind] at h
    have hax : a = x := by
      split at h
      · simp at h
      · split at h <;> first | (simp at h; done) | skip
        split at h <;> first | (simp at h; done) | skip
        simp only [Outcome.ret.injEq, Prod.mk.injEq] at h
        exact h.1.symm
    subst hax
    intro v hv
    rcases List.mem_cons.1 (hmem.2 hv) with rfl | hv
    · exact le_rfl
    · exact (List.pairwise_cons.1 hs).1 v hv

/-- **C54 (second, third).** If some vector spans with the first one an area above `dtol`, the second selected vector is
a shortest such vector.  If moreover some vector spans with the first an area above `dtol` and with the first two a
(positively oriented) volume above `dtol`, the third one also spans such a volume, and no vector with both properties
is shorter than it. -/
theorem C54_second_third_are_shortest (dtol : ℝ) (hd : 0 ≤ dtol) (l : List (Vec3 ℝ)) (a b c : Vec3 ℝ)
    (h : getShortestTranslationVecs dtol l = .ret (a, b, c)) (h2 : ∃ v ∈ l, dtol < (a.cross v).mag) :
    (b ∈ l ∧ dtol < (a.cross b).mag ∧ ∀ v ∈ l, dtol < (a.cross v).mag → b.mag ≤ v.mag) ∧
    ((∃ v ∈ l, dtol < (a.cross v).mag ∧ dtol < (Mat3.ofCols a b v).det) →
      c ∈ l ∧ dtol < (Mat3.ofCols a b c).det ∧ b.mag ≤ c.mag ∧
        ∀ v ∈ l, dtol < (a.cross v).mag → dtol < (Mat3.ofCols a b v).det → c.mag ≤ v.mag) := by
  have hdet : ∀ a b v : Vec3 ℝ, (Mat3.ofCols a b v).det = (a.cross b).dot v := by
    intro a b v
    simp [Vec3.cross, Vec3.dot, Mat3.ofCols, Mat3.det]
    ring
  have hmm := getShortest_mem h
  have hmem : ∀ {v : Vec3 ℝ}, v ∈ sortByMag l ↔ v ∈ l := (sortByMag_perm l).mem_iff
  have hs := sortByMag_sorted l
  unfold getShortestTranslationVecs at h
  simp only at h
  cases hl : sortByMag l with
  | nil => rw [hl] at h; simp [Outcome.ofOption, Outcome.bind] at h
  | cons x xs =>
    rw [hl] at h hmem hs
    simp only [List.getElem?_cons_zero, Outcome.ofOption, Outcome.bind, List.drop_succ_cons,
      List.drop_zero] at h
    have hax : a = x := by
      split at h
      · simp at h
      · split at h <;> first | (simp at h; done) | skip
        split at h <;> first | (simp at h; done) | skip
        simp only [Outcome.ret.injEq, Prod.mk.injEq] at h
        exact h.1.symm
    subst hax
    have hself : a.cross a = 0 := by ext <;> simp [Vec3.cross] <;> ring
    have hne : ∀ v ∈ l, dtol < (a.cross v).mag → v ∈ xs := by
      intro v hv hv'
      rcases List.mem_cons.1 (hmem.2 hv) with rfl | h
      · rw [hself, show (0 : Vec3 ℝ).mag = 0 from mag_zero] at hv'
        linarith
      · exact h
    obtain ⟨v, hv, hv'⟩ := h2
    obtain ⟨pre, y, post, e, hpre, hyd, hsc⟩ := secondScan_hit 0 0 ⟨v, hne v hv hv', hv'⟩
    rw [hsc] at h
    subst e
    have hiy : (a :: (pre ++ y :: post))[0 + pre.length + 1]? = some y := by
      rw [show 0 + pre.length + 1 = pre.length + 1 by omega, List.getElem?_cons_succ,
        List.getElem?_append_right (le_refl _)]
      simp
    simp only [hiy] at h
    have hby : b = y := by
      split at h
      · simp at h
      · split at h <;> first | (simp at h; done) | skip
        simp only [Outcome.ret.injEq, Prod.mk.injEq] at h
        exact h.2.1.symm
    subst hby
    have hsxs := (List.pairwise_cons.1 hs).2
    have hsplit := List.pairwise_append.1 hsxs
    have hpost : ∀ v ∈ l, dtol < (a.cross v).mag → v = b ∨ v ∈ post := by
      intro v hv hv'
      have := hne v hv hv'
      rcases List.mem_append.1 this with hp | hp
      · exact absurd (hpre v hp) (not_le.2 hv')
      · exact List.mem_cons.1 hp
    refine ⟨⟨hmm.2.1, hyd, ?_⟩, ?_⟩
    · intro v hv hv'
      rcases hpost v hv hv' with rfl | hp
      · exact le_rfl
      · exact (List.pairwise_cons.1 hsplit.2.1).1 v hp
    · rintro ⟨w, hw, hw1, hw2⟩
      have hnb : ∀ w, dtol < (Mat3.ofCols a b w).det → w ≠ b := by
        rintro w hw rfl
        have : (Mat3.ofCols a w w).det = 0 := by simp only [Mat3.ofCols, Mat3.det]; ring
        rw [this] at hw; linarith
      have hwp : w ∈ post := (hpost w hw hw1).resolve_left (hnb w hw2)
      rw [hdet] at hw2
      obtain ⟨pre', z, post', e, hpre', hz, ht⟩ := thirdScan_first (0 + pre.length + 1) 0 ⟨w, hwp, hw2⟩
      have hdrop : (pre ++ b :: post).drop (0 + pre.length + 1) = post := by
        rw [show pre ++ b :: post = (pre ++ [b]) ++ post by simp]
        rw [List.drop_append_of_le_length (by simp)]
        simp
      simp only [hdrop] at h
      rw [ht] at h
      have hiz : (a :: (pre ++ b :: post))[0 + pre'.length + (0 + pre.length + 1) + 1]? = some z := by
        rw [show a :: (pre ++ b :: post) = (a :: pre ++ [b]) ++ post by simp,
          List.getElem?_append_right (by simp), e]
        rw [List.getElem?_append_right (by simp)]
        simp
      simp only [hiz] at h
      split at h
      · simp at h
      · simp only [Outcome.ret.injEq, Prod.mk.injEq, true_and] at h
        subst h
        subst e
        refine ⟨hmm.2.2, by rw [hdet]; exact hz, (List.pairwise_cons.1 hsplit.2.1).1 _ (by simp), ?_⟩
        intro v hv hv1 hv2
        have hvp := (hpost v hv hv1).resolve_left (hnb v hv2)
        rw [hdet] at hv2
        rcases List.mem_append.1 hvp with hp | hp
        · exact absurd (hpre' v hp) (not_le.2 hv2)
        · rcases List.mem_cons.1 hp with rfl | hp
          · exact le_rfl
          · have := (List.pairwise_cons.1 hsplit.2.1).2
            exact (List.pairwise_cons.1 (List.pairwise_append.1 this).2.1).1 v hp

/-- the hypotheses hold for the three unit vectors in any order. -/
example : ∃ a b c, getShortestTranslationVecs (1 / 10) [(⟨0, 0, 1⟩ : Vec3 ℝ), ⟨1, 0, 0⟩, ⟨0, 1, 0⟩] = .ret (a, b, c) ∧
    ∃ v ∈ [(⟨0, 0, 1⟩ : Vec3 ℝ), ⟨1, 0, 0⟩, ⟨0, 1, 0⟩], 1 / 10 < (a.cross v).mag := by
  obtain ⟨a, b, c, h⟩ := getShortest_ret (1 / 10 : ℝ) (l := [(⟨0, 0, 1⟩ : Vec3 ℝ), ⟨1, 0, 0⟩, ⟨0, 1, 0⟩]) (by simp)
  refine ⟨a, b, c, h, ?_⟩
  have ha := (getShortest_mem h).1
  simp only [List.mem_cons, List.not_mem_nil, or_false] at ha
  rcases ha with rfl | rfl | rfl
  · exact ⟨⟨1, 0, 0⟩, by simp, by rw [mag_eq]; norm_num [Vec3.cross, lenSq]⟩
  · exact ⟨⟨0, 1, 0⟩, by simp, by rw [mag_eq]; norm_num [Vec3.cross, lenSq]⟩
  · exact ⟨⟨0, 0, 1⟩, by simp, by rw [mag_eq]; norm_num [Vec3.cross, lenSq]⟩

end CrystSymm
