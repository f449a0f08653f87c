import Verif.Proofs.AxisPick
import Verif.Props.CentredCells

set_option autoImplicit false
set_option linter.unusedSectionVars false

/-! # The vectors picked from a sorted list of many translations -/

namespace CrystSymm

open Spec

variable {p : List (Vec3 ℤ)} {m : Vec3 ℤ → ℝ} {x y z : Vec3 ℤ}

/-- a strictly shorter vector stands before a longer one. -/
theorem mem_before {A B : List (Vec3 ℤ)} {u v : Vec3 ℤ} (hs : (A ++ v :: B).Pairwise fun a b => m a ≤ m b) (hu : u ∈ A ++ v :: B)
    (h : m u < m v) : u ∈ A := by
  rcases List.mem_append.1 hu with hu | hu
  · exact hu
  · exfalso
    rcases List.mem_cons.1 hu with rfl | hu
    · exact lt_irrefl _ h
    · have := (List.pairwise_cons.1 (List.pairwise_append.1 hs).2.1).1 u hu
      linarith

theorem mem_after {A B : List (Vec3 ℤ)} {u v : Vec3 ℤ} (hs : (A ++ v :: B).Pairwise fun a b => m a ≤ m b) (hu : u ∈ A ++ v :: B)
    (h : m v < m u) : u ∈ B := by
  rcases List.mem_append.1 hu with hu | hu
  · exfalso
    have := (List.pairwise_append.1 hs).2.2 u hu v (by simp)
    linarith
  · rcases List.mem_cons.1 hu with rfl | hu
    · exact absurd h (lt_irrefl _)
    · exact hu

/-- the beginning of the list: the shortest vector, multiples of it, and the shortest of the others. -/
theorem split_two (hn : p.Nodup) (hs : p.Pairwise fun a b => m a ≤ m b) (hx : x ∈ p) (hy : y ∈ p) (hxy : x.cross y ≠ 0)
    (h1 : ∀ u ∈ p, u ≠ x → m x < m u) (h2 : ∀ u ∈ p, x.cross u ≠ 0 → u ≠ y → m y < m u) :
    ∃ A B, p = x :: (A ++ y :: B) ∧ ∀ u ∈ A, x.cross u = 0 := by
  have hne : y ≠ x := by
    rintro rfl
    exact hxy (by ext <;> simp [Vec3.cross] <;> ring)
  obtain ⟨A', B', rfl⟩ := List.append_of_mem hx
  have hA : A' = [] := by
    rw [List.eq_nil_iff_forall_not_mem]
    intro u hu
    have hux : u ≠ x := by
      rintro rfl
      exact (List.nodup_append.1 hn).2.2 u hu u (by simp) rfl
    have a := h1 u (by simp [hu]) hux
    have b := (List.pairwise_append.1 hs).2.2 u hu x (by simp)
    linarith
  subst hA
  have hyB : y ∈ B' := by
    rcases List.mem_cons.1 (by simpa using hy) with h | h
    · exact absurd h hne
    · exact h
  obtain ⟨A, B, rfl⟩ := List.append_of_mem hyB
  simp only [List.nil_append] at hn hs
  refine ⟨A, B, rfl, fun u hu => ?_⟩
  by_contra hc
  have huy : u ≠ y := by
    rintro rfl
    have := (List.nodup_cons.1 hn).2
    exact (List.nodup_append.1 this).2.2 u hu u (by simp) rfl
  have a := h2 u (by simp [hu]) hc huy
  have hs' := (List.pairwise_cons.1 hs).2
  have b := (List.pairwise_append.1 hs').2.2 u hu y (by simp)
  linarith

/-- the right-handed case: the shortest vector, the shortest that is not parallel to it, and the shortest on the right side. -/
theorem pick_right (hn : p.Nodup) (hs : p.Pairwise fun a b => m a ≤ m b) (hx : x ∈ p) (hy : y ∈ p) (hz : z ∈ p)
    (hr : 0 < (x.cross y).dot z) (h1 : ∀ u ∈ p, u ≠ x → m x < m u) (h2 : ∀ u ∈ p, x.cross u ≠ 0 → u ≠ y → m y < m u)
    (h3 : ∀ u ∈ p, 0 < (x.cross y).dot u → u ≠ z → m z < m u) : pickZ p = some (x, y, z) := by
  have hxy : x.cross y ≠ 0 := ne_of_dot hr.ne'
  obtain ⟨A, B, rfl, hA⟩ := split_two hn hs hx hy hxy h1 h2
  have hzy : z ≠ y := by
    rintro rfl
    simp only [Vec3.cross, Vec3.dot] at hr
    ring_nf at hr
    exact lt_irrefl _ hr
  have hxz : x.cross z ≠ 0 := by
    intro h0
    have e : (x.cross y).dot z = - (x.cross z).dot y := by simp only [Vec3.cross, Vec3.dot]; ring
    rw [e, h0, dot_zero, neg_zero] at hr
    exact lt_irrefl _ hr
  have hyz : m y < m z := h2 z hz hxz hzy
  have hzB : z ∈ B := mem_after (A := x :: A) (by simpa using hs) (by simpa using hz) hyz
  obtain ⟨B1, B2, rfl⟩ := List.append_of_mem hzB
  have hB : ∀ u ∈ B1, (x.cross y).dot u ≤ 0 := by
    intro u hu
    by_contra hc
    have hn' : (z :: B2).Nodup ∧ u ≠ z := by
      have h0 := (List.nodup_cons.1 hn).2
      have h1 := (List.nodup_cons.1 (List.nodup_append.1 h0).2.1).2
      exact ⟨(List.nodup_append.1 h1).2.1, fun e => (List.nodup_append.1 h1).2.2 u hu z (by simp) e⟩
    have a := h3 u (by simp [hu]) (not_le.1 hc) hn'.2
    have hs1 := (List.pairwise_append.1 (List.pairwise_cons.1 hs).2).2.1
    have hs2 := (List.pairwise_cons.1 hs1).2
    have b := (List.pairwise_append.1 hs2).2.2 u hu z (by simp)
    linarith
  refine pickZ_of (i := A.length + 1) (j := B1.length + (A.length + 1) + 1) (w := x.cross y) rfl ?_ (getElem?_after (A := x :: A) rfl) ?_ ?_
  · show secondZ x (A ++ y :: (B1 ++ z :: B2)) 0 0 = _
    rw [secondZ_skip hxy _ A 0 0 hA, Nat.zero_add]
  · have hd : (x :: (A ++ y :: (B1 ++ z :: B2))).drop (A.length + 1 + 1) = B1 ++ z :: B2 := by
      rw [List.drop_succ_cons, List.drop_append]
      simp
    rw [hd, thirdZ_hit hr _ B2 B1 0 hB, Nat.zero_add]
  · have e : x :: (A ++ y :: (B1 ++ z :: B2)) = (x :: (A ++ y :: B1)) ++ z :: B2 := by simp
    rw [e]
    refine getElem?_after ?_
    simp only [List.length_cons, List.length_append]
    omega

theorem third_of_three {q0 q1 q2 : Vec3 ℤ} {t : List (Vec3 ℤ)} (hs : (q0 :: q1 :: q2 :: t).Pairwise fun a b => m a ≤ m b) {u : Vec3 ℤ}
    (hu : u ∈ q0 :: q1 :: q2 :: t) (h : m u < m q2) : u = q0 ∨ u = q1 := by
  have := mem_before (A := [q0, q1]) (v := q2) (B := t) (by simpa using hs) (by simpa using hu) h
  simpa using this

/-- the left-handed case: no vector is on the right side, and the vector at the index 2 lies in the plane of the first two if there is a third
short vector in this plane. -/
theorem pick_left (hn : p.Nodup) (hs : p.Pairwise fun a b => m a ≤ m b) (hx : x ∈ p) (hy : y ∈ p) {v : Vec3 ℤ} (hv : v ∈ p)
    (hvx : v ≠ x) (hvy : v ≠ y) (hxy : x.cross y ≠ 0) (h1 : ∀ u ∈ p, u ≠ x → m x < m u)
    (h2 : ∀ u ∈ p, x.cross u ≠ 0 → u ≠ y → m y < m u) (h3 : ∀ u ∈ p, (x.cross y).dot u ≤ 0)
    (h4 : ∀ u ∈ p, (x.cross y).dot u ≠ 0 → m x < m u ∧ m y < m u ∧ m v < m u) : PicksFlat p := by
  have hne : y ≠ x := by
    rintro rfl
    exact hxy (by ext <;> simp [Vec3.cross] <;> ring)
  obtain ⟨A, B, hp, hA⟩ := split_two hn hs hx hy hxy h1 h2
  have hlen : 3 ≤ p.length := by
    have hnd : [x, y, v].Nodup := by simp [hne.symm, hvx.symm, hvy.symm]
    have hsub : [x, y, v] ⊆ p := by
      intro u hu
      simp only [List.mem_cons, List.not_mem_nil, or_false] at hu
      rcases hu with rfl | rfl | rfl <;> assumption
    exact (List.subperm_of_subset hnd hsub).length_le
  obtain ⟨q0, q1, q2, t, hq⟩ : ∃ q0 q1 q2 t, p = q0 :: q1 :: q2 :: t := by
    match p, hlen with
    | q0 :: q1 :: q2 :: t, _ => exact ⟨q0, q1, q2, t, rfl⟩
  have hflat : (x.cross y).dot q2 = 0 := by
    by_contra hc
    obtain ⟨a, b, c⟩ := h4 q2 (by rw [hq]; simp) hc
    rw [hq] at hs hx hy hv
    have a' := third_of_three hs hx a
    have b' := third_of_three hs hy b
    have c' := third_of_three hs hv c
    rcases a' with rfl | rfl <;> rcases b' with rfl | rfl <;> rcases c' with rfl | rfl <;> simp_all
  refine ⟨x, y, q2, ?_, flat_of hflat⟩
  refine pickZ_of (p := p) (i := A.length + 1) (j := 2) (w := x.cross y) (by rw [hp]; rfl) ?_ ?_ ?_ (by rw [hq]; rfl)
  · rw [hp]
    show secondZ x (A ++ y :: B) 0 0 = _
    rw [secondZ_skip hxy _ A 0 0 hA, Nat.zero_add]
  · rw [hp]
    exact getElem?_after (A := x :: A) rfl
  · refine thirdZ_none _ _ 0 fun u hu => h3 u (List.mem_of_mem_drop hu)

/-- the compact case: the three vectors stand first, in any order. -/
theorem pick_three {e F G : Vec3 ℤ} (hn : p.Nodup) (hs : p.Pairwise fun a b => m a ≤ m b) (he : e ∈ p) (hF : F ∈ p) (hG : G ∈ p)
    (hr : 0 < (e.cross F).dot G) (h1 : ∀ u ∈ p, u ≠ e → u ≠ F → u ≠ G → m e < m u ∧ m F < m u ∧ m G < m u)
    (hc : ∀ u ∈ p, ∃ i j k : ℤ, 0 ≤ i ∧ 0 ≤ j ∧ 0 ≤ k ∧ u = Mat3.ofCols e F G * (⟨i, j, k⟩ : Vec3 ℤ)) : PicksBasis p e F G := by
  have d1 : e ≠ F := by
    rintro rfl
    simp only [Vec3.cross, Vec3.dot] at hr; ring_nf at hr; exact lt_irrefl _ hr
  have d2 : e ≠ G := by
    rintro rfl
    simp only [Vec3.cross, Vec3.dot] at hr; ring_nf at hr; exact lt_irrefl _ hr
  have d3 : F ≠ G := by
    rintro rfl
    simp only [Vec3.cross, Vec3.dot] at hr; ring_nf at hr; exact lt_irrefl _ hr
  have hnd : [e, F, G].Nodup := by simp [d1, d2, d3]
  have hlen : 3 ≤ p.length := by
    have hsub : [e, F, G] ⊆ p := by
      intro u hu
      simp only [List.mem_cons, List.not_mem_nil, or_false] at hu
      rcases hu with rfl | rfl | rfl <;> assumption
    exact (List.subperm_of_subset hnd hsub).length_le
  obtain ⟨q0, q1, q2, t, rfl⟩ : ∃ q0 q1 q2 t, p = q0 :: q1 :: q2 :: t := by
    match p, hlen with
    | q0 :: q1 :: q2 :: t, _ => exact ⟨q0, q1, q2, t, rfl⟩
  have hq : ∀ q ∈ [q0, q1, q2], m q ≤ m q2 := by
    intro q hq
    simp only [List.mem_cons, List.not_mem_nil, or_false] at hq
    rcases hq with rfl | rfl | rfl
    · exact (List.pairwise_cons.1 hs).1 _ (by simp)
    · exact (List.pairwise_cons.1 (List.pairwise_cons.1 hs).2).1 _ (by simp)
    · exact le_rfl
  have hin : [q0, q1, q2] ⊆ [e, F, G] := by
    intro q hqm
    by_contra hc
    simp only [List.mem_cons, List.not_mem_nil, or_false, not_or] at hc
    have hqp : q ∈ q0 :: q1 :: q2 :: t := by
      simp only [List.mem_cons, List.not_mem_nil, or_false] at hqm ⊢
      tauto
    obtain ⟨a, b, c⟩ := h1 q hqp hc.1 hc.2.1 hc.2.2
    have le := hq q hqm
    have a' := third_of_three hs he (by linarith)
    have b' := third_of_three hs hF (by linarith)
    have c' := third_of_three hs hG (by linarith)
    rcases a' with rfl | rfl <;> rcases b' with rfl | rfl <;> rcases c' with rfl | rfl <;> simp_all
  have hqn : [q0, q1, q2].Nodup := by
    have e3 : q0 :: q1 :: q2 :: t = [q0, q1, q2] ++ t := rfl
    rw [e3] at hn
    exact (List.nodup_append.1 hn).1
  have hperm : [q0, q1, q2].Perm [e, F, G] := (List.subperm_of_subset hqn hin).perm_of_length_le (by simp)
  have hdet : (q0.cross q1).dot q2 = (e.cross F).dot G ∨ (q0.cross q1).dot q2 = -(e.cross F).dot G := by
    have := List.mem_permutations'.2 hperm
    simp only [List.permutations', List.permutations'Aux, List.flatMap_cons, List.flatMap_nil, List.append_nil, List.map_cons,
      List.map_nil, List.mem_cons, List.cons.injEq, and_true, List.not_mem_nil, or_false, List.mem_append] at this
    simp only [Vec3.cross, Vec3.dot]
    rcases this with (⟨rfl, rfl, rfl⟩ | ⟨rfl, rfl, rfl⟩ | ⟨rfl, rfl, rfl⟩) | ⟨rfl, rfl, rfl⟩ | ⟨rfl, rfl, rfl⟩ | ⟨rfl, rfl, rfl⟩ <;>
      first | (left; ring1) | (right; ring1)
  have hd0 : (q0.cross q1).dot q2 ≠ 0 := by
    rcases hdet with h | h <;> rw [h] <;> omega
  refine ⟨q0, q1, q2, ?_, hperm⟩
  refine pickZ_of (i := 1) (j := 2) (w := q0.cross q1) rfl (secondZ_skip (ne_of_dot hd0) _ [] 0 0 (by simp)) rfl ?_ rfl
  show thirdZ (q0.cross q1) 1 (q2 :: t) 0 = 2
  rcases lt_or_gt_of_ne hd0 with hneg | hpos
  · refine thirdZ_none 1 _ 0 fun u hu => ?_
    obtain ⟨i, j, k, hi, hj, hk, rfl⟩ := hc u (by simp only [List.mem_cons] at hu ⊢; tauto)
    have := List.mem_permutations'.2 hperm
    simp only [List.permutations', List.permutations'Aux, List.flatMap_cons, List.flatMap_nil, List.append_nil, List.map_cons,
      List.map_nil, List.mem_cons, List.cons.injEq, and_true, List.not_mem_nil, or_false, List.mem_append] at this
    have key : ∃ c : ℤ, 0 ≤ c ∧ (q0.cross q1).dot (Mat3.ofCols e F G * (⟨i, j, k⟩ : Vec3 ℤ)) = c * (q0.cross q1).dot q2 := by
      rcases this with (⟨rfl, rfl, rfl⟩ | ⟨rfl, rfl, rfl⟩ | ⟨rfl, rfl, rfl⟩) | ⟨rfl, rfl, rfl⟩ | ⟨rfl, rfl, rfl⟩ | ⟨rfl, rfl, rfl⟩
      · exact ⟨k, hk, by simp [Mat3.ofCols, Vec3.cross, Vec3.dot]; ring⟩
      · exact ⟨k, hk, by simp [Mat3.ofCols, Vec3.cross, Vec3.dot]; ring⟩
      · exact ⟨i, hi, by simp [Mat3.ofCols, Vec3.cross, Vec3.dot]; ring⟩
      · exact ⟨j, hj, by simp [Mat3.ofCols, Vec3.cross, Vec3.dot]; ring⟩
      · exact ⟨j, hj, by simp [Mat3.ofCols, Vec3.cross, Vec3.dot]; ring⟩
      · exact ⟨i, hi, by simp [Mat3.ofCols, Vec3.cross, Vec3.dot]; ring⟩
    obtain ⟨c, hc0, hce⟩ := key
    rw [hce]
    nlinarith
  · exact thirdZ_hit (A := []) hpos 1 t 0 (by simp)

/-- a basis that is picked is good. -/
theorem good_of_frame {N : ℕ} {hs : List (Vec3 ℤ)} {e F G : Vec3 ℤ} (hr : 0 < (e.cross F).dot G)
    (hcard : (e.cross F).dot G * (hs.length + 1) = (N : ℤ) ^ 3)
    (hin : ∀ w ∈ [e, F, G], w ∈ unitsZ N ++ hs)
    (hc : ∀ u ∈ unitsZ N ++ hs, ∃ t : Vec3 ℤ, u = Mat3.ofCols e F G * t) (hp : PicksBasis p e F G) : goodPick N hs p = true := by
  obtain ⟨x, y, z, hz, hperm⟩ := hp
  have hcases := List.mem_permutations'.2 hperm
  simp only [List.permutations', List.permutations'Aux, List.flatMap_cons, List.flatMap_nil, List.append_nil, List.map_cons,
    List.map_nil, List.mem_cons, List.cons.injEq, and_true, List.not_mem_nil, or_false, List.mem_append] at hcases
  have hdet : (Mat3.ofCols x y z).det = (e.cross F).dot G ∨ (Mat3.ofCols x y z).det = -(e.cross F).dot G := by
    rcases hcases with (⟨rfl, rfl, rfl⟩ | ⟨rfl, rfl, rfl⟩ | ⟨rfl, rfl, rfl⟩) | ⟨rfl, rfl, rfl⟩ | ⟨rfl, rfl, rfl⟩ | ⟨rfl, rfl, rfl⟩ <;>
      simp only [Mat3.ofCols, Mat3.det, Vec3.cross, Vec3.dot] <;> first | (left; ring1) | (right; ring1)
  have hd0 : (Mat3.ofCols x y z).det ≠ 0 := by
    rcases hdet with h | h <;> rw [h] <;> omega
  have habs : ((Mat3.ofCols x y z).det.natAbs : ℤ) = (e.cross F).dot G := by
    rw [Int.natCast_natAbs]
    rcases hdet with h | h <;> rw [h]
    · exact abs_of_pos hr
    · rw [abs_neg]; exact abs_of_pos hr
  have hspan : ∀ k ∈ unitsZ N ++ hs, ∃ t : Vec3 ℤ, Mat3.ofCols x y z * t = k := by
    intro k hk
    obtain ⟨⟨i, j, k'⟩, rfl⟩ := hc k hk
    rcases hcases with (⟨rfl, rfl, rfl⟩ | ⟨rfl, rfl, rfl⟩ | ⟨rfl, rfl, rfl⟩) | ⟨rfl, rfl, rfl⟩ | ⟨rfl, rfl, rfl⟩ | ⟨rfl, rfl, rfl⟩
    · exact ⟨⟨i, j, k'⟩, rfl⟩
    · exact ⟨⟨j, i, k'⟩, by ext <;> simp [Mat3.ofCols] <;> ring⟩
    · exact ⟨⟨j, k', i⟩, by ext <;> simp [Mat3.ofCols] <;> ring⟩
    · exact ⟨⟨i, k', j⟩, by ext <;> simp [Mat3.ofCols] <;> ring⟩
    · exact ⟨⟨k', i, j⟩, by ext <;> simp [Mat3.ofCols] <;> ring⟩
    · exact ⟨⟨k', j, i⟩, by ext <;> simp [Mat3.ofCols] <;> ring⟩
  unfold goodPick
  rw [hz]
  simp only [Bool.and_eq_true, decide_eq_true_eq, List.all_eq_true]
  refine ⟨⟨⟨?_, hd0⟩, hin x (hperm.mem_iff.1 (by simp)), hin y (hperm.mem_iff.1 (by simp)), hin z (hperm.mem_iff.1 (by simp))⟩, fun k hk => ?_⟩
  · have : ((((Mat3.ofCols x y z).det.natAbs * (hs.length + 1) : ℕ)) : ℤ) = ((N ^ 3 : ℕ) : ℤ) := by
      push_cast
      rw [← hcard, ← habs, Int.natCast_natAbs]
    exact_mod_cast this
  · obtain ⟨t, rfl⟩ := hspan k hk
    have ha : (Mat3.ofCols x y z).adj * (Mat3.ofCols x y z * t) = Vec3.scale (Mat3.ofCols x y z).det t := by
      ext <;> simp [Mat3.adj, Mat3.det, Vec3.scale] <;> ring
    rw [ha]
    simp [Vec3.scale]

end CrystSymm
