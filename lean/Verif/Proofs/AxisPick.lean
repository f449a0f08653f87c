import Verif.Props.CentredCells

set_option autoImplicit false
set_option linter.unusedSectionVars false

/-! # The three vectors picked from the translations of a cell repeated along one axis -/

namespace CrystSymm

open Spec Reducer

theorem secondZ_skip {first v : Vec3 ℤ} (hv : first.cross v ≠ 0) (B : List (Vec3 ℤ)) : ∀ (A : List (Vec3 ℤ)) (n : ℕ) (w : Vec3 ℤ),
    (∀ u ∈ A, first.cross u = 0) → secondZ first (A ++ v :: B) n w = (n + A.length + 1, first.cross v)
  | [], n, w, _ => by simp [secondZ, hv]
  | u :: A, n, w, h => by
    rw [List.cons_append, secondZ, if_pos (h u (by simp)), secondZ_skip hv B A _ _ fun u hu => h u (by simp [hu])]
    simp only [List.length_cons, Prod.mk.injEq, and_true]
    omega

theorem thirdZ_hit {w v : Vec3 ℤ} (hv : 0 < w.dot v) (k : ℕ) (B : List (Vec3 ℤ)) : ∀ (A : List (Vec3 ℤ)) (n : ℕ),
    (∀ u ∈ A, w.dot u ≤ 0) → thirdZ w k (A ++ v :: B) n = n + A.length + k + 1
  | [], n, _ => by simp [thirdZ, hv]
  | u :: A, n, h => by
    rw [List.cons_append, thirdZ, if_neg (not_lt.2 (h u (by simp))), thirdZ_hit hv k B A _ fun u hu => h u (by simp [hu])]
    simp only [List.length_cons]
    omega

theorem thirdZ_none {w : Vec3 ℤ} (k : ℕ) : ∀ (A : List (Vec3 ℤ)) (n : ℕ), (∀ u ∈ A, w.dot u ≤ 0) → thirdZ w k A n = 2
  | [], n, _ => rfl
  | u :: A, n, h => by
    rw [thirdZ, if_neg (not_lt.2 (h u (by simp))), thirdZ_none k A _ fun u hu => h u (by simp [hu])]

/-- a positive multiple of `e`. -/
def Along (e v : Vec3 ℤ) : Prop := ∃ k : ℤ, 0 < k ∧ v = Vec3.scale k e

variable {e F G : Vec3 ℤ}

theorem cross_along {u v : Vec3 ℤ} (hu : Along e u) (hv : Along e v) : u.cross v = 0 := by
  obtain ⟨j, -, rfl⟩ := hu
  obtain ⟨k, -, rfl⟩ := hv
  ext <;> simp [Vec3.cross, Vec3.scale] <;> ring

theorem dot_zero (v : Vec3 ℤ) : (0 : Vec3 ℤ).dot v = 0 := by simp [Vec3.dot]

theorem ne_of_dot {w v : Vec3 ℤ} (h : w.dot v ≠ 0) : w ≠ 0 := by
  rintro rfl
  exact h (dot_zero v)

/-- all signs that the scans look at. -/
theorem frame_signs (h : 0 < (e.cross F).dot G) {u v : Vec3 ℤ} (hu : Along e u) (hv : Along e v) :
    0 < (u.cross F).dot G ∧ (u.cross G).dot F < 0 ∧ (F.cross u).dot G < 0 ∧ 0 < (G.cross u).dot F ∧
    0 < (F.cross G).dot u ∧ (G.cross F).dot u < 0 ∧
    (u.cross F).dot v = 0 ∧ (u.cross G).dot v = 0 ∧ (F.cross u).dot v = 0 ∧ (G.cross u).dot v = 0 := by
  obtain ⟨j, hj, rfl⟩ := hu
  obtain ⟨k, -, rfl⟩ := hv
  have hp : 0 < j * (e.cross F).dot G := mul_pos hj h
  simp only [Vec3.cross, Vec3.dot, Vec3.scale] at hp ⊢
  refine ⟨?_, ?_, ?_, ?_, ?_, ?_, ?_, ?_, ?_, ?_⟩ <;> first | nlinarith | ring

/-- the vectors picked are independent, or they are not. -/
def PicksBasis (p : List (Vec3 ℤ)) (e F G : Vec3 ℤ) : Prop :=
  ∃ x y z, pickZ p = some (x, y, z) ∧ [x, y, z].Perm [e, F, G]

def PicksFlat (p : List (Vec3 ℤ)) : Prop := ∃ x y z, pickZ p = some (x, y, z) ∧ (Mat3.ofCols x y z).det = 0

theorem pickZ_of {p : List (Vec3 ℤ)} {x y z w : Vec3 ℤ} {i j : ℕ} (h0 : p[0]? = some x) (hs : secondZ x (p.drop 1) 0 0 = (i, w))
    (hi : p[i]? = some y) (ht : thirdZ w i (p.drop (i + 1)) 0 = j) (hj : p[j]? = some z) : pickZ p = some (x, y, z) := by
  obtain ⟨hl, -⟩ := List.getElem?_eq_some_iff.1 hi
  unfold pickZ
  rw [h0, Option.bind_some, hs]
  simp only
  rw [if_neg (by omega), hi, Option.bind_some, ht, hj, Option.bind_some]

section
variable {M0 M1 M2 : List (Vec3 ℤ)} {x y : Vec3 ℤ}

/-- both other vectors come first. -/
theorem pick_two (h : 0 < (e.cross F).dot G) (hxy : x = F ∧ y = G ∨ x = G ∧ y = F) (he : Along e e) (h2 : ∀ u ∈ M2, Along e u) :
    PicksBasis (x :: y :: e :: M2) e F G := by
  have hne : x.cross y ≠ 0 := by
    obtain ⟨-, -, -, -, a, b, -⟩ := frame_signs h he he
    rcases hxy with ⟨rfl, rfl⟩ | ⟨rfl, rfl⟩
    · exact ne_of_dot a.ne'
    · exact ne_of_dot b.ne
  refine ⟨x, y, e, ?_, ?_⟩
  · refine pickZ_of (i := 1) (j := 2) (w := x.cross y) rfl ?_ rfl ?_ rfl
    · exact secondZ_skip hne (e :: M2) [] 0 0 (by simp)
    · rcases hxy with ⟨rfl, rfl⟩ | ⟨rfl, rfl⟩
      · exact thirdZ_hit (frame_signs h he he).2.2.2.2.1 1 M2 [] 0 (by simp)
      · refine thirdZ_none 1 _ 0 fun u hu => ?_
        have hu' : Along e u := by
          rcases List.mem_cons.1 hu with rfl | hu
          · exact he
          · exact h2 u hu
        exact (frame_signs h hu' he).2.2.2.2.2.1.le
  · rcases hxy with ⟨rfl, rfl⟩ | ⟨rfl, rfl⟩
    · exact (List.perm_append_comm (l₁ := [x, y]) (l₂ := [e]))
    · exact ((List.Perm.swap y x [e]).trans (List.perm_append_comm (l₁ := [y, x]) (l₂ := [e])))

theorem flat_of {a b c : Vec3 ℤ} (h : (a.cross b).dot c = 0) : (Mat3.ofCols a b c).det = 0 := by
  rw [← h]
  simp [Mat3.ofCols, Mat3.det, Vec3.cross, Vec3.dot]
  ring

theorem getElem?_after {A B : List (Vec3 ℤ)} {v : Vec3 ℤ} {i : ℕ} (h : i = A.length) : (A ++ v :: B)[i]? = some v := by
  subst h
  simp

/-- one of the other vectors comes first, then the axis. -/
theorem pick_one_good (h : 0 < (e.cross F).dot G) (he : Along e e) (h1 : ∀ u ∈ M1, Along e u) (h2 : ∀ u ∈ M2, Along e u)
    (hxy : x = F ∧ y = G ∧ M1 = [] ∨ x = G ∧ y = F) : PicksBasis (x :: e :: (M1 ++ y :: M2)) e F G := by
  have hs := frame_signs h he he
  have hne : x.cross e ≠ 0 := by
    rcases hxy with ⟨rfl, rfl, -⟩ | ⟨rfl, rfl⟩
    · exact ne_of_dot hs.2.2.1.ne
    · exact ne_of_dot hs.2.2.2.1.ne'
  refine ⟨x, e, y, ?_, ?_⟩
  · refine pickZ_of (i := 1) (j := M1.length + 2) (w := x.cross e) rfl (secondZ_skip hne _ [] 0 0 (by simp)) rfl ?_ ?_
    · rcases hxy with ⟨rfl, rfl, rfl⟩ | ⟨rfl, rfl⟩
      · refine thirdZ_none 1 _ 0 fun u hu => ?_
        rcases List.mem_cons.1 hu with rfl | hu
        · exact hs.2.2.1.le
        · exact (frame_signs h he (h2 u hu)).2.2.2.2.2.2.2.2.1.le
      · show thirdZ (x.cross e) 1 (M1 ++ y :: M2) 0 = _
        rw [thirdZ_hit hs.2.2.2.1 1 M2 M1 0 fun u hu => (frame_signs h he (h1 u hu)).2.2.2.2.2.2.2.2.2.le]
        omega
    · exact getElem?_after (A := x :: e :: M1) rfl
  · rcases hxy with ⟨rfl, rfl, -⟩ | ⟨rfl, rfl⟩
    · exact List.Perm.swap _ _ _
    · exact (List.Perm.swap e x [y]).trans (List.Perm.cons e (List.Perm.swap y x []))

theorem pick_one_flat (h : 0 < (e.cross F).dot G) (he : Along e e) {v : Vec3 ℤ} (h1 : ∀ u ∈ v :: M1, Along e u)
    (h2 : ∀ u ∈ M2, Along e u) : PicksFlat (F :: e :: (v :: M1 ++ G :: M2)) := by
  have hs := frame_signs h he he
  refine ⟨F, e, v, ?_, flat_of (frame_signs h he (h1 v (by simp))).2.2.2.2.2.2.2.2.1⟩
  refine pickZ_of (i := 1) (j := 2) (w := F.cross e) rfl (secondZ_skip (ne_of_dot hs.2.2.1.ne) _ [] 0 0 (by simp)) rfl ?_ rfl
  refine thirdZ_none 1 _ 0 fun u hu => ?_
  change u ∈ v :: M1 ++ G :: M2 at hu
  rcases List.mem_append.1 hu with hu | hu
  · exact (frame_signs h he (h1 u hu)).2.2.2.2.2.2.2.2.1.le
  · rcases List.mem_cons.1 hu with rfl | hu
    · exact hs.2.2.1.le
    · exact (frame_signs h he (h2 u hu)).2.2.2.2.2.2.2.2.1.le

/-- the axis comes first. -/
theorem pick_axis_good (h : 0 < (e.cross F).dot G) (he : Along e e) (h0 : ∀ u ∈ M0, Along e u) (h1 : ∀ u ∈ M1, Along e u)
    (h2 : ∀ u ∈ M2, Along e u) (hxy : x = F ∧ y = G ∨ x = G ∧ y = F ∧ M0 = [] ∧ M1 = []) :
    PicksBasis (e :: (M0 ++ x :: (M1 ++ y :: M2))) e F G := by
  have hs := frame_signs h he he
  have hne : e.cross x ≠ 0 := by
    rcases hxy with ⟨rfl, rfl⟩ | ⟨rfl, rfl, -⟩
    · exact ne_of_dot hs.1.ne'
    · exact ne_of_dot hs.2.1.ne
  refine ⟨e, x, y, ?_, ?_⟩
  · refine pickZ_of (i := M0.length + 1) (j := M0.length + M1.length + 2) (w := e.cross x) rfl ?_ (getElem?_after (A := e :: M0) rfl) ?_ ?_
    · show secondZ e (M0 ++ x :: (M1 ++ y :: M2)) 0 0 = _
      rw [secondZ_skip hne _ M0 0 0 fun u hu => cross_along he (h0 u hu)]
      simp
    · have hd : (e :: (M0 ++ x :: (M1 ++ y :: M2))).drop (M0.length + 1 + 1) = M1 ++ y :: M2 := by
        rw [List.drop_succ_cons, List.drop_append]
        simp
      rw [hd]
      rcases hxy with ⟨rfl, rfl⟩ | ⟨rfl, rfl, rfl, rfl⟩
      · rw [thirdZ_hit hs.1 _ M2 M1 0 fun u hu => (frame_signs h he (h1 u hu)).2.2.2.2.2.2.1.le]
        omega
      · refine thirdZ_none _ _ 0 fun u hu => ?_
        rcases List.mem_cons.1 hu with rfl | hu
        · exact hs.2.1.le
        · exact (frame_signs h he (h2 u hu)).2.2.2.2.2.2.2.1.le
    · have : e :: (M0 ++ x :: (M1 ++ y :: M2)) = (e :: M0 ++ x :: M1) ++ y :: M2 := by simp
      rw [this]
      exact getElem?_after (by simp; omega)
  · rcases hxy with ⟨rfl, rfl⟩ | ⟨rfl, rfl, -⟩
    · exact List.Perm.refl _
    · exact List.Perm.cons e (List.Perm.swap _ _ [])

theorem pick_axis_flat (h : 0 < (e.cross F).dot G) (he : Along e e) (h0 : ∀ u ∈ M0, Along e u) (h1 : ∀ u ∈ M1, Along e u)
    (h2 : ∀ u ∈ M2, Along e u) (hl : 1 ≤ M0.length + M1.length) : PicksFlat (e :: (M0 ++ G :: (M1 ++ F :: M2))) := by
  have hs := frame_signs h he he
  have hsec : secondZ e ((e :: (M0 ++ G :: (M1 ++ F :: M2))).drop 1) 0 0 = (M0.length + 1, e.cross G) := by
    show secondZ e (M0 ++ G :: (M1 ++ F :: M2)) 0 0 = _
    rw [secondZ_skip (ne_of_dot hs.2.1.ne) _ M0 0 0 fun u hu => cross_along he (h0 u hu)]
    simp
  have hd : (e :: (M0 ++ G :: (M1 ++ F :: M2))).drop (M0.length + 1 + 1) = M1 ++ F :: M2 := by
    rw [List.drop_succ_cons, List.drop_append]
    simp
  have hth : thirdZ (e.cross G) (M0.length + 1) ((e :: (M0 ++ G :: (M1 ++ F :: M2))).drop (M0.length + 1 + 1)) 0 = 2 := by
    rw [hd]
    refine thirdZ_none _ _ 0 fun u hu => ?_
    rcases List.mem_append.1 hu with hu | hu
    · exact (frame_signs h he (h1 u hu)).2.2.2.2.2.2.2.1.le
    · rcases List.mem_cons.1 hu with rfl | hu
      · exact hs.2.1.le
      · exact (frame_signs h he (h2 u hu)).2.2.2.2.2.2.2.1.le
  have key : ∀ z, (e :: (M0 ++ G :: (M1 ++ F :: M2)))[2]? = some z → (e.cross G).dot z = 0 → PicksFlat (e :: (M0 ++ G :: (M1 ++ F :: M2))) :=
    fun z hz h0 => ⟨e, G, z, pickZ_of rfl hsec (getElem?_after (A := e :: M0) rfl) hth hz, flat_of h0⟩
  match M0, M1 with
  | [], [] => simp at hl
  | [], v :: M1 => exact key v rfl (frame_signs h he (h1 v (by simp))).2.2.2.2.2.2.2.1
  | [u], M1 => exact key G rfl (by simp [Vec3.cross, Vec3.dot]; ring)
  | u :: w :: M0, M1 => exact key w rfl (frame_signs h he (h0 w (by simp))).2.2.2.2.2.2.2.1

end

theorem before_split {A B : List (Vec3 ℤ)} {v : Vec3 ℤ} (hn : (A ++ v :: B).Nodup) (u : Vec3 ℤ) : Before (A ++ v :: B) u v ↔ u ∈ A := by
  have hv : v ∉ A := fun h => (List.nodup_append.1 hn).2.2 v h v (by simp) rfl
  unfold Before
  rw [List.idxOf_append_of_notMem hv]
  constructor
  · intro h
    by_contra hu
    rw [List.idxOf_append_of_notMem hu] at h
    simp at h
  · intro hu
    rw [List.idxOf_append_of_mem hu]
    have := List.idxOf_lt_length_of_mem hu
    omega

theorem multiple_injective {e : Vec3 ℤ} (he : e ≠ 0) {j k : ℤ} (h : Vec3.scale j e = Vec3.scale k e) : j = k := by
  by_contra hne
  apply he
  have hx := congrArg Vec3.x h
  have hy := congrArg Vec3.y h
  have hz := congrArg Vec3.z h
  simp only [Vec3.scale] at hx hy hz
  have key : ∀ t : ℤ, j * t = k * t → t = 0 := by
    intro t ht
    rcases mul_eq_zero.1 (show (j - k) * t = 0 by rw [sub_mul, ht, sub_self]) with h | h
    · exact absurd (sub_eq_zero.1 h) hne
    · exact h
  ext
  · exact key _ hx
  · exact key _ hy
  · exact key _ hz

/-- `p` lists the vectors `F`, `G`, `e`, `2 e`, …, `n e` with `e` before its multiples and `2 e` before the rest of them. -/
structure AxisOrder (n : ℕ) (p : List (Vec3 ℤ)) (e F G : Vec3 ℤ) : Prop where
  nodup : p.Nodup
  mem : ∀ v, v ∈ p ↔ v = F ∨ v = G ∨ ∃ k : ℤ, 1 ≤ k ∧ k ≤ n ∧ v = Vec3.scale k e
  two : 2 ≤ n
  first : ∀ k : ℤ, 2 ≤ k → k ≤ n → Before p e (Vec3.scale k e)
  second : ∀ k : ℤ, 3 ≤ k → k ≤ n → Before p (Vec3.scale 2 e) (Vec3.scale k e)
  right : 0 < (e.cross F).dot G

/-- the orders for which the vectors picked lie in one plane. -/
def BadOrder (p : List (Vec3 ℤ)) (e F G : Vec3 ℤ) : Prop :=
  (Before p F e ∧ Before p (Vec3.scale 2 e) G) ∨ (Before p e G ∧ Before p G F ∧ Before p (Vec3.scale 2 e) F)

section
variable {n : ℕ} {p A B : List (Vec3 ℤ)} {v : Vec3 ℤ}

theorem scale_one (v : Vec3 ℤ) : Vec3.scale 1 v = v := by ext <;> simp [Vec3.scale]

theorem along_self (e : Vec3 ℤ) : Along e e := ⟨1, by norm_num, (scale_one e).symm⟩

theorem axis_head (h : AxisOrder n p e F G) (hp : p = A ++ v :: B) (hF : v ≠ F) (hG : v ≠ G) (hA : e ∉ A) : v = e := by
  obtain h1 | h1 | ⟨k, h1, h2, hk⟩ := (h.mem v).1 (by rw [hp]; simp)
  · exact absurd h1 hF
  · exact absurd h1 hG
  · rcases h1.eq_or_lt with rfl | h1
    · rw [hk, scale_one]
    · have := h.first k (by omega) h2
      rw [← hk, hp, before_split (hp ▸ h.nodup)] at this
      exact absurd this hA

theorem axis_head_two (h : AxisOrder n p e F G) (hp : p = A ++ v :: B) (hF : v ≠ F) (hG : v ≠ G) (he : v ≠ e)
    (hA : Vec3.scale 2 e ∉ A) : v = Vec3.scale 2 e := by
  obtain h1 | h1 | ⟨k, h1, h2, hk⟩ := (h.mem v).1 (by rw [hp]; simp)
  · exact absurd h1 hF
  · exact absurd h1 hG
  · rcases h1.eq_or_lt with rfl | h1
    · rw [scale_one] at hk; exact absurd hk he
    · rcases (show (2 : ℤ) ≤ k by omega).eq_or_lt with rfl | h3
      · exact hk
      · have := h.second k (by omega) h2
        rw [← hk, hp, before_split (hp ▸ h.nodup)] at this
        exact absurd this hA

theorem axis_not (h : 0 < (e.cross F).dot G) {v : Vec3 ℤ} (hv : Along e v) : v ≠ F ∧ v ≠ G := by
  obtain ⟨h1, h2, -⟩ := frame_signs h hv hv
  constructor
  · rintro rfl
    exact absurd h1 (by simp [Vec3.cross, Vec3.dot]; ring_nf; norm_num)
  · rintro rfl
    exact absurd h2 (by simp [Vec3.cross, Vec3.dot]; ring_nf; norm_num)

/-- **The vectors picked** from the translations of a cell repeated along one axis. -/
theorem axis_pick (h : AxisOrder n p e F G) : (BadOrder p e F G → PicksFlat p) ∧ (¬ BadOrder p e F G → PicksBasis p e F G) := by
  have hr := h.right
  have he := along_self e
  have h2e : Along e (Vec3.scale 2 e) := ⟨2, by norm_num, rfl⟩
  obtain ⟨eF, eG⟩ := axis_not hr he
  obtain ⟨tF, tG⟩ := axis_not hr h2e
  have hs := frame_signs hr he he
  have e0 : e ≠ 0 := by
    rintro rfl
    exact absurd hr (by simp [Vec3.cross, Vec3.dot])
  have te : Vec3.scale 2 e ≠ e := by
    intro hh
    have : Vec3.scale 2 e = Vec3.scale 1 e := by rw [scale_one]; exact hh
    exact absurd (multiple_injective e0 this) (by norm_num)
  have FG : F ≠ G := by
    rintro rfl
    exact absurd hr (by simp [Vec3.cross, Vec3.dot]; ring_nf; norm_num)
  have hFm : F ∈ p := (h.mem F).2 (Or.inl rfl)
  have hGm : G ∈ p := (h.mem G).2 (Or.inr (Or.inl rfl))
  have hem : e ∈ p := (h.mem e).2 (Or.inr (Or.inr ⟨1, le_rfl, by have := h.two; omega, (scale_one e).symm⟩))
  -- the list around the two other vectors
  have hsplit : ∃ M0 M1 M2 x y, p = M0 ++ x :: (M1 ++ y :: M2) ∧ (x = F ∧ y = G ∨ x = G ∧ y = F) := by
    obtain ⟨A, B, hp⟩ := List.append_of_mem hFm
    have : G ∈ A ++ F :: B := hp ▸ hGm
    rcases List.mem_append.1 this with hG | hG
    · obtain ⟨A1, A2, rfl⟩ := List.append_of_mem hG
      exact ⟨A1, A2, B, G, F, by rw [hp]; simp, Or.inr ⟨rfl, rfl⟩⟩
    · rcases List.mem_cons.1 hG with hG | hG
      · exact absurd hG.symm FG
      · obtain ⟨B1, B2, rfl⟩ := List.append_of_mem hG
        exact ⟨A, B1, B2, F, G, hp, Or.inl ⟨rfl, rfl⟩⟩
  obtain ⟨M0, M1, M2, x, y, hp, hxy⟩ := hsplit
  have hp' : p = (M0 ++ x :: M1) ++ y :: M2 := by rw [hp]; simp
  have bx : ∀ u, Before p u x ↔ u ∈ M0 := by
    intro u
    have := before_split (hp ▸ h.nodup) u
    rwa [← hp] at this
  have hby : ∀ u, Before p u y ↔ u ∈ M0 ++ x :: M1 := by
    intro u
    have := before_split (hp' ▸ h.nodup) u
    rwa [← hp'] at this
  have hnd := h.nodup
  rw [hp] at hnd
  simp only [List.nodup_append, List.nodup_cons, List.mem_append, List.mem_cons, not_or] at hnd
  obtain ⟨-, ⟨⟨hx1, hxy', hx2⟩, -, ⟨hy2, -⟩, hdis1⟩, hdis0⟩ := hnd
  have hx0 : x ∉ M0 := fun hh => hdis0 x hh x (Or.inl rfl) rfl
  have hy0 : y ∉ M0 := fun hh => hdis0 y hh y (Or.inr (Or.inr (Or.inl rfl))) rfl
  have hy1 : y ∉ M1 := fun hh => hdis1 y hh y (Or.inl rfl) rfl
  have other : ∀ u ∈ p, u ≠ x → u ≠ y → u ≠ F ∧ u ≠ G ∧ Along e u := by
    intro u hu h1 h2
    have hh : u ≠ F ∧ u ≠ G := by
      rcases hxy with ⟨rfl, rfl⟩ | ⟨rfl, rfl⟩
      · exact ⟨h1, h2⟩
      · exact ⟨h2, h1⟩
    rcases (h.mem u).1 hu with h3 | h3 | ⟨k, h3, -, hk⟩
    · exact absurd h3 hh.1
    · exact absurd h3 hh.2
    · exact ⟨hh.1, hh.2, k, by omega, hk⟩
  have h0 : ∀ u ∈ M0, u ≠ F ∧ u ≠ G ∧ Along e u := fun u hu =>
    other u (by rw [hp]; simp [hu]) (fun hh => hx0 (hh ▸ hu)) (fun hh => hy0 (hh ▸ hu))
  have h1 : ∀ u ∈ M1, u ≠ F ∧ u ≠ G ∧ Along e u := fun u hu =>
    other u (by rw [hp]; simp [hu]) (fun hh => hx1 (hh ▸ hu)) (fun hh => hy1 (hh ▸ hu))
  have h2 : ∀ u ∈ M2, u ≠ F ∧ u ≠ G ∧ Along e u := fun u hu =>
    other u (by rw [hp]; simp [hu]) (fun hh => hx2 (hh ▸ hu)) (fun hh => hy2 (hh ▸ hu))
  have ex : e ≠ x ∧ e ≠ y ∧ Vec3.scale 2 e ≠ x ∧ Vec3.scale 2 e ≠ y := by
    rcases hxy with ⟨rfl, rfl⟩ | ⟨rfl, rfl⟩
    · exact ⟨eF, eG, tF, tG⟩
    · exact ⟨eG, eF, tG, tF⟩
  obtain ⟨ex, ey, tx, ty⟩ := ex
  have total : Before p F e ↔ ¬ Before p e F := (before_total hem eF).symm
  match M0, hp, hp', bx, hby, h0, hx0, hy0 with
  | [], hp, hp', bx, hby, h0, hx0, hy0 =>
    match M1, hp, hp', hby, h1, hx1, hy1 with
    | [], hp, hp', hby, h1, hx1, hy1 =>
      match M2, hp, h2 with
      | [], hp, h2 =>
        rw [hp] at hem
        simp [ex, ey] at hem
      | v :: M2, hp, h2 =>
        obtain rfl := axis_head (A := [x, y]) h hp (h2 v (by simp)).1 (h2 v (by simp)).2.1 (by simp [ex, ey])
        refine ⟨fun hb => ?_, fun _ => ?_⟩
        · exfalso
          rcases hxy with ⟨rfl, rfl⟩ | ⟨rfl, rfl⟩ <;> rcases hb with ⟨-, hb⟩ | ⟨hb1, hb2, hb3⟩
          · rw [hby] at hb; simp [tx] at hb
          · rw [bx] at hb2; simp at hb2
          · rw [bx] at hb; simp at hb
          · rw [bx] at hb1; simp at hb1
        · rw [hp]
          exact pick_two hr hxy he fun u hu => (h2 u (by simp [hu])).2.2
    | v :: M1, hp, hp', hby, h1, hx1, hy1 =>
      obtain rfl := axis_head (A := [x]) h hp (h1 v (by simp)).1 (h1 v (by simp)).2.1 (by simp [ex])
      rcases hxy with ⟨rfl, rfl⟩ | ⟨rfl, rfl⟩
      · match M1, hp, hp', hby, h1, hx1, hy1 with
        | [], hp, hp', hby, h1, hx1, hy1 =>
          refine ⟨fun hb => ?_, fun _ => ?_⟩
          · exfalso
            rcases hb with ⟨-, hb⟩ | ⟨hb1, hb2, hb3⟩
            · rw [hby] at hb; simp [tx, te] at hb
            · rw [bx] at hb2; simp at hb2
          · rw [hp]
            exact pick_one_good (M1 := []) hr he (by simp) (fun u hu => (h2 u hu).2.2) (Or.inl ⟨rfl, rfl, rfl⟩)
        | w :: M1, hp, hp', hby, h1, hx1, hy1 =>
          have hw := h1 w (by simp)
          have hwe : w ≠ v := by
            rintro rfl
            have := h.nodup
            rw [hp] at this
            simp at this
          obtain rfl := axis_head_two (A := [x, v]) h hp hw.1 hw.2.1 hwe (by simp [tx, te])
          refine ⟨fun _ => ?_, fun hb => absurd (Or.inl ⟨?_, ?_⟩) hb⟩
          · rw [hp]
            exact pick_one_flat hr he (fun u hu => (h1 u (by simp only [List.mem_cons] at hu ⊢; tauto)).2.2) fun u hu => (h2 u hu).2.2
          · rw [total, bx]; simp
          · rw [hby]; simp
      · refine ⟨fun hb => ?_, fun _ => ?_⟩
        · exfalso
          rcases hb with ⟨-, hb⟩ | ⟨hb1, -⟩
          · rw [bx] at hb; simp at hb
          · rw [bx] at hb1; simp at hb1
        · rw [hp]
          exact pick_one_good hr he (fun u hu => (h1 u (by simp [hu])).2.2) (fun u hu => (h2 u hu).2.2) (Or.inr ⟨rfl, rfl⟩)
  | v :: M0, hp, hp', bx, hby, h0, hx0, hy0 =>
    obtain rfl := axis_head (A := []) h hp (h0 v (by simp)).1 (h0 v (by simp)).2.1 (by simp)
    have hn : (v :: (M0 ++ x :: (M1 ++ y :: M2))).Nodup := by have := h.nodup; rwa [hp] at this
    rcases hxy with ⟨rfl, rfl⟩ | ⟨rfl, rfl⟩
    · refine ⟨fun hb => ?_, fun _ => ?_⟩
      · exfalso
        rcases hb with ⟨hb, -⟩ | ⟨-, hb, -⟩
        · rw [total, bx] at hb; simp at hb
        · rw [bx] at hb; exact hy0 hb
      · rw [hp]
        exact pick_axis_good hr he (fun u hu => (h0 u (by simp [hu])).2.2) (fun u hu => (h1 u hu).2.2) (fun u hu => (h2 u hu).2.2)
          (Or.inl ⟨rfl, rfl⟩)
    · have hiff : Before p (Vec3.scale 2 v) y ↔ 1 ≤ M0.length + M1.length := by
        rw [hby]
        constructor
        · intro hh
          simp only [List.cons_append, List.mem_cons, List.mem_append] at hh
          rcases hh with hh | hh | hh | hh
          · exact absurd hh te
          · have := List.length_pos_of_mem hh; omega
          · exact absurd hh tx
          · have := List.length_pos_of_mem hh; omega
        · intro hh
          match M0, M1, hp, hh, h0, h1, hn with
          | [], [], hp, hh, h0, h1, hn => simp at hh
          | [], w :: M1, hp, hh, h0, h1, hn =>
            have hw := h1 w (by simp)
            have hwe : w ≠ v := by
              rintro rfl
              simp at hn
            obtain rfl := axis_head_two (A := [v, x]) h hp hw.1 hw.2.1 hwe (by simp [tx, te])
            simp
          | w :: M0, M1, hp, hh, h0, h1, hn =>
            have hw := h0 w (by simp)
            have hwe : w ≠ v := by
              rintro rfl
              simp at hn
            obtain rfl := axis_head_two (A := [v]) h hp hw.1 hw.2.1 hwe (by simp [te])
            simp
      refine ⟨fun hb => ?_, fun hb => ?_⟩
      · rw [hp]
        rcases hb with ⟨hb, -⟩ | ⟨-, -, hb⟩
        · rw [total, hby] at hb; simp at hb
        · exact pick_axis_flat hr he (fun u hu => (h0 u (by simp [hu])).2.2) (fun u hu => (h1 u hu).2.2) (fun u hu => (h2 u hu).2.2)
            (hiff.1 hb)
      · have hl : ¬ 1 ≤ M0.length + M1.length := fun hh => hb (Or.inr ⟨by rw [bx]; simp, by rw [hby]; simp, hiff.2 hh⟩)
        have e1 : M0 = [] := List.length_eq_zero_iff.1 (by omega)
        have e2 : M1 = [] := List.length_eq_zero_iff.1 (by omega)
        rw [hp]
        exact pick_axis_good hr he (fun u hu => (h0 u (by simp [hu])).2.2) (fun u hu => (h1 u hu).2.2) (fun u hu => (h2 u hu).2.2)
          (Or.inr ⟨rfl, rfl, e1, e2⟩)

end

end CrystSymm
