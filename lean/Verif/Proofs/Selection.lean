import Verif.Proofs.CubicCell
import Verif.Props.SameCrystal

set_option autoImplicit false
set_option linter.unusedSectionVars false

/-! # The selection of three translations, for vectors on a fine grid

`get_shortest_translation_vecs` on vectors `L * (v / N)` with integer `v`: after the sort the two scans only use the signs of integer
determinants, if the tolerance is small compared with the grid. -/

namespace CrystSymm

open Spec Reducer

/-- the point of the grid with the spacing `1 / N`. -/
noncomputable def gridPoint (N : ℕ) (v : Vec3 ℤ) : Vec3 ℝ := ⟨(v.x : ℝ) / N, (v.y : ℝ) / N, (v.z : ℝ) / N⟩

/-- the two scans in integer arithmetic, on a list that is sorted already. -/
def pickZ (sorted : List (Vec3 ℤ)) : Option (Vec3 ℤ × Vec3 ℤ × Vec3 ℤ) :=
  sorted[0]?.bind fun first =>
  let sec := secondZ first (sorted.drop 1) 0 0
  if sorted.length < sec.1 + 1 then none
  else
    sorted[sec.1]?.bind fun second =>
    sorted[thirdZ sec.2 sec.1 (sorted.drop (sec.1 + 1)) 0]?.bind fun third => some (first, second, third)

/-- the cross product of two vectors of the grid. -/
noncomputable def gridCross (L : Mat3 ℝ) (N : ℕ) (w : Vec3 ℤ) : Vec3 ℝ :=
  L.adj.transpose * (⟨(w.x : ℝ) / N ^ 2, (w.y : ℝ) / N ^ 2, (w.z : ℝ) / N ^ 2⟩ : Vec3 ℝ)

variable {L : Mat3 ℝ} {N : ℕ} {d : ℝ}

theorem gridPoint_cross (hN : 0 < N) (u v : Vec3 ℤ) :
    (L * gridPoint N u).cross (L * gridPoint N v) = gridCross L N (u.cross v) := by
  have hn : (N : ℝ) ≠ 0 := by positivity
  ext <;> simp [gridCross, gridPoint, Vec3.cross, Mat3.adj, Mat3.transpose] <;> field_simp <;> ring

theorem gridCross_dot (hN : 0 < N) (w v : Vec3 ℤ) : (gridCross L N w).dot (L * gridPoint N v) = L.det / N ^ 3 * ((w.dot v : ℤ) : ℝ) := by
  have hn : (N : ℝ) ≠ 0 := by positivity
  simp [gridCross, gridPoint, Vec3.dot, Mat3.adj, Mat3.transpose, Mat3.det]
  field_simp
  ring

/-- the tolerance is small compared with the areas of the grid. -/
theorem gridCross_mag (hN : 0 < N) (hd : 0 ≤ d) (harea : (d * N ^ 2) ^ 2 * frob L < L.det ^ 2) {w : Vec3 ℤ} (hw : w ≠ 0) :
    d < (gridCross L N w).mag := by
  have hn : (0 : ℝ) < N := by exact_mod_cast hN
  rw [mag_eq]
  apply Real.lt_sqrt_of_sq_lt
  have h1 := lenSq_mulVec_le L.transpose (gridCross L N w)
  have e : L.transpose * gridCross L N w = Vec3.scale (L.det / N ^ 2) (⟨w.x, w.y, w.z⟩ : Vec3 ℝ) := by
    ext <;> simp [gridCross, Mat3.adj, Mat3.transpose, Mat3.det, Vec3.scale] <;> ring
  rw [e, lenSq_smul, frob_transpose] at h1
  have h2 : (1 : ℝ) ≤ lenSq (⟨w.x, w.y, w.z⟩ : Vec3 ℝ) := by
    have := one_le_normZ hw
    have h3 : (1 : ℝ) ≤ normZ w := by exact_mod_cast this
    rw [normZ_cast] at h3
    exact h3
  have h3 : (L.det / N ^ 2) ^ 2 ≤ frob L * lenSq (gridCross L N w) := by
    refine le_trans ?_ h1
    nlinarith [mul_self_nonneg (L.det / (N : ℝ) ^ 2)]
  have hf : 0 ≤ frob L := by
    unfold frob
    linarith [lenSq_nonneg L.col0, lenSq_nonneg L.col1, lenSq_nonneg L.col2]
  by_contra hle
  have h4 : frob L * lenSq (gridCross L N w) ≤ frob L * d ^ 2 := mul_le_mul_of_nonneg_left (not_lt.1 hle) hf
  have h5 : (L.det / N ^ 2) ^ 2 * (N ^ 2) ^ 2 = L.det ^ 2 := by field_simp
  have h6 : (L.det / N ^ 2) ^ 2 * ((N : ℝ) ^ 2) ^ 2 ≤ frob L * d ^ 2 * (N ^ 2) ^ 2 :=
    mul_le_mul_of_nonneg_right (le_trans h3 h4) (by positivity)
  rw [h5] at h6
  nlinarith

theorem secondScan_grid (hN : 0 < N) (hd : 0 ≤ d) (harea : (d * N ^ 2) ^ 2 * frob L < L.det ^ 2) (first : Vec3 ℤ) (l : List (Vec3 ℤ))
    (n : ℕ) (w : Vec3 ℤ) :
    secondScan d (L * gridPoint N first) (l.map fun v => L * gridPoint N v) n (gridCross L N w) =
      ((secondZ first l n w).1, gridCross L N (secondZ first l n w).2) := by
  induction l generalizing n w with
  | nil => rfl
  | cons v vs ih =>
    have habs : ∀ x : ℝ, (FRound.abs x : ℝ) = |x| := fun _ => rfl
    simp only [List.map_cons, secondScan, secondZ, gridPoint_cross hN]
    by_cases h : first.cross v = 0
    · have h0 : (gridCross L N (first.cross v)).mag = 0 := by
        rw [mag_eq, h, show lenSq (gridCross L N 0) = 0 by simp [lenSq, gridCross], Real.sqrt_zero]
      rw [if_neg (by rw [h0, habs, abs_zero]; exact not_lt.2 hd), if_pos h, ih]
    · rw [if_pos (by rw [habs, abs_of_nonneg (mag_nonneg _)]; exact gridCross_mag hN hd harea h), if_neg h]

theorem thirdScan_grid (hN : 0 < N) (hd : 0 ≤ d) (hvol : d * N ^ 3 < L.det) (w : Vec3 ℤ) (k : ℕ) (l : List (Vec3 ℤ)) (n : ℕ) :
    thirdScan d (gridCross L N w) k (l.map fun v => L * gridPoint N v) n = thirdZ w k l n := by
  have hn : (0 : ℝ) < N := by exact_mod_cast hN
  have hq : d < L.det / N ^ 3 := by rw [lt_div_iff₀ (by positivity)]; exact hvol
  induction l generalizing n with
  | nil => rfl
  | cons v vs ih =>
    simp only [List.map_cons, thirdScan, thirdZ, gridCross_dot hN]
    by_cases h : 0 < w.dot v
    · have h1 : (1 : ℝ) ≤ (w.dot v : ℤ) := by exact_mod_cast h
      rw [if_pos (by nlinarith), if_pos h]
    · have h1 : ((w.dot v : ℤ) : ℝ) ≤ 0 := by exact_mod_cast not_lt.1 h
      rw [if_neg (by nlinarith), if_neg h, ih]

/-- the sort of the integer vectors by the lengths of the vectors of the crystal. -/
noncomputable def gridSort (L : Mat3 ℝ) (N : ℕ) (l : List (Vec3 ℤ)) : List (Vec3 ℤ) :=
  l.mergeSort fun u v => decide ((L * gridPoint N u).mag ≤ (L * gridPoint N v).mag)

theorem sortByMag_grid (l : List (Vec3 ℤ)) :
    sortByMag (l.map fun v => L * gridPoint N v) = (gridSort L N l).map fun v => L * gridPoint N v := by
  unfold sortByMag gridSort
  rw [List.map_mergeSort]
  intro a _ b _
  rfl

/-- the selection on the grid agrees with the selection in integers. -/
theorem getShortest_grid (hN : 0 < N) (hd : 0 ≤ d) (harea : (d * N ^ 2) ^ 2 * frob L < L.det ^ 2) (hvol : d * N ^ 3 < L.det)
    {l : List (Vec3 ℤ)} {x y z : Vec3 ℤ} (h : pickZ (gridSort L N l) = some (x, y, z)) :
    getShortestTranslationVecs d (l.map fun v => L * gridPoint N v) = .ret (L * gridPoint N x, L * gridPoint N y, L * gridPoint N z) := by
  unfold pickZ at h
  unfold getShortestTranslationVecs
  simp only at h ⊢
  rw [sortByMag_grid]
  set m := gridSort L N l with hm
  obtain ⟨first, hf, h⟩ := Option.bind_eq_some_iff.1 h
  rw [List.getElem?_map, hf]
  simp only [Option.map_some, Outcome.ofOption, Outcome.bind]
  have hz : (0 : Vec3 ℝ) = gridCross L N 0 := by ext <;> simp [gridCross]
  rw [← List.map_drop, hz, secondScan_grid hN hd harea]
  split_ifs at h with hlen
  rw [List.length_map, if_neg hlen]
  simp only
  rw [← List.map_drop, thirdScan_grid hN hd hvol]
  obtain ⟨second, hs, h⟩ := Option.bind_eq_some_iff.1 h
  obtain ⟨third, ht, h⟩ := Option.bind_eq_some_iff.1 h
  rw [List.getElem?_map, hs, List.getElem?_map, ht]
  simp only [Option.map_some]
  cases h
  rfl

/-! ## the order after the sort -/

/-- `u` comes before `v` in the list. -/
def Before (l : List (Vec3 ℤ)) (u v : Vec3 ℤ) : Prop := l.idxOf u < l.idxOf v

instance (l : List (Vec3 ℤ)) (u v : Vec3 ℤ) : Decidable (Before l u v) := by unfold Before; infer_instance

theorem gridSort_perm (l : List (Vec3 ℤ)) : (gridSort L N l).Perm l := List.mergeSort_perm _ _

theorem before_of_sublist {l : List (Vec3 ℤ)} (hl : l.Nodup) {u v : Vec3 ℤ} (h : [u, v].Sublist l) : Before l u v := by
  have hp : l.Pairwise fun a b => Before l a b := by
    rw [List.pairwise_iff_getElem]
    intro i j hi hj hij
    unfold Before
    rw [hl.idxOf_getElem i hi, hl.idxOf_getElem j hj]
    exact hij
  have := hp.sublist h
  simpa using this

/-- for vectors in the order of the input: the sort is stable. -/
theorem gridSort_before {l : List (Vec3 ℤ)} (hl : l.Nodup) {u v : Vec3 ℤ} (h : [u, v].Sublist l) :
    Before (gridSort L N l) u v ↔ (L * gridPoint N u).mag ≤ (L * gridPoint N v).mag := by
  have htr : ∀ a b c : Vec3 ℤ, decide ((L * gridPoint N a).mag ≤ (L * gridPoint N b).mag) = true →
      decide ((L * gridPoint N b).mag ≤ (L * gridPoint N c).mag) = true →
      decide ((L * gridPoint N a).mag ≤ (L * gridPoint N c).mag) = true := by
    intro a b c
    simp only [decide_eq_true_eq]
    exact le_trans
  have hto : ∀ a b : Vec3 ℤ, (decide ((L * gridPoint N a).mag ≤ (L * gridPoint N b).mag) ||
      decide ((L * gridPoint N b).mag ≤ (L * gridPoint N a).mag)) = true := by
    intro a b
    simp only [Bool.or_eq_true, decide_eq_true_eq]
    exact le_total _ _
  have hnd : (gridSort L N l).Nodup := (gridSort_perm l).nodup_iff.2 hl
  constructor
  · intro hb
    have hs := List.pairwise_mergeSort htr hto l
    have hu : u ∈ gridSort L N l := (gridSort_perm l).mem_iff.2 (h.subset (by simp))
    have hv : v ∈ gridSort L N l := (gridSort_perm l).mem_iff.2 (h.subset (by simp))
    have := (List.pairwise_iff_getElem.1 hs) _ _ (List.idxOf_lt_length_of_mem hu) (List.idxOf_lt_length_of_mem hv) hb
    rw [decide_eq_true_eq] at this
    have e1 : (gridSort L N l)[(gridSort L N l).idxOf u]'(List.idxOf_lt_length_of_mem hu) = u := List.getElem_idxOf _
    have e2 : (gridSort L N l)[(gridSort L N l).idxOf v]'(List.idxOf_lt_length_of_mem hv) = v := List.getElem_idxOf _
    unfold gridSort at e1 e2
    rw [e1, e2] at this
    exact this
  · intro hle
    exact before_of_sublist hnd (List.pair_sublist_mergeSort htr hto (by rw [decide_eq_true_eq]; exact hle) h)

theorem before_total {l : List (Vec3 ℤ)} {u v : Vec3 ℤ} (hu : u ∈ l) (hne : u ≠ v) : ¬ Before l u v ↔ Before l v u := by
  unfold Before
  have : l.idxOf u ≠ l.idxOf v := fun h => hne (List.idxOf_inj hu |>.1 h)
  omega

end CrystSymm
