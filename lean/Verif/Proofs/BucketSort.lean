import Verif.Props.Primitive

set_option autoImplicit false
set_option linter.unusedSectionVars false

/-! # The selection of the shortest vectors, for integer multiples of one vector length -/

namespace CrystSymm

open Spec Reducer

/-! ### stable sorting by a small integer key -/

section Buckets
variable {α : Type} (key : α → ℕ)

/-- sorting by buckets. -/
def bucketSort (N : ℕ) (l : List α) : List α := (List.range N).flatMap fun k => l.filter fun a => decide (key a = k)

theorem filter_sorted_split {m : List α} (hm : m.Pairwise fun a b => key a ≤ key b) (N : ℕ) :
    m.filter (fun a => decide (key a < N + 1)) = m.filter (fun a => decide (key a < N)) ++ m.filter fun a => decide (key a = N) := by
  induction m with
  | nil => rfl
  | cons a m ih =>
    obtain ⟨h1, h2⟩ := List.pairwise_cons.1 hm
    have ih := ih h2
    rcases lt_trichotomy (key a) N with h | h | h
    · simp only [List.filter_cons, decide_eq_true_eq]
      rw [if_pos (by omega), if_pos h, if_neg (by omega), ih, List.cons_append]
    · have h3 : m.filter (fun a => decide (key a < N)) = [] := by
        rw [List.filter_eq_nil_iff]
        intro b hb
        have := h1 b hb
        simp only [decide_eq_true_eq]
        omega
      rw [h3, List.nil_append] at ih
      simp only [List.filter_cons, decide_eq_true_eq]
      rw [if_pos (by omega), if_neg (by omega), if_pos h, ih, h3, List.nil_append]
    · simp only [List.filter_cons, decide_eq_true_eq]
      rw [if_neg (by omega), if_neg (by omega), if_neg (by omega), ih]

theorem sorted_eq_buckets {m : List α} (hm : m.Pairwise fun a b => key a ≤ key b) (N : ℕ) :
    m.filter (fun a => decide (key a < N)) = bucketSort key N m := by
  unfold bucketSort
  induction N with
  | zero => simp
  | succ N ih => rw [filter_sorted_split key hm, ih, List.range_succ, List.flatMap_append]; simp

theorem mergeSort_eq_buckets {N : ℕ} {l : List α} (hN : ∀ a ∈ l, key a < N) :
    l.mergeSort (fun a b => decide (key a ≤ key b)) = bucketSort key N l := by
  have htr : ∀ a b c : α, decide (key a ≤ key b) = true → decide (key b ≤ key c) = true → decide (key a ≤ key c) = true := by
    intro a b c h1 h2
    simp only [decide_eq_true_eq] at *
    omega
  have hto : ∀ a b : α, (decide (key a ≤ key b) || decide (key b ≤ key a)) = true := by
    intro a b
    simp only [Bool.or_eq_true, decide_eq_true_eq]
    omega
  set m := l.mergeSort (fun a b => decide (key a ≤ key b)) with hm
  have hp : m.Perm l := List.mergeSort_perm _ _
  have hs : m.Pairwise fun a b => key a ≤ key b :=
    (List.pairwise_mergeSort htr hto l).imp fun h => of_decide_eq_true h
  have h1 : m.filter (fun a => decide (key a < N)) = m := by
    rw [List.filter_eq_self]
    intro a ha
    exact decide_eq_true (hN a (hp.mem_iff.1 ha))
  rw [← h1, sorted_eq_buckets key hs]
  unfold bucketSort
  congr 1
  funext k
  have h2 : (l.filter fun a => decide (key a = k)).Sublist m := by
    apply List.sublist_mergeSort htr hto
    · rw [List.pairwise_iff_forall_sublist]
      intro a b hab
      have ha := (List.mem_filter.1 (hab.subset (by simp : a ∈ [a, b]))).2
      have hb := (List.mem_filter.1 (hab.subset (by simp : b ∈ [a, b]))).2
      simp only [decide_eq_true_eq] at *
      omega
    · exact List.filter_sublist
  have h3 : (l.filter fun a => decide (key a = k)).Sublist (m.filter fun a => decide (key a = k)) := by
    have := h2.filter (fun a => decide (key a = k))
    rwa [List.filter_filter, show (fun a => decide (key a = k) && decide (key a = k)) = fun a => decide (key a = k) by
      funext a; simp] at this
  exact (h3.eq_of_length (hp.filter _).length_eq.symm).symm

end Buckets

/-! ### the selection -/

/-- the vector `c * v`. -/
noncomputable def cubicVec (c : ℝ) (v : Vec3 ℤ) : Vec3 ℝ := ⟨c * v.x, c * v.y, c * v.z⟩

/-- squared length. -/
def normZ (v : Vec3 ℤ) : ℕ := (v.x * v.x + v.y * v.y + v.z * v.z).natAbs

/-- the scan for the second vector. -/
def secondZ (first : Vec3 ℤ) : List (Vec3 ℤ) → ℕ → Vec3 ℤ → ℕ × Vec3 ℤ
  | [], _, w => (1, w)
  | v :: vs, n, _ => if first.cross v = 0 then secondZ first vs (n + 1) (first.cross v) else (n + 1, first.cross v)

/-- the scan for the third vector. -/
def thirdZ (w : Vec3 ℤ) (k : ℕ) : List (Vec3 ℤ) → ℕ → ℕ
  | [], _ => 2
  | v :: vs, n => if 0 < w.dot v then n + k + 1 else thirdZ w k vs (n + 1)

/-- the selection in exact integer arithmetic. -/
def shortestZ (N : ℕ) (l : List (Vec3 ℤ)) : Option (Vec3 ℤ × Vec3 ℤ × Vec3 ℤ) :=
  let sorted := bucketSort normZ N l
  sorted[0]?.bind fun first =>
  let sec := secondZ first (sorted.drop 1) 0 0
  if sorted.length < sec.1 + 1 then none
  else
    sorted[sec.1]?.bind fun second =>
    sorted[thirdZ sec.2 sec.1 (sorted.drop (sec.1 + 1)) 0]?.bind fun third => some (first, second, third)

theorem normZ_cast (v : Vec3 ℤ) : (normZ v : ℝ) = (v.x : ℝ) * v.x + v.y * v.y + v.z * v.z := by
  unfold normZ
  rw [Nat.cast_natAbs, abs_of_nonneg (add_nonneg (add_nonneg (mul_self_nonneg _) (mul_self_nonneg _)) (mul_self_nonneg _))]
  push_cast
  ring

theorem lenSq_cubicVec (c : ℝ) (v : Vec3 ℤ) : lenSq (cubicVec c v) = c ^ 2 * normZ v := by
  rw [normZ_cast]
  simp only [lenSq, cubicVec]
  ring

theorem cubicVec_mag_le {c : ℝ} (hc : 0 < c) (u v : Vec3 ℤ) : (cubicVec c u).mag ≤ (cubicVec c v).mag ↔ normZ u ≤ normZ v := by
  rw [mag_le_mag_iff, lenSq_cubicVec, lenSq_cubicVec, mul_le_mul_iff_right₀ (by positivity), Nat.cast_le]

theorem sortByMag_cubic {c : ℝ} (hc : 0 < c) {N : ℕ} {l : List (Vec3 ℤ)} (hN : ∀ v ∈ l, normZ v < N) :
    sortByMag (l.map (cubicVec c)) = (bucketSort normZ N l).map (cubicVec c) := by
  unfold sortByMag
  rw [← mergeSort_eq_buckets normZ hN, List.map_mergeSort]
  intro a _ b _
  rw [decide_eq_decide, cubicVec_mag_le hc]

theorem cubicVec_cross (c : ℝ) (u v : Vec3 ℤ) : (cubicVec c u).cross (cubicVec c v) = cubicVec (c * c) (u.cross v) := by
  simp only [cubicVec, Vec3.cross]
  ext <;> push_cast <;> ring

theorem one_le_normZ {v : Vec3 ℤ} (h : v ≠ 0) : 1 ≤ normZ v := by
  by_contra hlt
  have h0 : v.x * v.x + v.y * v.y + v.z * v.z = 0 := by
    have : normZ v = 0 := by omega
    exact Int.natAbs_eq_zero.1 this
  apply h
  ext
  · show v.x = 0; nlinarith [mul_self_nonneg v.x, mul_self_nonneg v.y, mul_self_nonneg v.z]
  · show v.y = 0; nlinarith [mul_self_nonneg v.x, mul_self_nonneg v.y, mul_self_nonneg v.z]
  · show v.z = 0; nlinarith [mul_self_nonneg v.x, mul_self_nonneg v.y, mul_self_nonneg v.z]

theorem secondScan_cubic {c d : ℝ} (hd : 0 ≤ d) (h2 : d < c ^ 2) (first : Vec3 ℤ) (l : List (Vec3 ℤ)) (n : ℕ) (w : Vec3 ℤ) :
    secondScan d (cubicVec c first) (l.map (cubicVec c)) n (cubicVec (c * c) w) =
      ((secondZ first l n w).1, cubicVec (c * c) (secondZ first l n w).2) := by
  induction l generalizing n w with
  | nil => rfl
  | cons v vs ih =>
    have habs : ∀ x : ℝ, (FRound.abs x : ℝ) = |x| := fun _ => rfl
    simp only [List.map_cons, secondScan, secondZ, cubicVec_cross]
    by_cases h : first.cross v = 0
    · have h0 : (cubicVec (c * c) (first.cross v)).mag = 0 := by
        rw [mag_eq, h, show lenSq (cubicVec (c * c) 0) = 0 by simp [lenSq, cubicVec], Real.sqrt_zero]
      rw [if_neg (by rw [h0, habs, abs_zero]; exact not_lt.2 hd), if_pos h, ih]
    · have h0 : d < (cubicVec (c * c) (first.cross v)).mag := by
        rw [mag_eq, lenSq_cubicVec]
        apply Real.lt_sqrt_of_sq_lt
        have := one_le_normZ h
        have h1 : (1 : ℝ) ≤ normZ (first.cross v) := by exact_mod_cast this
        have h3 : d ^ 2 < (c * c) ^ 2 := by
          apply pow_lt_pow_left₀ _ hd (by norm_num)
          linarith [sq c]
        nlinarith [sq_nonneg (c * c)]
      rw [if_pos (by rw [habs, abs_of_nonneg (mag_nonneg _)]; exact h0), if_neg h]

theorem thirdScan_cubic {c d : ℝ} (hc : 0 < c) (hd : 0 ≤ d) (h3 : d < c ^ 3) (w : Vec3 ℤ) (k : ℕ) (l : List (Vec3 ℤ)) (n : ℕ) :
    thirdScan d (cubicVec (c * c) w) k (l.map (cubicVec c)) n = thirdZ w k l n := by
  induction l generalizing n with
  | nil => rfl
  | cons v vs ih =>
    simp only [List.map_cons, thirdScan, thirdZ]
    have e : (cubicVec (c * c) w).dot (cubicVec c v) = c ^ 3 * (w.dot v : ℤ) := by
      simp only [cubicVec, Vec3.dot]; push_cast; ring
    have hc3 : 0 < c ^ 3 := by positivity
    by_cases h : 0 < w.dot v
    · have h1 : (1 : ℝ) ≤ (w.dot v : ℤ) := by exact_mod_cast h
      rw [if_pos (by rw [e]; nlinarith), if_pos h]
    · have h1 : ((w.dot v : ℤ) : ℝ) ≤ 0 := by exact_mod_cast not_lt.1 h
      rw [if_neg (by rw [e]; nlinarith), if_neg h, ih]

/-- the selection on multiples of a length well above the tolerance agrees with the selection in integer arithmetic. -/
theorem getShortest_cubic {c d : ℝ} (hc : 0 < c) (hd : 0 ≤ d) (h2 : d < c ^ 2) (h3 : d < c ^ 3) {N : ℕ} {l : List (Vec3 ℤ)}
    (hN : ∀ v ∈ l, normZ v < N) {x y z : Vec3 ℤ} (h : shortestZ N l = some (x, y, z)) :
    getShortestTranslationVecs d (l.map (cubicVec c)) = .ret (cubicVec c x, cubicVec c y, cubicVec c z) := by
  unfold shortestZ at h
  unfold getShortestTranslationVecs
  simp only at h ⊢
  rw [sortByMag_cubic hc hN]
  set m := bucketSort normZ N l with hm
  obtain ⟨first, hf, h⟩ := Option.bind_eq_some_iff.1 h
  rw [List.getElem?_map, hf]
  simp only [Option.map_some, Outcome.ofOption, Outcome.bind]
  have hz : (0 : Vec3 ℝ) = cubicVec (c * c) 0 := by ext <;> simp [cubicVec]
  rw [← List.map_drop, hz, secondScan_cubic hd h2]
  split_ifs at h with hlen
  rw [List.length_map, if_neg hlen]
  simp only
  rw [← List.map_drop, thirdScan_cubic hc hd h3]
  obtain ⟨second, hs, h⟩ := Option.bind_eq_some_iff.1 h
  obtain ⟨third, ht, h⟩ := Option.bind_eq_some_iff.1 h
  rw [List.getElem?_map, hs, List.getElem?_map, ht]
  simp only [Option.map_some]
  cases h
  rfl

end CrystSymm
